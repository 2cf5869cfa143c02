import Verif.Text
import Verif.OwnedSubslice
import Verif.Regex
import Verif.Json
import Verif.Engine
import Verif.Serialize
import Verif.Builder
import Verif.Decode
import Verif.Args
import Verif.Spec.Header
import Verif.Spec.Json
import Verif.Spec.Serde
import Verif.Lemmas.Regex
import Verif.Lemmas.Json
import Verif.Lemmas.JsonParse
import Verif.Lemmas.Strings
import Verif.Lemmas.Serialize
import Verif.Spec.Packet
import Verif.Spec.Engine
import Verif.Lemmas.Decode
import Verif.Lemmas.ParseText
import Verif.Lemmas.Header
import Verif.Lemmas.Balance
import Verif.Lemmas.DecodeOut
import Verif.Lemmas.Decoded
import Verif.Props.Engine
import Verif.Props.Decode
import Verif.Props.OwnedSubslice
import Verif.Lemmas.Frame
import Verif.Spec.Builder
import Verif.Lemmas.Builder
import Verif.Props.Builder
import Verif.Props.Mixed
import Verif.Spec.Value
import Verif.Lemmas.Value
import Verif.Lemmas.Fill
import Verif.Lemmas.Numbered
import Verif.Props.Args
import Verif.Props.RawKey
import Verif.Deserialize
import Verif.Callbacks
import Verif.Receiver
import Verif.Client
import Verif.Spec.Callbacks
import Verif.Lemmas.Callbacks
import Verif.Props.Callbacks
import Verif.Spec.Receiver
import Verif.Lemmas.Receiver
import Verif.Props.Receiver
import Verif.Spec.Client
import Verif.Lemmas.Client
import Verif.Lemmas.ClientInv
import Verif.Lemmas.ClientAck
import Verif.Lemmas.ClientData
import Verif.Lemmas.ClientConn
import Verif.Lemmas.ClientTag
import Verif.Props.ClientAck
import Verif.Props.ClientSend
import Verif.Props.ClientClose
import Verif.Props.ClientReply
import Verif.Lock
import Verif.Props.Lock
import Verif.Url
import Verif.Props.Url
import Verif.Props.FailedAck
import Verif.Spec.Deserialize
import Verif.Lemmas.Deserialize
import Verif.Props.Deserialize
import Verif.Spec.Display
import Verif.Lemmas.Display
import Verif.Props.Display
import Verif.Props.Loopback
import Verif.Lemmas.ClientSched
import Verif.Props.ClientPanic
import Verif.Props.ClientLive
import Verif.Props.ClientEmit
import Verif.Props.ClientExact
import Verif.Props.LockAtomic
import Verif.Props.EngineWire
import Verif.Props.WireText
import Verif.Props.Typed
import Verif.Props.Connect
import Verif.Props.Stream
import Verif.Props.Delivery
import Verif.Props.Return
import Verif.Props.Pair
import Verif.Props.Bounded
import Verif.Props.ClientReady
import Verif.RepoTests
import Verif.Props.Borrow
import Verif.Props.Yields
import Verif.Props.CallLock
import Verif.Props.CallPanic
import Verif.Props.CallBody
import Verif.Props.CallServe
import Verif.Props.Rejected
import Verif.Props.Timed
import Verif.Props.Executor
import Verif.Props.ExampleWs
import Verif.Props.ExampleFree
import Verif.Props.ErrorText
import Verif.Spec.DebugText
import Verif.Props.DebugText
import Verif.Props.LogEngine
import Verif.Props.LogOrder
import Verif.Props.Drain
import Verif.Props.AppNext
import Verif.Props.ConnectCall
import Verif.Props.ConnectText
