import Verif.Url
import Verif.Client
/-
Model of `Client::connect` and `Client::from_stream` from their first poll on, socket-io-client/src/lib.rs:103-167: the
url, the function of the application that makes the stream, then `Connection::new` (Client.lean).

`Url::parse` is a parameter.  Errors of the url crate and of the function of the application are numbers.
-/
namespace SIO

/-- lib.rs:55-63 -/
inductive UrlFault where
  | parse (e : Nat)
  | bad (e : UrlErr)

/-- lib.rs:37-53, as far as `connect` returns them. -/
inductive ConnectErr where
  | url (text : Str) (e : UrlFault)
  | connection (e : Nat)
  /-- an error of `Connection::new` -/
  | inner (e : CErr)

/-- lib.rs:104 and 128 -/
inductive Entry where
  | connect
  | fromStream
deriving DecidableEq

inductive CState where
  /-- nothing happens before the first poll -/
  | unpolled
  /-- lib.rs:122: the future of the application -/
  | dialing (plan : Plan)
  /-- `Connection::new` and everything after it -/
  | inside (s : Sys)
  /-- it has returned before, or was dropped -/
  | over

inductive CAct where
  /-- the first poll -/
  | poll
  /-- the future of the application is ready with a stream or an error, or panics -/
  | dialed (r : Res Nat Unit)
  /-- the future is dropped -/
  | drop
  | inner (a : Act)

inductive CEv where
  /-- the function of the application is called -/
  | dial (host : Str) (port : Nat)
  /-- connection.rs:48: the handshake begins, encrypted or not, with this url -/
  | handshake (secure : Option Bool) (url : Url)
  | returned (r : Res ConnectErr Str)
  | seen (e : Ev)

/-- lib.rs:150-158: an error of `Connection::new` is returned as it is. -/
def Ev.outer : Ev → CEv
  | .connectReturned (.ok sid) => .returned (.ok sid)
  | .connectReturned (.err e) => .returned (.err (.inner e))
  | .connectReturned .panic => .returned .panic
  | e => .seen e

/-- One action; `none` if it is not possible. -/
def cstep (cfg : RCfg) (parse : Str → Except Nat Url) (entry : Entry) (text : Str) (st : CState) :
    CAct → Option (CState × List CEv)
  -- lib.rs:115-121 or 136-139
  | .poll =>
    match st with
    | .unpolled =>
      match parse text with
      | .error e => some (.over, [.returned (.err (.url text (.parse e)))])
      | .ok u =>
        match connectPlan u none with
        | .err e => some (.over, [.returned (.err (.url text (.bad e)))])
        | .panic => some (.over, [.returned .panic])
        | .ok p =>
          match entry with
          | .connect => some (.dialing p, [.dial p.host p.port])
          | .fromStream => some (.inside Sys.init, [.handshake p.secure p.url])
    | _ => none
  -- lib.rs:122-125 and 142-159
  | .dialed r =>
    match st with
    | .dialing p =>
      match r with
      | .ok () => some (.inside Sys.init, [.handshake p.secure p.url])
      | .err e => some (.over, [.returned (.err (.connection e))])
      | .panic => some (.over, [.returned .panic])
    | _ => none
  | .drop =>
    match st with
    | .unpolled => some (.over, [])
    | .dialing _ => some (.over, [])
    | _ => none
  | .inner a =>
    match st with
    | .inside s =>
      match step cfg s a with
      | none => none
      | some (s', evs) => some (.inside s', evs.map Ev.outer)
    | _ => none

/-- A schedule. -/
def cexec (cfg : RCfg) (parse : Str → Except Nat Url) (entry : Entry) (text : Str) (st : CState) :
    List CAct → Option (CState × List CEv)
  | [] => some (st, [])
  | a :: as =>
    match cstep cfg parse entry text st a with
    | none => none
    | some (st', evs) =>
      match cexec cfg parse entry text st' as with
      | none => none
      | some (st'', evs') => some (st'', evs ++ evs')

end SIO
