import Verif.Connect
import Verif.ErrorText
/-
The texts of the errors that `connect` and `from_stream` return: socket-io-client/src/lib.rs:37-63.
-/
namespace SIO

/-- What the url crate and the errors of the application print, which is left open. -/
structure CPrints extends Prints where
  urlParse : Nat → Str
  connection : Nat → Str

/-- lib.rs:39-40 and 55-63; an error of the parser is `transparent`. -/
def UrlFault.text (p : CPrints) (uri : Str) : UrlFault → Str
  | .parse e => "Failed to parse URI ".toList ++ uri ++ ": ".toList ++ p.urlParse e
  | .bad e => e.text p.toPrints uri

/-- lib.rs:37-53 -/
def ConnectErr.text (p : CPrints) : ConnectErr → Str
  | .url uri e => e.text p uri
  | .connection e => "Connection error: ".toList ++ p.connection e
  | .inner e => e.text p.toPrints

end SIO
