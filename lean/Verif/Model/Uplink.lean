import Verif.Model.Reconnect
import Verif.Model.Tls
import Verif.Model.Wire
/-!
# Model of one call of `connect`, from the name lookup to its result

Source: /repo/src/net/arrow/mod.rs (671-722), /repo/src/net/arrow/error.rs (113-156), /repo/src/client.rs (92-109).

Puts together what the other modules model: making the TLS connection (`Model/Tls.lean`), cutting the bytes of the server into
messages (`Model/Wire.lean`), the protocol (`Model/Client.lean`) and the task that calls `connect` again and again
(`Model/Reconnect.lean`).
-/
namespace Verif.Uplink
open Verif Verif.Client Verif.Reconnect

/-- The types of which there is a conversion into `ArrowError` (net/arrow/error.rs:113-156). -/
inductive Cause where
  | string
  | str
  | io
  | decode
  | connection
  | runtime
  | tls
deriving DecidableEq

/-- The kind of a converted error (net/arrow/error.rs:113-156): `From<&str>` goes by way of `From<String>`; the text is left
out. -/
def Cause.kind : Cause → ErrKind
  | .string => .other
  | .str => .other
  | .io => .other
  | .decode => .other
  | .connection => .other
  | .runtime => .other
  | .tls => .other

/-- What comes from outside during one call of `connect` (net/arrow/mod.rs:671-722): whether the TLS context can be made
(681-683), the network while the connection is made (685-699), what is read when it is up (705-706), everything that happens
afterwards, and the bytes the server sends, in the portions in which they are read. -/
structure Call where
  tls : Bool
  net : Tls.Net
  env : Env
  ops : List COp
  chunks : List Bytes

/-- The history of the connection, from the moment it is up (net/arrow/mod.rs:701-721). -/
def Call.hist (cfg : Cfg) (k : Call) : Conn × List NEv :=
  let r := (Conn.start cfg k.env).1.run k.ops
  (r.1, (Conn.start cfg k.env).2 ++ r.2)

/-- The messages handled in a history (net/arrow/mod.rs:278-287). -/
def received (es : List NEv) : List Wire.Message :=
  es.filterMap fun | .ev (.got m _) => some m | _ => none

/-- The errors the transport can report: `Framed` over `ArrowCodec` fails with an `ArrowError` that was converted from
`io::Error` or from `DecodeError` (codec.rs:50-77, error.rs:128-138). -/
def transport (e : ErrKind) : Prop := e = Cause.kind .io ∨ e = Cause.kind .decode

/-- The answers of the incoming stream in an operation (net/arrow/mod.rs:640-667). -/
def answers : COp → List Incoming
  | .poll first ins => first :: ins
  | _ => []

/-- The operations fit the transport (net/arrow/mod.rs:701-713): the messages handled are the first ones in the bytes of the
server, and the errors are those of the transport. -/
structure Call.Fits (cfg : Cfg) (k : Call) : Prop where
  messages : received (k.hist cfg).2 <+: (Wire.feedAll Wire.Reader.init k.chunks).1
  incoming : ∀ op ∈ k.ops, ∀ e, .error e ∈ answers op → transport e
  sink : ∀ e, .sinkError e ∈ k.ops → transport e

/-- A millisecond, in the unit of `Model/Reconnect.lean` (client.rs:38). -/
def ms : Nat := sec / 1000

/-- `connect` returns `r` after the time `d` (net/arrow/mod.rs:681-721): an error if there is no TLS context, a connection error
if no connection can be made, and otherwise what the protocol ends with. A panic ends the process and is no result. -/
def Call.Returns (cfg : Cfg) (k : Call) (r : ConnRes) (d : Nat) : Prop :=
  if k.tls then
    match Tls.connect k.net with
    | (.connected _, t) => t * ms ≤ d ∧
      match (k.hist cfg).1 with
      | .over (.redirect a) => r = .redirect a
      | .over (.error e) => r = .error e
      | _ => False
    | (_, t) => d = t * ms ∧ r = .error .connection
  else r = .error .other

/-- Every round of the task is a call of `connect` (client.rs:85-109). -/
def Calls (cfg : Cfg) (calls : Nat → Call) (rounds : List Round) : Prop :=
  ∀ i r, rounds[i]? = some r → (calls i).Fits cfg ∧ (calls i).Returns cfg r.result r.duration

end Verif.Uplink
