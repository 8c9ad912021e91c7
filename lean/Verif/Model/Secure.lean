import Verif.Model.Uplink
import Verif.Model.Trust
import Verif.Spec.Trust
/-!
# Model of a call of `connect` with the servers it may meet

Source: /repo/src/net/arrow/mod.rs (671-722), /repo/src/net/tls.rs (320-374), /repo/src/config.rs (1031-1063).

The handshake itself is OpenSSL: with whom it can succeed is a specification (`Shakes`), as in `Spec/Trust.lean`.
-/
namespace Verif.Secure
open Verif Verif.Client Verif.Uplink

/-- A server the client can meet at an address (tls.rs:345-373): what it speaks and who signed its certificate, and the names
its certificate is made out for. -/
structure Peer where
  server : Spec.Trust.Server
  names : List Bytes

/-- How the connection is configured (tls.rs:354-366): whether the name of the server is verified, and which name. -/
structure Request where
  verifyName : Bool
  name : Bytes

/-- The configuration of the connection to an address (tls.rs:322-327, 354-366). -/
def request (addr : Bytes) : Request := ⟨true, Tls.hostname addr⟩

/-- With whom OpenSSL can complete a handshake (tls.rs:354-373). -/
def Shakes (b : Trust.Builder) (r : Request) (p : Peer) : Prop :=
  Spec.Trust.Accepts b p.server ∧ (r.verifyName = true → r.name ∈ p.names)

/-- A call of `connect` (net/arrow/mod.rs:671-722): what comes from outside, what the TLS context is made from
(config.rs:1031-1063), and who answers at the addresses the name is resolved to. -/
structure Trial where
  call : Call
  new : Option Trust.Builder
  ciphersOk : Bool
  store : Trust.Store
  peers : Nat → Peer

/-- The call is one to this address (net/arrow/mod.rs:681-699): the TLS context is the one of the configuration, and a
handshake succeeds only as OpenSSL says. -/
structure Trial.At (k : Trial) (addr : Bytes) : Prop where
  context : k.call.tls = (Trust.getTlsConnector k.new k.ciphersOk k.store).isSome
  handshake : ∀ b, Trust.getTlsConnector k.new k.ciphersOk k.store = some b →
    ∀ i, (k.call.net.handshake i).ok = true → Shakes b (request addr) (k.peers i)

/-- What the client sends in the call, and to whom (net/arrow/mod.rs:701-721): nothing without a connection. -/
def Trial.sent (cfg : Cfg) (k : Trial) : List (Peer × Wire.Message) :=
  if k.call.tls then
    match Tls.connect k.call.net with
    | (.connected i, _) => (k.call.hist cfg).2.filterMap fun | .sent m => some (k.peers i, m) | _ => none
    | _ => []
  else []

end Verif.Secure
