import Verif.Spec.Bytes
import Verif.Model.Client
/-!
# Vocabulary for the properties of a connection to the Arrow Service

Automata over the observable events of a connection (`NEv`): messages of the server as they are handled,
messages created, messages handed to the transport, commands, effects of sessions. Nothing here looks at
the state of the client.
-/
namespace Verif.Spec.Client
open Verif Verif.Control Verif.Client

/-- The REGISTER message of a client with this configuration, showing the services visible at the start. -/
def register (cfg : Cfg) (env : Env) : ControlMessage :=
  ⟨0, 0x2, .register cfg.uuid cfg.key cfg.mac 65535 (if cfg.gateway then 1 else 0) cfg.info
    (SimpleTable.ofServices env.visible)⟩

/-- `m` is an ACK: control service, 8 bytes, type 0; its id. -/
def ackId (m : Wire.Message) : Option Nat :=
  if m.header.service = 0 ∧ m.payload.length = 8 ∧ field m.payload 2 2 = 0 then
    some (field m.payload 0 2)
  else none

/-- What the first message of the server must lead to: it has to be the ACK of REGISTER (id 0), and then
its code decides. -/
def handshakeOutcome (m : Wire.Message) : Out :=
  if ackId m = some 0 then
    let code := field m.payload 4 4
    if code = 0 then .ok
    else if code = 1 then .err .unsupportedVersion
    else if code = 2 then .err .unauthorized
    else if code = 0xffffffff then .err .serverError
    else .err .other
  else .err .other

/-! ## Handshake -/

/-- States of the handshake; `bad` marks a violation. -/
inductive Hs where
  | start
  | registered
  | sent
  | established
  | failed
  | bad
deriving DecidableEq

/-- The order of events the handshake demands: REGISTER is created and sent; before the first message of
the server nothing else happens, that message is judged by `handshakeOutcome`, and after a negative one
nothing happens at all. -/
def hsNext (reg : ControlMessage) : Hs → NEv → Hs
  | .start, .ev (.queued _ m) => if m = reg then .registered else .bad
  | .registered, .sent m => if m = reg.toArrow then .sent else .bad
  | .registered, .ev (.got m o) | .sent, .ev (.got m o) =>
    if o = handshakeOutcome m then (if o = .ok then .established else .failed) else .bad
  | .established, _ => .established
  | _, _ => .bad

def hsRun (reg : ControlMessage) (es : List NEv) : Hs := es.foldl (hsNext reg) .start

/-! ## Acknowledgements -/

/-- Messages the server has to acknowledge: PING and REGISTER. -/
def needsAck (m : ControlMessage) : Bool := m.msgType = 1 || m.msgType = 2

/-- Outstanding acknowledgements (time of the request and id, oldest first; `hs` as long as none was
received), the connection failed, or the rules were violated. -/
inductive AckSt where
  | waiting (hs : Bool) (l : List (Nat × Nat))
  | failed
  | bad
deriving DecidableEq

/-- Every ACK must match the oldest outstanding request, which it removes; any other ACK must be refused
with an error. A matching ACK is refused only as the answer to REGISTER. After a refused message nothing
happens. -/
def ackNext : AckSt → NEv → AckSt
  | .waiting hs l, .ev (.queued t m) =>
    if needsAck m then .waiting hs (l ++ [(t, m.msgId.toNat)]) else .waiting hs l
  | .waiting hs l, .ev (.got m o) =>
    match ackId m with
    | none => if o = .ok then .waiting hs l else .failed
    | some id =>
      match l with
      | [] => if o = .err .other then .failed else .bad
      | p :: l' =>
        if id = p.2 then
          if o = .ok then .waiting false l' else if hs then .failed else .bad
        else if o = .err .other then .failed else .bad
  | .waiting hs l, _ => .waiting hs l
  | .failed, _ => .bad
  | .bad, _ => .bad

def ackRun (es : List NEv) : AckSt := es.foldl ackNext (.waiting true [])

/-- Ids of the messages created so far that the server has to acknowledge. -/
def requests (es : List NEv) : List Nat :=
  es.filterMap (fun e => match e with
    | .ev (.queued _ m) => if needsAck m then some m.msgId.toNat else none
    | _ => none)

/-- Ids of the ACKs accepted so far. -/
def acked (es : List NEv) : List Nat :=
  es.filterMap (fun e => match e with
    | .ev (.got m .ok) => ackId m
    | _ => none)

/-! ## Order of the messages sent -/

/-- Messages created by the client protocol and not yet sent, oldest first. They have to be sent in this
order; a message of a session may be sent only if there are none. `none` is a violation. -/
def fifoNext : Option (List Wire.Message) → NEv → Option (List Wire.Message)
  | some l, .ev (.queued _ m) => some (l ++ [m.toArrow])
  | some (x :: l), .sent m => if m = x then some l else none
  | s, _ => s

def fifoRun (es : List NEv) : Option (List Wire.Message) := es.foldl fifoNext (some [])

/-! ## Redirect -/

/-- The target of a REDIRECT message: control service, type 3, a NUL-terminated string. -/
def redirectTarget (m : Wire.Message) : Option Bytes :=
  if m.header.service = 0 ∧ 5 ≤ m.payload.length ∧ field m.payload 2 2 = 3 ∧ m.payload.getLast? = some 0 then
    some ((m.payload.drop 4).dropLast)
  else none

/-- How a handled message ends the connection: a REDIRECT does, and so does, in diagnostic mode, the
positive answer to REGISTER (the result is then an empty target). -/
def endOf (diagnostic : Bool) : NEv → Option Bytes
  | .ev (.got m .ok) =>
    match redirectTarget m with
    | some t => some t
    | none => if diagnostic && ackId m = some 0 then some [] else none
  | _ => none

/-! ## Times -/

/-- The clock readings of an operation, in order. -/
def Incoming.times : Incoming → List Nat
  | .msg env _ => [env.now]
  | _ => []

def times : List COp → List Nat
  | [] => []
  | .poll f ins :: ops => Incoming.times f ++ ins.flatMap Incoming.times ++ times ops
  | .tick env :: ops => env.now :: times ops
  | _ :: ops => times ops

/-- The states of the environment an operation reads. -/
def Incoming.envs : Incoming → List Env
  | .msg env _ => [env]
  | _ => []

def envs : List COp → List Env
  | [] => []
  | .poll f ins :: ops => Incoming.envs f ++ ins.flatMap Incoming.envs ++ envs ops
  | .tick env :: ops => env :: envs ops
  | _ :: ops => envs ops

/-- The clock does not run backwards. -/
def Monotone (t0 : Nat) (ops : List COp) : Prop := (t0 :: times ops).Pairwise (· ≤ ·)

/-- Time of the last PING, or `t0` if there was none. -/
def lastPing (t0 : Nat) (es : List NEv) : Nat :=
  es.foldl (fun t e => match e with
    | .ev (.queued at_ m) => if m.msgType = 1 then at_ else t
    | _ => t) t0

/-- Time of the last look at the version of the service table, or `t0`. -/
def lastCheck (t0 : Nat) (es : List NEv) : Nat :=
  es.foldl (fun t e => match e with | .ev (.checked at_ _) => at_ | _ => t) t0

/-- The version of the service table seen at the last look, or `v0` if there was none. -/
def lastSeen (v0 : UInt32) (es : List NEv) : UInt32 :=
  es.foldl (fun v e => match e with | .ev (.checked _ x) => x | _ => v) v0

/-- The service table a created message tells the server about (REGISTER or UPDATE). -/
def tableOf : NEv → Option SimpleTable
  | .ev (.queued _ m) =>
    match m.body with
    | .register _ _ _ _ _ _ t => some t
    | .update t => some t
    | _ => none
  | _ => none

/-- The services the server was last told about. -/
def announced (es : List NEv) : Option SimpleTable := (es.filterMap tableOf).getLast?

/-- Effects of the session manager in a history. -/
def mgrEvents (es : List NEv) : List Session.Ev :=
  es.filterMap (fun e => match e with | .ev (.mgr x) => some x | _ => none)

end Verif.Spec.Client
