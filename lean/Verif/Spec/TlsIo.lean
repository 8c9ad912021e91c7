import Verif.Model.TlsIo
/-!
# Specification of the asynchronous TLS streams

A poll must do what the engine does on a stream that answers directly, with "would block" in place of "pending".
-/
namespace Verif.Spec.TlsIo
open Verif Verif.TlsIo

/-- The engine sees an answer of the stream below. -/
inductive Sees : Answer → Told → Prop where
  | pending : Sees .pending (.err .wouldBlock)
  | ready {v} : Sees (.ready v) (.ok v)
  | failed {k} : Sees (.failed k) (.err k)

/-- A call of the engine with the requests it makes and the answers it gets, and what it returns. -/
inductive Talk {α : Type} : Prog α → List (Req × Answer) → α → Prop where
  | ret {a} : Talk (.ret a) [] a
  | io {q k a x l y} : Sees a x → Talk (k x) l y → Talk (.io q k) ((q, a) :: l) y

/-- What the poll of a connection does: the talk with the stream below, the connection afterwards, and the result. -/
inductive Does {E : Type} (eng : Engine E) : Conn E → Op → List (Req × Answer) → Conn E → Out → Prop where
  | start {e l h} : Talk (eng.connect e) l h → Does eng (.fresh e) .start l (.connecting (some h)) .started
  /-- the handshake was completed at once -/
  | connected {e} : Does eng (.connecting (some (.ok e))) .connect [] (.stream e) .connected
  | setup : Does eng (.connecting (some .setupFailure)) .connect [] .failed .refused
  | failure : Does eng (.connecting (some .failure)) .connect [] .failed .refused
  /-- the handshake goes on -/
  | handshakeOk {e l e'} : Talk (eng.handshake e) l (.ok e') →
      Does eng (.connecting (some (.wouldBlock e))) .connect l (.stream e') .connected
  | handshakeSetup {e l} : Talk (eng.handshake e) l .setupFailure →
      Does eng (.connecting (some (.wouldBlock e))) .connect l .failed .refused
  | handshakeFailure {e l} : Talk (eng.handshake e) l .failure →
      Does eng (.connecting (some (.wouldBlock e))) .connect l .failed .refused
  | handshakePending {e l e'} : Talk (eng.handshake e) l (.wouldBlock e') →
      Does eng (.connecting (some (.wouldBlock e))) .connect l (.connecting (some (.wouldBlock e'))) .pending
  | readOk {e len l e' bs} : Talk (eng.read e len) l (e', .ok bs) →
      Does eng (.stream e) (.read len) l (.stream e') (.read (.ok bs))
  | readErr {e len l e' n} : Talk (eng.read e len) l (e', .err (.other n)) →
      Does eng (.stream e) (.read len) l (.stream e') (.read (.err (.other n)))
  | readPending {e len l e'} : Talk (eng.read e len) l (e', .err .wouldBlock) →
      Does eng (.stream e) (.read len) l (.stream e') .pending
  | writeOk {e d l e' n} : Talk (eng.write e d) l (e', .ok n) →
      Does eng (.stream e) (.write d) l (.stream e') (.wrote (.ok n))
  | writeErr {e d l e' n} : Talk (eng.write e d) l (e', .err (.other n)) →
      Does eng (.stream e) (.write d) l (.stream e') (.wrote (.err (.other n)))
  | writePending {e d l e'} : Talk (eng.write e d) l (e', .err .wouldBlock) →
      Does eng (.stream e) (.write d) l (.stream e') .pending
  | flushOk {e l e'} : Talk (eng.flush e) l (e', .ok ()) → Does eng (.stream e) .flush l (.stream e') (.flushed (.ok ()))
  | flushErr {e l e' n} : Talk (eng.flush e) l (e', .err (.other n)) →
      Does eng (.stream e) .flush l (.stream e') (.flushed (.err (.other n)))
  | flushPending {e l e'} : Talk (eng.flush e) l (e', .err .wouldBlock) → Does eng (.stream e) .flush l (.stream e') .pending
  /-- after the engine, the stream below is shut down -/
  | shutOk {e l e' v} : Talk (eng.shutdown e) l (e', .ok) →
      Does eng (.stream e) .shutdown (l ++ [(.shutdown, .ready v)]) (.stream e') (.shut (.ok ()))
  | shutBelowErr {e l e' k} : Talk (eng.shutdown e) l (e', .ok) →
      Does eng (.stream e) .shutdown (l ++ [(.shutdown, .failed k)]) (.stream e') (.shut (.err k))
  | shutBelowPending {e l e'} : Talk (eng.shutdown e) l (e', .ok) →
      Does eng (.stream e) .shutdown (l ++ [(.shutdown, .pending)]) (.stream e') .pending
  | shutErr {e l e' n} : Talk (eng.shutdown e) l (e', .io (.other n)) →
      Does eng (.stream e) .shutdown l (.stream e') (.shut (.err (.other n)))
  | shutSsl {e l e'} : Talk (eng.shutdown e) l (e', .ssl) →
      Does eng (.stream e) .shutdown l (.stream e') (.shut (.err (.other 0)))
  | shutPending {e l e'} : Talk (eng.shutdown e) l (e', .io .wouldBlock) → Does eng (.stream e) .shutdown l (.stream e') .pending

/-- The events of a connection: polls, one after the other. All that the stream below is asked during a poll is asked by the
thread of that poll and with the waker of the task that polls. -/
inductive Polls {E : Type} (eng : Engine E) (i : Nat) : Conn E → List Ev → Conn E → Prop where
  | nil {c} : Polls eng i c [] c
  | poll {c evs c1 c2} {t w : Nat} {op : Op} {l : List (Req × Answer)} {o : Out} : Polls eng i c evs c1 → Does eng c1 op l c2 o →
      Polls eng i c (evs ++ ([.begin t i w op] ++ l.map (fun x => .below t i w x.1 x.2) ++ [.ret t i w o])) c2

/-- The event concerns connection `i`. -/
def About (i : Nat) : Ev → Bool
  | .begin _ j _ _ => j = i
  | .below _ j _ _ _ => j = i
  | .ret _ j _ _ => j = i
  | .abort => false

/-- An unfinished poll: it has begun, and all so far was asked by its thread, with its waker. -/
def Unfinished (i : Nat) (evs : List Ev) : Prop :=
  ∃ (t w : Nat) (op : Op) (l : List (Req × Answer)), evs = [Ev.begin t i w op] ++ l.map (fun x => .below t i w x.1 x.2)

/-- Whatever the engine is told, `P last a` holds of what it returns, where `last` tells whether the last thing it was told is
that the stream would block. -/
inductive Always {α : Type} (P : Bool → α → Prop) : Bool → Prog α → Prop where
  | ret {last a} : P last a → Always P last (.ret a)
  | io {last q k} : (∀ x, Always P (x = .err .wouldBlock) (k x)) → Always P last (.io q k)

/-- What is expected of OpenSSL: it says that it would block only if the stream below said so last, and does not read more
than was asked for. -/
structure Honest {E : Type} (eng : Engine E) : Prop where
  connect : ∀ e, Always (fun last h => ∀ e', h = .wouldBlock e' → last = true) false (eng.connect e)
  handshake : ∀ e, Always (fun last h => ∀ e', h = .wouldBlock e' → last = true) false (eng.handshake e)
  read : ∀ e n, Always (fun last x => (x.2 = .err .wouldBlock → last = true) ∧ ∀ bs, x.2 = .ok bs → bs.length ≤ n) false
    (eng.read e n)
  write : ∀ e d, Always (fun last x => x.2 = .err .wouldBlock → last = true) false (eng.write e d)
  flush : ∀ e, Always (fun last x => x.2 = .err .wouldBlock → last = true) false (eng.flush e)
  shutdown : ∀ e, Always (fun last x => x.2 = .io .wouldBlock → last = true) false (eng.shutdown e)

end Verif.Spec.TlsIo
