import Verif.Model.Lock
/-!
# Specification of the lock file

What a user sees: which clients run, from the events alone.
-/
namespace Verif.Spec.Lock
open Verif.Lock

/-- Does the client `p` run after these events? -/
def Runs (p : Nat) (evs : List Ev) : Prop := ∃ a b, evs = a ++ .started p :: b ∧ .ended p ∉ b

/-- The steps a process makes when nothing fails. -/
def startOps (p : Nat) : List Op := [.create p true, .lock p true, .number p none, .newline p true, .sync p true]

/-- The process that makes a step. -/
def who : Op → Nat
  | .create p _ | .lock p _ | .number p _ | .newline p _ | .sync p _ | .exit p => p

end Verif.Spec.Lock
