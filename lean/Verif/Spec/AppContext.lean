import Verif.Model.AppContext
/-!
# What a listener ought to see, read off a history
-/
namespace Verif.Spec.AppContext
open Verif Verif.AppContext

/-- What is known about listener `l`: whether it is registered, the changes of the state since, those of them
made while no other change was being reported, and what the listener was told. `inFlight` is the number of
changes being reported. -/
structure Seen where
  inFlight : Nat
  registered : Bool
  all : List Change
  alone : List Change
  told : List Change
deriving DecidableEq

/-- Keep the books for listener `l`. -/
def Seen.step (l : Nat) (s : Seen) : AEv → Seen
  | .changed c =>
    if s.registered then
      { s with
        inFlight := s.inFlight + 1, all := s.all ++ [c],
        alone := if s.inFlight = 0 then s.alone ++ [c] else s.alone }
    else { s with inFlight := s.inFlight + 1 }
  | .told x c => if x = l then { s with told := s.told ++ [c] } else s
  | .finished => { s with inFlight := s.inFlight - 1 }
  | .added x => if x = l then { s with registered := true } else s

/-- The books for listener `l` after a history. -/
def seen (l : Nat) (tr : List AEv) : Seen := tr.foldl (Seen.step l) ⟨0, false, [], [], []⟩

/-- The changes of the connection state (the scanner state) in a history. -/
def connChanges (tr : List AEv) : List Reconnect.ConnState :=
  tr.filterMap fun | .changed (.conn s) => some s | _ => none
def scanChanges (tr : List AEv) : List Bool :=
  tr.filterMap fun | .changed (.scan b) => some b | _ => none

end Verif.Spec.AppContext
