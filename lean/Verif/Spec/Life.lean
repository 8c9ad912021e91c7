import Verif.Model.Life
/-!
# Specification of the life of a client
-/
namespace Verif.Spec.Life
open Verif.Life
open Verif.CmdHandler (Cmd Owner)

/-- `close`, or `free`, which closes too. -/
def Closes (op : Op) : Prop := op = .close ∨ op = .free

/-- The commands that the calls of the application ask for: all until it closes the client. -/
def asked : List Op → List Cmd
  | [] => []
  | .scan :: ops => .scanNetwork :: asked ops
  | .rescan :: ops => .resetServiceTable :: .scanNetwork :: asked ops
  | .close :: _ => []
  | .free :: _ => []
  | _ :: ops => asked ops

/-- The commands sent by somebody. -/
def sentBy (o : Owner) (evs : List Ev) : List Cmd :=
  evs.filterMap fun | .sent o' c => if o' = o then some c else none | _ => none

/-- What the calls of `start` returned. -/
def starts (evs : List Ev) : List Bool := evs.filterMap fun | .startReturned b => some b | _ => none

/-- How often the main task worked. -/
def workCount (evs : List Ev) : Nat := evs.countP (· = .worked)

/-- A scanner thread that has not told the command handler that it is done. -/
def Scanning (l : Life) (i : Nat) : Prop :=
  ∃ p, l.h.workers[i]? = some p ∧ p ≠ .signalled ∧ p ≠ .dead

end Verif.Spec.Life
