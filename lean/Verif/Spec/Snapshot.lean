import Verif.Model.Service
/-!
# Copies of a service table
-/
namespace Verif.Spec.Snapshot
open Verif

/-- The service listed under an id: the last one, if there are several. -/
def listed : List (UInt16 × Service) → UInt16 → Option Service
  | [], _ => none
  | (j, s) :: l, i =>
    match listed l i with
    | some t => some t
    | none => if j = i then some s else none

end Verif.Spec.Snapshot
