import Verif.Model.CustomStorage
import Verif.Spec.Config
/-!
# Specification of the custom storage: what the functions of an application may answer
-/
namespace Verif.Spec.CustomStorage
open Verif Verif.CustomStorage

/-- At `p` there is a C string with the content `s`. -/
def StringAt (h : Heap) (p : Nat) (s : Bytes) : Prop := 0 ∉ s ∧ ∃ rest, h p = some (.text (s ++ 0 :: rest))

/-- At the addresses `ps` there are C strings with the contents `ss`. -/
def StringsAt (h : Heap) (ps : List Nat) (ss : List Bytes) : Prop :=
  ps.length = ss.length ∧ ∀ (i : Nat) (p : Nat) (s : Bytes), ps[i]? = some p → ss[i]? = some s → StringAt h p s

/-- The answer of a function that gives the paths `ss`: an array at `arr` with pointers to strings, all in blocks of their own. -/
def GivesPaths (h : Heap) (a : PathsAnswer) (arr : Nat) (ps : List Nat) (ss : List Bytes) : Prop :=
  a = ⟨0, some arr, ps.length⟩ ∧ h arr = some (.ptrs (ps.map some)) ∧ (arr :: ps).Nodup ∧ StringsAt h ps ss

/-- The heap without some blocks. -/
def without (h : Heap) (ps : List Nat) : Heap := fun q => if q ∈ ps then none else h q

/-- The answer that gives the configuration text `s` in the block `p`. -/
def GivesText (h : Heap) (a : LoadAnswer) (p : Nat) (s : Bytes) : Prop := a = ⟨0, some p⟩ ∧ StringAt h p s

/-- Did a call save anything? -/
def isSave : Call → Bool
  | .save _ => true
  | _ => false

/-- The paths a client uses: all, if all are UTF-8; otherwise none, with a warning. -/
def usable (ss : List Bytes) : List Bytes × Bool := if ∀ s ∈ ss, Utf8.valid s = true then (ss, false) else ([], true)

end Verif.Spec.CustomStorage
