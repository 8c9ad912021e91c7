import Verif.Basic
/-!
# Numbers in text
-/
namespace Verif.Spec.Text
open Verif

/-- The number written with the decimal digits `ds`. -/
def decimalValue (ds : Bytes) : Nat := ds.foldl (fun a c => a * 10 + (c.toNat - 48)) 0

/-- `t` is one or more decimal digits, perhaps behind a plus sign, and means `n`. -/
def IsDecimal (t : Bytes) (n : Nat) : Prop :=
  ∃ ds, (t = ds ∨ t = 43 :: ds) ∧ ds ≠ [] ∧ (∀ c ∈ ds, 48 ≤ c.toNat ∧ c.toNat ≤ 57) ∧ n = decimalValue ds

end Verif.Spec.Text
