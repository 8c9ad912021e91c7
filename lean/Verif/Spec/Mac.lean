import Verif.Basic
/-!
# The text of a MAC address
-/
namespace Verif.Spec.Mac
open Verif

/-- The character `c` is a hexadecimal digit, in upper or lower case, and means `v`. -/
def HexDigit (c : UInt8) (v : Nat) : Prop :=
  (48 ≤ c.toNat ∧ c.toNat ≤ 57 ∧ v = c.toNat - 48) ∨ (97 ≤ c.toNat ∧ c.toNat ≤ 102 ∧ v = c.toNat - 97 + 10) ∨
    (65 ≤ c.toNat ∧ c.toNat ≤ 70 ∧ v = c.toNat - 65 + 10)

/-- The digits `ds` are the hexadecimal number `n`. -/
inductive HexNumber : Bytes → Nat → Prop where
  | nil : HexNumber [] 0
  | snoc {ds : Bytes} {n : Nat} {c : UInt8} {v : Nat} : HexNumber ds n → HexDigit c v → HexNumber (ds ++ [c]) (16 * n + v)

/-- `t` is one or more hexadecimal digits, perhaps behind a plus sign, that mean the byte `b`. -/
def HexOctet (t : Bytes) (b : UInt8) : Prop := ∃ ds, (t = ds ∨ t = 43 :: ds) ∧ ds ≠ [] ∧ HexNumber ds b.toNat

/-- Six texts joined by colons. -/
def joined (t0 t1 t2 t3 t4 t5 : Bytes) : Bytes :=
  t0 ++ 58 :: t1 ++ 58 :: t2 ++ 58 :: t3 ++ 58 :: t4 ++ 58 :: t5

end Verif.Spec.Mac
