import Verif.Basic
import Verif.Spec.Bytes
namespace Verif

theorem rd16_be16 (v : UInt16) :
    rd16 (UInt8.ofNat (v.toNat / 256)) (UInt8.ofNat (v.toNat % 256)) = v := by
  apply UInt16.toNat_inj.mp
  have := v.toNat_lt
  simp only [rd16, UInt16.toNat_ofNat', UInt8.toNat_ofNat']
  omega

theorem rd32_be32 (v : UInt32) :
    rd32 (UInt8.ofNat (v.toNat / 16777216)) (UInt8.ofNat (v.toNat / 65536 % 256))
      (UInt8.ofNat (v.toNat / 256 % 256)) (UInt8.ofNat (v.toNat % 256)) = v := by
  apply UInt32.toNat_inj.mp
  have := v.toNat_lt
  simp only [rd32, UInt32.toNat_ofNat', UInt8.toNat_ofNat']
  omega

theorem be32_rd32 (a b c d : UInt8) : be32 (rd32 a b c d) = [a, b, c, d] := by
  have ha := a.toNat_lt
  have hb := b.toNat_lt
  have hc := c.toNat_lt
  have hd := d.toNat_lt
  simp only [be32, rd32, UInt32.toNat_ofNat', List.cons.injEq, and_true]
  refine ⟨?_, ?_, ?_, ?_⟩ <;> apply UInt8.toNat_inj.mp <;> simp only [UInt8.toNat_ofNat'] <;> omega

@[simp] theorem be16_length (v : UInt16) : (be16 v).length = 2 := rfl
@[simp] theorem be32_length (v : UInt32) : (be32 v).length = 4 := rfl

theorem mask24_toNat (v : UInt32) : (mask24 v).toNat = v.toNat % 2 ^ 24 := by
  simp only [mask24, UInt32.toNat_and]
  exact Nat.and_two_pow_sub_one_eq_mod v.toNat 24

theorem mask24_idem (v : UInt32) : mask24 (mask24 v) = mask24 v := by
  apply UInt32.toNat_inj.mp
  simp only [mask24_toNat]
  omega

theorem mask24_of_lt {v : UInt32} (h : v.toNat < 2 ^ 24) : mask24 v = v := by
  apply UInt32.toNat_inj.mp
  rw [mask24_toNat]; omega

end Verif

namespace Verif
open Spec

theorem natBE_two (a b : UInt8) : natBE [a, b] = (rd16 a b).toNat := by
  have ha := a.toNat_lt
  have hb := b.toNat_lt
  simp only [natBE, List.foldl, rd16, UInt16.toNat_ofNat']
  omega

theorem natBE_four (a b c d : UInt8) : natBE [a, b, c, d] = (rd32 a b c d).toNat := by
  have ha := a.toNat_lt
  have hb := b.toNat_lt
  have hc := c.toNat_lt
  have hd := d.toNat_lt
  simp only [natBE, List.foldl, rd32, UInt32.toNat_ofNat']
  omega

theorem natBE_be16 (v : UInt16) : natBE (be16 v) = v.toNat := by
  simp only [be16, natBE_two, rd16_be16]

theorem natBE_be32 (v : UInt32) : natBE (be32 v) = v.toNat := by
  simp only [be32, natBE_four, rd32_be32]

end Verif
