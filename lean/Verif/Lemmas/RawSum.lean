import Verif.Spec.RawNet
import Verif.Lemmas.Bytes
namespace Verif.Raw
open Verif Verif.Spec Verif.Spec.Raw

/-- The plain sum of the words. -/
def wsum : Bytes → Nat
  | a :: b :: rest => a.toNat * 256 + b.toNat + wsum rest
  | [a] => a.toNat * 256
  | [] => 0

theorem rd16_toNat (a b : UInt8) : (rd16 a b).toNat = a.toNat * 256 + b.toNat := by
  have := a.toNat_lt
  have := b.toNat_lt
  simp only [rd16, UInt16.toNat_ofNat']
  omega

theorem shl8 (a : UInt8) : (a.toUInt32 <<< 8).toNat = a.toNat * 256 := by
  have := a.toNat_lt
  rw [UInt32.toNat_shiftLeft, UInt8.toNat_toUInt32, show ((8 : UInt32).toNat % 32) = 8 from rfl, Nat.shiftLeft_eq]
  omega

theorem sumFrom_toNat : ∀ (bs : Bytes) (s : UInt32), (sumFrom s bs).toNat = (s.toNat + wsum bs) % 2 ^ 32
  | [], s => by
    have := s.toNat_lt
    simp only [sumFrom, wsum]; omega
  | [a], s => by
    simp only [sumFrom, wsum, UInt32.toNat_add, shl8]
  | a :: b :: rest, s => by
    rw [sumFrom, sumFrom_toNat rest, wsum, UInt32.toNat_add, UInt16.toNat_toUInt32, rd16_toNat]
    omega

theorem sumBe_toNat (bs : Bytes) : (sumBe bs).toNat = wsum bs % 2 ^ 32 := by
  rw [sumBe, sumFrom_toNat]; simp

theorem wsum_append : ∀ (a b : Bytes), a.length % 2 = 0 → wsum (a ++ b) = wsum a + wsum b
  | [], b, _ => by simp [wsum]
  | [x], b, h => by simp at h
  | x :: y :: a, b, h => by
    have : a.length % 2 = 0 := by simp only [List.length_cons] at h; omega
    simp only [List.cons_append, wsum, wsum_append a b this]
    omega

theorem wsum_le : ∀ (bs : Bytes), wsum bs ≤ 65535 * ((bs.length + 1) / 2)
  | [] => by simp [wsum]
  | [a] => by
    have := a.toNat_lt
    simp only [wsum, List.length_cons, List.length_nil]; omega
  | a :: b :: rest => by
    have := a.toNat_lt
    have := b.toNat_lt
    have := wsum_le rest
    simp only [wsum, List.length_cons]; omega

theorem words16_sum (bs : Bytes) : (words16 bs).sum = wsum bs := by
  fun_induction words16 bs with
  | case1 a b rest ih => simp only [List.sum_cons, wsum, ih]
  | case2 => simp [wsum]
  | case3 => rfl

theorem words16_lt (bs : Bytes) : ∀ x ∈ words16 bs, x < 65536 := by
  fun_induction words16 bs with
  | case1 a b rest ih =>
    have := a.toNat_lt
    have := b.toNat_lt
    intro x hx
    rcases List.mem_cons.mp hx with rfl | hx
    · omega
    · exact ih x hx
  | case2 a =>
    have := a.toNat_lt
    intro x hx
    rcases List.mem_cons.mp hx with rfl | hx
    · omega
    · exact absurd hx List.not_mem_nil
  | case3 => exact fun x hx => absurd hx List.not_mem_nil

theorem onesFold (l : List Nat) (h : ∀ x ∈ l, x < 65536) : ∀ acc, acc < 65536 →
    l.foldl onesAdd acc < 65536 ∧ l.foldl onesAdd acc % 65535 = (acc + l.sum) % 65535 ∧
      (l.foldl onesAdd acc = 0 ↔ acc + l.sum = 0) := by
  induction l with
  | nil => intro acc ha; simp [ha]
  | cons x l ih =>
    intro acc ha
    have hx := h x List.mem_cons_self
    have hl : onesAdd acc x < 65536 := by unfold onesAdd; split <;> omega
    obtain ⟨h1, h2, h3⟩ := ih (fun y hy => h y (List.mem_cons_of_mem _ hy)) _ hl
    refine ⟨h1, ?_, ?_⟩
    · rw [List.foldl_cons, h2, List.sum_cons]
      unfold onesAdd; split <;> omega
    · rw [List.foldl_cons, h3, List.sum_cons]
      unfold onesAdd; split <;> omega

theorem checksumOk_iff (bs : Bytes) : ChecksumOk bs ↔ wsum bs % 65535 = 0 ∧ wsum bs ≠ 0 := by
  obtain ⟨h1, h2, h3⟩ := onesFold _ (words16_lt bs) 0 (by omega)
  rw [words16_sum, Nat.zero_add] at h2 h3
  unfold ChecksumOk onesSum
  omega

theorem and_low (c : UInt32) : (c &&& 0xffff).toNat = c.toNat % 65536 := by
  rw [UInt32.toNat_and]; exact Nat.and_two_pow_sub_one_eq_mod c.toNat 16

theorem shr16 (c : UInt32) : (c >>> 16).toNat = c.toNat / 65536 := by
  rw [UInt32.toNat_shiftRight, show ((16 : UInt32).toNat % 32) = 16 from rfl, Nat.shiftRight_eq_div_pow]

theorem high_mask : ∀ i, i < 16 → (0xffff0000 : Nat).testBit (16 + i) = true ∧ (0xffff0000 : Nat).testBit i = false := by
  decide

theorem and_high (c : UInt32) : (c &&& 0xffff0000 : UInt32) = 0 ↔ c.toNat < 65536 := by
  have hc := c.toNat_lt
  rw [← UInt32.toNat_inj, UInt32.toNat_and, show (0xffff0000 : UInt32).toNat = 0xffff0000 from rfl,
    show (0 : UInt32).toNat = 0 from rfl]
  constructor
  · intro h
    apply Classical.byContradiction
    intro hn
    have h0 : c.toNat / 65536 ≠ 0 := by omega
    obtain ⟨i, hi⟩ := Nat.exists_testBit_of_ne_zero h0
    have hlt : i < 16 := by
      apply Classical.byContradiction
      intro hge
      have : c.toNat / 65536 < 2 ^ i :=
        Nat.lt_of_lt_of_le (show c.toNat / 65536 < 2 ^ 16 by omega) (Nat.pow_le_pow_right (by omega) (by omega))
      rw [Nat.testBit_lt_two_pow this] at hi
      exact absurd hi (by simp)
    have e : c.toNat.testBit (16 + i) = true := by
      rw [show c.toNat / 65536 = c.toNat / 2 ^ 16 from rfl, Nat.testBit_div_two_pow] at hi
      rw [Nat.add_comm]; exact hi
    have := congrArg (fun x => x.testBit (16 + i)) h
    simp only [Nat.testBit_and, e, (high_mask i hlt).1, Nat.zero_testBit] at this
    exact absurd this (by simp)
  · intro h
    apply Nat.eq_of_testBit_eq
    intro i
    rw [Nat.testBit_and, Nat.zero_testBit]
    by_cases hi : i < 16
    · rw [(high_mask i hi).2, Bool.and_false]
    · rw [Nat.testBit_lt_two_pow (Nat.lt_of_lt_of_le (show c.toNat < 2 ^ 16 by omega)
        (Nat.pow_le_pow_right (by omega) (by omega))), Bool.false_and]

/-- One round of the loop. -/
def foldStep (c : UInt32) : UInt32 :=
  let hw := c >>> 16
  let lw := c &&& 0xffff
  lw + hw

theorem foldLoop_zero (c : UInt32) : foldLoop 0 c = c := rfl

theorem foldLoop_succ (n : Nat) (c : UInt32) : foldLoop (n + 1) c =
    if (c &&& 0xffff0000 : UInt32) ≠ 0 then foldLoop n (foldStep c) else c := rfl

theorem fold_step (c : UInt32) : (foldStep c).toNat = c.toNat % 65536 + c.toNat / 65536 := by
  have := c.toNat_lt
  rw [foldStep, UInt32.toNat_add, and_low, shr16]; omega

theorem foldLoop_done (n : Nat) (c : UInt32) (h : c.toNat < 65536) : foldLoop n c = c := by
  cases n with
  | zero => rfl
  | succ n => rw [foldLoop_succ, if_neg (by rw [Classical.not_not]; exact (and_high c).mpr h)]

theorem foldLoop_more (n : Nat) (c : UInt32) (h : ¬ c.toNat < 65536) :
    foldLoop (n + 1) c = foldLoop n (foldStep c) := by
  rw [foldLoop_succ, if_pos (fun e => h ((and_high c).mp e))]

/-- After three rounds the condition of the loop is false. -/
theorem foldLoop_small (c : UInt32) : (foldLoop 3 c).toNat < 65536 ∧ (foldLoop 3 c).toNat % 65535 = c.toNat % 65535 ∧
    ((foldLoop 3 c).toNat = 0 ↔ c.toNat = 0) := by
  have hc := c.toNat_lt
  by_cases h : c.toNat < 65536
  · rw [foldLoop_done 3 c h]; omega
  · rw [foldLoop_more 2 c h]
    have e := fold_step c
    generalize foldStep c = d at e ⊢
    by_cases h' : d.toNat < 65536
    · rw [foldLoop_done 2 d h']; omega
    · rw [foldLoop_more 1 d h']
      have e' := fold_step d
      generalize foldStep d = x at e' ⊢
      rw [foldLoop_done 1 x (by omega)]; omega

theorem checksumOf_toNat (c : UInt32) : (checksumOf c).toNat = 65535 - (foldLoop 3 c).toNat := by
  have h := (foldLoop_small c).1
  unfold checksumOf
  rw [UInt32.toNat_toUInt16, UInt32.toNat_not]
  have : UInt32.size = 4294967296 := rfl
  omega

/-- A checksum computed from the sum of all other words makes the total valid. -/
theorem checksum_valid (c : UInt32) (bs : Bytes) (h : wsum bs = c.toNat + (checksumOf c).toNat) : ChecksumOk bs := by
  obtain ⟨h1, h2, h3⟩ := foldLoop_small c
  have := checksumOf_toNat c
  rw [checksumOk_iff]
  omega

/-- If `d` was left out of the sum, the total is valid only if `d` is zero in ones' complement. -/
theorem checksum_valid_iff (c : UInt32) (bs : Bytes) (d : Nat) (h : wsum bs = c.toNat + d + (checksumOf c).toNat) :
    ChecksumOk bs ↔ d % 65535 = 0 := by
  obtain ⟨h1, h2, h3⟩ := foldLoop_small c
  have := checksumOf_toNat c
  rw [checksumOk_iff]
  omega

theorem wsum_be16 (v : UInt16) : wsum (be16 v) = v.toNat := by
  have := v.toNat_lt
  simp only [be16, wsum, UInt8.toNat_ofNat']
  omega

theorem wsum_be32 (v : UInt32) : wsum (be32 v) = v.toNat / 65536 + v.toNat % 65536 := by
  have := v.toNat_lt
  simp only [be32, wsum, UInt8.toNat_ofNat']
  omega

theorem wordBytes_length (ws : List Word) : (wordBytes ws).length = 4 * ws.length := by
  induction ws with
  | nil => rfl
  | cons x ws ih =>
    rw [wordBytes, List.flatMap_cons, List.length_append, ← wordBytes, ih]
    simp only [List.length_cons, List.length_nil]; omega

end Verif.Raw
