import Verif.Model.Utf8
namespace Verif.Utf8

/-- The scalar value `v` as a character. -/
def mkChar (v : Nat) (h : v < 0xD800 ∨ (0xDFFF < v ∧ v < 0x110000)) : Char :=
  ⟨UInt32.ofNatLT v (by have : UInt32.size = 4294967296 := rfl; omega), by
    simpa [UInt32.isValidChar, Nat.isValidChar] using h⟩

theorem mkChar_val (v : Nat) (h) : (mkChar v h).val.toNat = v := by
  simp [mkChar]

theorem char_bound (c : Char) : c.val.toNat < 0xD800 ∨ (0xDFFF < c.val.toNat ∧ c.val.toNat < 0x110000) :=
  c.valid

theorem u8eq {b : UInt8} {n : Nat} (h : b.toNat = n) : UInt8.ofNat n = b := by
  subst h; simp

/-- The encoding of one character followed by anything is valid iff the rest is. -/
theorem valid_encode_append (c : Char) (r : Bytes) :
    valid (String.utf8EncodeChar c ++ r) = valid r := by
  have hb := char_bound c
  rw [String.utf8EncodeChar.eq_1]
  generalize c.val.toNat = v at *
  by_cases h1 : v ≤ 127
  · simp only [h1, if_true, List.cons_append, List.nil_append]
    rw [valid.eq_def]
    dsimp only
    have : (UInt8.ofNat v).toNat = v := by rw [UInt8.toNat_ofNat']; omega
    rw [if_pos (by omega)]
  · rw [if_neg h1]
    by_cases h2 : v ≤ 2047
    · simp only [h2, if_true, List.cons_append, List.nil_append]
      have e0 : (UInt8.ofNat (v / 64 % 32 + 192)).toNat = v / 64 + 192 := by
        rw [UInt8.toNat_ofNat']; omega
      have e1 : (UInt8.ofNat (v % 64 + 128)).toNat = v % 64 + 128 := by
        rw [UInt8.toNat_ofNat']; omega
      rw [valid, if_neg (by omega), if_pos (by omega)]
      simp only [cont, e1]
      have a1 : decide (0x80 ≤ v % 64 + 128) = true := by simp
      have a2 : decide (v % 64 + 128 ≤ 0xBF) = true := by simp; omega
      simp only [a1, a2, Bool.true_and]
    · rw [if_neg h2]
      by_cases h3 : v ≤ 65535
      · simp only [h3, if_true, List.cons_append, List.nil_append]
        have e0 : (UInt8.ofNat (v / 4096 % 16 + 224)).toNat = v / 4096 + 224 := by
          rw [UInt8.toNat_ofNat']; omega
        have e1 : (UInt8.ofNat (v / 64 % 64 + 128)).toNat = v / 64 % 64 + 128 := by
          rw [UInt8.toNat_ofNat']; omega
        have e2 : (UInt8.ofNat (v % 64 + 128)).toNat = v % 64 + 128 := by
          rw [UInt8.toNat_ofNat']; omega
        rw [valid, if_neg (by omega), if_neg (by omega), if_pos (by omega)]
        simp only [cont, e0, e1, e2]
        have a1 : decide (0x80 ≤ v % 64 + 128) = true := by simp
        have a2 : decide (v % 64 + 128 ≤ 0xBF) = true := by simp; omega
        by_cases h0 : v / 4096 + 224 = 0xE0
        · have b1 : decide (0xA0 ≤ v / 64 % 64 + 128) = true := by simp; omega
          have b2 : decide (v / 64 % 64 + 128 ≤ 0xBF) = true := by simp; omega
          simp only [h0, if_true, a1, a2, b1, b2, Bool.true_and]
        · by_cases hd : v / 4096 + 224 = 0xED
          · have b1 : decide (0x80 ≤ v / 64 % 64 + 128) = true := by simp
            have b2 : decide (v / 64 % 64 + 128 ≤ 0x9F) = true := by simp; omega
            simp only [hd, if_true, a1, a2, b1, b2, Bool.true_and]
            simp
          · have b1 : decide (0x80 ≤ v / 64 % 64 + 128) = true := by simp
            have b2 : decide (v / 64 % 64 + 128 ≤ 0xBF) = true := by simp; omega
            simp only [h0, hd, if_false, a1, a2, b1, b2, Bool.true_and]
      · simp only [h3, if_false, List.cons_append, List.nil_append]
        have e0 : (UInt8.ofNat (v / 262144 % 8 + 240)).toNat = v / 262144 + 240 := by
          rw [UInt8.toNat_ofNat']; omega
        have e1 : (UInt8.ofNat (v / 4096 % 64 + 128)).toNat = v / 4096 % 64 + 128 := by
          rw [UInt8.toNat_ofNat']; omega
        have e2 : (UInt8.ofNat (v / 64 % 64 + 128)).toNat = v / 64 % 64 + 128 := by
          rw [UInt8.toNat_ofNat']; omega
        have e3 : (UInt8.ofNat (v % 64 + 128)).toNat = v % 64 + 128 := by
          rw [UInt8.toNat_ofNat']; omega
        rw [valid, if_neg (by omega), if_neg (by omega), if_neg (by omega), if_pos (by omega)]
        simp only [cont, e0, e1, e2, e3]
        have a1 : decide (0x80 ≤ v % 64 + 128) = true := by simp
        have a2 : decide (v % 64 + 128 ≤ 0xBF) = true := by simp; omega
        have a3 : decide (0x80 ≤ v / 64 % 64 + 128) = true := by simp
        have a4 : decide (v / 64 % 64 + 128 ≤ 0xBF) = true := by simp; omega
        by_cases h0 : v / 262144 + 240 = 0xF0
        · have b1 : decide (0x90 ≤ v / 4096 % 64 + 128) = true := by simp; omega
          have b2 : decide (v / 4096 % 64 + 128 ≤ 0xBF) = true := by simp; omega
          simp only [h0, if_true, a1, a2, a3, a4, b1, b2, Bool.true_and]
        · by_cases hd : v / 262144 + 240 = 0xF4
          · have b1 : decide (0x80 ≤ v / 4096 % 64 + 128) = true := by simp
            have b2 : decide (v / 4096 % 64 + 128 ≤ 0x8F) = true := by simp; omega
            simp only [hd, if_true, a1, a2, a3, a4, b1, b2, Bool.true_and]
            simp
          · have b1 : decide (0x80 ≤ v / 4096 % 64 + 128) = true := by simp
            have b2 : decide (v / 4096 % 64 + 128 ≤ 0xBF) = true := by simp; omega
            simp only [h0, hd, if_false, a1, a2, a3, a4, b1, b2, Bool.true_and]

theorem valid_of_chars (cs : List Char) : valid (cs.flatMap String.utf8EncodeChar) = true := by
  induction cs with
  | nil => simp [valid]
  | cons c cs ih => rw [List.flatMap_cons, valid_encode_append, ih]

theorem chars_of_valid (n : Nat) : ∀ bs : Bytes, bs.length ≤ n → valid bs = true →
    ∃ cs : List Char, bs = cs.flatMap String.utf8EncodeChar := by
  induction n with
  | zero => intro bs h _; exact ⟨[], by simpa using h⟩
  | succ n ih =>
    intro bs hlen hv
    match bs, hv with
    | [], _ => exact ⟨[], rfl⟩
    | b0 :: rest, hv =>
      have hb0 := b0.toNat_lt
      rw [valid.eq_def] at hv
      dsimp only at hv
      by_cases h1 : b0.toNat < 0x80
      · rw [if_pos h1] at hv
        obtain ⟨cs, hcs⟩ := ih rest (by simpa using hlen) hv
        refine ⟨mkChar b0.toNat (by omega) :: cs, ?_⟩
        rw [List.flatMap_cons, String.utf8EncodeChar.eq_1, mkChar_val, if_pos (by omega), ← hcs]
        simp
      · rw [if_neg h1] at hv
        by_cases h2 : 0xC2 ≤ b0.toNat ∧ b0.toNat ≤ 0xDF
        · rw [if_pos h2] at hv
          match rest, hv, hlen with
          | b1 :: r, hv, hlen =>
            simp only [cont, Bool.and_eq_true, decide_eq_true_eq] at hv
            obtain ⟨⟨c1, c2⟩, hr⟩ := hv
            obtain ⟨cs, hcs⟩ := ih r (by simp at hlen; omega) hr
            refine ⟨mkChar ((b0.toNat - 192) * 64 + (b1.toNat - 128)) (by omega) :: cs, ?_⟩
            rw [List.flatMap_cons, String.utf8EncodeChar.eq_1, mkChar_val, if_neg (by omega),
              if_pos (by omega), ← hcs]
            rw [u8eq (b := b0) (by omega), u8eq (b := b1) (by omega)]
            rfl
        · rw [if_neg h2] at hv
          by_cases h3 : 0xE0 ≤ b0.toNat ∧ b0.toNat ≤ 0xEF
          · rw [if_pos h3] at hv
            match rest, hv, hlen with
            | b1 :: b2 :: r, hv, hlen =>
              simp only [Bool.and_eq_true] at hv
              obtain ⟨⟨c0, c2⟩, hr⟩ := hv
              simp only [cont, Bool.and_eq_true, decide_eq_true_eq] at c2
              have c1 : 0x80 ≤ b1.toNat ∧ b1.toNat ≤ 0xBF ∧ (b0.toNat = 0xE0 → 0xA0 ≤ b1.toNat) ∧
                  (b0.toNat = 0xED → b1.toNat ≤ 0x9F) := by
                split at c0
                · simp only [Bool.and_eq_true, decide_eq_true_eq] at c0; omega
                · split at c0
                  · simp only [Bool.and_eq_true, decide_eq_true_eq] at c0; omega
                  · simp only [cont, Bool.and_eq_true, decide_eq_true_eq] at c0; omega
              obtain ⟨cs, hcs⟩ := ih r (by simp at hlen; omega) hr
              refine ⟨mkChar ((b0.toNat - 224) * 4096 + (b1.toNat - 128) * 64 + (b2.toNat - 128))
                (by omega) :: cs, ?_⟩
              rw [List.flatMap_cons, String.utf8EncodeChar.eq_1, mkChar_val, if_neg (by omega),
                if_neg (by omega), if_pos (by omega), ← hcs]
              rw [u8eq (b := b0) (by omega), u8eq (b := b1) (by omega), u8eq (b := b2) (by omega)]
              rfl
          · rw [if_neg h3] at hv
            by_cases h4 : 0xF0 ≤ b0.toNat ∧ b0.toNat ≤ 0xF4
            · rw [if_pos h4] at hv
              match rest, hv, hlen with
              | b1 :: b2 :: b3 :: r, hv, hlen =>
                simp only [Bool.and_eq_true] at hv
                obtain ⟨⟨⟨c0, c2⟩, c3⟩, hr⟩ := hv
                simp only [cont, Bool.and_eq_true, decide_eq_true_eq] at c2 c3
                have c1 : 0x80 ≤ b1.toNat ∧ b1.toNat ≤ 0xBF ∧ (b0.toNat = 0xF0 → 0x90 ≤ b1.toNat) ∧
                    (b0.toNat = 0xF4 → b1.toNat ≤ 0x8F) := by
                  split at c0
                  · simp only [Bool.and_eq_true, decide_eq_true_eq] at c0; omega
                  · split at c0
                    · simp only [Bool.and_eq_true, decide_eq_true_eq] at c0; omega
                    · simp only [cont, Bool.and_eq_true, decide_eq_true_eq] at c0; omega
                obtain ⟨cs, hcs⟩ := ih r (by simp at hlen; omega) hr
                refine ⟨mkChar ((b0.toNat - 240) * 262144 + (b1.toNat - 128) * 4096 +
                  (b2.toNat - 128) * 64 + (b3.toNat - 128)) (by omega) :: cs, ?_⟩
                rw [List.flatMap_cons, String.utf8EncodeChar.eq_1, mkChar_val, if_neg (by omega),
                  if_neg (by omega), if_neg (by omega), ← hcs]
                rw [u8eq (b := b0) (by omega), u8eq (b := b1) (by omega),
                  u8eq (b := b2) (by omega), u8eq (b := b3) (by omega)]
                rfl
            · rw [if_neg h4] at hv; simp at hv

/-- The validator accepts exactly the UTF-8 encodings of character sequences. -/
theorem valid_iff (bs : Bytes) :
    valid bs = true ↔ ∃ cs : List Char, bs = cs.flatMap String.utf8EncodeChar :=
  ⟨chars_of_valid _ bs (Nat.le_refl _), by rintro ⟨cs, rfl⟩; exact valid_of_chars cs⟩

end Verif.Utf8
