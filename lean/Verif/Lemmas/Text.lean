import Verif.Model.Text
import Verif.Spec.Text
namespace Verif
open Verif.Spec.Text

theorem splitOn_ne_nil (sep : UInt8) (s : Bytes) : splitOn sep s ≠ [] := by
  induction s with
  | nil => nofun
  | cons c s ih =>
    simp only [splitOn]
    split
    · nofun
    · split <;> nofun

/-- Splitting a text that starts with a word without separator. -/
theorem splitOn_append (sep : UInt8) (w s : Bytes) (h : sep ∉ w) :
    splitOn sep (w ++ sep :: s) = w :: splitOn sep s := by
  induction w with
  | nil => simp [splitOn]
  | cons c w ih =>
    have h1 : c ≠ sep := fun e => h (e ▸ List.mem_cons_self)
    have h2 : sep ∉ w := fun e => h (List.mem_cons_of_mem _ e)
    rw [List.cons_append, splitOn, if_neg h1, ih h2]

theorem splitOn_word (sep : UInt8) (w : Bytes) (h : sep ∉ w) : splitOn sep w = [w] := by
  induction w with
  | nil => rfl
  | cons c w ih =>
    have h1 : c ≠ sep := fun e => h (e ▸ List.mem_cons_self)
    have h2 : sep ∉ w := fun e => h (List.mem_cons_of_mem _ e)
    rw [splitOn, if_neg h1, ih h2]

theorem octet_all : ∀ n, n < 256 → parseOctet (hex2 (UInt8.ofNat n)) = some (UInt8.ofNat n) ∧
    (58 : UInt8) ∉ hex2 (UInt8.ofNat n) := by decide +kernel

theorem parseOctet_hex2 (b : UInt8) : parseOctet (hex2 b) = some b := by
  have := (octet_all b.toNat b.toNat_lt).1
  rwa [UInt8.ofNat_toNat] at this

theorem colon_hex2 (b : UInt8) : (58 : UInt8) ∉ hex2 b := by
  have := (octet_all b.toNat b.toNat_lt).2
  rwa [UInt8.ofNat_toNat] at this

theorem mac_roundtrip (m : MacAddr) : MacAddr.parse m.format = some m := by
  unfold MacAddr.parse MacAddr.format
  simp only [List.append_assoc, List.cons_append, List.nil_append]
  rw [splitOn_append _ _ _ (colon_hex2 _), splitOn_append _ _ _ (colon_hex2 _),
    splitOn_append _ _ _ (colon_hex2 _), splitOn_append _ _ _ (colon_hex2 _),
    splitOn_append _ _ _ (colon_hex2 _), splitOn_word _ _ (colon_hex2 _)]
  simp only [List.map_cons, List.map_nil, parseOctet_hex2]

theorem digitVal_ten (c : UInt8) :
    digitVal 10 c = if 48 ≤ c.toNat ∧ c.toNat ≤ 57 then some (c.toNat - 48) else none := by
  unfold digitVal
  dsimp only
  by_cases h : 48 ≤ c.toNat ∧ c.toNat ≤ 57
  · rw [if_pos h, if_pos h]
    dsimp only
    rw [if_pos (by omega)]
  · rw [if_neg h, if_neg h]
    split
    · rename_i heq
      split at heq
      · injection heq with heq; rw [if_neg (by omega)]
      · split at heq
        · injection heq with heq; rw [if_neg (by omega)]
        · cases heq
    · rfl

theorem foldl_ge (ds : Bytes) (a : Nat) : a ≤ ds.foldl (fun a c => a * 10 + (c.toNat - 48)) a := by
  induction ds generalizing a with
  | nil => exact Nat.le_refl _
  | cons c ds ih =>
    rw [List.foldl_cons]
    exact Nat.le_trans (by omega) (ih _)

theorem parseDigits_iff (max : Nat) (ds : Bytes) (a n : Nat) (ha : a ≤ max) :
    parseDigits 10 max ds a = some n ↔
      (∀ c ∈ ds, 48 ≤ c.toNat ∧ c.toNat ≤ 57) ∧
        n = ds.foldl (fun a c => a * 10 + (c.toNat - 48)) a ∧ n ≤ max := by
  induction ds generalizing a with
  | nil =>
    constructor
    · intro h
      simp only [parseDigits, Option.some.injEq] at h
      subst h
      exact ⟨(by intro c hc; cases hc), rfl, ha⟩
    · rintro ⟨-, h, -⟩
      rw [h]; rfl
  | cons c ds ih =>
    simp only [parseDigits, digitVal_ten, List.foldl_cons, List.forall_mem_cons]
    by_cases hc : 48 ≤ c.toNat ∧ c.toNat ≤ 57
    · rw [if_pos hc]
      dsimp only
      by_cases hm : a * 10 + (c.toNat - 48) ≤ max
      · rw [if_pos hm, ih _ hm]
        exact ⟨fun ⟨h1, h2⟩ => ⟨⟨hc, h1⟩, h2⟩, fun ⟨⟨_, h1⟩, h2⟩ => ⟨h1, h2⟩⟩
      · rw [if_neg hm]
        constructor
        · intro h; cases h
        · rintro ⟨-, h, h'⟩
          have := foldl_ge ds (a * 10 + (c.toNat - 48))
          omega
    · rw [if_neg hc]
      constructor
      · intro h; cases h
      · rintro ⟨⟨h, -⟩, -⟩; exact absurd h hc

/-- The integer parser of the standard library accepts the decimal numbers up to the maximum. -/
theorem parseUInt_iff (max : Nat) (t : Bytes) (n : Nat) :
    parseUInt 10 max t = some n ↔ IsDecimal t n ∧ n ≤ max := by
  constructor
  · intro h
    unfold parseUInt at h
    split at h
    · cases h
    · rename_i c
      split at h
      · cases h
      · obtain ⟨h1, h2, h3⟩ := (parseDigits_iff _ _ _ _ (Nat.zero_le _)).mp h
        exact ⟨⟨[c], Or.inl rfl, by simp, h1, h2⟩, h3⟩
    · rename_i c cs hne
      split at h
      · rename_i hc
        obtain ⟨h1, h2, h3⟩ := (parseDigits_iff _ _ _ _ (Nat.zero_le _)).mp h
        exact ⟨⟨cs, Or.inr (by rw [hc]), (by rintro rfl; exact hne rfl), h1, h2⟩, h3⟩
      · obtain ⟨h1, h2, h3⟩ := (parseDigits_iff _ _ _ _ (Nat.zero_le _)).mp h
        exact ⟨⟨c :: cs, Or.inl rfl, by simp, h1, h2⟩, h3⟩
  · rintro ⟨⟨ds, h1, h2, h3, h4⟩, h5⟩
    have hp := (parseDigits_iff max ds 0 n (Nat.zero_le _)).mpr ⟨h3, h4, h5⟩
    rcases h1 with rfl | rfl
    · unfold parseUInt
      split
      · exact absurd rfl h2
      · rename_i c
        have := h3 c (by simp)
        rw [if_neg]
        · exact hp
        · rintro (rfl | rfl) <;> revert this <;> decide
      · rename_i c cs hne
        have := h3 c (by simp)
        rw [if_neg]
        · exact hp
        · rintro rfl; revert this; decide
    · unfold parseUInt
      split
      · rename_i h; cases h
      · rename_i c h; injection h with _ h; exact absurd h h2
      · rename_i c cs hne h
        injection h with h h'
        subst h h'
        rw [if_pos rfl]; exact hp

end Verif
