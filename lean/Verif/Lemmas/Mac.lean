import Verif.Lemmas.Text
import Verif.Spec.Mac
namespace Verif.MacText
open Verif Verif.Spec.Mac

theorem digitVal_iff (c : UInt8) (v : Nat) : digitVal 16 c = some v ↔ HexDigit c v := by
  unfold digitVal HexDigit
  dsimp only
  by_cases h1 : 48 ≤ c.toNat ∧ c.toNat ≤ 57
  · rw [if_pos h1]
    dsimp only
    rw [if_pos (by omega), Option.some.injEq]
    omega
  · rw [if_neg h1]
    by_cases h2 : 97 ≤ c.toNat ∧ c.toNat ≤ 122
    · rw [if_pos h2]
      dsimp only
      by_cases h : c.toNat - 97 + 10 < 16
      · rw [if_pos h, Option.some.injEq]; omega
      · rw [if_neg h]; exact ⟨nofun, fun h => by omega⟩
    · rw [if_neg h2]
      by_cases h3 : 65 ≤ c.toNat ∧ c.toNat ≤ 90
      · rw [if_pos h3]
        dsimp only
        by_cases h : c.toNat - 65 + 10 < 16
        · rw [if_pos h, Option.some.injEq]; omega
        · rw [if_neg h]; exact ⟨nofun, fun h => by omega⟩
      · rw [if_neg h3]; exact ⟨nofun, fun h => by omega⟩

theorem parseDigits_snoc (max : Nat) (ds : Bytes) (c : UInt8) (a : Nat) :
    parseDigits 16 max (ds ++ [c]) a =
      (parseDigits 16 max ds a).bind (fun n => parseDigits 16 max [c] n) := by
  induction ds generalizing a with
  | nil => rfl
  | cons d ds ih =>
    simp only [List.cons_append, parseDigits]
    cases digitVal 16 d with
    | none => rfl
    | some v =>
      dsimp only
      split
      · rw [ih]; simp only [parseDigits]
      · rfl

theorem parse_one (max : Nat) (c : UInt8) (a n : Nat) :
    parseDigits 16 max [c] a = some n ↔ ∃ v, HexDigit c v ∧ n = 16 * a + v ∧ n ≤ max := by
  simp only [parseDigits]
  cases h : digitVal 16 c with
  | none =>
    exact ⟨nofun, fun ⟨v, hv, _⟩ => by rw [(digitVal_iff c v).mpr hv] at h; cases h⟩
  | some v =>
    have hv := (digitVal_iff c v).mp h
    dsimp only
    by_cases hm : a * 16 + v ≤ max
    · rw [if_pos hm, Option.some.injEq]
      constructor
      · intro e; exact ⟨v, hv, by omega, by omega⟩
      · rintro ⟨v', hv', e, -⟩
        have := (digitVal_iff c v').mpr hv'
        rw [h, Option.some.injEq] at this
        omega
    · rw [if_neg hm]
      refine ⟨nofun, ?_⟩
      rintro ⟨v', hv', e, e'⟩
      have := (digitVal_iff c v').mpr hv'
      rw [h, Option.some.injEq] at this
      omega

theorem digits_of (max : Nat) (ds : Bytes) (n : Nat) (h : HexNumber ds n) (hm : n ≤ max) :
    parseDigits 16 max ds 0 = some n := by
  induction h with
  | nil => rfl
  | @snoc ds n c v h hv ih =>
    rw [parseDigits_snoc, ih (by omega), Option.bind_some, parse_one]
    exact ⟨v, hv, rfl, hm⟩

theorem of_digits (max k : Nat) : ∀ (ds : Bytes), ds.length = k → ∀ n, parseDigits 16 max ds 0 = some n →
    HexNumber ds n ∧ (n ≤ max) := by
  induction k with
  | zero =>
    intro ds hl n h
    rw [List.length_eq_zero_iff.mp hl] at h ⊢
    simp only [parseDigits, Option.some.injEq] at h
    subst h
    exact ⟨.nil, Nat.zero_le _⟩
  | succ k ih =>
    intro ds hl n h
    have hne : ds ≠ [] := by rintro rfl; cases hl
    have e := (List.dropLast_concat_getLast hne).symm
    rw [e, parseDigits_snoc] at h
    cases hp : parseDigits 16 max ds.dropLast 0 with
    | none => rw [hp] at h; cases h
    | some m =>
      rw [hp, Option.bind_some, parse_one] at h
      obtain ⟨v, hv, rfl, hm⟩ := h
      have := (ih ds.dropLast (by rw [List.length_dropLast, hl]; rfl) m hp).1
      exact ⟨by rw [e]; exact .snoc this hv, hm⟩

theorem sign_not_digit (c : UInt8) (h : c = 43 ∨ c = 45) (v : Nat) : ¬ HexDigit c v := by
  unfold HexDigit
  rcases h with rfl | rfl <;> intro h <;> simp at h

theorem number_digit {ds : Bytes} {n : Nat} (h : HexNumber ds n) : ∀ c ∈ ds, ∃ v, HexDigit c v := by
  induction h with
  | nil => exact fun c hc => absurd hc List.not_mem_nil
  | @snoc ds n c v h hv ih =>
    intro d hd
    rcases List.mem_append.mp hd with hd | hd
    · exact ih d hd
    · rw [List.mem_singleton.mp hd]; exact ⟨v, hv⟩

theorem parseHex_iff (max : Nat) (t : Bytes) (n : Nat) :
    parseUInt 16 max t = some n ↔ (∃ ds, (t = ds ∨ t = 43 :: ds) ∧ ds ≠ [] ∧ HexNumber ds n) ∧ n ≤ max := by
  constructor
  · intro h
    unfold parseUInt at h
    split at h
    · cases h
    · rename_i c
      split at h
      · cases h
      · have := of_digits max _ _ rfl _ h
        exact ⟨⟨[c], Or.inl rfl, by simp, this.1⟩, this.2⟩
    · rename_i c cs hne
      split at h
      · rename_i hc
        have := of_digits max _ _ rfl _ h
        exact ⟨⟨cs, Or.inr (by rw [hc]), (by rintro rfl; exact hne rfl), this.1⟩, this.2⟩
      · have := of_digits max _ _ rfl _ h
        exact ⟨⟨c :: cs, Or.inl rfl, by simp, this.1⟩, this.2⟩
  · rintro ⟨⟨ds, h1, h2, h3⟩, h5⟩
    have hp := digits_of max ds n h3 h5
    rcases h1 with rfl | rfl
    · unfold parseUInt
      split
      · exact absurd rfl h2
      · rename_i c
        obtain ⟨v, hv⟩ := number_digit h3 c (by simp)
        rw [if_neg (fun h => sign_not_digit c h v hv)]
        exact hp
      · rename_i c cs hne
        obtain ⟨v, hv⟩ := number_digit h3 c (by simp)
        rw [if_neg (fun h => sign_not_digit c (Or.inl h) v hv)]
        exact hp
    · cases ds with
      | nil => exact absurd rfl h2
      | cons d ds => exact hp

theorem parseOctet_iff (t : Bytes) (b : UInt8) : parseOctet t = some b ↔ HexOctet t b := by
  unfold parseOctet HexOctet
  constructor
  · intro h
    cases hp : parseUInt 16 255 t with
    | none => rw [hp] at h; cases h
    | some n =>
      rw [hp, Option.map_some, Option.some.injEq] at h
      obtain ⟨h1, h2⟩ := (parseHex_iff 255 t n).mp hp
      rw [← h, UInt8.toNat_ofNat_of_lt' (by show n < 256; omega)]
      exact h1
  · intro h
    rw [(parseHex_iff 255 t b.toNat).mpr ⟨h, by have := b.toNat_lt; omega⟩, Option.map_some, UInt8.ofNat_toNat]

theorem octet_colon {t : Bytes} {b : UInt8} (h : HexOctet t b) : (58 : UInt8) ∉ t := by
  obtain ⟨ds, h1, -, h3⟩ := h
  have hn : (58 : UInt8) ∉ ds := by
    intro hm
    obtain ⟨v, hv⟩ := number_digit h3 _ hm
    unfold HexDigit at hv
    simp at hv
  rcases h1 with rfl | rfl
  · exact hn
  · intro hm
    rcases List.mem_cons.mp hm with h | h
    · revert h; decide
    · exact hn h

/-- The text is its pieces joined by the separator. -/
theorem splitOn_join (sep : UInt8) (s : Bytes) :
    ∀ (w : Bytes) (ws : List Bytes), splitOn sep s = w :: ws → s = w ++ (ws.map (fun x => sep :: x)).flatten := by
  induction s with
  | nil =>
    intro w ws h
    simp only [splitOn, List.cons.injEq] at h
    obtain ⟨rfl, rfl⟩ := h
    rfl
  | cons c s ih =>
    intro w ws h
    simp only [splitOn] at h
    split at h
    · rename_i hc
      injection h with h1 h2
      subst h1
      cases hs : splitOn sep s with
      | nil => exact absurd hs (splitOn_ne_nil sep s)
      | cons v vs =>
        rw [hs] at h2
        subst h2
        rw [ih v vs hs, hc]
        rfl
    · cases hs : splitOn sep s with
      | nil => exact absurd hs (splitOn_ne_nil sep s)
      | cons v vs =>
        rw [hs] at h
        injection h with h1 h2
        subst h1 h2
        rw [List.cons_append, ← ih v vs hs]

end Verif.MacText
