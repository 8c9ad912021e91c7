import Verif.Model.Reader
import Verif.Lemmas.White
/-!
# Lemmas about the string reader
-/
namespace Verif.Reader
open Verif Verif.Spec.Text

theorem isWhite_iff {s : Bytes} : isWhite s = true ↔ StartsWhite s := by
  unfold isWhite StartsWhite
  rw [List.any_eq_true]
  constructor
  · rintro ⟨w, h1, h2⟩; exact ⟨w, h1, List.isPrefixOf_iff_prefix.mp h2⟩
  · rintro ⟨w, h1, h2⟩; exact ⟨w, h1, List.isPrefixOf_iff_prefix.mpr h2⟩

theorem readUntil_spec (stop : Bytes → Bool) : ∀ s : Bytes,
    s = (readUntil stop s).1 ++ (readUntil stop s).2 ∧
      (∀ x y, (readUntil stop s).1 = x ++ y → y ≠ [] → stop (y ++ (readUntil stop s).2) = false) ∧
      ((readUntil stop s).2 = [] ∨ stop (readUntil stop s).2 = true) := by
  intro s
  induction s with
  | nil =>
    refine ⟨rfl, fun x y h hy => ?_, .inl rfl⟩
    have := (List.append_eq_nil_iff.mp h.symm).2
    exact absurd this hy
  | cons b s ih =>
    unfold readUntil
    by_cases hs : stop (b :: s) = true
    · rw [if_pos hs]
      refine ⟨rfl, fun x y h hy => ?_, .inr hs⟩
      have := (List.append_eq_nil_iff.mp h.symm).2
      exact absurd this hy
    · rw [if_neg hs]
      dsimp only
      obtain ⟨h1, h2, h3⟩ := ih
      refine ⟨by rw [List.cons_append, ← h1], fun x y h hy => ?_, h3⟩
      cases x with
      | nil =>
        rw [List.nil_append] at h
        rw [← h, List.cons_append, ← h1]
        exact Bool.eq_false_iff.mpr hs
      | cons c x =>
        rw [List.cons_append] at h
        injection h with _ h
        exact h2 x y h hy

theorem readUntil_eq {stop : Bytes → Bool} : ∀ {w r : Bytes},
    (∀ x y, w = x ++ y → y ≠ [] → stop (y ++ r) = false) → (r = [] ∨ stop r = true) →
      readUntil stop (w ++ r) = (w, r) := by
  intro w
  induction w with
  | nil =>
    intro r _ h
    cases r with
    | nil => rfl
    | cons b r =>
      rcases h with h | h
      · cases h
      · show readUntil stop (b :: r) = _
        unfold readUntil
        rw [if_pos h]
  | cons b w ih =>
    intro r h1 h2
    have hb : stop (b :: w ++ r) = false := h1 [] (b :: w) rfl nofun
    rw [List.cons_append] at hb ⊢
    unfold readUntil
    rw [if_neg (by rw [hb]; nofun), ih (fun x y hxy hy => h1 (b :: x) y (by rw [hxy, List.cons_append]) hy) h2]

/-- A word. -/
theorem readWord_iff {s w r : Bytes} : readWord s = (w, r) ↔ FirstWord s w r := by
  unfold readWord skipWhitespace
  constructor
  · intro h
    obtain ⟨a, ha, h1, h2⟩ := trimStart_spec s
    obtain ⟨g1, g2, g3⟩ := readUntil_spec isWhite (trimStart s)
    rw [h] at g1 g2 g3
    dsimp only at g1 g2 g3
    refine ⟨a, ha, by rw [List.append_assoc, ← g1]; exact h1, by rw [← g1]; exact h2, fun x y hxy hy hw => ?_, ?_⟩
    · have := g2 x y hxy hy
      rw [isWhite_iff.mpr hw] at this
      cases this
    · rcases g3 with g | g
      · exact .inl g
      · exact .inr (isWhite_iff.mp g)
  · rintro ⟨a, ha, rfl, h2, h3, h4⟩
    rw [List.append_assoc, trimStart_eq ha h2]
    refine readUntil_eq (fun x y hxy hy => ?_) ?_
    · exact Bool.eq_false_iff.mpr fun hw => h3 x y hxy hy (isWhite_iff.mp hw)
    · rcases h4 with g | g
      · exact .inl g
      · exact .inr (isWhite_iff.mpr g)

/-- Up to a character. -/
theorem readUntil_char {c : UInt8} {s w r : Bytes} :
    readUntil (isChar c) s = (w, r) ↔ s = w ++ r ∧ c ∉ w ∧ (r = [] ∨ r.head? = some c) := by
  constructor
  · intro h
    obtain ⟨g1, g2, g3⟩ := readUntil_spec (isChar c) s
    rw [h] at g1 g2 g3
    dsimp only at g1 g2 g3
    refine ⟨g1, fun hc => ?_, ?_⟩
    · obtain ⟨x, y, hxy⟩ := List.append_of_mem hc
      have := g2 x (c :: y) hxy nofun
      rw [List.cons_append] at this
      simp [isChar] at this
    · rcases g3 with g | g
      · exact .inl g
      · refine .inr ?_
        cases r with
        | nil => cases g
        | cons b r =>
          simp only [isChar, decide_eq_true_eq] at g
          rw [g]; rfl
  · rintro ⟨rfl, h2, h3⟩
    refine readUntil_eq (fun x y hxy hy => ?_) ?_
    · cases y with
      | nil => exact absurd rfl hy
      | cons b y =>
        have : b ≠ c := fun e => h2 (by rw [hxy, e]; simp)
        rw [List.cons_append]
        simp [isChar, this]
    · rcases h3 with g | g
      · exact .inl g
      · refine .inr ?_
        cases r with
        | nil => cases g
        | cons b r =>
          injection g with g
          simp [isChar, g]

end Verif.Reader
