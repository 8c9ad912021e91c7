import Verif.Spec.White
/-!
# Lemmas about white space
-/
namespace Verif
open Verif.Spec.Text

theorem strip_spec (ws : List Bytes) (hw : ∀ w ∈ ws, w ≠ []) (n : Nat) (s : Bytes) (h : s.length ≤ n) :
    (∃ l : List Bytes, (∀ w ∈ l, w ∈ ws) ∧ s = l.flatten ++ strip ws n s) ∧ ∀ w ∈ ws, ¬w <+: strip ws n s := by
  induction n generalizing s with
  | zero =>
    have : s = [] := List.length_eq_zero_iff.mp (by omega)
    subst this
    refine ⟨⟨[], (by intro w h; cases h), rfl⟩, ?_⟩
    intro w h hp
    exact hw w h (List.prefix_nil.mp hp)
  | succ n ih =>
    simp only [strip]
    cases hf : ws.find? (·.isPrefixOf s) with
    | none =>
      refine ⟨⟨[], (by intro w h; cases h), rfl⟩, ?_⟩
      intro w h hp
      have := List.find?_eq_none.mp hf w h
      exact this (List.isPrefixOf_iff_prefix.mpr hp)
    | some w =>
      have hm := List.mem_of_find?_eq_some hf
      have hp := List.find?_some hf
      rw [List.isPrefixOf_iff_prefix] at hp
      obtain ⟨r, rfl⟩ := hp
      have hl : 0 < w.length := List.length_pos_iff.mpr (hw w hm)
      simp only [List.drop_left']
      obtain ⟨⟨l, h1, h2⟩, h3⟩ := ih r (by simp at h; omega)
      refine ⟨⟨w :: l, ?_, ?_⟩, h3⟩
      · intro x hx
        rcases List.mem_cons.mp hx with rfl | hx
        · exact hm
        · exact h1 x hx
      · rw [List.flatten_cons, List.append_assoc, ← h2]

theorem white_ne : ∀ w ∈ white, w ≠ [] := by decide

theorem trim_spec (t : Bytes) : Trimmed t (trim t) := by
  obtain ⟨⟨l, h1, h2⟩, h3⟩ := strip_spec white white_ne t.length t (Nat.le_refl _)
  have hw' : ∀ w ∈ white.map List.reverse, w ≠ [] := by decide
  obtain ⟨⟨l', h1', h2'⟩, h3'⟩ := strip_spec (white.map List.reverse) hw' (trimStart t).length
    (trimStart t).reverse (by simp)
  have e : trimStart t = trim t ++ l'.flatten.reverse := by
    have := congrArg List.reverse h2'
    rw [List.reverse_reverse, List.reverse_append] at this
    exact this
  refine ⟨⟨l.flatten, l'.flatten.reverse, ⟨l, h1, rfl⟩, ⟨(l'.map List.reverse).reverse, ?_, ?_⟩, ?_⟩, ?_⟩
  · intro w hw
    simp only [List.mem_reverse, List.mem_map] at hw
    obtain ⟨x, hx, rfl⟩ := hw
    obtain ⟨y, hy, rfl⟩ := List.mem_map.mp (h1' x hx)
    rw [List.reverse_reverse]; exact hy
  · rw [List.reverse_flatten]
  · rw [List.append_assoc, ← e]; exact h2
  · intro w hw
    constructor
    · intro hp
      refine h3 w hw (hp.trans ?_)
      have : trim t <+: trimStart t := ⟨_, e.symm⟩
      exact this
    · intro hs
      refine h3' w.reverse (List.mem_map.mpr ⟨w, hw, rfl⟩) ?_
      have := List.reverse_prefix.mpr hs
      unfold trim trimEnd at this
      rw [List.reverse_reverse] at this
      exact this


/-! ## Trimming is determined -/

theorem prefix_code : ∀ w ∈ white, ∀ v ∈ white, w <+: v → w = v := by decide
theorem suffix_code : ∀ w ∈ white.map List.reverse, ∀ v ∈ white.map List.reverse, w <+: v → w = v := by decide

/-- Stripping leaves the first rest that does not begin with one of the texts. -/
theorem strip_eq {ws : List Bytes} (hw : ∀ w ∈ ws, w ≠ []) (hc : ∀ w ∈ ws, ∀ v ∈ ws, w <+: v → w = v) {v : Bytes}
    (hv : ∀ w ∈ ws, ¬w <+: v) : ∀ (l : List Bytes) (n : Nat), (∀ w ∈ l, w ∈ ws) → (l.flatten ++ v).length ≤ n →
      strip ws n (l.flatten ++ v) = v := by
  intro l
  induction l with
  | nil =>
    intro n _ _
    cases n with
    | zero => rfl
    | succ n =>
      have : ws.find? (·.isPrefixOf v) = none := by
        rw [List.find?_eq_none]
        intro w h h'
        exact hv w h (List.isPrefixOf_iff_prefix.mp h')
      show strip ws (n + 1) v = v
      unfold strip
      rw [this]
  | cons w l ih =>
    intro n hl hn
    have hwm := hl w List.mem_cons_self
    have hne := hw w hwm
    have hlen : 0 < w.length := List.length_pos_iff.mpr hne
    rw [List.flatten_cons, List.append_assoc] at hn ⊢
    rw [List.length_append] at hn
    cases n with
    | zero => omega
    | succ n =>
      have : ws.find? (·.isPrefixOf (w ++ (l.flatten ++ v))) = some w := by
        cases hf : ws.find? (·.isPrefixOf (w ++ (l.flatten ++ v))) with
        | none =>
          rw [List.find?_eq_none] at hf
          exact absurd (List.isPrefixOf_iff_prefix.mpr (List.prefix_append _ _)) (hf w hwm)
        | some x =>
          have hx := List.mem_of_find?_eq_some hf
          have hp : x <+: w ++ (l.flatten ++ v) := by
            have := List.find?_some hf
            exact List.isPrefixOf_iff_prefix.mp this
          rcases List.prefix_or_prefix_of_prefix hp (List.prefix_append w _) with h | h
          · rw [hc x hx w hwm h]
          · rw [hc w hwm x hx h]
      unfold strip
      rw [this]
      dsimp only
      rw [List.drop_left]
      exact ih n (fun x hx => hl x (List.mem_cons_of_mem _ hx)) (by omega)

theorem white_heads : ∀ w ∈ white, ∀ v ∈ white, ∀ b ∈ w.tail, v.head? ≠ some b := by decide
theorem starts_append {u b : Bytes} (hu : u ≠ []) (hb : AllWhite b) (h : ∀ w ∈ white, ¬w <+: u) :
    ∀ w ∈ white, ¬w <+: u ++ b := by
  intro w hw hp
  obtain ⟨c, hc⟩ := hp
  rcases List.append_eq_append_iff.mp hc with ⟨d, h1, h2⟩ | ⟨d, h1, h2⟩
  · exact h w hw ⟨d, h1.symm⟩
  · cases d with
    | nil =>
      rw [List.append_nil] at h1
      exact h w hw ⟨[], by rw [List.append_nil]; exact h1⟩
    | cons x d =>
      obtain ⟨ws, hws, rfl⟩ := hb
      cases ws with
      | nil => cases h2
      | cons v ws =>
        have hv := hws v List.mem_cons_self
        cases u with
        | nil => exact hu rfl
        | cons y u =>
          refine white_heads w hw v hv x ?_ ?_
          · rw [h1]; simp
          · cases v with
            | nil => exact absurd rfl (white_ne [] hv)
            | cons z v =>
              rw [List.flatten_cons, List.cons_append] at h2
              injection h2 with h2 _
              rw [h2]; rfl

theorem allWhite_reverse {ws : List Bytes} : ws.flatten.reverse = (ws.reverse.map List.reverse).flatten := by
  rw [List.reverse_flatten, List.map_reverse]

/-- The text without the white space at both ends is what `trim` returns. -/
theorem trim_eq {t v : Bytes} (h : Trimmed t v) : trim t = v := by
  obtain ⟨⟨a, b, ⟨la, ha, rfl⟩, hb, rfl⟩, hv⟩ := h
  unfold trim trimStart
  rw [List.append_assoc]
  by_cases hne : v = []
  · subst hne
    obtain ⟨lb, hlb, rfl⟩ := hb
    have hall : (la.flatten ++ ([] ++ lb.flatten) : Bytes) = (la ++ lb).flatten ++ [] := by simp
    rw [hall, strip_eq white_ne prefix_code (fun w hw => (hv w hw).1) (la ++ lb) _ _ (Nat.le_refl _)]
    · rfl
    · intro w hw
      rcases List.mem_append.mp hw with h | h
      · exact ha w h
      · exact hlb w h
  · rw [strip_eq white_ne prefix_code (starts_append hne hb (fun w hw => (hv w hw).1)) la _ ha (Nat.le_refl _)]
    obtain ⟨lb, hlb, rfl⟩ := hb
    unfold trimEnd
    have hrev : (v ++ lb.flatten).reverse = (lb.reverse.map List.reverse).flatten ++ v.reverse := by
      rw [List.reverse_append, allWhite_reverse]
    have hw' : ∀ w ∈ white.map List.reverse, w ≠ [] := by decide
    have hlen : (v ++ lb.flatten).length = ((lb.reverse.map List.reverse).flatten ++ v.reverse).length := by
      rw [← hrev, List.length_reverse]
    rw [hrev, hlen, strip_eq hw' suffix_code ?_ _ _ ?_ (Nat.le_refl _), List.reverse_reverse]
    · intro w hw hp
      obtain ⟨x, hx, rfl⟩ := List.mem_map.mp hw
      refine (hv x hx).2 ?_
      have := List.reverse_suffix.mpr hp
      rwa [List.reverse_reverse, List.reverse_reverse] at this
    · intro w hw
      obtain ⟨x, hx, rfl⟩ := List.mem_map.mp hw
      exact List.mem_map.mpr ⟨x, hlb x (List.mem_reverse.mp hx), rfl⟩

theorem trim_iff {t v : Bytes} : Trimmed t v ↔ trim t = v :=
  ⟨trim_eq, fun h => h ▸ trim_spec t⟩

theorem trimStart_eq {a v : Bytes} (ha : AllWhite a) (hv : ¬StartsWhite v) : trimStart (a ++ v) = v := by
  obtain ⟨la, hla, rfl⟩ := ha
  exact strip_eq white_ne prefix_code (fun w hw hp => hv ⟨w, hw, hp⟩) la _ hla (Nat.le_refl _)

theorem trimStart_spec (t : Bytes) : ∃ a, AllWhite a ∧ t = a ++ trimStart t ∧ ¬StartsWhite (trimStart t) := by
  obtain ⟨⟨l, h1, h2⟩, h3⟩ := strip_spec white white_ne t.length t (Nat.le_refl _)
  exact ⟨_, ⟨l, h1, rfl⟩, h2, fun ⟨w, hw, hp⟩ => h3 w hw hp⟩

end Verif
