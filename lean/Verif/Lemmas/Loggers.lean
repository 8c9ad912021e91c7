import Verif.Spec.Loggers
/-!
# Lemmas about the loggers
-/
namespace Verif.Loggers
open Verif Verif.Log Verif.Spec.Loggers

/-- The levels and cells agree with the history. -/
structure Inv (past : List Op) (s : Sys) : Prop where
  count : s.handles.length = made past
  cell : ∀ (h : Nat) (k : Kind) (c : Nat), s.handles[h]? = some (k, c) → kind past h = some k ∧ s.cells[c]? = some (level past h)
  apart : ∀ (h g : Nat) (k k' : Kind) (c : Nat), s.handles[h]? = some (k, c) → s.handles[g]? = some (k', c) →
    h = g ∨ (k = .callback ∧ original past g = original past h)
  family : ∀ (h g : Nat) (k k' : Kind) (c c' : Nat), s.handles[h]? = some (k, c) → s.handles[g]? = some (k', c') →
    original past g = original past h → k = k' ∧ (k = .callback → c = c')
  old : ∀ h, h < made past → original past h < made past
  fresh : ∀ h, made past ≤ h → original past h = h

theorem Inv.start : Inv [] ⟨[], []⟩ :=
  ⟨rfl, nofun, nofun, nofun, fun h hh => absurd hh (Nat.not_lt_zero h), fun _ _ => rfl⟩

theorem get_push {α : Type} {l : List α} {a x : α} {i : Nat} (h : (l ++ [a])[i]? = some x) :
    (i < l.length ∧ l[i]? = some x) ∨ (i = l.length ∧ x = a) := by
  by_cases hi : i < l.length
  · rw [List.getElem?_append_left hi] at h
    exact .inl ⟨hi, h⟩
  · rw [List.getElem?_append_right (Nat.le_of_not_lt hi)] at h
    have hz : i - l.length = 0 := by
      cases hz : i - l.length with
      | zero => rfl
      | succ n => rw [hz] at h; cases h
    rw [hz] at h
    cases h
    exact .inr ⟨by omega, rfl⟩

theorem lt_of_get {α : Type} {l : List α} {x : α} {i : Nat} (h : l[i]? = some x) : i < l.length :=
  (List.getElem?_eq_some_iff.1 h).1

/-- A handle with a cell of its own. -/
theorem Inv.own {past past' : List Op} {s : Sys} (I : Inv past s) (k : Kind) (v : Severity) (hm : made past' = made past + 1)
    (hold : ∀ h, h < made past → kind past' h = kind past h ∧ level past' h = level past h ∧ original past' h = original past h)
    (hk : kind past' (made past) = some k) (hv : level past' (made past) = v)
    (ho : original past' (made past) = made past ∨ (k ≠ .callback ∧ ∃ g c, g < made past ∧ s.handles[g]? = some (k, c)
      ∧ original past' (made past) = original past g))
    (hf : ∀ h, made past < h → original past' h = h) :
    Inv past' ⟨s.cells ++ [v], s.handles ++ [(k, s.cells.length)]⟩ := by
  have hc := I.count
  refine ⟨by rw [List.length_append, hm, ← hc]; rfl, ?_, ?_, ?_, ?_, ?_⟩
  · intro h k' c hh
    rcases get_push hh with ⟨h1, h2⟩ | ⟨h1, h2⟩
    · obtain ⟨a1, a2, -⟩ := hold h (by omega)
      obtain ⟨b1, b2⟩ := I.cell h k' c h2
      rw [a1, a2]
      exact ⟨b1, by rw [← b2]; exact List.getElem?_append_left (lt_of_get b2)⟩
    · injection h2 with h2 h3
      subst h1 h2 h3
      rw [hc, hk, hv]
      exact ⟨rfl, List.getElem?_concat_length⟩
  · intro h g k1 k2 c hh hg
    rcases get_push hh with ⟨h1, h2⟩ | ⟨h1, h2⟩ <;> rcases get_push hg with ⟨g1, g2⟩ | ⟨g1, g2⟩
    · rcases I.apart h g k1 k2 c h2 g2 with e | ⟨e1, e2⟩
      · exact .inl e
      · rw [(hold h (by omega)).2.2, (hold g (by omega)).2.2]
        exact .inr ⟨e1, e2⟩
    · injection g2 with _ g3
      have := lt_of_get (I.cell h k1 c h2).2
      omega
    · injection h2 with _ h3
      have := lt_of_get (I.cell g k2 c g2).2
      omega
    · exact .inl (by omega)
  · intro h g k1 k2 c c' hh hg he
    rcases get_push hh with ⟨h1, h2⟩ | ⟨h1, h2⟩ <;> rcases get_push hg with ⟨g1, g2⟩ | ⟨g1, g2⟩
    · rw [(hold h (by omega)).2.2, (hold g (by omega)).2.2] at he
      exact I.family h g k1 k2 c c' h2 g2 he
    · injection g2 with g2 g3
      subst g2
      rw [(hold h (by omega)).2.2, g1, hc] at he
      rcases ho with ho | ⟨hnc, x, cx, hx, hxs, ho⟩
      · rw [ho] at he
        have := I.old h (by omega)
        omega
      · rw [ho] at he
        obtain ⟨e1, -⟩ := I.family h x k1 k2 c cx h2 hxs he
        exact ⟨e1, fun hcb => absurd (e1.symm.trans hcb) hnc⟩
    · injection h2 with h2 h3
      subst h2
      rw [(hold g (by omega)).2.2, h1, hc] at he
      rcases ho with ho | ⟨hnc, x, cx, hx, hxs, ho⟩
      · rw [ho] at he
        have := I.old g (by omega)
        omega
      · rw [ho] at he
        obtain ⟨e1, -⟩ := I.family x g k1 k2 cx c' hxs g2 he
        exact ⟨e1, fun hcb => absurd hcb hnc⟩
    · injection h2 with h2 h3
      injection g2 with g2 g3
      exact ⟨h2.trans g2.symm, fun _ => h3.trans g3.symm⟩
  · intro h hh
    by_cases hl : h < made past
    · rw [(hold h hl).2.2, hm]
      have := I.old h hl
      omega
    · have : h = made past := by omega
      subst this
      rcases ho with ho | ⟨-, x, -, hx, -, ho⟩
      · omega
      · rw [ho, hm]
        have := I.old x hx
        omega
  · intro h hh
    exact hf h (by omega)

/-- A handle that shares the cell of its original. -/
theorem Inv.share {past past' : List Op} {s : Sys} (I : Inv past s) {g c : Nat} (hg : s.handles[g]? = some (.callback, c))
    (hm : made past' = made past + 1)
    (hold : ∀ h, h < made past → kind past' h = kind past h ∧ level past' h = level past h ∧ original past' h = original past h)
    (hk : kind past' (made past) = kind past g) (hv : level past' (made past) = level past g)
    (ho : original past' (made past) = original past g) (hf : ∀ h, made past < h → original past' h = h) :
    Inv past' { s with handles := s.handles ++ [(.callback, c)] } := by
  have hc := I.count
  have hgl := lt_of_get hg
  refine ⟨by rw [List.length_append, hm, ← hc]; rfl, ?_, ?_, ?_, ?_, ?_⟩
  · intro h k' c' hh
    rcases get_push hh with ⟨h1, h2⟩ | ⟨h1, h2⟩
    · obtain ⟨a1, a2, -⟩ := hold h (by omega)
      rw [a1, a2]
      exact I.cell h k' c' h2
    · injection h2 with h2 h3
      subst h1 h2 h3
      rw [hc, hk, hv]
      exact I.cell g _ _ hg
  · intro h x k1 k2 c' hh hx
    rcases get_push hh with ⟨h1, h2⟩ | ⟨h1, h2⟩ <;> rcases get_push hx with ⟨g1, g2⟩ | ⟨g1, g2⟩
    · rw [(hold h (by omega)).2.2, (hold x (by omega)).2.2]
      exact I.apart h x k1 k2 c' h2 g2
    · injection g2 with g2 g3
      subst g3
      right
      rw [(hold h (by omega)).2.2, g1, hc, ho]
      rcases I.apart h g k1 _ _ h2 hg with rfl | ⟨e1, e2⟩
      · rw [h2] at hg
        cases hg
        exact ⟨rfl, rfl⟩
      · exact ⟨e1, e2⟩
    · injection h2 with h2 h3
      subst h2 h3
      right
      rw [(hold x (by omega)).2.2, h1, hc, ho]
      rcases I.apart g x _ k2 _ hg g2 with rfl | ⟨e1, e2⟩
      · exact ⟨rfl, rfl⟩
      · exact ⟨rfl, e2⟩
    · exact .inl (by omega)
  · intro h x k1 k2 c1 c2 hh hx he
    rcases get_push hh with ⟨h1, h2⟩ | ⟨h1, h2⟩ <;> rcases get_push hx with ⟨g1, g2⟩ | ⟨g1, g2⟩
    · rw [(hold h (by omega)).2.2, (hold x (by omega)).2.2] at he
      exact I.family h x k1 k2 c1 c2 h2 g2 he
    · injection g2 with g2 g3
      subst g2 g3
      rw [(hold h (by omega)).2.2, g1, hc, ho] at he
      exact I.family h g k1 _ c1 _ h2 hg he
    · injection h2 with h2 h3
      subst h2 h3
      rw [(hold x (by omega)).2.2, h1, hc, ho] at he
      exact I.family g x _ k2 _ c2 hg g2 he
    · injection h2 with h2 h3
      injection g2 with g2 g3
      exact ⟨h2.trans g2.symm, fun _ => h3.trans g3.symm⟩
  · intro h hh
    by_cases hl : h < made past
    · rw [(hold h hl).2.2, hm]
      have := I.old h hl
      omega
    · have : h = made past := by omega
      subst this
      rw [ho, hm]
      have := I.old g (by omega)
      omega
  · intro h hh
    exact hf h (by omega)

theorem Inv.set {past : List Op} {s : Sys} (I : Inv past s) {g c : Nat} {k : Kind} (v : Severity)
    (hg : s.handles[g]? = some (k, c)) : Inv (.setLevel g v :: past) { s with cells := s.cells.set c v } := by
  have hgl : g < made past := by rw [← I.count]; exact lt_of_get hg
  refine ⟨I.count, ?_, I.apart, I.family, I.old, I.fresh⟩
  intro h k' c' hh
  obtain ⟨h1, h2⟩ := I.cell h k' c' hh
  refine ⟨h1, ?_⟩
  rw [level]
  by_cases hc : c = c'
  · subst hc
    have hp : g = h ∨ (kind past h = some .callback ∧ original past g = original past h) := by
      rcases I.apart h g k' k c hh hg with rfl | ⟨e1, e2⟩
      · exact .inl rfl
      · exact .inr ⟨by rw [h1, e1], e2⟩
    rw [if_pos ⟨hgl, hp⟩]
    exact List.getElem?_set_self (lt_of_get h2)
  · have hnot : ¬ (g < made past ∧ (g = h ∨ (kind past h = some .callback ∧ original past g = original past h))) := by
      rintro ⟨-, rfl | ⟨e1, e2⟩⟩
      · rw [hg] at hh
        cases hh
        exact hc rfl
      · rw [h1] at e1
        cases e1
        exact hc ((I.family h g _ k c' c hh hg e2).2 rfl).symm
    rw [if_neg hnot]
    show (s.cells.set c v)[c']? = _
    rw [List.getElem?_set_ne hc]
    exact h2

theorem Inv.next {past : List Op} {s s' : Sys} {op : Op} {e : List Event} (I : Inv past s) (h : s.step op = some (s', e)) :
    Inv (op :: past) s' := by
  have hc := I.count
  cases op with
  | new k =>
    unfold Sys.step at h
    cases h
    refine I.own k (initial k) rfl ?_ ?_ ?_ ?_ ?_
    · intro h hh
      have hne : h ≠ made past := by omega
      exact ⟨if_neg hne, if_neg hne, rfl⟩
    · exact if_pos rfl
    · rw [level, if_pos rfl]
      cases k <;> rfl
    · exact .inl (I.fresh _ (Nat.le_refl _))
    · intro h hh
      exact I.fresh h (by omega)
  | clone g =>
    unfold Sys.step at h
    dsimp only at h
    cases hg : s.handles[g]? with
    | none =>
      rw [hg] at h
      cases h
      have hgl : ¬ g < made past := by
        rw [← hc]
        intro h
        rw [List.getElem?_eq_getElem h] at hg
        cases hg
      have e1 : made (.clone g :: past) = made past := if_neg hgl
      have e2 : ∀ h, original (.clone g :: past) h = original past h := fun h => if_neg fun hh => hgl hh.2
      have e3 : ∀ h, kind (.clone g :: past) h = kind past h := fun h => if_neg fun hh => hgl hh.2
      have e4 : ∀ h, level (.clone g :: past) h = level past h := fun h => if_neg fun hh => hgl hh.2
      refine ⟨by rw [e1]; exact hc, ?_, ?_, ?_, ?_, ?_⟩
      · intro h k c hh; rw [e3, e4]; exact I.cell h k c hh
      · intro h x k k' c; rw [e2, e2]; exact I.apart h x k k' c
      · intro h x k k' c c'; rw [e2, e2]; exact I.family h x k k' c c'
      · intro h; rw [e1, e2]; exact I.old h
      · intro h; rw [e1, e2]; exact I.fresh h
    | some x =>
      obtain ⟨k, c⟩ := x
      rw [hg] at h
      cases h
      have hgl : g < made past := by rw [← hc]; exact lt_of_get hg
      obtain ⟨b1, b2⟩ := I.cell g k c hg
      have e1 : made (.clone g :: past) = made past + 1 := if_pos hgl
      have hold : ∀ h, h < made past → kind (.clone g :: past) h = kind past h ∧ level (.clone g :: past) h = level past h
          ∧ original (.clone g :: past) h = original past h := by
        intro h hh
        have hne : ¬ (h = made past ∧ g < made past) := fun e => by omega
        exact ⟨if_neg hne, if_neg hne, if_neg hne⟩
      have ek : kind (.clone g :: past) (made past) = kind past g := if_pos ⟨rfl, hgl⟩
      have el : level (.clone g :: past) (made past) = level past g := if_pos ⟨rfl, hgl⟩
      have eo : original (.clone g :: past) (made past) = original past g := if_pos ⟨rfl, hgl⟩
      have ef : ∀ h, made past < h → original (.clone g :: past) h = h := by
        intro h hh
        rw [original, if_neg (fun e => by omega)]
        exact I.fresh h (by omega)
      have other : k ≠ .callback → Inv (.clone g :: past) ⟨s.cells ++ [s.cells[c]?.getD .info], s.handles ++ [(k, s.cells.length)]⟩ := by
        intro hk
        refine I.own k _ e1 hold (ek.trans b1) ?_ (.inr ⟨hk, g, c, hgl, hg, eo⟩) ef
        rw [el, b2]
        rfl
      unfold cloneOf
      cases k with
      | callback => exact I.share hg e1 hold ek el eo ef
      | stderr p => exact other (fun h => by cases h)
      | syslog => exact other (fun h => by cases h)
      | dummy => exact other (fun h => by cases h)
  | setLevel g v =>
    unfold Sys.step at h
    dsimp only at h
    cases hg : s.handles[g]? with
    | none =>
      rw [hg] at h
      cases h
      have hgl : ¬ g < made past := by
        rw [← hc]
        intro h
        rw [List.getElem?_eq_getElem h] at hg
        cases hg
      refine ⟨hc, ?_, I.apart, I.family, I.old, I.fresh⟩
      intro h k c hh
      rw [level, if_neg (fun e => hgl e.1)]
      exact I.cell h k c hh
    | some x =>
      obtain ⟨k, c⟩ := x
      rw [hg] at h
      cases h
      exact I.set v hg
  | log g m io =>
    have hs : s' = s := by
      unfold Sys.step at h
      dsimp only at h
      cases hg : s.handles[g]? with
      | none => rw [hg] at h; cases h; rfl
      | some x =>
        obtain ⟨k, c⟩ := x
        rw [hg] at h
        dsimp only at h
        cases hl : logWith k (s.cells[c]?.getD .info) m io with
        | none => rw [hl] at h; cases h
        | some e => rw [hl] at h; cases h; rfl
    subst hs
    exact ⟨hc, I.cell, I.apart, I.family, I.old, I.fresh⟩

end Verif.Loggers
