import Verif.Model.Map
namespace Verif.AMap
variable {κ β : Type} [DecidableEq κ]

@[simp] theorem get_nil (k : κ) : get ([] : AMap κ β) k = none := rfl

theorem get_cons (p : κ × β) (m : AMap κ β) (k : κ) :
    get (p :: m) k = if p.1 = k then some p.2 else get m k := by
  unfold get
  by_cases h : p.1 = k <;> simp [h]

theorem get_append (m n : AMap κ β) (k : κ) :
    get (m ++ n) k = (get m k).or (get n k) := by
  induction m with
  | nil => simp
  | cons p m ih => rw [List.cons_append, get_cons, get_cons, ih]; split <;> simp

theorem get_remove (m : AMap κ β) (k j : κ) :
    get (m.remove k) j = if j = k then none else get m j := by
  induction m with
  | nil => simp [remove]
  | cons p m ih =>
    unfold remove at ih ⊢
    rw [List.filter_cons]
    by_cases h : p.1 = k
    · simp only [h, not_true, decide_false, Bool.false_eq_true, if_false, ih, get_cons]
      by_cases hj : j = k
      · simp [hj]
      · have : ¬ k = j := fun e => hj e.symm
        simp [hj, this]
    · simp only [h, not_false_eq_true, decide_true, if_true, get_cons, ih]
      by_cases hj : j = k
      · subst hj; simp [h]
      · simp [hj]

@[simp] theorem get_remove_self (m : AMap κ β) (k : κ) : get (m.remove k) k = none := by
  rw [get_remove, if_pos rfl]

theorem get_remove_ne (m : AMap κ β) {k j : κ} (h : j ≠ k) : get (m.remove k) j = get m j := by
  rw [get_remove, if_neg h]

theorem get_insert (m : AMap κ β) (k j : κ) (v : β) :
    get (m.insert k v) j = if j = k then some v else get m j := by
  unfold insert
  rw [get_append, get_remove, get_cons]
  by_cases h : j = k
  · simp [h]
  · have : ¬ k = j := fun e => h e.symm
    simp [h, this]

@[simp] theorem get_insert_self (m : AMap κ β) (k : κ) (v : β) : get (m.insert k v) k = some v := by
  rw [get_insert, if_pos rfl]

theorem get_insert_ne (m : AMap κ β) {k j : κ} (v : β) (h : j ≠ k) :
    get (m.insert k v) j = get m j := by rw [get_insert, if_neg h]

theorem get_mem {m : AMap κ β} {k : κ} {v : β} (h : get m k = some v) : (k, v) ∈ m := by
  unfold get at h
  rw [Option.map_eq_some_iff] at h
  obtain ⟨p, h1, h2⟩ := h
  have h3 := List.find?_some h1
  have h4 := List.mem_of_find?_eq_some h1
  simp only [decide_eq_true_eq] at h3
  have : p = (k, v) := Prod.ext h3 h2
  exact this ▸ h4

theorem get_isSome_iff (m : AMap κ β) (k : κ) : (get m k).isSome ↔ k ∈ m.keys := by
  induction m with
  | nil => simp [keys]
  | cons p m ih =>
    rw [get_cons]
    simp only [keys, List.map_cons, List.mem_cons] at ih ⊢
    by_cases h : p.1 = k
    · simp [h]
    · rw [if_neg h, ih]
      constructor
      · exact .inr
      · rintro (e | e)
        · exact absurd e.symm h
        · exact e

theorem get_none_iff (m : AMap κ β) (k : κ) : get m k = none ↔ k ∉ m.keys := by
  rw [← get_isSome_iff]; cases get m k <;> simp

theorem get_of_mem {m : AMap κ β} (hn : m.keys.Nodup) {k : κ} {v : β} (h : (k, v) ∈ m) :
    get m k = some v := by
  induction m with
  | nil => cases h
  | cons p m ih =>
    simp only [keys, List.map_cons, List.nodup_cons] at hn
    rw [get_cons]
    rcases List.mem_cons.mp h with h | h
    · subst h; simp
    · have : p.1 ≠ k := by
        intro e
        exact hn.1 (e ▸ List.mem_map_of_mem (f := (·.1)) h)
      rw [if_neg this]
      exact ih hn.2 h

theorem keys_remove (m : AMap κ β) (k : κ) : (m.remove k).keys = m.keys.filter (fun x => ¬ x = k) := by
  unfold remove keys
  rw [List.filter_map]
  rfl

theorem nodup_remove {m : AMap κ β} (h : m.keys.Nodup) (k : κ) : (m.remove k).keys.Nodup := by
  rw [keys_remove]; exact h.filter _

theorem nodup_insert {m : AMap κ β} (h : m.keys.Nodup) (k : κ) (v : β) :
    (m.insert k v).keys.Nodup := by
  unfold insert
  rw [show (m.remove k ++ [(k, v)]).keys = (m.remove k).keys ++ [k] by simp [keys]]
  rw [List.nodup_append]
  refine ⟨nodup_remove h k, by simp, ?_⟩
  intro a ha b hb
  rw [keys_remove] at ha
  simp only [List.mem_filter, decide_not, Bool.not_eq_true', decide_eq_false_iff_not] at ha
  simp only [List.mem_singleton] at hb
  exact hb ▸ ha.2

theorem remove_of_get_none {m : AMap κ β} {k : κ} (h : get m k = none) : m.remove k = m := by
  unfold remove
  rw [List.filter_eq_self]
  intro p hp
  rw [get_none_iff] at h
  simp only [decide_not, Bool.not_eq_true', decide_eq_false_iff_not]
  intro e
  exact h (e ▸ List.mem_map_of_mem (f := (·.1)) hp)

theorem length_insert_new {m : AMap κ β} {k : κ} (h : get m k = none) (v : β) :
    (m.insert k v).length = m.length + 1 := by
  unfold insert; rw [remove_of_get_none h]; simp

end Verif.AMap
