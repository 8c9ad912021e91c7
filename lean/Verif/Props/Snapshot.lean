import Verif.Lemmas.Control
import Verif.Spec.Snapshot
/-!
# Copies of a service table (C114)
-/
namespace Verif.Props
open Verif Verif.Control Verif.Spec.Snapshot

theorem find_insertElem (l : List SvcElement) (e : SvcElement) (i : UInt16) :
    ((insertElem l e).find? (·.id = i)).map (·.service) =
      if e.id = i then some e.service else (l.find? (·.id = i)).map (·.service) := by
  unfold insertElem
  split
  · next h =>
    rw [List.any_eq_true] at h
    obtain ⟨y, hy, he⟩ := h
    have he : y.id = e.id := by simpa using he
    induction l with
    | nil => cases hy
    | cons x l ih =>
      rw [List.map_cons, List.find?_cons, List.find?_cons]
      by_cases hx : x.id = e.id
      · rw [if_pos hx]
        by_cases hi : e.id = i
        · simp [hi]
        · have hxi : x.id ≠ i := by rw [hx]; exact hi
          simp only [hi, hxi, decide_false, if_false]
          -- the rest of the list does not matter for another id
          clear ih hy
          induction l with
          | nil => rfl
          | cons z l ih =>
            rw [List.map_cons, List.find?_cons, List.find?_cons]
            by_cases hz : z.id = e.id
            · rw [if_pos hz]
              have hzi : z.id ≠ i := by rw [hz]; exact hi
              simp only [hi, hzi, decide_false]
              exact ih
            · rw [if_neg hz]
              split
              · rfl
              · exact ih
      · rw [if_neg hx]
        have hy' : y ∈ l := by
          rcases List.mem_cons.1 hy with rfl | h
          · exact absurd he hx
          · exact h
        by_cases hxi : x.id = i
        · have : e.id ≠ i := by rw [← hxi]; exact Ne.symm hx
          simp [hxi, this]
        · simp only [hxi, decide_false]
          exact ih hy'
  · next h =>
    rw [List.find?_append]
    by_cases hi : e.id = i
    · have : l.find? (·.id = i) = none := by
        rw [List.find?_eq_none]
        intro x hx hxi
        apply h
        rw [List.any_eq_true]
        exact ⟨x, hx, by simp at hxi ⊢; rw [hxi, hi]⟩
      simp [this, hi]
    · cases l.find? (·.id = i) <;> simp [hi]

theorem find_foldl (svcs : List (UInt16 × Service)) (l : List SvcElement) (i : UInt16) :
    ((svcs.foldl (fun l p => insertElem l ⟨p.1, p.2⟩) l).find? (·.id = i)).map (·.service) =
      (listed svcs i).or ((l.find? (·.id = i)).map (·.service)) := by
  induction svcs generalizing l with
  | nil => rfl
  | cons p svcs ih =>
    rw [List.foldl_cons, ih, find_insertElem]
    rw [show listed (p :: svcs) i = match listed svcs i with
      | some t => some t
      | none => if p.1 = i then some p.2 else none from rfl]
    cases listed svcs i with
    | some t => rfl
    | none => by_cases hi : p.1 = i <;> simp [hi]

/-- A copy of a service table has the control service under 0 and under every other id the service that was listed. -/
theorem C114_get (svcs : List (UInt16 × Service)) (i : UInt16) :
    (SimpleTable.ofServices svcs).get i = if i = 0 then some .control else listed svcs i := by
  unfold SimpleTable.get SimpleTable.ofServices
  split
  · rfl
  · rw [find_foldl]
    simp

theorem find_of_mem {l : List SvcElement} (hn : (l.map (·.id)).Nodup) {e : SvcElement} (he : e ∈ l) :
    l.find? (·.id = e.id) = some e := by
  induction l with
  | nil => cases he
  | cons x l ih =>
    rw [List.map_cons, List.nodup_cons] at hn
    rw [List.find?_cons]
    rcases List.mem_cons.1 he with rfl | he
    · simp
    · have : x.id ≠ e.id := fun h => hn.1 (h ▸ List.mem_map_of_mem he)
      simp only [this, decide_false]
      exact ih hn.2 he

/-- The control service has the id 0. -/
theorem C114_control (svcs : List (UInt16 × Service)) (k : ServiceIdentifier) (hk : k.svcType = .controlProtocol) :
    (SimpleTable.ofServices svcs).getId k = some 0 := by
  unfold SimpleTable.getId ServiceIdentifier.isControl
  rw [if_pos (by simp [hk])]

/-- The id of any other service is one it is listed under, and there is one if it is listed. -/
theorem C114_id (svcs : List (UInt16 × Service)) (k : ServiceIdentifier) (hk : k.svcType ≠ .controlProtocol) :
    (∀ i, (SimpleTable.ofServices svcs).getId k = some i → ∃ s, listed svcs i = some s ∧ s.toIdentifier = k) ∧
    ((SimpleTable.ofServices svcs).getId k = none → ∀ i s, listed svcs i = some s → s.toIdentifier ≠ k) := by
  have hnd : ((SimpleTable.ofServices svcs).elems.map (·.id)).Nodup := (foldInsert_spec svcs [] List.nodup_nil).1
  have hf : ∀ i, ((SimpleTable.ofServices svcs).elems.find? (·.id = i)).map (·.service) = listed svcs i := fun i => by
    unfold SimpleTable.ofServices
    rw [find_foldl]
    simp
  unfold SimpleTable.getId ServiceIdentifier.isControl
  rw [if_neg (by simp [hk])]
  refine ⟨fun i hi => ?_, fun hn i s hs hk' => ?_⟩
  · cases he : (SimpleTable.ofServices svcs).elems.find? (fun e => k = e.service.toIdentifier) with
    | none => rw [he] at hi; cases hi
    | some e =>
      rw [he] at hi
      cases hi
      have hm := List.mem_of_find?_eq_some he
      have hp := List.find?_some he
      refine ⟨e.service, ?_, ?_⟩
      · rw [← hf, find_of_mem hnd hm]
        rfl
      · simpa using Eq.symm (of_decide_eq_true hp)
  · rw [Option.map_eq_none_iff, List.find?_eq_none] at hn
    rw [← hf i] at hs
    rw [Option.map_eq_some_iff] at hs
    obtain ⟨e, he, rfl⟩ := hs
    exact hn e (List.mem_of_find?_eq_some he) (by simp [hk'])

/-- The two lookups agree if no service is listed under 0. -/
theorem C114_agree (svcs : List (UInt16 × Service)) (h0 : ∀ s, (0, s) ∉ svcs) (k : ServiceIdentifier) (i : UInt16)
    (hi : (SimpleTable.ofServices svcs).getId k = some i) (hk : k.svcType ≠ .controlProtocol) :
    i ≠ 0 ∧ ∃ s, (SimpleTable.ofServices svcs).get i = some s ∧ s.toIdentifier = k := by
  obtain ⟨s, hs, hk'⟩ := (C114_id svcs k hk).1 i hi
  have hmem : ∀ (l : List (UInt16 × Service)) s, listed l i = some s → (i, s) ∈ l := by
    intro l
    induction l with
    | nil => intro s h; cases h
    | cons p l ih =>
      intro s h
      unfold listed at h
      cases hl : listed l i with
      | some t =>
        rw [hl] at h
        cases h
        exact List.mem_cons_of_mem _ (ih _ hl)
      | none =>
        rw [hl] at h
        dsimp only at h
        split at h
        · next e =>
          cases h
          rw [← e]
          exact List.mem_cons_self ..
        · cases h
  have hne : i ≠ 0 := by
    rintro rfl
    exact h0 s (hmem svcs s hs)
  exact ⟨hne, s, by rw [C114_get, if_neg hne]; exact hs, hk'⟩

/-- Two services, one of them listed again under the same id. -/
def sampleListed : List (UInt16 × Service) :=
  [(1, .http .zero ⟨.v4 127 0 0 1, 80⟩), (7, .tcp .zero ⟨.v4 10 0 0 1, 22⟩), (1, .http .zero ⟨.v4 127 0 0 1, 8080⟩)]

example : (SimpleTable.ofServices sampleListed).get 1 = some (.http .zero ⟨.v4 127 0 0 1, 8080⟩) := by
  rw [C114_get]; decide +kernel
example : (SimpleTable.ofServices sampleListed).getId (Service.tcp .zero ⟨.v4 10 0 0 1, 22⟩).toIdentifier = some 7 := by decide +kernel
example : (SimpleTable.ofServices sampleListed).getId (Service.http .zero ⟨.v4 127 0 0 1, 80⟩).toIdentifier = none := by decide +kernel
example : (Service.tcp .zero ⟨.v4 10 0 0 1, 22⟩).toIdentifier.svcType ≠ .controlProtocol := by decide
example : ∀ s, (0, s) ∉ sampleListed := by simp [sampleListed]
example : Service.control.toIdentifier.svcType = .controlProtocol := rfl

end Verif.Props
