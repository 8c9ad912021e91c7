import Verif.Spec.Found
import Verif.Lemmas.Naming
/-!
# Lemmas about the way of a service from a scan to the server
-/
namespace Verif.Found
open Verif Verif.Control Verif.SvcTable Verif.Client Verif.Spec.SvcTable Verif.Spec.Naming Verif.Spec.Found

/-! ## From the scan to the table -/

theorem adds_append (k : ServiceIdentifier) (a b : List TOp) : adds k (a ++ b) = adds k a ++ adds k b := by
  simp only [adds, List.filterMap_append, List.filter_append]

theorem adds_none {k : ServiceIdentifier} {l : List (Int64 × Service)}
    (h : ∀ p ∈ l, p.2.toIdentifier ≠ k) : adds k (l.map (fun s => TOp.add s.1 s.2)) = [] := by
  simp only [adds, List.filterMap_map]
  rw [List.filter_eq_nil_iff]
  intro x hx
  obtain ⟨p, hp, he⟩ := List.mem_filterMap.mp hx
  simp only [Function.comp, added, Option.some.injEq] at he
  subst he
  simpa using h p hp

/-- The additions of a service in an update end with the last one. -/
theorem adds_latest {l : List (Int64 × Service)} {seen : Int64} {s : Service} (h : Latest l seen s) :
    ∃ pre, adds s.toIdentifier (l.map (fun s => TOp.add s.1 s.2)) = pre ++ [(false, seen, s)] := by
  obtain ⟨a, b, rfl, hb⟩ := h
  refine ⟨adds s.toIdentifier (a.map (fun s => TOp.add s.1 s.2)), ?_⟩
  rw [List.map_append, adds_append, List.map_cons, ← List.singleton_append, adds_append, adds_none hb,
    List.append_nil]
  congr 1
  simp [adds, added]

theorem found_visible {farm : Bytes → UInt64} {t t' : Table} {l : List (Int64 × Service)} {now seen : Int64}
    {s : Service} (I : Inv t) (hs : Services (Spec.Config.changes l now))
    (h : t.run farm (Spec.Config.changes l now) = some t') (hl : Latest l seen s) (hc : s.isControl = false)
    (hclock : seen.toInt + 1200 < 9223372036854775808) (ha : now.toInt ≤ seen.toInt + 1200) :
    ∃ i, (i, s) ∈ t'.visible := by
  unfold Spec.Config.changes at h hs
  rw [SvcTable.run_append] at h
  obtain ⟨t1, h1, h2⟩ := Option.bind_eq_some_iff.mp h
  have h2 : t' = t1.updateActive now := by
    simp only [Table.run, Table.step] at h2
    injection h2 with h2
    exact h2.symm
  have hs1 := (services_append hs).1
  have I1 := inv_run I hs1 h1
  rw [h2, visible_find (inv_updateActive I1 now)]
  refine ⟨hc, ?_⟩
  have hf := run_find I hs1 h1 s.toIdentifier
  obtain ⟨pre, hp⟩ := adds_latest hl
  rw [hp, List.foldl_append] at hf
  simp only [List.foldl_cons, List.foldl_nil, evolve] at hf
  obtain ⟨e, e1, e2⟩ := Option.map_eq_some_iff.mp hf
  simp only [recOf, Prod.mk.injEq] at e2
  obtain ⟨-, r2, r3, r4⟩ := e2
  refine ⟨e.updateActive now, by rw [updateActive_find, e1]; rfl, by rw [ua_service]; exact r4, ?_⟩
  have hact := (active_iff e now (by rw [r3]; exact hclock)).mpr (by rw [r3]; exact ha)
  unfold Elem.visible
  rw [ua_enabled, r2, hact]
  simp

/-! ## From the table to the server -/

theorem mem_ofServices {l : List (UInt16 × Service)} (h : (l.map (·.1)).Nodup) (i : UInt16) (s : Service) :
    (⟨i, s⟩ : SvcElement) ∈ (SimpleTable.ofServices l).elems ↔ (i, s) ∈ l := by
  constructor
  · exact fun h => Naming.ofServices_mem h
  · intro hm
    obtain ⟨-, -, -, h4⟩ := foldInsert_spec l [] (by simp)
    obtain ⟨s', h5, h6⟩ := h4 (i, s) hm
    have : s' = s := by
      clear h4 h6
      induction l with
      | nil => cases hm
      | cons p l ih =>
        simp only [List.map_cons, List.nodup_cons] at h
        rcases List.mem_cons.mp hm with h1 | h1 <;> rcases List.mem_cons.mp h5 with h2 | h2
        · rw [← h1] at h2; injection h2
        · exact absurd (List.mem_map.mpr ⟨_, h2, by rw [← h1]⟩) h.1
        · exact absurd (List.mem_map.mpr ⟨_, h1, by rw [← h2]⟩) h.1
        · exact ih h.2 h1 h2
    rw [this] at h6
    exact h6

/-- Two stages with the same version show the same services. -/
theorem stages_version {farm : Bytes → UInt64} {t0 t t' : Table} {ops : List TOp} (I : Inv t0)
    (hs : Services ops) (hc : costs ops < 4294967296) (h : Stages farm t0 ops t) (h' : Stages farm t0 ops t')
    (hv : t.visVersion = t'.visVersion) : SameVisible t t' := by
  have key : ∀ (a b : List TOp) (u v : Table), Services (a ++ b) → costs (a ++ b) < 4294967296 →
      t0.run farm a = some u → t0.run farm (a ++ b) = some v → u.visVersion = v.visVersion → SameVisible u v := by
    intro a b u v hs hc h1 h2 hv
    rw [SvcTable.run_append, h1, Option.bind_some] at h2
    obtain ⟨n, n1, n2, n3⟩ := run_version (inv_run I (services_append hs).1 h1) (services_append hs).2 h2
    apply n3
    have hc' : costs (a ++ b) = costs a + costs b := by
      simp only [costs, List.map_append, List.sum_append_nat]
    rw [n2] at hv
    have := congrArg UInt32.toNat hv
    rw [UInt32.toNat_add, UInt32.toNat_ofNat_of_lt' (by simp only [UInt32.size]; omega)] at this
    have := u.visVersion.toNat_lt
    omega
  obtain ⟨pre, post, h1, hr⟩ := h
  obtain ⟨pre', post', h2, hr'⟩ := h'
  have hcost : ∀ {x y : List TOp}, ops = x ++ y → costs x < 4294967296 := by
    intro x y hxy
    rw [hxy] at hc
    simp only [costs, List.map_append, List.sum_append_nat] at hc ⊢
    omega
  have hserv : ∀ {x y : List TOp}, ops = x ++ y → Services x := fun hxy => (services_append (hxy ▸ hs)).1
  rcases List.append_eq_append_iff.mp (h1.symm.trans h2) with ⟨mid, h3, h4⟩ | ⟨mid, h3, h4⟩
  · subst h3
    exact key pre mid t t' (hserv h2) (hcost h2) hr hr' hv
  · subst h3
    exact fun p => (key pre' mid t' t (hserv h1) (hcost h1) hr' hr hv.symm p).symm

end Verif.Found
