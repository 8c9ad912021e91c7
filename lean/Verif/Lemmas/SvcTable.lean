import Verif.Spec.SvcTable
import Verif.Lemmas.Map
import Verif.Lemmas.Text
namespace Verif.SvcTable
open Verif Verif.Spec.SvcTable

/-! ## Searching for a free id -/

theorem probe_some {m : AMap UInt16 Elem} {start : UInt16} {n : Nat} {cur i : UInt16}
    (h : probe m start n cur = some i) : m.get i = none := by
  induction n generalizing cur with
  | zero => cases h
  | succ n ih =>
    simp only [probe] at h
    split at h
    · split at h
      · cases h
      · exact ih h
    · injection h with h
      subst h
      rename_i hc
      cases hg : m.get cur with
      | none => rfl
      | some e => rw [hg] at hc; simp at hc

theorem probe_none_aux {m : AMap UInt16 Elem} {start : UInt16} {n : Nat} {cur : UInt16}
    (hn : n ≤ 65536) (hc : cur.toNat = (start.toNat + (65536 - n)) % 65536)
    (h : probe m start n cur = none) :
    ∀ k, k < n → (m.get (UInt16.ofNat (start.toNat + (65536 - n) + k))).isSome := by
  induction n generalizing cur with
  | zero => intro k hk; omega
  | succ n ih =>
    intro k hk
    simp only [probe] at h
    have hcur : cur = UInt16.ofNat (start.toNat + (65536 - (n + 1))) := by
      apply UInt16.toNat.inj
      rw [UInt16.toNat_ofNat', hc]
    split at h
    · rename_i hs
      cases k with
      | zero => rw [Nat.add_zero, ← hcur]; exact hs
      | succ k =>
        split at h
        · rename_i he
          have : (cur + 1).toNat = start.toNat := by rw [he]
          rw [UInt16.toNat_add, hc] at this
          have h1 := start.toNat_lt
          have h2 : (1 : UInt16).toNat = 1 := rfl
          rw [h2] at this
          omega
        · have := ih (by omega) (by
            rw [UInt16.toNat_add, hc]
            have h2 : (1 : UInt16).toNat = 1 := rfl
            rw [h2]; omega) h k (by omega)
          have he : start.toNat + (65536 - (n + 1)) + (k + 1) = start.toNat + (65536 - n) + k := by omega
          rw [he]
          exact this
    · cases h

/-- The search fails only if all ids are taken. -/
theorem probe_none {m : AMap UInt16 Elem} {start : UInt16} (h : probe m start 65536 start = none)
    (i : UInt16) : (m.get i).isSome := by
  have h1 := probe_none_aux (Nat.le_refl _) (by have := start.toNat_lt; omega) h
    ((i.toNat + 65536 - start.toNat) % 65536) (by omega)
  have h2 : UInt16.ofNat (start.toNat + (65536 - 65536) + (i.toNat + 65536 - start.toNat) % 65536) = i := by
    apply UInt16.toNat.inj
    rw [UInt16.toNat_ofNat']
    have := start.toNat_lt
    have := i.toNat_lt
    omega
  rwa [h2] at h1

/-- A free id that is the preferred one is taken. -/
theorem probe_free {m : AMap UInt16 Elem} {start : UInt16} (h : m.get start = none) :
    probe m start 65536 start = some start := by
  rw [show (65536 : Nat) = 65535 + 1 from rfl, probe, h]
  simp

theorem probe_first {m : AMap UInt16 Elem} {start : UInt16} {n : Nat} {p d : Nat} {cur i : UInt16}
    (hn : n + d ≤ 65536) (hc : cur = UInt16.ofNat (p + d))
    (hd : ∀ d', d' < d → (m.get (UInt16.ofNat (p + d'))).isSome = true)
    (h : probe m start n cur = some i) :
    ∃ d, d < 65536 ∧ i = UInt16.ofNat (p + d) ∧ (m.get i).isSome = false ∧
      ∀ d', d' < d → (m.get (UInt16.ofNat (p + d'))).isSome = true := by
  induction n generalizing cur d with
  | zero => cases h
  | succ n ih =>
    simp only [probe] at h
    split at h
    · rename_i hs
      split at h
      · cases h
      · refine ih (d := d + 1) (by omega) ?_ ?_ h
        · rw [hc]
          apply UInt16.toNat.inj
          simp only [UInt16.toNat_add, UInt16.toNat_ofNat', UInt16.reduceToNat]
          omega
        · intro d' h'
          by_cases e : d' = d
          · rw [e, ← hc]; exact hs
          · exact hd d' (by omega)
    · rename_i hs
      injection h with h
      subst h
      exact ⟨d, by omega, hc, by simpa using hs, hd⟩

/-! ## Counting ids -/

/-- All ids. -/
def allIds : List UInt16 := (List.range 65536).map UInt16.ofNat

theorem mem_allIds (i : UInt16) : i ∈ allIds :=
  List.mem_map.mpr ⟨i.toNat, List.mem_range.mpr i.toNat_lt, UInt16.ofNat_toNat⟩

theorem allIds_nodup : allIds.Nodup := by
  unfold allIds
  rw [List.nodup_iff_pairwise_ne, List.pairwise_map]
  apply List.Pairwise.imp_of_mem _ List.nodup_range
  intro a b ha hb hab h
  have h1 : (UInt16.ofNat a).toNat = (UInt16.ofNat b).toNat := by rw [h]
  rw [UInt16.toNat_ofNat', UInt16.toNat_ofNat'] at h1
  have := List.mem_range.mp ha
  have := List.mem_range.mp hb
  omega

theorem allIds_length : allIds.length = 65536 := by simp [allIds]

theorem ids_le {l : List UInt16} (h : l.Nodup) : l.length ≤ 65536 :=
  allIds_length ▸ h.length_le_of_subset (fun i _ => mem_allIds i)

theorem ids_all {l : List UInt16} (h : ∀ i, i ∈ l) : 65536 ≤ l.length :=
  allIds_length ▸ allIds_nodup.length_le_of_subset (fun i _ => h i)

/-! ## Maps with changed values -/

theorem get_mapVal {κ β γ : Type} [DecidableEq κ] (m : AMap κ β) (f : β → γ) (k : κ) :
    AMap.get (m.map (fun p => (p.1, f p.2)) : AMap κ γ) k = (AMap.get m k).map f := by
  induction m with
  | nil => rfl
  | cons p m ih =>
    rw [List.map_cons, AMap.get_cons, AMap.get_cons, ih]
    dsimp only
    split <;> rfl

theorem keys_mapVal {κ β γ : Type} [DecidableEq κ] (m : AMap κ β) (f : β → γ) :
    AMap.keys (m.map (fun p => (p.1, f p.2)) : AMap κ γ) = AMap.keys m := by
  simp [AMap.keys]

/-- How many elements change their visibility. -/
def flips (now : Int64) (l : List (UInt16 × Elem)) : Nat :=
  (l.filter (fun p => p.2.visible ≠ (p.2.updateActive now).visible)).length

theorem activeLoop_eq (now : Int64) (l : List (UInt16 × Elem)) (v : UInt32) :
    activeLoop now l v =
      (l.map (fun p => (p.1, p.2.updateActive now)), v + UInt32.ofNat (flips now l)) := by
  induction l generalizing v with
  | nil => simp [activeLoop, flips]
  | cons p l ih =>
    obtain ⟨i, e⟩ := p
    simp only [activeLoop, ih, List.map_cons, flips, List.filter_cons]
    by_cases h : e.visible ≠ (e.updateActive now).visible
    · simp only [h, if_true, decide_true, List.length_cons, Prod.mk.injEq, true_and, not_false_eq_true,
        ne_eq]
      rw [UInt32.ofNat_add, UInt32.add_comm (UInt32.ofNat _) (UInt32.ofNat 1), UInt32.add_assoc]
      rfl
    · simp only [h, if_false, decide_false, Bool.false_eq_true]

/-! ## The invariant -/

structure Inv (t : Table) : Prop where
  ids : t.svcMap.keys.Nodup
  elem : ∀ i e, t.svcMap.get i = some e → e.id = i ∧ t.idMap.get e.service.toIdentifier = some i
  back : ∀ k i, t.idMap.get k = some i → ∃ e, t.svcMap.get i = some e ∧ e.service.toIdentifier = k
  ctrl : ∃ e, t.svcMap.get 0 = some e ∧ e.service = .control ∧ e.static = true ∧ e.enabled = true
  cons : ∀ i e, t.svcMap.get i = some e → e.service.Constructible

theorem constructible_control {s : Service} (h : s.Constructible) (hc : s.isControl = true) :
    s = .control := by
  cases h <;> first | rfl | exact absurd (of_decide_eq_true hc) nofun

theorem control_identifier {s : Service} (h : s.toIdentifier = Service.control.toIdentifier) :
    s.isControl = true := by
  have : s.toIdentifier.svcType = .controlProtocol := by rw [h]; rfl
  exact decide_eq_true this

theorem isControl_of_identifier {s s' : Service} (h : s.toIdentifier = s'.toIdentifier) :
    s.isControl = s'.isControl := by
  have : s.toIdentifier.svcType = s'.toIdentifier.svcType := by rw [h]
  have : s.svcType = s'.svcType := this
  simp [Service.isControl, this]

/-- Only id 0 is the control service. -/
theorem Inv.control_id {t : Table} (I : Inv t) {i : UInt16} {e : Elem} (h : t.svcMap.get i = some e)
    (hc : e.service.isControl = true) : i = 0 := by
  obtain ⟨e0, h1, h2, _⟩ := I.ctrl
  have h3 := (I.elem i e h).2
  have h4 := (I.elem 0 e0 h1).2
  rw [constructible_control (I.cons i e h) hc] at h3
  rw [h2, h3] at h4
  injection h4

theorem inv_new (now : Int64) : Inv (Table.new now) := by
  have hs : ∀ i, (Table.new now).svcMap.get i =
      if i = 0 then some (Elem.new now 0 .control true true) else none := by
    intro i
    change AMap.get (AMap.insert [] 0 (Elem.new now 0 .control true true)) i = _
    rw [AMap.get_insert]; rfl
  have hi : ∀ k, (Table.new now).idMap.get k =
      if k = Service.control.toIdentifier then some 0 else none := by
    intro k
    change AMap.get (AMap.insert [] Service.control.toIdentifier 0) k = _
    rw [AMap.get_insert]; rfl
  refine ⟨AMap.nodup_insert (by simp [AMap.keys]) _ _, ?_, ?_, ?_, ?_⟩
  · intro i e h
    rw [hs] at h
    split at h
    · injection h with h
      subst h
      rename_i h0
      subst h0
      exact ⟨rfl, by rw [hi]; rfl⟩
    · cases h
  · intro k i h
    rw [hi] at h
    split at h
    · injection h with h
      subst h
      rename_i hk
      exact ⟨_, by rw [hs, if_pos rfl], hk.symm⟩
    · cases h
  · exact ⟨_, by rw [hs, if_pos rfl], rfl, rfl, rfl⟩
  · intro i e h
    rw [hs] at h
    split at h
    · injection h with h
      subst h
      exact .control
    · cases h

theorem addElement_eq {t t' : Table} {e : Elem} {i : UInt16} (h : t.addElement e = some (t', i)) :
    t.svcMap.get i = none ∧ t' = { t with
      idMap := t.idMap.insert e.service.toIdentifier i
      svcMap := t.svcMap.insert i { e with id := i } } := by
  unfold Table.addElement at h
  split at h
  · cases h
  · rename_i id hp
    injection h with h
    injection h with h1 h2
    subst h2
    exact ⟨probe_some hp, h1.symm⟩

theorem addElement_none {t : Table} {e : Elem} (h : t.addElement e = none) (i : UInt16) :
    (t.svcMap.get i).isSome := by
  unfold Table.addElement at h
  split at h
  · rename_i hp
    exact probe_none hp i
  · cases h

theorem inv_addElement {t t' : Table} {e : Elem} {i : UInt16} (I : Inv t)
    (h : t.addElement e = some (t', i)) (hk : t.idMap.get e.service.toIdentifier = none)
    (hc : e.service.Constructible) : Inv t' := by
  obtain ⟨hf, rfl⟩ := addElement_eq h
  have h0 : i ≠ 0 := by
    rintro rfl
    obtain ⟨e0, h0, _⟩ := I.ctrl
    rw [hf] at h0; cases h0
  refine ⟨AMap.nodup_insert I.ids _ _, ?_, ?_, ?_, ?_⟩
  · intro j x hx
    simp only [AMap.get_insert] at hx ⊢
    split at hx
    · injection hx with hx
      subst hx
      rename_i hj
      subst hj
      exact ⟨rfl, by rw [if_pos rfl]⟩
    · obtain ⟨h1, h2⟩ := I.elem j x hx
      refine ⟨h1, ?_⟩
      rw [if_neg, h2]
      intro he
      rw [he, hk] at h2; cases h2
  · intro k j hj
    simp only [AMap.get_insert] at hj ⊢
    split at hj
    · injection hj with hj
      subst hj
      rename_i hke
      exact ⟨{ e with id := i }, if_pos rfl, hke.symm⟩
    · obtain ⟨x, h1, h2⟩ := I.back k j hj
      refine ⟨x, ?_, h2⟩
      rw [if_neg, h1]
      rintro rfl
      rw [hf] at h1; cases h1
  · obtain ⟨x, h1, h2⟩ := I.ctrl
    exact ⟨x, by simp only [AMap.get_insert]; rw [if_neg (Ne.symm h0), h1], h2⟩
  · intro j x hx
    simp only [AMap.get_insert] at hx
    split at hx
    · injection hx with hx
      subst hx
      exact hc
    · exact I.cons j x hx

/-! ## Updating -/

/-- The element with an identity. -/
def Table.find (t : Table) (k : ServiceIdentifier) : Option Elem :=
  match t.idMap.get k with
  | some i => t.svcMap.get i
  | none => none

/-- What `update` does: a known service is changed in place, a new one is added under a free id. -/
inductive Updated (t : Table) (now : Int64) (s : Service) (static : Bool) : Table → UInt16 → Prop
  | known (i : UInt16) (e : Elem) (v w : UInt32) (hi : t.idMap.get s.toIdentifier = some i)
      (he : t.svcMap.get i = some e)
      (hv : v = if e.service ≠ s then t.version + 1 else t.version)
      (hw : w = if e.visible ≠ (e.update now s true).visible ∨
          ((e.update now s true).visible = true ∧ e.service ≠ s) then t.visVersion + 1 else t.visVersion) :
      Updated t now s static
        { t with svcMap := t.svcMap.insert i (e.update now s true), version := v, visVersion := w } i
  | fresh (i : UInt16) (hk : t.idMap.get s.toIdentifier = none) (hi : t.svcMap.get i = none) :
      Updated t now s static
        { idMap := t.idMap.insert s.toIdentifier i
          svcMap := t.svcMap.insert i (Elem.new now i s static true)
          version := t.version + 1, visVersion := t.visVersion + 1 } i

theorem new_visible (now : Int64) (i : UInt16) (s : Service) (static : Bool) :
    (Elem.new now i s static true).visible = true := by cases static <;> rfl

theorem updateElement_eq {now : Int64} {t : Table} {i : UInt16} {s : Service} {e : Elem}
    (he : t.svcMap.get i = some e) : t.updateElement now i s true =
      some ({ t with
        svcMap := t.svcMap.insert i (e.update now s true)
        version := if e.service ≠ s then t.version + 1 else t.version
        visVersion := if e.visible ≠ (e.update now s true).visible ∨
            ((e.update now s true).visible = true ∧ e.service ≠ s) then t.visVersion + 1
          else t.visVersion }, i) := by
  unfold Table.updateElement
  simp only [he]
  by_cases h1 : e.service = s
  · by_cases h2 : e.visible = (e.update now s true).visible
    · simp [h1, h2]
    · simp [h1, h2]
  · by_cases h2 : e.visible = (e.update now s true).visible
    · cases h3 : (e.update now s true).visible <;> simp [h1, h2, h3]
    · simp [h1, h2]

theorem update_updated {farm : Bytes → UInt64} {now : Int64} {t t' : Table} {s : Service} {static : Bool}
    {i : UInt16} (h : t.update farm now s static true = some (t', i)) : Updated t now s static t' i := by
  unfold Table.update at h
  split at h
  · rename_i id hid
    cases he : t.svcMap.get id with
    | none => simp [Table.updateElement, he] at h
    | some e =>
      rw [updateElement_eq he] at h
      injection h with h
      injection h with h1 h2
      subst h2 h1
      exact .known id e _ _ hid he rfl rfl
  · rename_i hk
    unfold Table.addService at h
    simp only [hk, Option.isSome_none, Bool.false_eq_true, if_false, new_visible, if_true] at h
    obtain ⟨h1, rfl⟩ := addElement_eq h
    exact .fresh i hk h1

/-- `update` panics only if the service is new and all ids are taken. -/
theorem update_none {farm : Bytes → UInt64} {now : Int64} {t : Table} {s : Service} {static : Bool}
    (I : Inv t) (h : t.update farm now s static true = none) :
    t.idMap.get s.toIdentifier = none ∧ ∀ i, (t.svcMap.get i).isSome := by
  unfold Table.update at h
  split at h
  · rename_i id hid
    obtain ⟨e, he, _⟩ := I.back _ _ hid
    rw [updateElement_eq he] at h
    cases h
  · rename_i hk
    unfold Table.addService at h
    simp only [hk, Option.isSome_none, Bool.false_eq_true, if_false, new_visible, if_true] at h
    exact ⟨hk, fun i => addElement_none h i⟩

theorem inv_update {now : Int64} {t t' : Table} {s : Service} {static : Bool} {i : UInt16} (I : Inv t)
    (hc : s.Constructible) (h : Updated t now s static t' i) : Inv t' := by
  cases h with
  | known i e v w hi he _ _ =>
    obtain ⟨e1, h1, h2⟩ := I.back _ _ hi
    rw [he] at h1
    injection h1 with h1
    subst h1
    refine ⟨AMap.nodup_insert I.ids _ _, ?_, ?_, ?_, ?_⟩
    · intro j x hx
      simp only [AMap.get_insert] at hx
      split at hx
      · injection hx with hx
        subst hx
        rename_i hj
        subst hj
        exact ⟨(I.elem j e he).1, hi⟩
      · exact I.elem j x hx
    · intro k j hj
      simp only [AMap.get_insert]
      obtain ⟨x, h3, h4⟩ := I.back k j hj
      by_cases hji : j = i
      · subst hji
        rw [he] at h3
        injection h3 with h3
        subst h3
        exact ⟨e.update now s true, if_pos rfl, by rw [← h4, h2]; rfl⟩
      · exact ⟨x, by rw [if_neg hji, h3], h4⟩
    · obtain ⟨x, h3, h4, h5, h6⟩ := I.ctrl
      by_cases hji : (0 : UInt16) = i
      · subst hji
        rw [he] at h3
        injection h3 with h3
        subst h3
        refine ⟨e.update now s true, by simp only [AMap.get_insert, if_true], ?_, h5, rfl⟩
        rw [h4] at h2
        exact constructible_control hc (control_identifier h2.symm)
      · exact ⟨x, by simp only [AMap.get_insert]; rw [if_neg hji, h3], h4, h5, h6⟩
    · intro j x hx
      simp only [AMap.get_insert] at hx
      split at hx
      · injection hx with hx
        subst hx
        exact hc
      · exact I.cons j x hx
  | fresh i hk hi =>
    have h0 : i ≠ 0 := by
      rintro rfl
      obtain ⟨e0, h0, _⟩ := I.ctrl
      rw [hi] at h0; cases h0
    refine ⟨AMap.nodup_insert I.ids _ _, ?_, ?_, ?_, ?_⟩
    · intro j x hx
      simp only [AMap.get_insert] at hx ⊢
      split at hx
      · injection hx with hx
        subst hx
        rename_i hj
        subst hj
        exact ⟨rfl, if_pos rfl⟩
      · obtain ⟨h1, h2⟩ := I.elem j x hx
        refine ⟨h1, ?_⟩
        rw [if_neg, h2]
        intro he
        rw [he, hk] at h2; cases h2
    · intro k j hj
      simp only [AMap.get_insert] at hj ⊢
      split at hj
      · injection hj with hj
        subst hj
        rename_i hke
        exact ⟨Elem.new now i s static true, if_pos rfl, hke.symm⟩
      · obtain ⟨x, h1, h2⟩ := I.back k j hj
        refine ⟨x, ?_, h2⟩
        rw [if_neg, h1]
        rintro rfl
        rw [hi] at h1; cases h1
    · obtain ⟨x, h1, h2⟩ := I.ctrl
      exact ⟨x, by simp only [AMap.get_insert]; rw [if_neg (Ne.symm h0), h1], h2⟩
    · intro j x hx
      simp only [AMap.get_insert] at hx
      split at hx
      · injection hx with hx
        subst hx
        exact hc
      · exact I.cons j x hx

theorem updateActive_eq (now : Int64) (t : Table) : t.updateActive now =
    { t with
      svcMap := t.svcMap.map (fun p => (p.1, p.2.updateActive now))
      visVersion := t.visVersion + UInt32.ofNat (flips now t.svcMap) } := by
  unfold Table.updateActive
  simp only [activeLoop_eq]

theorem updateActive_get (now : Int64) (t : Table) (i : UInt16) :
    (t.updateActive now).svcMap.get i = (t.svcMap.get i).map (·.updateActive now) := by
  rw [updateActive_eq]
  exact get_mapVal t.svcMap (·.updateActive now) i

theorem ua_id (e : Elem) (now : Int64) : (e.updateActive now).id = e.id := by unfold Elem.updateActive; rfl
theorem ua_service (e : Elem) (now : Int64) : (e.updateActive now).service = e.service := by
  unfold Elem.updateActive; rfl
theorem ua_static (e : Elem) (now : Int64) : (e.updateActive now).static = e.static := by
  unfold Elem.updateActive; rfl
theorem ua_enabled (e : Elem) (now : Int64) : (e.updateActive now).enabled = e.enabled := by
  unfold Elem.updateActive; rfl
theorem ua_lastSeen (e : Elem) (now : Int64) : (e.updateActive now).lastSeen = e.lastSeen := by
  unfold Elem.updateActive; rfl

theorem inv_updateActive {t : Table} (I : Inv t) (now : Int64) : Inv (t.updateActive now) := by
  have hid : (t.updateActive now).idMap = t.idMap := rfl
  refine ⟨?_, ?_, ?_, ?_, ?_⟩
  · rw [updateActive_eq]
    exact (keys_mapVal t.svcMap (·.updateActive now)) ▸ I.ids
  · intro i e h
    rw [updateActive_get, Option.map_eq_some_iff] at h
    obtain ⟨x, h1, rfl⟩ := h
    rw [ua_id, ua_service, hid]
    exact I.elem i x h1
  · intro k i h
    rw [hid] at h
    obtain ⟨x, h1, h2⟩ := I.back k i h
    exact ⟨x.updateActive now, by rw [updateActive_get, h1, Option.map_some], by rw [ua_service, h2]⟩
  · obtain ⟨x, h1, h2, h3, h4⟩ := I.ctrl
    exact ⟨x.updateActive now, by rw [updateActive_get, h1, Option.map_some], by rw [ua_service, h2],
      by rw [ua_static, h3], by rw [ua_enabled, h4]⟩
  · intro i e h
    rw [updateActive_get, Option.map_eq_some_iff] at h
    obtain ⟨x, h1, rfl⟩ := h
    rw [ua_service]
    exact I.cons i x h1

/-! ## Histories -/

/-- The result of an operation: an update of one service, or of the active flags. -/
theorem step_cases {farm : Bytes → UInt64} {t t' : Table} {op : TOp} (h : t.step farm op = some t') :
    (∃ now s static i, added op = some (static, now, s) ∧ Updated t now s static t' i) ∨
    (∃ now, op = .updateActive now ∧ t' = t.updateActive now) := by
  cases op with
  | add now s =>
    simp only [Table.step, Table.add, Option.map_eq_some_iff] at h
    obtain ⟨⟨x, i⟩, h1, rfl⟩ := h
    exact .inl ⟨now, s, false, i, rfl, update_updated h1⟩
  | addStatic now s =>
    simp only [Table.step, Table.addStatic, Option.map_eq_some_iff] at h
    obtain ⟨⟨x, i⟩, h1, rfl⟩ := h
    exact .inl ⟨now, s, true, i, rfl, update_updated h1⟩
  | updateActive now =>
    simp only [Table.step] at h
    injection h with h
    exact .inr ⟨now, rfl, h.symm⟩

theorem inv_step {farm : Bytes → UInt64} {t t' : Table} {op : TOp} (I : Inv t) (hs : Services [op])
    (h : t.step farm op = some t') : Inv t' := by
  rcases step_cases h with ⟨now, s, static, i, h1, h2⟩ | ⟨now, rfl, rfl⟩
  · exact inv_update I (hs op List.mem_cons_self _ h1) h2
  · exact inv_updateActive I now

theorem run_append (farm : Bytes → UInt64) (t : Table) (a b : List TOp) :
    t.run farm (a ++ b) = (t.run farm a).bind (fun t' => t'.run farm b) := by
  induction a generalizing t with
  | nil => rfl
  | cons op a ih =>
    simp only [List.cons_append, Table.run]
    cases t.step farm op with
    | none => rfl
    | some t' => exact ih t'

/-- Induction over histories. -/
theorem run_induct {farm : Bytes → UInt64} {P : Table → Prop} {ops : List TOp}
    (hstep : ∀ t t' op, op ∈ ops → P t → t.step farm op = some t' → P t') {t t' : Table} (h0 : P t)
    (h : t.run farm ops = some t') : P t' := by
  induction ops generalizing t with
  | nil =>
    injection h with h
    subst h
    exact h0
  | cons op ops ih =>
    simp only [Table.run] at h
    split at h
    · rename_i t1 h1
      exact ih (fun t t' o ho => hstep t t' o (List.mem_cons_of_mem _ ho))
        (hstep t t1 op List.mem_cons_self h0 h1) h
    · cases h

theorem inv_run {farm : Bytes → UInt64} {t t' : Table} {ops : List TOp} (I : Inv t) (hs : Services ops)
    (h : t.run farm ops = some t') : Inv t' :=
  run_induct (P := Inv) (fun _ _ op ho I h => inv_step I (fun o ho' => by
    rw [List.mem_singleton] at ho'; subst ho'; exact hs o ho) h) I h

/-! ## Loading -/

theorem serviceFromJson_constructible {A : AddrText} {l : List (Bytes × Json)} {s : Service}
    (h : serviceFromJson A l = some s) : s.Constructible := by
  simp only [serviceFromJson, bind, Option.bind_eq_some_iff] at h
  obtain ⟨ty, _, mac, _, ad, _, path, _, h⟩ := h
  split at h
  · cases h; exact .control
  iterate 8
    split at h
    · simp only [Option.bind_eq_some_iff] at h
      obtain ⟨m, _, a, _, h⟩ := h
      injection h with h
      subst h
      constructor
  cases h

theorem fromJson_service {A : AddrText} {now : Int64} {j : Json} {e : Elem}
    (h : Elem.fromJson A now j = some e) : serviceOf A j = some e.service := by
  cases j with
  | obj l =>
    simp only [Elem.fromJson, bind, Option.bind_eq_some_iff] at h
    obtain ⟨s, h1, h2⟩ := h
    injection h2 with h2
    subst h2
    exact h1
  | _ => cases h

theorem serviceOf_constructible {A : AddrText} {j : Json} {s : Service} (h : serviceOf A j = some s) :
    s.Constructible := by
  cases j with
  | obj l => exact serviceFromJson_constructible h
  | _ => cases h

/-- The id of an entry does not matter for its identity. -/
theorem loadLoop_inv {A : AddrText} {now : Int64} {js : List Json} {n : Nat} {t t' : Table} (I : Inv t)
    (hd : (js.filterMap (serviceOf A)).Pairwise (fun a b => a.toIdentifier ≠ b.toIdentifier))
    (hn : ∀ s ∈ js.filterMap (serviceOf A), t.idMap.get s.toIdentifier = none)
    (h : loadLoop A now js n t = .ok t') : Inv t' := by
  induction js generalizing n t with
  | nil =>
    injection h with h
    subst h
    exact I
  | cons j js ih =>
    simp only [loadLoop] at h
    split at h
    · cases h
    · rename_i e he
      have hs := fromJson_service he
      rw [List.filterMap_cons, hs] at hd hn
      simp only at hd hn
      rw [List.pairwise_cons] at hd
      generalize hx : (if j.hasKey (asc "id") = true then e else { e with id := UInt16.ofNat (n + 1) }) = x at h
      have hxs : x.service = e.service := by rw [← hx]; split <;> rfl
      split at h
      · cases h
      · rename_i t1 i ha
        have hk : t.idMap.get x.service.toIdentifier = none := by
          rw [hxs]; exact hn _ List.mem_cons_self
        refine ih (inv_addElement I ha hk (hxs ▸ serviceOf_constructible hs)) hd.2 ?_ h
        intro s hs'
        obtain ⟨_, rfl⟩ := addElement_eq ha
        simp only [AMap.get_insert, hxs]
        rw [if_neg (Ne.symm (hd.1 s hs'))]
        exact hn s (List.mem_cons_of_mem _ hs')

theorem start_inv {A : AddrText} {t : Table} (h : Start A t) : Inv t := by
  cases h with
  | new now => exact inv_new now
  | loaded j now t hd hl =>
    cases j with
    | obj l =>
      simp only [Distinct, entries] at hd
      simp only [Table.fromJson] at hl
      split at hl
      · rename_i svcs hf
        rw [hf] at hd
        refine loadLoop_inv (inv_new now) hd.1 ?_ hl
        intro s hs
        have hc := hd.2 s hs
        change AMap.get (AMap.insert [] Service.control.toIdentifier 0) s.toIdentifier = none
        rw [AMap.get_insert, if_neg]
        · rfl
        · intro he
          rw [control_identifier he] at hc
          cases hc
      · cases hl
    | _ => cases hl

theorem reachable_inv {farm : Bytes → UInt64} {A : AddrText} {t : Table} (h : Reachable farm A t) :
    Inv t := by
  obtain ⟨t0, ops, h1, h2, h3⟩ := h
  exact inv_run (start_inv h1) h2 h3

/-! ## Visible services -/

/-- The visible service with an id. -/
def vis (t : Table) (i : UInt16) : Option Service :=
  (t.svcMap.get i).bind (fun e => if e.visible && !e.service.isControl then some e.service else none)

theorem mem_visible {t : Table} (I : Inv t) (i : UInt16) (s : Service) :
    (i, s) ∈ t.visible ↔ vis t i = some s := by
  simp only [Table.visible, List.mem_map, List.mem_filter, vis, Option.bind_eq_some_iff, Prod.mk.injEq]
  constructor
  · rintro ⟨e, ⟨⟨p, hp, rfl⟩, hv⟩, h1, h2⟩
    have hg := AMap.get_of_mem (k := p.1) (v := p.2) I.ids hp
    have hi := (I.elem _ _ hg).1
    refine ⟨p.2, ?_, ?_⟩
    · rw [← h1, hi]; exact hg
    · rw [if_pos hv, h2]
  · rintro ⟨e, h1, h2⟩
    split at h2
    · injection h2 with h2
      rename_i hv
      exact ⟨e, ⟨⟨(i, e), AMap.get_mem h1, rfl⟩, hv⟩, (I.elem i e h1).1, h2⟩
    · cases h2

theorem sameVisible_iff {t t' : Table} (I : Inv t) (I' : Inv t') :
    SameVisible t t' ↔ ∀ i, vis t i = vis t' i := by
  constructor
  · intro h i
    apply Option.ext
    intro s
    rw [← mem_visible I, ← mem_visible I']
    exact h (i, s)
  · rintro h ⟨i, s⟩
    rw [mem_visible I, mem_visible I', h]

theorem get_vis {t : Table} (i : UInt16) (s : Service) :
    vis t i = some s ↔ t.get i = some s ∧ s.isControl = false := by
  unfold vis Table.get
  cases hg : t.svcMap.get i with
  | none => simp
  | some e =>
    simp only [Option.bind_some]
    cases hv : e.visible <;> cases hc : e.service.isControl <;> simp
    · rintro rfl; rw [hc]
    · rintro rfl; rw [hc]
    · rintro rfl; rw [hc]

/-! ## Versions -/

theorem flips_zero (now : Int64) (l : List (UInt16 × Elem)) :
    flips now l = 0 ↔ ∀ p ∈ l, p.2.visible = (p.2.updateActive now).visible := by
  unfold flips
  rw [List.length_eq_zero_iff, List.filter_eq_nil_iff]
  simp

theorem step_version {farm : Bytes → UInt64} {t t' : Table} {op : TOp} (I : Inv t) (hs : Services [op])
    (h : t.step farm op = some t') :
    ∃ n, n ≤ cost op ∧ t'.visVersion = t.visVersion + UInt32.ofNat n ∧ (n = 0 ↔ SameVisible t t') := by
  have I' := inv_step I hs h
  rw [sameVisible_iff I I']
  have hone : ∀ v : UInt32, v + UInt32.ofNat 1 = v + 1 := fun _ => rfl
  have hzero : ∀ v : UInt32, v + UInt32.ofNat 0 = v := by intro v; simp
  rcases step_cases h with ⟨now, s, static, i, h1, h2⟩ | ⟨now, rfl, rfl⟩
  · have hcost : cost op = 1 := by cases op <;> first | rfl | cases h1
    have hcs : s.Constructible := hs op List.mem_cons_self _ h1
    cases h2 with
    | known i e v w hi he hv hw =>
      obtain ⟨e1, k1, k2⟩ := I.back _ _ hi
      rw [he] at k1
      injection k1 with k1
      subst k1
      have hctl := isControl_of_identifier k2
      have hvis : ∀ T : Table, T.svcMap = t.svcMap.insert i (e.update now s true) →
          ((∀ j, vis t j = vis T j) ↔ ¬ (e.visible ≠ (e.update now s true).visible ∨
          ((e.update now s true).visible = true ∧ e.service ≠ s))) := by
        intro T hT
        have hj : ∀ j, j ≠ i → vis t j = vis T j := by
          intro j hj
          simp only [vis, hT, AMap.get_insert, if_neg hj]
        have hi' : (∀ j, vis t j = vis T j) ↔ vis t i = vis T i := by
          constructor
          · exact fun h => h i
          · intro h j
            by_cases hji : j = i
            · rw [hji, h]
            · exact hj j hji
        rw [hi']
        simp only [vis, hT, AMap.get_insert, he, Option.bind_some, if_true]
        have hus : (e.update now s true).service = s := rfl
        rw [hus]
        cases hc : s.isControl
        · rw [hc] at hctl
          rw [hctl]
          cases hv1 : e.visible <;> cases hv2 : (e.update now s true).visible <;> simp
        · rw [hc] at hctl
          rw [hctl]
          have hi0 := I.control_id he hctl
          subst hi0
          obtain ⟨e0, c1, c2, c3, c4⟩ := I.ctrl
          rw [he] at c1
          injection c1 with c1
          subst c1
          have hss := constructible_control hcs hc
          simp [Elem.visible, Elem.update, c3, c4, c2, hss]
      rw [hvis _ rfl]
      dsimp only
      rw [hw]
      by_cases hx : e.visible ≠ (e.update now s true).visible ∨
          ((e.update now s true).visible = true ∧ e.service ≠ s)
      · exact ⟨1, by omega, by rw [if_pos hx, hone], ⟨nofun, fun h => absurd hx h⟩⟩
      · exact ⟨0, by omega, by rw [if_neg hx, hzero], ⟨fun _ => hx, fun _ => rfl⟩⟩
    | fresh i hk hi =>
      refine ⟨1, by omega, hone _ ▸ rfl, ⟨nofun, fun h => ?_⟩⟩
      have := h i
      simp only [vis, AMap.get_insert, if_true, hi, Option.bind_none, Option.bind_some, new_visible,
        Bool.true_and] at this
      have hes : (Elem.new now i s static true).service = s := rfl
      rw [hes] at this
      cases hc : s.isControl
      · rw [hc] at this
        simp at this
      · exfalso
        obtain ⟨e0, c1, c2, _⟩ := I.ctrl
        have c3 := (I.elem 0 e0 c1).2
        rw [constructible_control hcs hc, ← c2, c3] at hk
        cases hk
  · refine ⟨flips now t.svcMap, ?_, ?_, ?_⟩
    · have h1 : flips now t.svcMap ≤ t.svcMap.length := List.length_filter_le _ _
      have h2 : t.svcMap.length = t.svcMap.keys.length := by simp [AMap.keys]
      have h3 := ids_le I.ids
      simp only [cost]
      omega
    · rw [updateActive_eq]
    · rw [flips_zero]
      constructor
      · intro h i
        simp only [vis, updateActive_get]
        cases hg : t.svcMap.get i with
        | none => rfl
        | some e =>
          have := h (i, e) (AMap.get_mem hg)
          simp only [Option.map_some, Option.bind_some, ua_service, ← this]
      · rintro h ⟨i, e⟩ hp
        have hg := AMap.get_of_mem I.ids hp
        have := h i
        simp only [vis, updateActive_get, hg, Option.map_some, Option.bind_some, ua_service] at this
        dsimp only
        cases hc : e.service.isControl
        · rw [hc] at this
          revert this
          cases e.visible <;> cases (e.updateActive now).visible <;> simp
        · have hi0 := I.control_id hg hc
          subst hi0
          obtain ⟨e0, c1, c2, c3, c4⟩ := I.ctrl
          rw [hg] at c1
          injection c1 with c1
          subst c1
          simp only [Elem.visible, ua_static, ua_enabled, c3, c4, if_true]

theorem services_cons {op : TOp} {ops : List TOp} (h : Services (op :: ops)) :
    Services [op] ∧ Services ops := by
  constructor
  · intro o ho
    rw [List.mem_singleton] at ho
    subst ho
    exact h o List.mem_cons_self
  · exact fun o ho => h o (List.mem_cons_of_mem _ ho)

theorem services_append {a b : List TOp} (h : Services (a ++ b)) : Services a ∧ Services b :=
  ⟨fun o ho => h o (List.mem_append_left _ ho), fun o ho => h o (List.mem_append_right _ ho)⟩

theorem run_version {farm : Bytes → UInt64} {ops : List TOp} {t t' : Table} (I : Inv t)
    (hs : Services ops) (h : t.run farm ops = some t') :
    ∃ n, n ≤ costs ops ∧ t'.visVersion = t.visVersion + UInt32.ofNat n ∧ (n = 0 → SameVisible t t') := by
  induction ops generalizing t with
  | nil =>
    injection h with h
    subst h
    exact ⟨0, Nat.le_refl _, by simp, fun _ _ => Iff.rfl⟩
  | cons op ops ih =>
    obtain ⟨hs1, hs2⟩ := services_cons hs
    simp only [Table.run] at h
    split at h
    · rename_i t1 h1
      obtain ⟨n, a1, a2, a3⟩ := step_version I hs1 h1
      obtain ⟨m, b1, b2, b3⟩ := ih (inv_step I hs1 h1) hs2 h
      refine ⟨n + m, ?_, ?_, ?_⟩
      · simp only [costs, List.map_cons, List.sum_cons] at b1 ⊢
        omega
      · rw [b2, a2, UInt32.ofNat_add, UInt32.add_assoc]
      · intro hz p
        rw [a3.mp (by omega) p, b3 (by omega) p]
    · cases h

/-! ## Ids are stable -/

theorem updated_idMap {t t' : Table} {now : Int64} {s : Service} {static : Bool} {i : UInt16}
    (h : Updated t now s static t' i) :
    t'.idMap.get s.toIdentifier = some i ∧
    ∀ k j, t.idMap.get k = some j → t'.idMap.get k = some j := by
  cases h with
  | known i e v w hi he hv hw => exact ⟨hi, fun _ _ h => h⟩
  | fresh i hk hi =>
    refine ⟨by simp only [AMap.get_insert, if_true], ?_⟩
    intro k j hj
    simp only [AMap.get_insert]
    rw [if_neg, hj]
    rintro rfl
    rw [hk] at hj; cases hj

theorem step_idMap {farm : Bytes → UInt64} {t t' : Table} {op : TOp} (h : t.step farm op = some t')
    (k : ServiceIdentifier) (j : UInt16) (hj : t.idMap.get k = some j) : t'.idMap.get k = some j := by
  rcases step_cases h with ⟨now, s, static, i, h1, h2⟩ | ⟨now, rfl, rfl⟩
  · exact (updated_idMap h2).2 k j hj
  · exact hj

theorem run_idMap {farm : Bytes → UInt64} {t t' : Table} {ops : List TOp} (h : t.run farm ops = some t')
    (k : ServiceIdentifier) (j : UInt16) (hj : t.idMap.get k = some j) : t'.idMap.get k = some j :=
  run_induct (P := fun t => t.idMap.get k = some j) (fun _ _ _ _ h1 h2 => step_idMap h2 k j h1) hj h

/-! ## What becomes of a service -/

/-- Static and enabled flags, last seen, service. -/
def recOf (e : Elem) : Bool × Bool × Int64 × Service := (e.static, e.enabled, e.lastSeen, e.service)

/-- Effect of an addition on these. -/
def evolve (o : Option (Bool × Bool × Int64 × Service)) (a : Bool × Int64 × Service) :
    Option (Bool × Bool × Int64 × Service) :=
  some ((o.map (·.1)).getD a.1, true, a.2.1, a.2.2)

theorem updated_find {t t' : Table} {now : Int64} {s : Service} {static : Bool} {i : UInt16} (I : Inv t)
    (h : Updated t now s static t' i) (k : ServiceIdentifier) :
    (t'.find k).map recOf = if s.toIdentifier = k then evolve ((t.find k).map recOf) (static, now, s)
      else (t.find k).map recOf := by
  cases h with
  | known i e v w hi he hv hw =>
    split
    · rename_i hk
      subst hk
      simp only [Table.find, hi, AMap.get_insert, if_true, he, Option.map_some]
      rfl
    · rename_i hk
      simp only [Table.find]
      cases hj : t.idMap.get k with
      | none => rfl
      | some j =>
        simp only [AMap.get_insert]
        rw [if_neg]
        rintro rfl
        obtain ⟨e1, h1, h2⟩ := I.back _ _ hi
        obtain ⟨e2, h3, h4⟩ := I.back _ _ hj
        rw [h1] at h3
        injection h3 with h3
        subst h3
        exact hk (h2.symm.trans h4)
  | fresh i hk hi =>
    split
    · rename_i hk'
      subst hk'
      simp only [Table.find, AMap.get_insert, if_true, hk, Option.map_some, Option.map_none]
      rfl
    · rename_i hk'
      simp only [Table.find, AMap.get_insert, if_neg (Ne.symm hk')]
      cases hj : t.idMap.get k with
      | none => rfl
      | some j =>
        simp only
        rw [if_neg]
        rintro rfl
        obtain ⟨e2, h3, h4⟩ := I.back _ _ hj
        rw [hi] at h3; cases h3

theorem updateActive_find (t : Table) (now : Int64) (k : ServiceIdentifier) :
    (t.updateActive now).find k = (t.find k).map (·.updateActive now) := by
  have hid : (t.updateActive now).idMap = t.idMap := rfl
  unfold Table.find
  rw [hid]
  cases t.idMap.get k with
  | none => rfl
  | some i => exact updateActive_get now t i

theorem run_find {farm : Bytes → UInt64} {ops : List TOp} {t t' : Table} (I : Inv t) (hs : Services ops)
    (h : t.run farm ops = some t') (k : ServiceIdentifier) :
    (t'.find k).map recOf = (adds k ops).foldl evolve ((t.find k).map recOf) := by
  induction ops generalizing t with
  | nil =>
    injection h with h
    subst h
    rfl
  | cons op ops ih =>
    obtain ⟨hs1, hs2⟩ := services_cons hs
    simp only [Table.run] at h
    split at h
    · rename_i t1 h1
      rw [ih (inv_step I hs1 h1) hs2 h]
      rcases step_cases h1 with ⟨now, s, static, i, h2, h3⟩ | ⟨now, rfl, rfl⟩
      · rw [updated_find I h3 k]
        have : adds k (op :: ops) = (if s.toIdentifier = k then [(static, now, s)] else []) ++ adds k ops := by
          unfold adds
          rw [List.filterMap_cons, h2]
          simp only [List.filter_cons]
          split <;> simp_all
        rw [this, List.foldl_append]
        split <;> rfl
      · have : adds k (.updateActive now :: ops) = adds k ops := rfl
        have hf : (recOf ∘ fun e : Elem => e.updateActive now) = recOf := by
          funext e
          simp only [Function.comp_apply, recOf, ua_static, ua_enabled, ua_lastSeen, ua_service]
        rw [this, updateActive_find, Option.map_map, hf]
    · cases h

theorem foldl_evolve_none (l : List (Bool × Int64 × Service)) (a : Bool × Int64 × Service) :
    (a :: l).foldl evolve none = some (a.1, true, ((a :: l).getLast nofun).2.1, ((a :: l).getLast nofun).2.2) := by
  have key : ∀ (l : List (Bool × Int64 × Service)) (o : Bool × Bool × Int64 × Service) (b),
      (b :: l).foldl evolve (some o) =
        some (o.1, true, ((b :: l).getLast nofun).2.1, ((b :: l).getLast nofun).2.2) := by
    intro l
    induction l with
    | nil => intro o b; rfl
    | cons c l ih =>
      intro o b
      rw [List.foldl_cons]
      change (c :: l).foldl evolve (some (o.1, true, b.2.1, b.2.2)) = _
      rw [ih, List.getLast_cons (List.cons_ne_nil c l)]
  cases l with
  | nil => rfl
  | cons b l =>
    rw [List.foldl_cons]
    change (b :: l).foldl evolve (some (a.1, true, a.2.1, a.2.2)) = _
    rw [key, List.getLast_cons (List.cons_ne_nil b l)]

/-- A service is visible exactly if the element with its identity is, and shows this service. -/
theorem visible_find {t : Table} (I : Inv t) (s : Service) :
    (∃ i, (i, s) ∈ t.visible) ↔ s.isControl = false ∧
      ∃ e, t.find s.toIdentifier = some e ∧ e.service = s ∧ e.visible = true := by
  constructor
  · rintro ⟨i, h⟩
    rw [mem_visible I, vis, Option.bind_eq_some_iff] at h
    obtain ⟨e, h1, h2⟩ := h
    split at h2
    · rename_i hv
      injection h2 with h2
      subst h2
      simp only [Bool.and_eq_true, Bool.not_eq_true'] at hv
      refine ⟨hv.2, e, ?_, rfl, hv.1⟩
      simp only [Table.find, (I.elem i e h1).2, h1]
    · cases h2
  · rintro ⟨hc, e, h1, h2, h3⟩
    unfold Table.find at h1
    split at h1
    · rename_i i hi
      refine ⟨i, ?_⟩
      rw [mem_visible I, vis, h1]
      simp [h2, h3, hc]
    · cases h1

/-- When the element was seen recently enough. -/
theorem active_iff (e : Elem) (now : Int64) (h : e.lastSeen.toInt + 1200 < 9223372036854775808) :
    (e.updateActive now).active = true ↔ now.toInt ≤ e.lastSeen.toInt + 1200 := by
  have h1 : (e.updateActive now).active = decide (now ≤ e.lastSeen + activeThreshold) := by
    simp only [Elem.updateActive]
  have h2 : activeThreshold.toInt = 1200 := by decide
  rw [h1, decide_eq_true_eq, Int64.le_iff_toInt_le, Int64.toInt_add, h2]
  have h3 := e.lastSeen.le_toInt
  rw [Int.bmod_eq_of_le (by omega) (by omega)]

/-! ## Hash input -/

theorem le32_length (v : UInt32) : (le32 v).length = 4 := by simp [le32, be32]

theorem hashOption_head {α : Type} (f : α → Bytes) (o : Option α) :
    hashOption f o = le32 (if o.isSome then 1 else 0) ++ (o.map f).getD [] := by
  cases o <;> simp [hashOption]

theorem append_inj_len {a b c d : Bytes} (hl : a.length = c.length) (h : a ++ b = c ++ d) :
    a = c ∧ b = d := List.append_inj h hl

theorem discriminant_inj {a b : ServiceType} (h : le32 (discriminant a) = le32 (discriminant b)) :
    a = b := by
  revert h
  cases a <;> cases b <;> decide +kernel

theorem hashOption_inj {α : Type} {f : α → Bytes} (hf : ∀ a b r r', f a ++ r = f b ++ r' → a = b ∧ r = r')
    {o o' : Option α} {r r' : Bytes} (h : hashOption f o ++ r = hashOption f o' ++ r') : o = o' ∧ r = r' := by
  cases o with
  | none =>
    cases o' with
    | none =>
      simp only [hashOption] at h
      exact ⟨rfl, (append_inj_len rfl h).2⟩
    | some b =>
      simp only [hashOption, List.append_assoc] at h
      exact absurd (append_inj_len (by simp only [le32_length]) h).1 (by decide)
  | some a =>
    cases o' with
    | none =>
      simp only [hashOption, List.append_assoc] at h
      exact absurd (append_inj_len (by simp only [le32_length]) h).1 (by decide)
    | some b =>
      simp only [hashOption, List.append_assoc] at h
      obtain ⟨rfl, h2⟩ := hf a b _ _ (append_inj_len rfl h).2
      exact ⟨rfl, h2⟩

theorem hashInput_inj {k k' : ServiceIdentifier} (h : hashInput k = hashInput k') : k = k' := by
  obtain ⟨ty, mac, port, path⟩ := k
  obtain ⟨ty', mac', port', path'⟩ := k'
  simp only [hashInput, List.append_assoc] at h
  obtain ⟨h1, g1⟩ := append_inj_len (by simp only [le32_length]) h
  have := discriminant_inj h1
  subst this
  obtain ⟨rfl, g2⟩ := hashOption_inj (f := hashMac) (by
    intro a b r r' h
    simp only [hashMac, List.append_assoc] at h
    have h := (append_inj_len rfl h).2
    simp only [MacAddr.octets, List.cons_append, List.nil_append, List.cons.injEq] at h
    obtain ⟨h0, h1, h2, h3, h4, h5, h6⟩ := h
    refine ⟨?_, h6⟩
    cases a; cases b
    simp_all) g1
  obtain ⟨rfl, g3⟩ := hashOption_inj (f := le16) (by
    intro a b r r' h
    obtain ⟨h1, h2⟩ := append_inj_len (by simp [le16, be16]) h
    refine ⟨?_, h2⟩
    have h3 : be16 a = be16 b := List.reverse_inj.mp h1
    simp only [be16, List.cons.injEq, and_true] at h3
    obtain ⟨h3, h4⟩ := h3
    have h3 := congrArg UInt8.toNat h3
    have h4 := congrArg UInt8.toNat h4
    simp only [UInt8.toNat_ofNat'] at h3 h4
    have := a.toNat_lt
    have := b.toNat_lt
    apply UInt16.toNat.inj
    omega) g2
  have : path = path' := by
    rw [hashOption_head, hashOption_head] at g3
    obtain ⟨g4, g5⟩ := append_inj_len (by simp only [le32_length]) g3
    cases path with
    | none =>
      cases path' with
      | none => rfl
      | some b => exact absurd (show le32 0 = le32 1 from g4) (by decide)
    | some a =>
      cases path' with
      | none => exact absurd (show le32 1 = le32 0 from g4) (by decide)
      | some b =>
        simp only [Option.map_some, Option.getD_some, hashString] at g5
        rw [List.append_inj_left' g5 rfl]
  rw [this]

/-! ## Loading a saved table -/

theorem asI64_toInt (x : Int64) : Json.asI64 (.num x.toInt) = some x := by
  have h1 := x.le_toInt
  have h2 := x.toInt_lt
  simp only [Json.asI64]
  rw [if_pos (by omega), Int64.ofInt_toInt]

theorem asU16_toNat (x : UInt16) : Json.asU16 (.num (x.toNat : Int)) = some x := by
  have h1 := x.toNat_lt
  simp only [Json.asU16]
  rw [if_pos (by omega), Int.toNat_natCast, UInt16.ofNat_toNat]

theorem field_cons (a : Bytes) (v : Json) (l : List (Bytes × Json)) (k : Bytes) :
    Json.field ((a, v) :: l) k = if a = k then some v else Json.field l k := by
  unfold Json.field
  by_cases h : a = k
  · simp [h]
  · simp [h]

/-- The fields of a saved element. -/
def fields (A : AddrText) (e : Elem) : List (Bytes × Json) := [
    (asc "id", .num e.id.toNat),
    (asc "svc_type", .num e.service.svcType.code.toNat),
    (asc "mac", .str (e.service.mac.getD .zero).format),
    (asc "address", .str (A.format (e.service.address.getD ⟨.v4 0 0 0 0, 0⟩))),
    (asc "path", .str (e.service.path.getD [])),
    (asc "static_svc", .bool e.static),
    (asc "last_seen", .num e.lastSeen.toInt),
    (asc "active", .bool e.active)]

theorem toJson_fields (A : AddrText) (e : Elem) : e.toJson A = .obj (fields A e) := by
  unfold Elem.toJson fields
  rfl

theorem field_id (A : AddrText) (e : Elem) :
    Json.field (fields A e) (asc "id") = some (.num e.id.toNat) := by
  unfold fields
  rw [field_cons, if_pos rfl]

theorem field_type (A : AddrText) (e : Elem) :
    Json.field (fields A e) (asc "svc_type") = some (.num e.service.svcType.code.toNat) := by
  unfold fields
  rw [field_cons, if_neg (by decide +kernel), field_cons, if_pos rfl]

theorem field_mac (A : AddrText) (e : Elem) :
    Json.field (fields A e) (asc "mac") = some (.str (e.service.mac.getD .zero).format) := by
  unfold fields
  rw [field_cons, if_neg (by decide +kernel), field_cons, if_neg (by decide +kernel), field_cons, if_pos rfl]

theorem field_address (A : AddrText) (e : Elem) :
    Json.field (fields A e) (asc "address") =
      some (.str (A.format (e.service.address.getD ⟨.v4 0 0 0 0, 0⟩))) := by
  unfold fields
  rw [field_cons, if_neg (by decide +kernel), field_cons, if_neg (by decide +kernel), field_cons,
    if_neg (by decide +kernel), field_cons, if_pos rfl]

theorem field_path (A : AddrText) (e : Elem) :
    Json.field (fields A e) (asc "path") = some (.str (e.service.path.getD [])) := by
  unfold fields
  rw [field_cons, if_neg (by decide +kernel), field_cons, if_neg (by decide +kernel), field_cons,
    if_neg (by decide +kernel), field_cons, if_neg (by decide +kernel), field_cons, if_pos rfl]

theorem field_static (A : AddrText) (e : Elem) :
    Json.field (fields A e) (asc "static_svc") = some (.bool e.static) := by
  unfold fields
  rw [field_cons, if_neg (by decide +kernel), field_cons, if_neg (by decide +kernel), field_cons,
    if_neg (by decide +kernel), field_cons, if_neg (by decide +kernel), field_cons,
    if_neg (by decide +kernel), field_cons, if_pos rfl]

theorem field_seen (A : AddrText) (e : Elem) :
    Json.field (fields A e) (asc "last_seen") = some (.num e.lastSeen.toInt) := by
  unfold fields
  rw [field_cons, if_neg (by decide +kernel), field_cons, if_neg (by decide +kernel), field_cons,
    if_neg (by decide +kernel), field_cons, if_neg (by decide +kernel), field_cons,
    if_neg (by decide +kernel), field_cons, if_neg (by decide +kernel), field_cons, if_pos rfl]

theorem field_active (A : AddrText) (e : Elem) :
    Json.field (fields A e) (asc "active") = some (.bool e.active) := by
  unfold fields
  rw [field_cons, if_neg (by decide +kernel), field_cons, if_neg (by decide +kernel), field_cons,
    if_neg (by decide +kernel), field_cons, if_neg (by decide +kernel), field_cons,
    if_neg (by decide +kernel), field_cons, if_neg (by decide +kernel), field_cons,
    if_neg (by decide +kernel), field_cons, if_pos rfl]

theorem serviceFromJson_fields {A : AddrText} {l : List (Bytes × Json)} {ty : UInt16} {mac address path : Bytes}
    {m : MacAddr} {a : SocketAddr}
    (h1 : (Json.field l (asc "svc_type")).bind Json.asU16 = some ty)
    (h2 : (Json.field l (asc "mac")).bind Json.asStr = some mac)
    (h3 : (Json.field l (asc "address")).bind Json.asStr = some address)
    (h4 : (Json.field l (asc "path")).bind Json.asStr = some path)
    (h5 : MacAddr.parse mac = some m) (h6 : A.parse address = some a) :
    serviceFromJson A l =
      if ty = 0 then some .control
      else if ty = 1 then some (.rtsp m a path)
      else if ty = 2 then some (.lockedRtsp m a (if path.isEmpty then none else some path))
      else if ty = 3 then some (.unknownRtsp m a)
      else if ty = 4 then some (.unsupportedRtsp m a path)
      else if ty = 5 then some (.http m a)
      else if ty = 6 then some (.mjpeg m a path)
      else if ty = 7 then some (.lockedMjpeg m a (if path.isEmpty then none else some path))
      else if ty = 0xffff then some (.tcp m a)
      else none := by
  unfold serviceFromJson
  rw [h1, h2, h3, h4]
  have hp : (if path.isEmpty then none else some path).getD [] = path := by cases path <;> rfl
  simp only [Option.bind_some, bind, h5, h6, hp]

theorem service_json {A : AddrText} (hA : AddrText.Faithful A) {e : Elem} (hc : e.service.Constructible)
    (hn : e.service.isControl = false) (hp : ¬ EmptyLockedPath e.service) :
    serviceOf A (e.toJson A) = some e.service := by
  rw [toJson_fields]
  change serviceFromJson A (fields A e) = _
  rw [serviceFromJson_fields (by rw [field_type, Option.bind_some, asU16_toNat])
    (by rw [field_mac, Option.bind_some]; rfl) (by rw [field_address, Option.bind_some]; rfl)
    (by rw [field_path, Option.bind_some]; rfl) (mac_roundtrip _) (hA _)]
  obtain ⟨id, s, st, en, ls, ac⟩ := e
  dsimp only at *
  cases hc with
  | control => cases hn
  | rtsp m a p => simp [Service.rtsp, ServiceType.code]
  | lockedRtsp m a p =>
    rcases p with _ | _ | ⟨x, p⟩
    · simp [Service.lockedRtsp, ServiceType.code]
    · exact absurd ⟨.inl rfl, rfl⟩ hp
    · simp [Service.lockedRtsp, ServiceType.code]
  | unknownRtsp m a => simp [Service.unknownRtsp, ServiceType.code]
  | unsupportedRtsp m a p => simp [Service.unsupportedRtsp, ServiceType.code]
  | http m a => simp [Service.http, ServiceType.code]
  | mjpeg m a p => simp [Service.mjpeg, ServiceType.code]
  | lockedMjpeg m a p =>
    rcases p with _ | _ | ⟨x, p⟩
    · simp [Service.lockedMjpeg, ServiceType.code]
    · exact absurd ⟨.inr rfl, rfl⟩ hp
    · simp [Service.lockedMjpeg, ServiceType.code]
  | tcp m a => simp [Service.tcp, ServiceType.code]

theorem fromJson_fields {A : AddrText} {now : Int64} {l : List (Bytes × Json)} {s : Service} {id : UInt16}
    {seen : Int64} {st ac : Bool} (h : serviceFromJson A l = some s)
    (h1 : (Json.field l (asc "id")).bind Json.asU16 = some id)
    (h2 : (Json.field l (asc "static_svc")).bind Json.asBool = some st)
    (h3 : (Json.field l (asc "last_seen")).bind Json.asI64 = some seen)
    (h4 : (Json.field l (asc "active")).bind Json.asBool = some ac) :
    Elem.fromJson A now (.obj l) = some ⟨id, s, st, false, seen, ac⟩ := by
  simp only [Elem.fromJson, h, h1, h2, h3, h4, bind, Option.bind_some, Option.getD_some]

theorem elem_json {A : AddrText} (hA : AddrText.Faithful A) (now : Int64) {e : Elem}
    (hc : e.service.Constructible) (hn : e.service.isControl = false)
    (hp : ¬ EmptyLockedPath e.service) :
    Elem.fromJson A now (e.toJson A) = some { e with enabled := false } := by
  have h := service_json hA hc hn hp
  rw [toJson_fields] at h ⊢
  change serviceFromJson A (fields A e) = _ at h
  exact fromJson_fields h (by rw [field_id, Option.bind_some, asU16_toNat])
    (by rw [field_static, Option.bind_some]; rfl) (by rw [field_seen, Option.bind_some, asI64_toInt])
    (by rw [field_active, Option.bind_some]; rfl)

theorem addElement_free {t : Table} {e : Elem} (h : t.svcMap.get e.id = none) :
    t.addElement e = some ({ t with
      idMap := t.idMap.insert e.service.toIdentifier e.id
      svcMap := t.svcMap.insert e.id e }, e.id) := by
  unfold Table.addElement
  rw [probe_free h]

theorem loadLoop_cons {A : AddrText} {now : Int64} {j : Json} {js : List Json} {n : Nat} {t t' : Table}
    {e : Elem} {i : UInt16} (h1 : Elem.fromJson A now j = some e) (h2 : j.hasKey (asc "id") = true)
    (h3 : t.addElement e = some (t', i)) :
    loadLoop A now (j :: js) n t = loadLoop A now js (n + 1) t' := by
  simp only [loadLoop, h1, h2, if_true, h3]

/-- Loading entries whose ids are free and distinct puts each under its id. -/
theorem loadLoop_saved {A : AddrText} (hA : AddrText.Faithful A) (now : Int64) (es : List Elem)
    (hc : ∀ e ∈ es, e.service.Constructible ∧ e.service.isControl = false ∧ ¬ EmptyLockedPath e.service)
    (hn : (es.map (·.id)).Nodup) (n : Nat) (t : Table) (hf : ∀ e ∈ es, t.svcMap.get e.id = none) :
    ∃ t', loadLoop A now (es.map (Elem.toJson A)) n t = .ok t' ∧
      (∀ e ∈ es, t'.svcMap.get e.id = some { e with enabled := false }) ∧
      (∀ i, (∀ e ∈ es, e.id ≠ i) → t'.svcMap.get i = t.svcMap.get i) ∧
      (∀ i, t'.svcMap.get i = none → t.svcMap.get i = none) := by
  induction es generalizing n t with
  | nil => exact ⟨t, rfl, nofun, fun _ _ => rfl, fun _ h => h⟩
  | cons e es ih =>
    rw [List.map_cons, List.nodup_cons] at hn
    obtain ⟨h1, h2, h3⟩ := hc e List.mem_cons_self
    have hid : (e.toJson A).hasKey (asc "id") = true := by
      rw [toJson_fields]
      simp only [Json.hasKey, field_id, Option.isSome_some]
    have hfree : t.svcMap.get ({ e with enabled := false } : Elem).id = none := hf e List.mem_cons_self
    have hne : ∀ x ∈ es, x.id ≠ e.id := fun x hx he => hn.1 (he ▸ List.mem_map_of_mem hx)
    obtain ⟨t', k1, k2, k3, k4⟩ := ih (fun x hx => hc x (List.mem_cons_of_mem _ hx)) hn.2 (n + 1)
      { t with
        idMap := t.idMap.insert e.service.toIdentifier e.id
        svcMap := t.svcMap.insert e.id { e with enabled := false } } (by
          intro x hx
          simp only [AMap.get_insert]
          rw [if_neg (hne x hx)]
          exact hf x (List.mem_cons_of_mem _ hx))
    refine ⟨t', ?_, ?_, ?_, ?_⟩
    · rw [List.map_cons]
      rw [loadLoop_cons (elem_json hA now h1 h2 h3) hid (addElement_free hfree)]
      exact k1
    · intro x hx
      rcases List.mem_cons.mp hx with rfl | hx
      · rw [k3 _ hne]
        simp only [AMap.get_insert, if_true]
      · exact k2 x hx
    · intro i hi
      rw [k3 i (fun x hx => hi x (List.mem_cons_of_mem _ hx))]
      simp only [AMap.get_insert]
      rw [if_neg (Ne.symm (hi e List.mem_cons_self))]
    · intro i hi
      have := k4 i hi
      simp only [AMap.get_insert] at this
      split at this
      · cases this
      · exact this

/-- The elements that are saved. -/
def toSave (t : Table) : List Elem := (t.svcMap.map (·.2)).filter (fun e => !e.service.isControl)

theorem mem_toSave {t : Table} (I : Inv t) (e : Elem) :
    e ∈ toSave t ↔ t.svcMap.get e.id = some e ∧ e.service.isControl = false := by
  simp only [toSave, List.mem_filter, List.mem_map, Bool.not_eq_true']
  constructor
  · rintro ⟨⟨p, hp, rfl⟩, h⟩
    have hg := AMap.get_of_mem (k := p.1) (v := p.2) I.ids hp
    rw [(I.elem _ _ hg).1]
    exact ⟨hg, h⟩
  · rintro ⟨h1, h2⟩
    exact ⟨⟨_, AMap.get_mem h1, rfl⟩, h2⟩

theorem toSave_ids {t : Table} (I : Inv t) : ((toSave t).map (·.id)).Nodup := by
  have h1 : t.svcMap.map (fun p => p.2.id) = t.svcMap.keys := by
    unfold AMap.keys
    apply List.map_congr_left
    intro p hp
    exact (I.elem p.1 p.2 (AMap.get_of_mem I.ids hp)).1
  have h2 : ((t.svcMap.map (·.2)).map (·.id)).Nodup := by
    rw [List.map_map]
    have : (t.svcMap.map ((·.id) ∘ (·.2) : UInt16 × Elem → UInt16)) = t.svcMap.keys := h1
    rw [this]
    exact I.ids
  exact h2.sublist (List.filter_sublist.map _)

theorem roundtrip {A : AddrText} (hA : AddrText.Faithful A) (now : Int64) {t : Table} (I : Inv t)
    (hp : ∀ i s, known t i = some s → ¬ EmptyLockedPath s) :
    ∃ t', Table.fromJson A now (t.toJson A) = .ok t' ∧
      (∀ i, i ≠ 0 → t'.svcMap.get i = (t.svcMap.get i).map (fun e => { e with enabled := false })) ∧
      t'.svcMap.get 0 = (Table.new now).svcMap.get 0 ∧ Start A t' := by
  have hzero : ∀ e ∈ toSave t, e.id ≠ 0 := by
    intro e he h0
    obtain ⟨h1, h2⟩ := (mem_toSave I e).mp he
    obtain ⟨e0, c1, c2, _⟩ := I.ctrl
    rw [h0, c1] at h1
    injection h1 with h1
    subst h1
    rw [c2] at h2
    cases h2
  have hnew : ∀ i, i ≠ 0 → (Table.new now).svcMap.get i = none := by
    intro i hi
    change AMap.get (AMap.insert [] 0 (Elem.new now 0 .control true true)) i = _
    rw [AMap.get_insert, if_neg hi]; rfl
  have hok : ∀ e ∈ toSave t, e.service.Constructible ∧ e.service.isControl = false ∧
      ¬ EmptyLockedPath e.service := by
    intro e he
    obtain ⟨h1, h2⟩ := (mem_toSave I e).mp he
    exact ⟨I.cons _ _ h1, h2, hp e.id e.service (by simp [known, h1])⟩
  obtain ⟨t', k1, k2, k3, _⟩ := loadLoop_saved hA now (toSave t) hok (toSave_ids I) 0 (Table.new now)
    (fun e he => hnew _ (hzero e he))
  have hload : Table.fromJson A now (t.toJson A) = .ok t' := k1
  refine ⟨t', hload, ?_, k3 0 hzero, ?_⟩
  · intro i hi
    cases hg : t.svcMap.get i with
    | none =>
      rw [k3 i, hnew i hi]
      · rfl
      · rintro e he rfl
        rw [((mem_toSave I e).mp he).1] at hg
        cases hg
    | some e =>
      have hid := (I.elem i e hg).1
      have hc : e.service.isControl = false := by
        cases hc : e.service.isControl
        · rfl
        · exact absurd (I.control_id hg hc) hi
      have := k2 e ((mem_toSave I e).mpr ⟨by rw [hid]; exact hg, hc⟩)
      rw [show t'.svcMap.get i = t'.svcMap.get e.id by rw [hid], this]; rfl
  · refine .loaded _ now t' ⟨?_, ?_⟩ hload
    · have hent : entries (t.toJson A) = (toSave t).map (Elem.toJson A) := rfl
      have hserv : ∀ es : List Elem, (∀ e ∈ es, e ∈ toSave t) →
          (es.map (Elem.toJson A)).filterMap (serviceOf A) = es.map (·.service) := by
        intro es
        induction es with
        | nil => intro _; rfl
        | cons e es ih =>
          intro h
          obtain ⟨h1, h2, h3⟩ := hok e (h e List.mem_cons_self)
          rw [List.map_cons, List.filterMap_cons, service_json hA h1 h2 h3,
            ih (fun x hx => h x (List.mem_cons_of_mem _ hx))]
          rfl
      rw [hent, hserv _ (fun _ h => h), List.pairwise_map]
      have := toSave_ids I
      rw [List.nodup_iff_pairwise_ne, List.pairwise_map] at this
      apply List.Pairwise.imp_of_mem _ this
      intro a b ha hb hab he
      obtain ⟨h1, _⟩ := (mem_toSave I a).mp ha
      obtain ⟨h2, _⟩ := (mem_toSave I b).mp hb
      have h3 := (I.elem _ _ h1).2
      have h4 := (I.elem _ _ h2).2
      rw [he, h4] at h3
      injection h3 with h3
      exact hab h3.symm
    · intro s hs
      have hent : entries (t.toJson A) = (toSave t).map (Elem.toJson A) := rfl
      rw [hent, List.mem_filterMap] at hs
      obtain ⟨j, hj, hs⟩ := hs
      rw [List.mem_map] at hj
      obtain ⟨e, he, rfl⟩ := hj
      obtain ⟨h1, h2, h3⟩ := hok e he
      rw [service_json hA h1 h2 h3] at hs
      injection hs with hs
      subst hs
      exact h2

/-- Loading panics only if there are too many entries. -/
theorem loadLoop_panic {A : AddrText} {now : Int64} {js : List Json} {n : Nat} {t : Table}
    (hn : t.svcMap.keys.Nodup) (h : loadLoop A now js n t = .panic) :
    65536 < t.svcMap.length + js.length := by
  induction js generalizing n t with
  | nil => cases h
  | cons j js ih =>
    simp only [loadLoop] at h
    split at h
    · cases h
    · split at h
      · rename_i ha
        have := ids_all (l := t.svcMap.keys) (fun i => (AMap.get_isSome_iff _ _).mp (addElement_none ha i))
        simp only [AMap.keys, List.length_map] at this
        simp only [List.length_cons]
        omega
      · rename_i t1 i ha
        obtain ⟨h1, rfl⟩ := addElement_eq ha
        have := ih (AMap.nodup_insert hn _ _) h
        simp only [AMap.length_insert_new h1] at this
        simp only [List.length_cons]
        omega

/-- Loading too many valid entries panics. -/
theorem loadLoop_too_many {A : AddrText} {now : Int64} {js : List Json} {n : Nat} {t : Table}
    (hn : t.svcMap.keys.Nodup) (hv : ∀ j ∈ js, serviceOf A j ≠ none)
    (h : 65536 < t.svcMap.length + js.length) : loadLoop A now js n t = .panic := by
  induction js generalizing n t with
  | nil =>
    have := ids_le hn
    simp only [AMap.keys, List.length_map] at this
    simp only [List.length_nil] at h
    omega
  | cons j js ih =>
    simp only [loadLoop]
    have hj := hv j List.mem_cons_self
    split
    · rename_i he
      exfalso
      cases j with
      | obj l =>
        simp only [Elem.fromJson, bind] at he
        cases hx : serviceFromJson A l with
        | none => exact hj hx
        | some s => rw [hx] at he; cases he
      | _ => exact hj rfl
    · split
      · rfl
      · rename_i t1 i ha
        obtain ⟨h1, rfl⟩ := addElement_eq ha
        refine ih (AMap.nodup_insert hn _ _) (fun x hx => hv x (List.mem_cons_of_mem _ hx)) ?_
        simp only [AMap.length_insert_new h1]
        simp only [List.length_cons] at h
        omega

/-! ## Counting -/

theorem vis_ids {t : Table} (I : Inv t) : (t.visible.map (·.1)).Nodup := by
  have h1 : t.svcMap.map (fun p => p.2.id) = t.svcMap.keys := by
    unfold AMap.keys
    apply List.map_congr_left
    intro p hp
    exact (I.elem p.1 p.2 (AMap.get_of_mem I.ids hp)).1
  have h2 : ((t.svcMap.map (·.2)).map (·.id)).Nodup := by
    rw [List.map_map]
    have : (t.svcMap.map ((·.id) ∘ (·.2) : UInt16 × Elem → UInt16)) = t.svcMap.keys := h1
    rw [this]
    exact I.ids
  have h3 := h2.sublist ((List.filter_sublist (p := fun e : Elem => e.visible && !e.service.isControl)).map _)
  unfold Table.visible
  rw [List.map_map]
  exact h3

theorem getId_of_get {t : Table} (I : Inv t) {i : UInt16} {s : Service} (h : t.get i = some s) :
    t.getId s.toIdentifier = some (some i) := by
  unfold Table.get at h
  split at h
  · rename_i e he
    split at h
    · rename_i hv
      injection h with h
      subst h
      simp only [Table.getId, (I.elem i e he).2, he, hv, if_true]
    · cases h
  · cases h

theorem get_of_getId {t : Table} (I : Inv t) {i : UInt16} {k : ServiceIdentifier}
    (h : t.getId k = some (some i)) : ∃ s, t.get i = some s ∧ s.toIdentifier = k := by
  unfold Table.getId at h
  split at h
  · rename_i j hj
    split at h
    · rename_i e he
      injection h with h
      split at h
      · rename_i hv
        injection h with h
        subst h
        obtain ⟨e', h1, h2⟩ := I.back k j hj
        rw [he] at h1
        injection h1 with h1
        subst h1
        exact ⟨e.service, by simp only [Table.get, he, hv, if_true], h2⟩
      · cases h
    · cases h
  · cases h

theorem getId_ne_none {t : Table} (I : Inv t) (k : ServiceIdentifier) : t.getId k ≠ none := by
  unfold Table.getId
  split
  · rename_i j hj
    obtain ⟨e', h1, h2⟩ := I.back k j hj
    rw [h1]
    nofun
  · nofun

theorem consistent_of_inv {t : Table} (I : Inv t) : Consistent t where
  lookup := getId_ne_none I
  idService _ _ h := get_of_getId I h
  serviceId _ _ h := getId_of_get I h
  identity i j s s' h1 h2 he := by
    have a := getId_of_get I h1
    have b := getId_of_get I h2
    rw [he, b] at a
    injection a with a
    injection a with a
    exact a.symm
  listed i s := by rw [mem_visible I, get_vis]
  unique := vis_ids I

theorem addAs_eq (farm : Bytes → UInt64) (t : Table) (static : Bool) (now : Int64) (s : Service) :
    addAs farm t static now s = t.update farm now s static true := by cases static <;> rfl

/-- The identities a table knows are those of the control service and of the services added. -/
theorem run_identities {farm : Bytes → UInt64} {ks : List ServiceIdentifier} {ops : List TOp}
    (hk : ∀ op ∈ ops, ∀ a, added op = some a → a.2.2.toIdentifier ∈ ks) {t t' : Table}
    (h0 : ∀ k, t.idMap.get k ≠ none → k ∈ ks) (h : t.run farm ops = some t') :
    ∀ k, t'.idMap.get k ≠ none → k ∈ ks := by
  refine run_induct (P := fun t => ∀ k, t.idMap.get k ≠ none → k ∈ ks) ?_ h0 h
  intro t t' op hop ih hs k hk'
  rcases step_cases hs with ⟨now, s, static, i, ha, hu⟩ | ⟨now, rfl, rfl⟩
  · have := hk op hop _ ha
    by_cases hks : s.toIdentifier = k
    · rw [← hks]; exact this
    · apply ih
      cases hu with
      | known i e v w hi he hv hw => exact hk'
      | fresh i hnone hfree =>
        simp only [AMap.get_insert] at hk'
        rw [if_neg (Ne.symm hks)] at hk'
        exact hk'
  · exact ih k hk'

theorem no_panic_of_room {ks : List ServiceIdentifier} (hl : ks.length ≤ 65536) {t : Table} (I : Inv t)
    (hk : ∀ k, t.idMap.get k ≠ none → k ∈ ks) {farm : Bytes → UInt64} {now : Int64} {s : Service}
    {static : Bool} (hs : s.toIdentifier ∈ ks) : t.update farm now s static true ≠ none := by
  intro h
  obtain ⟨h1, h2⟩ := update_none I h
  have hle := ids_all (l := t.svcMap.keys) (fun i => (AMap.get_isSome_iff _ _).mp (h2 i))
  have hn : (s.toIdentifier :: t.svcMap.map (fun p => p.2.service.toIdentifier)).Nodup := by
    rw [List.nodup_cons]
    constructor
    · intro hm
      obtain ⟨p, hp, he⟩ := List.mem_map.mp hm
      have := (I.elem p.1 p.2 (AMap.get_of_mem I.ids hp)).2
      rw [he, h1] at this
      cases this
    · rw [List.nodup_iff_pairwise_ne, List.pairwise_map]
      have := I.ids
      unfold AMap.keys at this
      rw [List.nodup_iff_pairwise_ne, List.pairwise_map] at this
      apply List.Pairwise.imp_of_mem _ this
      intro a b ha hb hab he
      have ga := (I.elem a.1 a.2 (AMap.get_of_mem I.ids ha)).2
      have gb := (I.elem b.1 b.2 (AMap.get_of_mem I.ids hb)).2
      rw [he, gb] at ga
      injection ga with ga
      exact hab ga.symm
  have hsub : s.toIdentifier :: t.svcMap.map (fun p => p.2.service.toIdentifier) ⊆ ks := by
    intro k hk'
    rcases List.mem_cons.mp hk' with rfl | hk'
    · exact hs
    · obtain ⟨p, hp, rfl⟩ := List.mem_map.mp hk'
      apply hk
      rw [(I.elem p.1 p.2 (AMap.get_of_mem I.ids hp)).2]
      nofun
  have := hn.length_le_of_subset hsub
  simp only [List.length_cons, List.length_map] at this
  simp only [AMap.keys, List.length_map] at hle
  omega

/-- Adding a service with a new identity adds one entry. -/
theorem updated_length {t t' : Table} {now : Int64} {s : Service} {static : Bool} {i : UInt16}
    (hn : t.idMap.get s.toIdentifier = none) (h : Updated t now s static t' i) :
    t'.svcMap.length = t.svcMap.length + 1 := by
  cases h with
  | known i e v w hi => rw [hn] at hi; cases hi
  | fresh i hnone hfree => exact AMap.length_insert_new hfree _

/-- Distinct new services each take an id. -/
theorem run_length {farm : Bytes → UInt64} {l : List (Bool × Int64 × Service)}
    (hd : l.Pairwise (fun a b => a.2.2.toIdentifier ≠ b.2.2.toIdentifier)) {t t' : Table}
    (hn : ∀ a ∈ l, t.idMap.get a.2.2.toIdentifier = none)
    (h : t.run farm (l.map (fun a => if a.1 then .addStatic a.2.1 a.2.2 else .add a.2.1 a.2.2)) = some t') :
    t'.svcMap.length = t.svcMap.length + l.length := by
  induction l generalizing t with
  | nil => injection h with h; subst h; rfl
  | cons a l ih =>
    rw [List.map_cons] at h
    simp only [Table.run] at h
    split at h
    · rename_i t1 hs
      rw [List.pairwise_cons] at hd
      rcases step_cases hs with ⟨now, s, static, i, ha, hu⟩ | ⟨now, ha, _⟩
      · have hs' : s = a.2.2 := by
          cases hb : a.1 <;> rw [hb] at ha <;> injection ha with ha <;> injection ha with _ ha <;>
            injection ha with _ ha <;> exact ha.symm
        subst hs'
        have hl := updated_length (hn a List.mem_cons_self) hu
        rw [ih hd.2 ?_ h, hl, List.length_cons]
        · omega
        · intro b hb
          cases hu with
          | known i e v w hi =>
            rw [hn a List.mem_cons_self] at hi; cases hi
          | fresh i hnone hfree =>
            simp only [AMap.get_insert]
            rw [if_neg (Ne.symm (hd.1 b hb))]
            exact hn b (List.mem_cons_of_mem _ hb)
      · cases hb : a.1 <;> rw [hb] at ha <;> cases ha
    · cases h

/-! ## What one addition does -/

theorem update_visible (now : Int64) (e : Elem) (s : Service) :
    (e.update now s true).visible = (e.static || e.active) := by
  unfold Elem.update Elem.visible
  cases e.static <;> rfl

theorem updated_get {t t' : Table} {now : Int64} {s : Service} {static : Bool} {i : UInt16}
    (h : Updated t now s static t' i) (j : UInt16) (hj : j ≠ i) : t'.svcMap.get j = t.svcMap.get j := by
  cases h with
  | known i e v w hi he hv hw =>
    simp only [AMap.get_insert]
    rw [if_neg hj]
  | fresh i hnone hfree =>
    simp only [AMap.get_insert]
    rw [if_neg hj]

theorem updated_at {t t' : Table} {now : Int64} {s : Service} {static : Bool} {i : UInt16} (I : Inv t)
    (h : Updated t now s static t' i) :
    ∃ e', t'.svcMap.get i = some e' ∧ e'.service = s ∧ e'.enabled = true ∧ e'.lastSeen = now ∧
      match t.svcMap.get i with
      | some e => e.service.toIdentifier = s.toIdentifier ∧ e'.static = e.static ∧ e'.active = e.active
      | none => t.idMap.get s.toIdentifier = none ∧ e'.static = static ∧ e'.active = true := by
  cases h with
  | known i e v w hi he hv hw =>
    refine ⟨e.update now s true, by simp only [AMap.get_insert, if_true], rfl, rfl, rfl, ?_⟩
    rw [he]
    obtain ⟨e', h1, h2⟩ := I.back _ _ hi
    rw [he] at h1
    injection h1 with h1
    subst h1
    exact ⟨h2, rfl, rfl⟩
  | fresh i hnone hfree =>
    refine ⟨Elem.new now i s static true, by simp only [AMap.get_insert, if_true], rfl, rfl, rfl, ?_⟩
    rw [hfree]
    exact ⟨hnone, rfl, rfl⟩

theorem step_known {farm : Bytes → UInt64} {t t' : Table} {op : TOp} (h : t.step farm op = some t') :
    ∃ n, n ≤ 1 ∧ t'.version = t.version + UInt32.ofNat n ∧ (n = 0 ↔ ∀ i, known t i = known t' i) := by
  rcases step_cases h with ⟨now, s, static, i, ha, hu⟩ | ⟨now, rfl, rfl⟩
  · cases hu with
    | known i e v w hi he hv hw =>
      subst hv
      by_cases hs : e.service = s
      · refine ⟨0, by omega, ?_, ⟨fun _ j => ?_, fun _ => rfl⟩⟩
        · rw [if_neg (fun hc => hc hs)]
          exact (UInt32.add_zero _).symm
        · simp only [known, AMap.get_insert]
          by_cases hj : j = i
          · subst hj
            rw [if_pos rfl, he, ← hs]
            rfl
          · rw [if_neg hj]
      · refine ⟨1, by omega, if_pos hs, ⟨fun hc => by omega, fun hc => ?_⟩⟩
        have := hc i
        simp only [known, AMap.get_insert, if_true, he, Option.map_some] at this
        injection this with this
        exact absurd this hs
    | fresh i hnone hfree =>
      refine ⟨1, by omega, rfl, ⟨fun hc => by omega, fun hc => ?_⟩⟩
      have := hc i
      simp only [known, AMap.get_insert, if_true, hfree, Option.map_some, Option.map_none] at this
      cases this
  · refine ⟨0, by omega, ?_, ⟨fun _ j => ?_, fun _ => rfl⟩⟩
    · rw [updateActive_eq]
      exact (UInt32.add_zero _).symm
    · simp only [known, updateActive_get]
      cases t.svcMap.get j with
      | none => rfl
      | some e => simp only [Option.map_some, ua_service]

theorem run_known {farm : Bytes → UInt64} {ops : List TOp} {t t' : Table}
    (h : t.run farm ops = some t') :
    ∃ n, n ≤ ops.length ∧ t'.version = t.version + UInt32.ofNat n ∧
      (n = 0 → ∀ i, known t i = known t' i) := by
  induction ops generalizing t with
  | nil =>
    injection h with h
    subst h
    exact ⟨0, Nat.le_refl _, (UInt32.add_zero _).symm, fun _ _ => rfl⟩
  | cons op ops ih =>
    simp only [Table.run] at h
    split at h
    · rename_i t1 hs
      obtain ⟨n, h1, h2, h3⟩ := step_known hs
      obtain ⟨m, k1, k2, k3⟩ := ih h
      refine ⟨n + m, by simp only [List.length_cons]; omega, ?_, ?_⟩
      · rw [k2, h2, UInt32.add_assoc, UInt32.ofNat_add]
      · intro hz i
        rw [h3.mp (by omega) i, k3 (by omega) i]
    · cases h

end Verif.SvcTable
