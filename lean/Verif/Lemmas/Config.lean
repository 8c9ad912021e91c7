import Verif.Spec.Config
import Verif.Lemmas.SvcTable
/-!
# Lemmas about the configuration and its storage
-/
namespace Verif.Config
open Verif Verif.SvcTable Verif.Spec.SvcTable Verif.Spec.Config

/-! ## Services without empty locked paths -/

/-- No service in the table is locked with an empty path. -/
def NoEmpty (t : Table) : Prop := ∀ i s, known t i = some s → ¬ EmptyLockedPath s

theorem control_noEmpty : ¬ EmptyLockedPath .control := by
  rintro ⟨h | h, -⟩ <;> cases h

theorem noEmpty_new (now : Int64) : NoEmpty (Table.new now) := by
  intro i s h
  have hn : (Table.new now).svcMap.get i = if i = 0 then some (Elem.new now 0 .control true true) else none := by
    change AMap.get (AMap.insert [] 0 (Elem.new now 0 .control true true)) i = _
    rw [AMap.get_insert]
    rfl
  simp only [known, hn] at h
  split at h
  · cases h; exact control_noEmpty
  · cases h

theorem serviceFromJson_noEmpty {A : AddrText} {l : List (Bytes × Json)} {s : Service}
    (h : serviceFromJson A l = some s) : ¬ EmptyLockedPath s := by
  simp only [serviceFromJson, bind, Option.bind_eq_some_iff] at h
  obtain ⟨ty, _, mac, _, ad, _, path, _, h⟩ := h
  have hp : (if path.isEmpty = true then none else some path) ≠ some [] := by
    cases path with
    | nil => simp
    | cons a b => simp
  generalize (if path.isEmpty = true then none else some path) = op at h hp
  rintro ⟨hty, hpath⟩
  split at h
  · cases h; cases hpath
  iterate 8
    split at h
    · simp only [Option.bind_eq_some_iff] at h
      obtain ⟨m, _, a, _, h⟩ := h
      injection h with h
      subst h
      first
        | exact hp hpath
        | rcases hty with hty | hty <;> cases hty
  cases h

theorem serviceOf_noEmpty {A : AddrText} {j : Json} {s : Service} (h : serviceOf A j = some s) :
    ¬ EmptyLockedPath s := by
  cases j with
  | obj l => exact serviceFromJson_noEmpty h
  | _ => cases h

theorem loadLoop_noEmpty {A : AddrText} {now : Int64} {js : List Json} {n : Nat} {t t' : Table}
    (hn : NoEmpty t) (h : loadLoop A now js n t = .ok t') : NoEmpty t' := by
  induction js generalizing n t with
  | nil => injection h with h; subst h; exact hn
  | cons j js ih =>
    simp only [loadLoop] at h
    split at h
    · cases h
    · rename_i e he
      have hs := fromJson_service he
      generalize hx : (if j.hasKey (asc "id") = true then e else { e with id := UInt16.ofNat (n + 1) }) = x at h
      have hxs : x.service = e.service := by rw [← hx]; split <;> rfl
      split at h
      · cases h
      · rename_i t1 i ha
        refine ih ?_ h
        obtain ⟨_, rfl⟩ := addElement_eq ha
        intro k s hk
        simp only [known, AMap.get_insert] at hk
        split at hk
        · cases hk
          rw [hxs]
          exact serviceOf_noEmpty hs
        · exact hn k s hk

theorem start_noEmpty {A : AddrText} {t : Table} (h : Spec.SvcTable.Start A t) : NoEmpty t := by
  cases h with
  | new now => exact noEmpty_new now
  | loaded j now t hd hl =>
    cases j with
    | obj l =>
      simp only [Table.fromJson] at hl
      split at hl
      · exact loadLoop_noEmpty (noEmpty_new now) hl
      · cases hl
    | _ => cases hl

theorem run_noEmpty {farm : Bytes → UInt64} {t t' : Table} {ops : List TOp} (hn : NoEmpty t)
    (hs : ∀ op ∈ ops, ∀ a, added op = some a → ¬ EmptyLockedPath a.2.2) (h : t.run farm ops = some t') :
    NoEmpty t' := by
  refine run_induct (P := NoEmpty) ?_ hn h
  intro t t' op hop hn h i s hk
  rcases step_cases h with ⟨now, s', static, j, ha, hu⟩ | ⟨now, rfl, rfl⟩
  · have hs' := hs op hop _ ha
    cases hu with
    | known j e v w hi he hv hw =>
      simp only [known, AMap.get_insert] at hk
      split at hk
      · cases hk; exact hs'
      · exact hn i s hk
    | fresh j hnone hfree =>
      simp only [known, AMap.get_insert] at hk
      split at hk
      · cases hk; exact hs'
      · exact hn i s hk
  · apply hn i s
    rw [← hk]
    simp only [known, updateActive_get]
    cases t.svcMap.get i with
    | none => rfl
    | some e => simp only [Option.map_some, ua_service]

/-- Tables that arise from sane services. -/
structure Good (E : Env) (t : Table) : Prop where
  reach : Reachable E.farm E.addr t
  path : NoEmpty t

theorem Good.start {E : Env} {t : Table} (h : Spec.SvcTable.Start E.addr t) : Good E t :=
  ⟨⟨t, [], h, nofun, rfl⟩, start_noEmpty h⟩

theorem Good.run {E : Env} {t t' : Table} {ops : List TOp} (h : Good E t)
    (hs : ∀ op ∈ ops, ∀ a, added op = some a → a.2.2.Constructible ∧ ¬ EmptyLockedPath a.2.2)
    (hr : t.run E.farm ops = some t') : Good E t' := by
  obtain ⟨t0, ops0, h1, h2, h3⟩ := h.reach
  refine ⟨⟨t0, ops0 ++ ops, h1, ?_, ?_⟩, run_noEmpty h.path (fun o ho a ha => (hs o ho a ha).2) hr⟩
  · intro o ho a ha
    rcases List.mem_append.mp ho with ho | ho
    · exact h2 o ho a ha
    · exact (hs o ho a ha).1
  · rw [SvcTable.run_append, h3]
    exact hr

/-! ## Reading what was written -/

theorem asUsize_toNat (v : UInt64) : asUsize (.num (v.toNat : Int)) = some v := by
  have := v.toNat_lt
  simp only [asUsize]
  rw [if_pos ⟨by omega, by omega⟩]
  simp

theorem fromJson_obj {E : Env} {now : Int64} {l : List (Bytes × Json)} {tj : Json} {t : Table}
    {u p u' p' : Bytes} {v : UInt64} {vj : Json}
    (h1 : Json.field l (asc "svc_table") = some tj) (h2 : Table.fromJson E.addr now tj = .ok t)
    (h3 : Json.field l (asc "uuid") = some (.str u)) (h4 : Json.field l (asc "passwd") = some (.str p))
    (h5 : Json.field l (asc "version") = some vj) (h5' : asUsize vj = some v)
    (h6 : E.parseUuid u = some u') (h7 : E.parseUuid p = some p') :
    PConfig.fromJson E now (.obj l) = .ok ⟨u', p', v, t⟩ := by
  unfold PConfig.fromJson
  simp only [h1, h2, h3, h4, h5, Option.bind_some, Json.asStr, h5', h6, h7]

/-- The fields of a saved configuration. -/
def cfields (E : Env) (c : PConfig) : List (Bytes × Json) := [
    (asc "uuid", .str (E.formatUuid c.uuid)),
    (asc "passwd", .str (E.formatUuid c.passwd)),
    (asc "version", .num c.version.toNat),
    (asc "svc_table", c.table.toJson E.addr)]

theorem toJson_cfields (E : Env) (c : PConfig) : c.toJson E = .obj (cfields E c) := by
  unfold PConfig.toJson cfields; rfl

theorem cfield_uuid (E : Env) (c : PConfig) :
    Json.field (cfields E c) (asc "uuid") = some (.str (E.formatUuid c.uuid)) := by
  unfold cfields; rw [field_cons, if_pos rfl]

theorem cfield_passwd (E : Env) (c : PConfig) :
    Json.field (cfields E c) (asc "passwd") = some (.str (E.formatUuid c.passwd)) := by
  unfold cfields; rw [field_cons, if_neg (by decide +kernel), field_cons, if_pos rfl]

theorem cfield_version (E : Env) (c : PConfig) :
    Json.field (cfields E c) (asc "version") = some (.num c.version.toNat) := by
  unfold cfields
  rw [field_cons, if_neg (by decide +kernel), field_cons, if_neg (by decide +kernel), field_cons, if_pos rfl]

theorem cfield_table (E : Env) (c : PConfig) :
    Json.field (cfields E c) (asc "svc_table") = some (c.table.toJson E.addr) := by
  unfold cfields
  rw [field_cons, if_neg (by decide +kernel), field_cons, if_neg (by decide +kernel), field_cons,
    if_neg (by decide +kernel), field_cons, if_pos rfl]

theorem loadFile_render {E : Env} (hE : Faithful E) {c : PConfig} (hg : Good E c.table) (now : Int64) :
    ∃ t', loadFile E now (some (E.render (c.toJson E))) true =
        .ok (some ⟨c.uuid, c.passwd, c.version, t'⟩) ∧
      (∀ i, i ≠ 0 → t'.svcMap.get i = (c.table.svcMap.get i).map (fun e => { e with enabled := false })) ∧
      Spec.SvcTable.Start E.addr t' := by
  obtain ⟨t', h1, h2, -, h4⟩ := roundtrip hE.addr now (reachable_inv hg.reach) hg.path
  refine ⟨t', ?_, h2, h4⟩
  have hf := fromJson_obj (E := E) (now := now) (cfield_table E c) h1 (cfield_uuid E c) (cfield_passwd E c)
    (cfield_version E c) (asUsize_toNat c.version) (hE.uuid c.uuid) (hE.uuid c.passwd)
  rw [← toJson_cfields] at hf
  unfold loadFile
  simp only [if_true, hE.json, hf]

theorem loadFile_cut {E : Env} (hE : Faithful E) (c : PConfig) (n : Nat) :
    (E.render (c.toJson E)).take n = E.render (c.toJson E) ∨
    Unusable E (some ((E.render (c.toJson E)).take n)) := by
  by_cases hn : n < (E.render (c.toJson E)).length
  · right
    intro d hd j hj
    have := hE.cut (cfields E c) n (by rw [← toJson_cfields]; exact hn)
    rw [← toJson_cfields] at this
    injection hd with hd
    rw [← hd, this] at hj
    cases hj
  · left
    exact List.take_of_length_le (Nat.le_of_not_lt hn)

theorem loadFile_unreadable (E : Env) (now : Int64) (f : Option Bytes) : loadFile E now f false = .ok none := rfl

theorem unusable_load {E : Env} {f : Option Bytes} (h : Unusable E f) (now : Int64) (r : Bool) :
    loadFile E now f r = .ok none := by
  unfold loadFile
  cases r with
  | false => rfl
  | true =>
    cases f with
    | none => rfl
    | some d =>
      simp only [if_true]
      cases hj : E.parse d with
      | none => rfl
      | some j => simp only [h d rfl j hj now]

/-- What is in a file after writing a configuration: the old content, the configuration, or nothing usable. -/
theorem write_cases {E : Env} (hE : Faithful E) (old : Option Bytes) (c : PConfig) (o : Out) :
    (o = .notCreated ∨ o = .crashBefore) ∧ (writeFile old (E.render (c.toJson E)) o).1 = old ∨
    (writeFile old (E.render (c.toJson E)) o).1 = some (E.render (c.toJson E)) ∨
    o ≠ .ok ∧ Unusable E (writeFile old (E.render (c.toJson E)) o).1 := by
  cases o with
  | ok => exact .inr (.inl rfl)
  | notCreated => exact .inl ⟨.inl rfl, rfl⟩
  | crashBefore => exact .inl ⟨.inr rfl, rfl⟩
  | short n =>
    rcases loadFile_cut hE c n with h | h
    · exact .inr (.inl (congrArg some h))
    · exact .inr (.inr ⟨nofun, h⟩)
  | crash n =>
    rcases loadFile_cut hE c n with h | h
    · exact .inr (.inl (congrArg some h))
    · exact .inr (.inr ⟨nofun, h⟩)

theorem clean_write {E : Env} (hE : Faithful E) {old : Option Bytes} (ho : Clean E old) {c : PConfig}
    (hg : Good E c.table) (o : Out) : Clean E (writeFile old (E.render (c.toJson E)) o).1 := by
  rcases write_cases hE old c o with ⟨-, h⟩ | h | ⟨-, h⟩
  · rw [h]; exact ho
  · rw [h]
    intro now c' hc
    obtain ⟨t', h1, -, h3⟩ := loadFile_render hE hg now
    rw [h1] at hc
    injection hc with hc
    injection hc with hc
    subst hc
    exact h3
  · intro now c' hc
    rw [unusable_load h now] at hc
    cases hc

/-! ## Loading -/

theorem ite_none_or {α : Type} (p : Prop) [Decidable p] (c : α) :
    (if p then none else some c) = none ∨ (if p then none else some c) = some c := by
  split
  · exact .inl rfl
  · exact .inr rfl

/-- The result of loading. -/
theorem load_cases (E : Env) (S : Setup) (fs : Files) (a : StartUp) :
    (loadConfiguration E S fs a = (fs, none)) ∨
    ∃ skel config, (if S.skeleton then loadFile E a.now fs.skeleton a.readSkeleton else .ok none) = .ok skel ∧
      loadFile E a.now fs.config a.readConfig = .ok config ∧
      (let c := (config.or skel).getD (PConfig.new a.now a.freshUuid a.freshPasswd)
       let skelFile := if S.skeleton ∧ skel.isNone then
          (writeFile fs.skeleton (E.render ((c.toSkeleton a.now).toJson E)) a.outSkeleton).1 else fs.skeleton
       ∃ f o, loadConfiguration E S fs a = ({ fs with skeleton := skelFile, identity := f }, o) ∧
         (o = none ∨ o = some c)) := by
  unfold loadConfiguration
  split
  · rename_i skel config h1 h2
    refine .inr ⟨skel, config, h1, h2, ?_⟩
    dsimp only
    by_cases hs : S.skeleton = true ∧ skel.isNone = true
    · simp only [if_pos hs]
      split
      · exact ⟨_, _, rfl, .inl rfl⟩
      · exact ⟨_, _, rfl, ite_none_or _ _⟩
    · simp only [if_neg hs]
      rw [if_neg (by decide)]
      exact ⟨_, _, rfl, ite_none_or _ _⟩
  · exact .inl rfl

theorem loadFile_clean {E : Env} {f : Option Bytes} (h : Clean E f) {now : Int64} {r : Bool} {c : PConfig}
    (hl : loadFile E now f r = .ok (some c)) : Spec.SvcTable.Start E.addr c.table := by
  cases r with
  | true => exact h now c hl
  | false => cases hl

theorem load_clean {E : Env} (hE : Faithful E) (S : Setup) {fs : Files} (a : StartUp) (h1 : Clean E fs.config)
    (h2 : Clean E fs.skeleton) :
    (loadConfiguration E S fs a).1.config = fs.config ∧ Clean E (loadConfiguration E S fs a).1.skeleton ∧
    ∀ p, (loadConfiguration E S fs a).2 = some p → Spec.SvcTable.Start E.addr p.table := by
  rcases load_cases E S fs a with h | ⟨skel, config, hs, hc, f, o, h, ho⟩
  · rw [h]; exact ⟨rfl, h2, nofun⟩
  · rw [h]
    refine ⟨rfl, ?_, ?_⟩
    · dsimp only
      split
      · refine clean_write hE h2 (Good.start (.new a.now)) _
      · exact h2
    · intro p hp
      dsimp only at hp
      rcases ho with ho | ho
      · rw [ho] at hp; cases hp
      · rw [ho] at hp
        injection hp with hp
        subst hp
        cases config with
        | some c => exact loadFile_clean h1 hc
        | none =>
          cases skel with
          | some c =>
            split at hs
            · exact loadFile_clean h2 hs
            · cases hs
          | none => exact .new a.now

/-! ## The invariant of histories -/

structure WInv (E : Env) (w : World) : Prop where
  config : Clean E w.fs.config
  skeleton : Clean E w.fs.skeleton
  proc : ∀ c, w.proc = some c → (∃ t, w.heap[c.cell]? = some t ∧ Good E t) ∧ Good E c.default

theorem WInv.fresh {E : Env} {w : World} (h : Fresh E w) : WInv E w :=
  ⟨h.config, h.skeleton, by rw [h.noProcess]; nofun⟩

theorem save_heap (E : Env) (w : World) (c : Cfg) (t : Table) (o : Out) : (w.save E c t o).1.heap = w.heap := rfl

theorem save_proc {E : Env} {w : World} {c c' : Cfg} {t : Table} {o : Out}
    (h : (w.save E c t o).1.proc = some c') : c' = c := by
  simp only [World.save] at h
  split at h
  · cases h
  · injection h with h; exact h.symm

theorem winv_save {E : Env} (hE : Faithful E) {w : World} (h1 : Clean E w.fs.config)
    (h2 : Clean E w.fs.skeleton) (c : Cfg) {t : Table} (ht : w.heap[c.cell]? = some t) (hg : Good E t)
    (hd : Good E c.default) (o : Out) : WInv E (w.save E c t o).1 := by
  refine ⟨clean_write hE h1 hg o, h2, ?_⟩
  intro c' hc'
  have := save_proc hc'
  subst this
  exact ⟨⟨t, ht, hg⟩, hd⟩

theorem start_services {a : StartUp} (h : Sane (.start a)) :
    ∀ op ∈ a.services.map (TOp.addStatic a.now), ∀ x, added op = some x →
      x.2.2.Constructible ∧ ¬ EmptyLockedPath x.2.2 := by
  intro op hop x hx
  obtain ⟨s, hs, rfl⟩ := List.mem_map.mp hop
  cases hx
  exact h s hs

theorem update_services {l : List (Int64 × Service)} {now : Int64} {o : Out} (h : Sane (.update l now o)) :
    ∀ op ∈ l.map (fun s => TOp.add s.1 s.2) ++ [TOp.updateActive now], ∀ x, added op = some x →
      x.2.2.Constructible ∧ ¬ EmptyLockedPath x.2.2 := by
  intro op hop x hx
  rcases List.mem_append.mp hop with hop | hop
  · obtain ⟨s, hs, rfl⟩ := List.mem_map.mp hop
    cases hx
    exact h.2 s hs
  · cases List.mem_singleton.mp hop
    cases hx

/-- The cases of starting. -/
theorem start_cases (E : Env) (S : Setup) (w : World) (a : StartUp) :
    ((w.start E S a).1 = { w with fs := (loadConfiguration E S w.fs a).1, proc := none }) ∨
    ∃ p t, (loadConfiguration E S w.fs a).2 = some p ∧
      p.table.run E.farm (a.services.map (.addStatic a.now)) = some t ∧
      (let c : Cfg := ⟨p.version, p.uuid, p.passwd, w.heap.length, t, a.flashFriendly⟩
       let r := (({ w with fs := (loadConfiguration E S w.fs a).1, heap := w.heap ++ [t] } : World).save E c t a.outConfig)
       (w.start E S a).2 = r.2 ∧
       ((a.outConfig = .ok ∧ (w.start E S a).1 = r.1 ∧ r.1.proc = some c) ∨
        (a.outConfig ≠ .ok ∧ (w.start E S a).1 = { r.1 with proc := none }))) := by
  unfold World.start
  generalize loadConfiguration E S w.fs a = r
  obtain ⟨fs, o⟩ := r
  cases o with
  | none => exact .inl rfl
  | some p =>
    dsimp only
    cases hr : p.table.run E.farm (a.services.map (.addStatic a.now)) with
    | none => exact .inl rfl
    | some t =>
      refine .inr ⟨p, t, rfl, hr, ?_⟩
      dsimp only
      refine ⟨rfl, ?_⟩
      by_cases ho : a.outConfig = .ok
      · refine .inl ⟨ho, if_pos ho, ?_⟩
        rw [ho]
        rfl
      · exact .inr ⟨ho, if_neg ho⟩

theorem winv_start {E : Env} (hE : Faithful E) (S : Setup) {w : World} (h : WInv E w) {a : StartUp}
    (hs : Sane (.start a)) : WInv E (w.start E S a).1 := by
  obtain ⟨k1, k2, k3⟩ := load_clean hE S a h.config h.skeleton
  have hc : Clean E (loadConfiguration E S w.fs a).1.config := by rw [k1]; exact h.config
  rcases start_cases E S w a with h' | ⟨p, t, hp, hr, -, h' | h'⟩
  · rw [h']; exact ⟨hc, k2, nofun⟩
  · rw [h'.2.1]
    have hg := (Good.start (k3 p hp)).run (start_services hs) hr
    exact winv_save hE (w := { w with fs := (loadConfiguration E S w.fs a).1, heap := w.heap ++ [t] })
      hc k2 _ (by simp) hg hg _
  · rw [h'.2]
    have hg := (Good.start (k3 p hp)).run (start_services hs) hr
    have hw := winv_save hE (w := { w with fs := (loadConfiguration E S w.fs a).1, heap := w.heap ++ [t] })
      hc k2 ⟨p.version, p.uuid, p.passwd, w.heap.length, t, a.flashFriendly⟩ (by simp) hg hg a.outConfig
    exact ⟨hw.config, hw.skeleton, nofun⟩

/-- The cases of an update. -/
theorem update_cases (E : Env) (w : World) (c : Cfg) (l : List (Int64 × Service)) (now : Int64) (o : Out)
    {t : Table} (ht : w.heap[c.cell]? = some t) :
    (t.run E.farm (changes l now) = none ∧ w.update E c l now o = ({ w with proc := none }, [])) ∨
    ∃ t', t.run E.farm (changes l now) = some t' ∧
      ((t'.version = t.version ∧ (c.flashFriendly = true ∨ t'.visVersion = t.visVersion) ∧
          w.update E c l now o = ({ w with heap := w.heap.set c.cell t' }, [])) ∨
       (¬ (t'.version = t.version ∧ (c.flashFriendly = true ∨ t'.visVersion = t.visVersion)) ∧
          w.update E c l now o =
            ({ w with heap := w.heap.set c.cell t' } : World).save E { c with version := c.version + 1 } t' o)) := by
  unfold World.update changes
  rw [ht]
  dsimp only
  cases hr : t.run E.farm (l.map (fun s => TOp.add s.1 s.2) ++ [TOp.updateActive now]) with
  | none => exact .inl ⟨rfl, rfl⟩
  | some t' =>
    refine .inr ⟨t', rfl, ?_⟩
    dsimp only
    split
    · rename_i hc; exact .inl ⟨hc.1, hc.2, rfl⟩
    · rename_i hc; exact .inr ⟨hc, rfl⟩

theorem heap_set {w : World} {i : Nat} {t : Table} (h : w.heap[i]? = some t) (t' : Table) :
    (w.heap.set i t')[i]? = some t' := by
  have := (List.getElem?_eq_some_iff.mp h).1
  simp [this]

theorem winv_update {E : Env} (hE : Faithful E) {w : World} (h : WInv E w) {c : Cfg} (hp : w.proc = some c)
    {l : List (Int64 × Service)} {now : Int64} {o : Out} (hs : Sane (.update l now o)) :
    WInv E (w.update E c l now o).1 := by
  obtain ⟨⟨t, ht, hg⟩, hd⟩ := h.proc c hp
  rcases update_cases E w c l now o ht with ⟨-, hu⟩ | ⟨t', hr, ⟨-, -, hu⟩ | ⟨-, hu⟩⟩
  · rw [hu]; exact ⟨h.config, h.skeleton, nofun⟩
  · rw [hu]
    refine ⟨h.config, h.skeleton, ?_⟩
    intro c' hc'
    rw [hp] at hc'
    injection hc' with hc'
    subst hc'
    exact ⟨⟨t', heap_set ht t', hg.run (update_services hs) hr⟩, hd⟩
  · rw [hu]
    exact winv_save hE (w := { w with heap := w.heap.set c.cell t' }) h.config h.skeleton
      { c with version := c.version + 1 } (heap_set ht t') (hg.run (update_services hs) hr) hd o

theorem winv_reset {E : Env} (hE : Faithful E) {w : World} (h : WInv E w) {c : Cfg} (hp : w.proc = some c)
    (o : Out) : WInv E (w.reset E c o).1 := by
  obtain ⟨-, hd⟩ := h.proc c hp
  exact winv_save hE (w := { w with heap := w.heap ++ [c.default] }) h.config h.skeleton
    { c with cell := w.heap.length, version := c.version + 1 } (by simp) hd hd o

theorem winv_step {E : Env} (hE : Faithful E) (S : Setup) {w : World} (h : WInv E w) {op : Op}
    (hs : Sane op) : WInv E (w.step E S op).1 := by
  cases op with
  | start a =>
    simp only [World.step]
    cases hp : w.proc with
    | none => exact winv_start hE S h hs
    | some c => exact h
  | update l now o =>
    simp only [World.step]
    cases hp : w.proc with
    | none => exact h
    | some c => exact winv_update hE h hp hs
  | reset o =>
    simp only [World.step]
    cases hp : w.proc with
    | none => exact h
    | some c => exact winv_reset hE h hp o
  | stop => exact ⟨h.config, h.skeleton, nofun⟩

theorem winv_run {E : Env} (hE : Faithful E) (S : Setup) {ops : List Op} {w : World} (h : WInv E w)
    (hs : ∀ op ∈ ops, Sane op) : WInv E (w.run E S ops).1 := by
  induction ops generalizing w with
  | nil => exact h
  | cons op ops ih =>
    exact ih (winv_step hE S h (hs op List.mem_cons_self)) (fun o ho => hs o (List.mem_cons_of_mem _ ho))

theorem run_append (E : Env) (S : Setup) (w : World) (x y : List Op) :
    w.run E S (x ++ y) = (((w.run E S x).1.run E S y).1, (w.run E S x).2 ++ ((w.run E S x).1.run E S y).2) := by
  induction x generalizing w with
  | nil => rfl
  | cons o x ih => simp [World.run, ih]

/-! ## Matching tables -/

theorem run_static {farm : Bytes → UInt64} {ops : List TOp} {t t' : Table} (h : t.run farm ops = some t')
    {i : UInt16} {e : Elem} (he : t.svcMap.get i = some e) :
    ∃ e', t'.svcMap.get i = some e' ∧ e'.static = e.static := by
  refine run_induct (P := fun t' => ∃ e', t'.svcMap.get i = some e' ∧ e'.static = e.static) ?_ ⟨e, he, rfl⟩ h
  rintro t t' op - ⟨x, hx, hxs⟩ h
  rcases step_cases h with ⟨now, s', static, j, ha, hu⟩ | ⟨now, rfl, rfl⟩
  · cases hu with
    | known j y v w hi hy hv hw =>
      simp only [AMap.get_insert]
      by_cases hij : i = j
      · subst hij
        rw [hx] at hy
        injection hy with hy
        subst hy
        exact ⟨_, if_pos rfl, hxs⟩
      · rw [if_neg hij]; exact ⟨x, hx, hxs⟩
    | fresh j hnone hfree =>
      simp only [AMap.get_insert]
      by_cases hij : i = j
      · subst hij; rw [hx] at hfree; cases hfree
      · rw [if_neg hij]; exact ⟨x, hx, hxs⟩
  · exact ⟨x.updateActive now, by rw [updateActive_get, hx]; rfl, by rw [ua_static]; exact hxs⟩

theorem saved_some {t : Table} {i : UInt16} {e : Elem} (h : t.svcMap.get i = some e) :
    saved t i = some (e.service, e.static, e.lastSeen, e.active) := by simp only [saved, h, Option.map_some]

theorem saved_none {t : Table} {i : UInt16} (h : t.svcMap.get i = none) : saved t i = none := by
  simp only [saved, h, Option.map_none]

theorem Matches.refl (b : Bool) (t : Table) : Matches b t t := by
  intro i _
  cases h : saved t i with
  | none => trivial
  | some x => exact ⟨rfl, rfl, fun _ _ => rfl⟩

theorem Matches.trans {b : Bool} {t u v : Table} (h : Matches b t u) (h' : Matches b u v) : Matches b t v := by
  intro i hi
  have h1 := h i hi
  have h2 := h' i hi
  cases ht : saved t i with
  | none =>
    rw [ht] at h1
    cases hu : saved u i with
    | none =>
      rw [hu] at h2
      cases hv : saved v i with
      | none => trivial
      | some z => rw [hv] at h2; exact h2
    | some y => rw [hu] at h1; exact h1.elim
  | some x =>
    rw [ht] at h1
    cases hu : saved u i with
    | none => rw [hu] at h1; exact h1.elim
    | some y =>
      rw [hu] at h1 h2
      cases hv : saved v i with
      | none => rw [hv] at h2; exact h2.elim
      | some z =>
        rw [hv] at h2
        obtain ⟨a1, a2, a3⟩ := h1
        obtain ⟨b1, b2, b3⟩ := h2
        exact ⟨a1.trans b1, a2.trans b2, fun p q => (a3 p q).trans (b3 p (a2 ▸ q))⟩

/-- What the file has after loading it. -/
theorem matches_reload {t t' : Table}
    (h : ∀ i, i ≠ 0 → t'.svcMap.get i = (t.svcMap.get i).map (fun e => { e with enabled := false })) :
    Matches true t' t := by
  intro i hi
  have := h i hi
  cases he : t.svcMap.get i with
  | none =>
    rw [he] at this
    rw [saved_none he, saved_none this]
    trivial
  | some e =>
    rw [he] at this
    rw [saved_some he, saved_some this]
    exact ⟨rfl, rfl, fun _ _ => rfl⟩

theorem Matches.weaken {b : Bool} {t u : Table} (h : Matches true t u) : Matches b t u := by
  intro i hi
  have h1 := h i hi
  cases ht : saved t i <;> cases hu : saved u i <;> rw [ht, hu] at h1
  · trivial
  · exact h1.elim
  · exact h1.elim
  · exact ⟨h1.1, h1.2.1, fun _ => h1.2.2 rfl⟩

/-- A run that leaves the versions alone leaves everything that is saved alone, except for the times. -/
theorem matches_run {farm : Bytes → UInt64} {ops : List TOp} {t t' : Table} (I : SvcTable.Inv t)
    (I' : SvcTable.Inv t') (h : t.run farm ops = some t') (hk : ∀ i, known t i = known t' i) {b : Bool}
    (hv : b = true → SameVisible t t') : Matches b t t' := by
  intro i hi
  have hki := hk i
  cases he : t.svcMap.get i with
  | none =>
    simp only [known, he, Option.map_none] at hki
    have : t'.svcMap.get i = none := by
      cases h' : t'.svcMap.get i with
      | none => rfl
      | some e => rw [h'] at hki; cases hki
    rw [saved_none he, saved_none this]
    trivial
  | some e =>
    obtain ⟨e', he', hst⟩ := run_static h he
    simp only [known, he, he', Option.map_some] at hki
    injection hki with hki
    rw [saved_some he, saved_some he']
    refine ⟨hki, hst.symm, ?_⟩
    intro hb hdyn
    have hvis := (sameVisible_iff I I').mp (hv hb) i
    have hc : e.service.isControl = false := by
      cases hc : e.service.isControl with
      | false => rfl
      | true => exact absurd (I.control_id he hc) hi
    have hc' : e'.service.isControl = false := by rw [← hki]; exact hc
    have hdyn' : e'.static = false := by rw [hst]; exact hdyn
    simp only [vis, he, he', Option.bind_some, hc, hc', Elem.visible, hdyn, hdyn', Bool.not_false,
      Bool.and_true] at hvis
    cases ha : e.active <;> cases ha' : e'.active <;> rw [ha, ha'] at hvis <;> first | rfl | cases hvis

end Verif.Config
