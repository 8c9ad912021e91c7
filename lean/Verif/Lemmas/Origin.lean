import Verif.Spec.Origin
import Verif.Lemmas.Naming
/-!
# Lemmas about where the services of a client come from
-/
namespace Verif.Origin
open Verif Verif.SvcTable Verif.Config Verif.Spec.SvcTable Verif.Spec.Config Verif.Spec.Origin

/-- All services of the table, except for the control service, satisfy `G`. -/
def Only (G : Service → Prop) (t : Table) : Prop := ∀ i s, known t i = some s → s = .control ∨ G s

theorem only_new (G : Service → Prop) (now : Int64) : Only G (Table.new now) := by
  intro i s h
  have hn : (Table.new now).svcMap.get i = if i = 0 then some (Elem.new now 0 .control true true) else none := by
    change AMap.get (AMap.insert [] 0 (Elem.new now 0 .control true true)) i = _
    rw [AMap.get_insert]
    rfl
  simp only [known, hn] at h
  split at h
  · cases h; exact .inl rfl
  · cases h

theorem only_loadLoop {G : Service → Prop} {A : AddrText} {now : Int64} {js : List Json} {n : Nat} {t t' : Table}
    (hG : ∀ j ∈ js, ∀ s, serviceOf A j = some s → G s) (hn : Only G t)
    (h : loadLoop A now js n t = .ok t') : Only G t' := by
  induction js generalizing n t with
  | nil => injection h with h; subst h; exact hn
  | cons j js ih =>
    simp only [loadLoop] at h
    split at h
    · cases h
    · rename_i e he
      have hs := fromJson_service he
      generalize hx : (if j.hasKey (asc "id") = true then e else { e with id := UInt16.ofNat (n + 1) }) = x at h
      have hxs : x.service = e.service := by rw [← hx]; split <;> rfl
      split at h
      · cases h
      · rename_i t1 i ha
        refine ih (fun j hj => hG j (List.mem_cons_of_mem _ hj)) ?_ h
        obtain ⟨_, rfl⟩ := addElement_eq ha
        intro k s hk
        simp only [known, AMap.get_insert] at hk
        split at hk
        · cases hk
          rw [hxs]
          exact .inr (hG j List.mem_cons_self _ hs)
        · exact hn k s hk

theorem only_run {G : Service → Prop} {farm : Bytes → UInt64} {t t' : Table} {ops : List TOp} (hn : Only G t)
    (hs : ∀ op ∈ ops, ∀ a, added op = some a → G a.2.2) (h : t.run farm ops = some t') :
    Only G t' := by
  refine run_induct (P := Only G) ?_ hn h
  intro t t' op hop hn h i s hk
  rcases step_cases h with ⟨now, s', static, j, ha, hu⟩ | ⟨now, rfl, rfl⟩
  · have hs' := hs op hop _ ha
    cases hu with
    | known j e v w hi he hv hw =>
      simp only [known, AMap.get_insert] at hk
      split at hk
      · cases hk; exact .inr hs'
      · exact hn i s hk
    | fresh j hnone hfree =>
      simp only [known, AMap.get_insert] at hk
      split at hk
      · cases hk; exact .inr hs'
      · exact hn i s hk
  · apply hn i s
    rw [← hk]
    simp only [known, updateActive_get]
    cases t.svcMap.get i with
    | none => rfl
    | some e => simp only [Option.map_some, ua_service]

/-- All services a file can give satisfy `G`. -/
def FileOnly (E : Config.Env) (G : Service → Prop) (file : Option Bytes) : Prop :=
  ∀ now c, loadFile E now file true = .ok (some c) → Only G c.table

theorem fileOnly_inFile {E : Config.Env} {G : Service → Prop} {file : Option Bytes}
    (h : ∀ s, InFile E file s → G s) : FileOnly E G file := by
  intro now c hc
  unfold loadFile at hc
  simp only [if_true] at hc
  split at hc
  · cases hc
  · rename_i data
    split at hc
    · cases hc
    · rename_i j hj
      split at hc
      · rename_i c' hf
        injection hc with hc
        injection hc with hc
        subst hc
        cases j with
        | obj l =>
          simp only [PConfig.fromJson] at hf
          split at hf
          · cases hf
          · rename_i tj htj
            split at hf
            · cases hf
            · cases hf
            · rename_i table ht
              have ho : Only G table := by
                cases tj with
                | obj l' =>
                  simp only [Table.fromJson] at ht
                  split at ht
                  · rename_i svcs hsv
                    refine only_loadLoop ?_ (only_new G now) ht
                    intro j hj' s hs
                    refine h s ⟨data, l, _, j, rfl, hj, htj, ?_, hs⟩
                    simp only [entries, hsv]
                    exact hj'
                  · cases ht
                | _ => cases ht
              split at hf
              · split at hf
                · injection hf with hf; subst hf; exact ho
                · cases hf
              · cases hf
        | _ => cases hf
      · cases hc
      · cases hc

theorem fileOnly_write {E : Config.Env} (hE : Faithful E) {G : Service → Prop} {old : Option Bytes}
    (ho : FileOnly E G old) {c : PConfig} (hg : Good E c.table) (hc : Only G c.table) (o : Out) :
    FileOnly E G (writeFile old (E.render (c.toJson E)) o).1 := by
  rcases write_cases hE old c o with ⟨-, h⟩ | h | ⟨-, h⟩
  · rw [h]; exact ho
  · rw [h]
    intro now c' hc'
    obtain ⟨t', h1, h2, h3⟩ := loadFile_render hE hg now
    rw [h1] at hc'
    injection hc' with hc'
    injection hc' with hc'
    subst hc'
    intro i s hk
    by_cases hi : i = 0
    · subst hi
      have I := reachable_inv (Good.start h3).reach
      obtain ⟨e, k1, k2, -⟩ := I.ctrl
      simp only [known, k1, Option.map_some, k2] at hk
      injection hk with hk
      exact .inl hk.symm
    · refine hc i s ?_
      rw [← hk]
      simp only [known, h2 i hi]
      cases c.table.svcMap.get i <;> rfl
  · intro now c' hc'
    rw [unusable_load h now] at hc'
    cases hc'

/-- All the client knows satisfies `G`. -/
structure OInv (E : Config.Env) (G : Service → Prop) (w : World) : Prop where
  config : FileOnly E G w.fs.config
  skeleton : FileOnly E G w.fs.skeleton
  heap : ∀ (n : Nat) t, w.heap[n]? = some t → Only G t ∧ Good E t
  default : ∀ c, w.proc = some c → Only G c.default

theorem loadFile_only {E : Config.Env} {G : Service → Prop} {f : Option Bytes} (h : FileOnly E G f)
    {now : Int64} {r : Bool} {c : PConfig} (hl : loadFile E now f r = .ok (some c)) : Only G c.table := by
  cases r with
  | true => exact h now c hl
  | false => cases hl

theorem load_only {E : Config.Env} (hE : Faithful E) (S : Setup) {G : Service → Prop} {fs : Files} (a : StartUp)
    (h1 : FileOnly E G fs.config) (h2 : FileOnly E G fs.skeleton) :
    FileOnly E G (loadConfiguration E S fs a).1.skeleton ∧
    ∀ p, (loadConfiguration E S fs a).2 = some p → Only G p.table := by
  rcases load_cases E S fs a with h | ⟨skel, config, hs, hc, f, o, h, ho⟩
  · rw [h]; exact ⟨h2, nofun⟩
  · rw [h]
    refine ⟨?_, ?_⟩
    · dsimp only
      split
      · exact fileOnly_write hE h2 (Good.start (.new a.now)) (only_new G a.now) _
      · exact h2
    · intro p hp
      dsimp only at hp
      rcases ho with ho | ho
      · rw [ho] at hp; cases hp
      · rw [ho] at hp
        injection hp with hp
        subst hp
        cases config with
        | some c => exact loadFile_only h1 hc
        | none =>
          cases skel with
          | some c =>
            split at hs
            · exact loadFile_only h2 hs
            · cases hs
          | none => exact only_new G a.now

theorem heap_append_only {P : Table → Prop} {heap : List Table} {t : Table}
    (h : ∀ (n : Nat) t, heap[n]? = some t → P t) (ht : P t) :
    ∀ (n : Nat) u, (heap ++ [t])[n]? = some u → P u := by
  intro n u hu
  rcases List.mem_append.mp (List.mem_of_getElem? hu) with hm | hm
  · obtain ⟨k, hk⟩ := List.getElem?_of_mem hm
    exact h k u hk
  · rw [List.mem_singleton.mp hm]; exact ht

theorem heap_set_only {P : Table → Prop} {heap : List Table} {t : Table} {k : Nat}
    (h : ∀ (n : Nat) t, heap[n]? = some t → P t) (ht : P t) :
    ∀ (n : Nat) u, (heap.set k t)[n]? = some u → P u := by
  intro n u hu
  rcases List.mem_or_eq_of_mem_set (List.mem_of_getElem? hu) with hm | rfl
  · obtain ⟨k, hk⟩ := List.getElem?_of_mem hm
    exact h k u hk
  · exact ht

theorem oinv_save {E : Config.Env} (hE : Faithful E) {G : Service → Prop} {w : World}
    (h1 : FileOnly E G w.fs.config) (h2 : FileOnly E G w.fs.skeleton)
    (h3 : ∀ (n : Nat) t, w.heap[n]? = some t → Only G t ∧ Good E t) (c : Cfg) {t : Table} (hg : Good E t) (ht : Only G t)
    (hd : Only G c.default) (o : Out) : OInv E G (w.save E c t o).1 := by
  refine ⟨fileOnly_write hE h1 hg ht o, h2, h3, ?_⟩
  intro c' hc'
  have := save_proc hc'
  subst this
  exact hd

theorem start_given {G : Service → Prop} {a : StartUp} (h : ∀ s, GivenBy s (.start a) → G s) :
    ∀ op ∈ a.services.map (TOp.addStatic a.now), ∀ x, added op = some x → G x.2.2 := by
  intro op hop x hx
  obtain ⟨s, hs, rfl⟩ := List.mem_map.mp hop
  cases hx
  exact h s hs

theorem changes_given {G : Service → Prop} {op : Config.Op} (h : ∀ s, GivenBy s op → G s) :
    ∀ x ∈ Spec.Naming.changesOf op, ∀ a, added x = some a → G a.2.2 := by
  cases op with
  | update l now o =>
    intro x hx a ha
    rcases List.mem_append.mp hx with hx | hx
    · obtain ⟨s, hs, rfl⟩ := List.mem_map.mp hx
      cases ha
      exact h s.2 ⟨s.1, hs⟩
    · cases List.mem_singleton.mp hx
      cases ha
  | _ => nofun

theorem oinv_step {E : Config.Env} (hE : Faithful E) (S : Setup) {G : Service → Prop} {w : World}
    (hw : WInv E w) (h : OInv E G w) {op : Config.Op} (hs : Sane op) (hG : ∀ s, GivenBy s op → G s) :
    OInv E G (w.step E S op).1 := by
  cases op with
  | start a =>
    simp only [World.step]
    cases hp : w.proc with
    | some c => exact h
    | none =>
      obtain ⟨k1, k2, k3⟩ := load_clean hE S a hw.config hw.skeleton
      obtain ⟨o2, o3⟩ := load_only hE S a h.config h.skeleton
      have o1 : FileOnly E G (loadConfiguration E S w.fs a).1.config := by rw [k1]; exact h.config
      rcases start_cases E S w a with h' | ⟨p, t, hp, hr, -, h'⟩
      · rw [h']; exact ⟨o1, o2, h.heap, nofun⟩
      · have hg := (Good.start (k3 p hp)).run (start_services hs) hr
        have ho := only_run (o3 p hp) (start_given hG) hr
        have hsv := oinv_save hE (w := { w with fs := (loadConfiguration E S w.fs a).1, heap := w.heap ++ [t] })
          o1 o2 (heap_append_only h.heap ⟨ho, hg⟩) ⟨p.version, p.uuid, p.passwd, w.heap.length, t, a.flashFriendly⟩
          hg ho ho a.outConfig
        rcases h' with h' | h'
        · rw [h'.2.1]; exact hsv
        · rw [h'.2]; exact ⟨hsv.config, hsv.skeleton, hsv.heap, nofun⟩
  | update l now o =>
    simp only [World.step]
    cases hp : w.proc with
    | none => exact h
    | some c =>
      obtain ⟨⟨t, ht, hg⟩, hd⟩ := hw.proc c hp
      have hch := changes_given hG
      show OInv E G (w.update E c l now o).1
      rcases update_cases E w c l now o ht with ⟨-, hu⟩ | ⟨t', hr, ⟨-, -, hu⟩ | ⟨-, hu⟩⟩
      · rw [hu]; exact ⟨h.config, h.skeleton, h.heap, nofun⟩
      · rw [hu]
        refine ⟨h.config, h.skeleton, heap_set_only h.heap ⟨only_run (h.heap _ _ ht).1 hch hr, hg.run (update_services hs) hr⟩, ?_⟩
        exact fun c' hc' => h.default c' hc'
      · rw [hu]
        have ho := only_run (h.heap _ _ ht).1 hch hr
        exact oinv_save hE (w := { w with heap := w.heap.set c.cell t' }) h.config h.skeleton
          (heap_set_only h.heap ⟨ho, hg.run (update_services hs) hr⟩) { c with version := c.version + 1 } (hg.run (update_services hs) hr) ho
          (h.default c hp) o
  | reset o =>
    simp only [World.step]
    cases hp : w.proc with
    | none => exact h
    | some c =>
      obtain ⟨-, hd⟩ := hw.proc c hp
      have hdo := h.default c hp
      exact oinv_save hE (w := { w with heap := w.heap ++ [c.default] }) h.config h.skeleton
        (heap_append_only h.heap ⟨hdo, hd⟩) { c with cell := w.heap.length, version := c.version + 1 } hd hdo hdo o
  | stop => exact ⟨h.config, h.skeleton, h.heap, nofun⟩

theorem oinv_run {E : Config.Env} (hE : Faithful E) (S : Setup) {G : Service → Prop} {ops : List Config.Op}
    {w : World} (hw : WInv E w) (h : OInv E G w) (hs : ∀ op ∈ ops, Sane op)
    (hG : ∀ op ∈ ops, ∀ s, GivenBy s op → G s) : OInv E G (w.run E S ops).1 := by
  induction ops generalizing w with
  | nil => exact h
  | cons op ops ih =>
    exact ih (winv_step hE S hw (hs op List.mem_cons_self))
      (oinv_step hE S hw h (hs op List.mem_cons_self) (hG op List.mem_cons_self))
      (fun o ho => hs o (List.mem_cons_of_mem _ ho)) (fun o ho => hG o (List.mem_cons_of_mem _ ho))

/-- All tables there ever are are consistent and have only services somebody gave the client. -/
theorem ever_given {E : Config.Env} (hE : Faithful E) (S : Setup) {w0 : World} (h0 : Fresh E w0)
    (hh : w0.heap = []) {ops : List Config.Op} (hs : ∀ op ∈ ops, Sane op) {t : Table} (ht : Ever E S w0 ops t) :
    Only (Given E w0 ops) t ∧ SvcTable.Inv t := by
  obtain ⟨cell, pre, op, post, c, t0, rfl, -, h2, h3⟩ := ht
  have hG : ∀ o ∈ pre ++ op :: post, ∀ s, GivenBy s o → Given E w0 (pre ++ op :: post) s :=
    fun o ho s hg => .inl ⟨o, ho, hg⟩
  have h : OInv E (Given E w0 (pre ++ op :: post)) w0 := by
    refine ⟨fileOnly_inFile fun s hs => .inr (.inl hs), fileOnly_inFile fun s hs => .inr (.inr hs), ?_, ?_⟩
    · rw [hh]; nofun
    · rw [h0.noProcess]; nofun
  have h' := oinv_run hE S (ops := pre) (WInv.fresh h0) h (fun o ho => hs o (by simp [ho]))
    (fun o ho => hG o (by simp [ho]))
  obtain ⟨ho, hg⟩ := h'.heap _ _ h2
  have I := reachable_inv hg.reach
  rcases h3 with rfl | ⟨-, h3⟩
  · exact ⟨ho, I⟩
  · refine ⟨?_, Naming.stages_inv I (Naming.sane_services (hs op (by simp))) h3⟩
    obtain ⟨p1, p2, h4, h5⟩ := h3
    refine only_run ho ?_ h5
    intro x hx
    exact changes_given (hG op (by simp)) x (by rw [h4]; simp [hx])

/-! ## What a connection reads -/

theorem only_get {G : Service → Prop} {t : Table} (h : Only G t) {i : UInt16} {s : Service}
    (hg : t.get i = some s) : s = .control ∨ G s := by
  refine h i s ?_
  unfold Table.get at hg
  split at hg
  · rename_i e he
    split at hg
    · rw [known, he]; exact hg
    · cases hg
  · cases hg

end Verif.Origin
