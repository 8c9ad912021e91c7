import Verif.Lemmas.Config
import Verif.Lemmas.JsonCode
import Verif.Props.SvcTable
/-!
# Properties of the configuration and its storage: C51-C53
-/
namespace Verif.Props.Config
open Verif Verif.SvcTable Verif.Config Verif.Spec.SvcTable Verif.Spec.Config

/-! ### The assumptions can be met -/

/-- External functions that meet the assumptions. -/
noncomputable def demoEnv : Env where
  farm := Props.SvcTable.demoFarm
  addr := Props.SvcTable.plainText
  render := JsonCode.enc
  parse := JsonCode.dec
  formatUuid := id
  parseUuid := some

theorem demo_faithful : Faithful demoEnv where
  addr := by
    rintro ⟨ip, port⟩
    cases ip <;> simp [demoEnv, Props.SvcTable.plainText, be16, rd16_be16]
  uuid := fun _ => rfl
  json := JsonCode.dec_enc
  cut := fun l n => JsonCode.dec_cut (.obj l) n

def emptyWorld : World := ⟨⟨none, none, none⟩, [], none⟩

theorem demo_fresh : Fresh demoEnv emptyWorld := ⟨rfl, nofun, nofun⟩

def demoStart (o : Out) : StartUp where
  now := 0
  readConfig := true
  readSkeleton := true
  freshUuid := [1]
  freshPasswd := [2]
  outSkeleton := .ok
  outIdentity := .ok
  outConfig := o
  services := [Props.SvcTable.svcB]
  flashFriendly := false

def demoSetup : Setup := ⟨true, true⟩

example : identity (emptyWorld.run demoEnv demoSetup [.start (demoStart .ok)]).1 = some ([1], [2]) := by
  decide +kernel

/-! ### C51 -/

/-- The world after a history that begins before the first start. -/
theorem run_table {E : Env} (hE : Faithful E) (S : Setup) {w0 : World} (h0 : Fresh E w0) {ops : List Op}
    (hs : ∀ op ∈ ops, Sane op) {t : Table} (ht : table (w0.run E S ops).1 = some t) :
    ∃ c, (w0.run E S ops).1.proc = some c ∧ (w0.run E S ops).1.heap[c.cell]? = some t ∧ Good E t := by
  have hw := winv_run hE S (WInv.fresh h0) hs
  unfold table at ht
  obtain ⟨c, hc, ht⟩ := Option.bind_eq_some_iff.mp ht
  obtain ⟨⟨t', ht', hg⟩, -⟩ := hw.proc c hc
  rw [ht] at ht'
  injection ht' with ht'
  subst ht'
  exact ⟨c, hc, ht, hg⟩

theorem changes_length (l : List (Int64 × Service)) (now : Int64) : (changes l now).length = l.length + 1 := by
  simp [changes]

theorem changes_costs (l : List (Int64 × Service)) (now : Int64) : costs (changes l now) = l.length + 65536 := by
  have h : costs (l.map (fun s => TOp.add s.1 s.2)) = l.length := by
    unfold costs
    induction l with
    | nil => rfl
    | cons a l ih =>
      simp only [List.map_cons, List.sum_cons, cost, List.length_cons] at *
      omega
  unfold changes
  have : costs (l.map (fun s => TOp.add s.1 s.2) ++ [TOp.updateActive now]) =
      costs (l.map (fun s => TOp.add s.1 s.2)) + costs [TOp.updateActive now] := by
    simp only [costs, List.map_append, List.sum_append_nat]
  rw [this, h]
  rfl

theorem services_changes {l : List (Int64 × Service)} {now : Int64} {o : Out} (h : Sane (.update l now o)) :
    Services (changes l now) := fun op hop a ha => (update_services h op hop a ha).1

/-- If the versions are the same nothing has changed. -/
theorem unchanged {E : Env} {t t' : Table} (hg : Good E t) {l : List (Int64 × Service)} {now : Int64} {o : Out}
    (hs : Sane (.update l now o)) (hr : t.run E.farm (changes l now) = some t') :
    (t'.version = t.version → ∀ i, known t i = known t' i) ∧
    (t'.visVersion = t.visVersion → SameVisible t t') := by
  have hlen := hs.1
  constructor
  · intro hv
    exact (Props.SvcTable.C41_table_version E.farm E.addr t t' (changes l now) hg.reach hr).1
      (by rw [changes_length]; omega) hv
  · intro hv
    refine (Props.SvcTable.C41_no_change_missed E.farm E.addr t t' t' (changes l now) [] hg.reach
      (services_changes hs) nofun hr rfl ?_ hv).1
    rw [List.append_nil, changes_costs]
    omega

/-- C51: an update that changes the services, or (unless in the flash-friendly mode) which of them are visible,
writes the new configuration to the configuration file. -/
theorem C51_saved_when_changed (E : Env) (hE : Faithful E) (S : Setup) (w0 : World) (h0 : Fresh E w0)
    (ops : List Op) (hs : ∀ op ∈ ops, Sane op) (c : Cfg) (hc : (w0.run E S ops).1.proc = some c)
    (t t' : Table) (ht : table (w0.run E S ops).1 = some t)
    (l : List (Int64 × Service)) (now : Int64) (o : Out) (hl : Sane (.update l now o))
    (hr : t.run E.farm (changes l now) = some t')
    (hch : (∃ i, known t i ≠ known t' i) ∨ (c.flashFriendly = false ∧ ¬ SameVisible t t')) :
    ((w0.run E S ops).1.step E S (.update l now o)).2 =
      [⟨E.render (PConfig.toJson E ⟨c.uuid, c.passwd, c.version + 1, t'⟩), o⟩] := by
  obtain ⟨c', hc', ht', hg⟩ := run_table hE S h0 hs ht
  rw [hc] at hc'
  injection hc' with hc'
  subst hc'
  obtain ⟨u1, u2⟩ := unchanged hg hl hr
  simp only [World.step, hc]
  rcases update_cases E (w0.run E S ops).1 c l now o ht' with ⟨hn, -⟩ | ⟨t2, hr2, ⟨h1, h2, -⟩ | ⟨-, hu⟩⟩
  · rw [hr] at hn; cases hn
  · rw [hr] at hr2
    injection hr2 with hr2
    subst hr2
    exfalso
    rcases hch with ⟨i, hi⟩ | ⟨hff, hv⟩
    · exact hi (u1 h1 i)
    · rcases h2 with h2 | h2
      · rw [hff] at h2; cases h2
      · exact hv (u2 h2)
  · rw [hr] at hr2
    injection hr2 with hr2
    subst hr2
    rw [hu]
    rfl

/-- A history of a table that changes something has a step that does. -/
theorem some_step {farm : Bytes → UInt64} {ops : List TOp} {t t' : Table} (h : t.run farm ops = some t')
    (P : Table → Table → Prop) (hrefl : ∀ t, ¬ P t t) (htr : ∀ a b c, P a c → P a b ∨ P b c) (hp : P t t') :
    ∃ pre op post t1 t2, ops = pre ++ op :: post ∧ t.run farm pre = some t1 ∧ t1.step farm op = some t2 ∧
      P t1 t2 := by
  induction ops generalizing t with
  | nil => injection h with h; subst h; exact (hrefl _ hp).elim
  | cons op ops ih =>
    simp only [Table.run] at h
    split at h
    · rename_i t1 hs
      rcases htr t t1 t' hp with h1 | h1
      · exact ⟨[], op, ops, t, t1, rfl, rfl, hs, h1⟩
      · obtain ⟨pre, op', post, t2, t3, e1, e2, e3, e4⟩ := ih h h1
        refine ⟨op :: pre, op', post, t2, t3, by rw [e1]; rfl, ?_, e3, e4⟩
        simp only [Table.run, hs]
        exact e2
    · cases h

/-- C51: the configuration file is only written if some step of the update changed a service, or (unless in
the flash-friendly mode) the visibility of one. -/
theorem C51_saved_only_when_changed (E : Env) (hE : Faithful E) (S : Setup) (w0 : World) (h0 : Fresh E w0)
    (ops : List Op) (hs : ∀ op ∈ ops, Sane op) (c : Cfg) (hc : (w0.run E S ops).1.proc = some c)
    (t : Table) (ht : table (w0.run E S ops).1 = some t)
    (l : List (Int64 × Service)) (now : Int64) (o : Out) (hl : Sane (.update l now o))
    (hsave : ((w0.run E S ops).1.step E S (.update l now o)).2 ≠ []) :
    ∃ pre op post t1 t2, changes l now = pre ++ op :: post ∧ t.run E.farm pre = some t1 ∧
      t1.step E.farm op = some t2 ∧
      ((∃ i, known t1 i ≠ known t2 i) ∨ (c.flashFriendly = false ∧ ¬ SameVisible t1 t2)) := by
  obtain ⟨c', hc', ht', hg⟩ := run_table hE S h0 hs ht
  rw [hc] at hc'
  injection hc' with hc'
  subst hc'
  simp only [World.step, hc] at hsave
  rcases update_cases E (w0.run E S ops).1 c l now o ht' with ⟨-, hu⟩ | ⟨t', hr, ⟨-, -, hu⟩ | ⟨hne, hu⟩⟩
  · rw [hu] at hsave; exact absurd rfl hsave
  · rw [hu] at hsave; exact absurd rfl hsave
  · clear hu hsave
    -- the version or the visible version changed
    have hcases : t'.version ≠ t.version ∨ (c.flashFriendly = false ∧ t'.visVersion ≠ t.visVersion) := by
      by_cases hv : t'.version = t.version
      · right
        refine ⟨?_, fun hx => hne ⟨hv, .inr hx⟩⟩
        cases hf : c.flashFriendly with
        | false => rfl
        | true => exact absurd ⟨hv, .inl hf⟩ hne
      · exact .inl hv
    have hsplit : ∀ pre op post t1 t2, changes l now = pre ++ op :: post → t.run E.farm pre = some t1 →
        t1.step E.farm op = some t2 → Reachable E.farm E.addr t1 ∧ Services [op] := by
      intro pre op post t1 t2 e1 e2 e3
      have hall := update_services hl
      rw [show l.map (fun s => TOp.add s.1 s.2) ++ [TOp.updateActive now] = changes l now from rfl, e1] at hall
      refine ⟨(hg.run (fun o ho => hall o (List.mem_append_left _ ho)) e2).reach, ?_⟩
      intro o ho a ha
      rw [List.mem_singleton.mp ho] at ha
      exact (hall op (by simp) a ha).1
    rcases hcases with hv | ⟨hff, hv⟩
    · obtain ⟨pre, op, post, t1, t2, e1, e2, e3, e4⟩ := some_step hr (fun a b => b.version ≠ a.version)
        (fun _ h => h rfl) (fun a b c h => by
          by_cases hb : b.version = a.version
          · right; rw [hb]; exact h
          · exact .inl hb) hv
      refine ⟨pre, op, post, t1, t2, e1, e2, e3, .inl ?_⟩
      obtain ⟨hre, -⟩ := hsplit _ _ _ _ _ e1 e2 e3
      have hrun : t1.run E.farm [op] = some t2 := by simp only [Table.run, e3]
      apply Classical.byContradiction
      intro hno
      exact e4 ((Props.SvcTable.C41_table_version E.farm E.addr t1 t2 [op] hre hrun).2 op rfl
        (fun i => Classical.byContradiction fun hi => hno ⟨i, hi⟩))
    · obtain ⟨pre, op, post, t1, t2, e1, e2, e3, e4⟩ := some_step hr (fun a b => b.visVersion ≠ a.visVersion)
        (fun _ h => h rfl) (fun a b c h => by
          by_cases hb : b.visVersion = a.visVersion
          · right; rw [hb]; exact h
          · exact .inl hb) hv
      obtain ⟨hre, hsv⟩ := hsplit _ _ _ _ _ e1 e2 e3
      exact ⟨pre, op, post, t1, t2, e1, e2, e3, .inr ⟨hff, fun hsame => e4
        ((Props.SvcTable.C41_no_needless_change E.farm E.addr t1 t2 op hre hsv e3).mpr hsame)⟩⟩

/-- The file has the configuration that is in memory, as far as it matters. -/
def InSync (E : Env) (w : World) : Prop :=
  ∀ c, w.proc = some c → ∃ t tf, w.heap[c.cell]? = some t ∧ Good E t ∧ Good E tf ∧
    w.fs.config = some (E.render (PConfig.toJson E ⟨c.uuid, c.passwd, c.version, tf⟩)) ∧
    Matches (!c.flashFriendly) tf t

theorem sync_step {E : Env} (hE : Faithful E) (S : Setup) {w : World} (hw : WInv E w) (h : InSync E w) {op : Op}
    (hs : Sane op) (ho : SavesWork op) : InSync E (w.step E S op).1 := by
  cases op with
  | start a =>
    simp only [World.step]
    cases hp : w.proc with
    | some c => exact h
    | none =>
      dsimp only
      obtain ⟨k1, k2, k3⟩ := load_clean hE S a hw.config hw.skeleton
      rcases start_cases E S w a with h' | ⟨p, t, hp', hr, -, ⟨ho', h', hpr⟩ | ⟨hne, -⟩⟩
      · rw [h']; intro c hc; cases hc
      · rw [h']
        have hg := (Good.start (k3 p hp')).run (start_services hs) hr
        intro c hc
        rw [hpr] at hc
        injection hc with hc
        subst hc
        refine ⟨t, t, ?_, hg, hg, ?_, Matches.refl _ t⟩
        · rw [save_heap]; simp
        · rw [ho']; rfl
      · exact absurd ho hne
  | update l now o =>
    simp only [World.step]
    cases hp : w.proc with
    | none => exact h
    | some c =>
      dsimp only
      cases (show o = .ok from ho)
      obtain ⟨t, tf, ht, hg, hgf, hf, hm⟩ := h c hp
      rcases update_cases E w c l now .ok ht with ⟨-, hu⟩ | ⟨t', hr, ⟨hv, hvis, hu⟩ | ⟨hne, hu⟩⟩
      · rw [hu]; intro c hc; cases hc
      · rw [hu]
        intro c' hc'
        rw [hp] at hc'
        injection hc' with hc'
        subst hc'
        have hg' := hg.run (update_services hs) hr
        obtain ⟨u1, u2⟩ := unchanged hg hs hr
        refine ⟨t', tf, heap_set ht t', hg', hgf, hf, Matches.trans hm ?_⟩
        refine matches_run (reachable_inv hg.reach) (reachable_inv hg'.reach) hr (u1 hv) ?_
        intro hb
        rcases hvis with hff | hvis
        · rw [hff] at hb; cases hb
        · exact u2 hvis
      · rw [hu]
        have hg' := hg.run (update_services hs) hr
        intro c' hc'
        have := save_proc hc'
        subst this
        exact ⟨t', t', by rw [save_heap]; exact heap_set ht t', hg', hg', rfl, Matches.refl _ _⟩
  | reset o =>
    simp only [World.step]
    cases hp : w.proc with
    | none => exact h
    | some c =>
      dsimp only
      cases (show o = .ok from ho)
      obtain ⟨-, hd⟩ := hw.proc c hp
      intro c' hc'
      have := save_proc hc'
      subst this
      exact ⟨c.default, c.default, by unfold World.reset; rw [save_heap]; simp, hd, hd, rfl, Matches.refl _ _⟩
  | stop => intro c hc; cases hc

/-- C51: as long as saving works, the configuration file can be loaded at any time and then has the identity and
version of the running client and the services of its table, with their ids and static flags; unless in the
flash-friendly mode, discovered services are active in the file iff they are in memory. -/
theorem C51_file_current (E : Env) (hE : Faithful E) (S : Setup) (w0 : World) (h0 : Fresh E w0)
    (ops : List Op) (hs : ∀ op ∈ ops, Sane op) (ho : ∀ op ∈ ops, SavesWork op) (c : Cfg)
    (hc : (w0.run E S ops).1.proc = some c) (now : Int64) :
    ∃ p t, loadFile E now (w0.run E S ops).1.fs.config true = .ok (some p) ∧
      table (w0.run E S ops).1 = some t ∧
      p.uuid = c.uuid ∧ p.passwd = c.passwd ∧ p.version = c.version ∧ Matches (!c.flashFriendly) p.table t := by
  have key : ∀ (ops : List Op) (w : World), WInv E w → InSync E w → (∀ op ∈ ops, Sane op) →
      (∀ op ∈ ops, SavesWork op) → InSync E (w.run E S ops).1 := by
    intro ops
    induction ops with
    | nil => intro w _ h _ _; exact h
    | cons op ops ih =>
      intro w hw h hs ho
      exact ih _ (winv_step hE S hw (hs op List.mem_cons_self))
        (sync_step hE S hw h (hs op List.mem_cons_self) (ho op List.mem_cons_self))
        (fun o h => hs o (List.mem_cons_of_mem _ h)) (fun o h => ho o (List.mem_cons_of_mem _ h))
  obtain ⟨t, tf, ht, hg, hgf, hf, hm⟩ := key ops w0 (WInv.fresh h0)
    (by intro c hc; rw [h0.noProcess] at hc; cases hc) hs ho c hc
  obtain ⟨t', h1, h2, -⟩ := loadFile_render hE (c := ⟨c.uuid, c.passwd, c.version, tf⟩) hgf now
  refine ⟨_, t, by rw [hf]; exact h1, ?_, rfl, rfl, rfl, Matches.trans (Matches.weaken (matches_reload h2)) hm⟩
  unfold table
  rw [hc]
  exact ht

/-- C51: a save that failed is not tried again: the file stays as it was until the next change. -/
theorem C51_failed_save_not_retried (E : Env) (S : Setup) (w : World) (c : Cfg) (t t1 t2 : Table)
    (l1 l2 : List (Int64 × Service)) (now1 now2 : Int64) (hc : w.proc = some c) (ht : table w = some t)
    (h1 : t.run E.farm (changes l1 now1) = some t1) (h2 : t1.run E.farm (changes l2 now2) = some t2)
    (hv : t2.version = t1.version) (hvis : t2.visVersion = t1.visVersion) :
    (w.run E S [.update l1 now1 .notCreated, .update l2 now2 .ok]).1.fs = w.fs ∧
    table (w.run E S [.update l1 now1 .notCreated, .update l2 now2 .ok]).1 = some t2 := by
  have ht' : w.heap[c.cell]? = some t := by
    unfold table at ht
    rw [hc] at ht
    exact ht
  -- the first update
  have hfirst : ∃ c1, c1.cell = c.cell ∧ c1.flashFriendly = c.flashFriendly ∧
      (w.update E c l1 now1 .notCreated).1 = ⟨w.fs, w.heap.set c.cell t1, some c1⟩ := by
    rcases update_cases E w c l1 now1 .notCreated ht' with ⟨hn, -⟩ | ⟨t', hr, ⟨-, -, hu⟩ | ⟨-, hu⟩⟩
    · rw [h1] at hn; cases hn
    · rw [h1] at hr
      injection hr with hr
      subst hr
      rw [hu]
      exact ⟨c, rfl, rfl, by rw [hc]⟩
    · rw [h1] at hr
      injection hr with hr
      subst hr
      rw [hu]
      exact ⟨{ c with version := c.version + 1 }, rfl, rfl, rfl⟩
  obtain ⟨c1, e1, e2, e3⟩ := hfirst
  have hs1 : (w.step E S (.update l1 now1 .notCreated)).1 = ⟨w.fs, w.heap.set c.cell t1, some c1⟩ := by
    simp only [World.step, hc]; exact e3
  have hcell : (⟨w.fs, w.heap.set c.cell t1, some c1⟩ : World).heap[c1.cell]? = some t1 := by
    rw [e1]; exact heap_set ht' t1
  have hs2 : ((⟨w.fs, w.heap.set c.cell t1, some c1⟩ : World).step E S (.update l2 now2 .ok)).1 =
      ⟨w.fs, (w.heap.set c.cell t1).set c1.cell t2, some c1⟩ := by
    simp only [World.step]
    rcases update_cases E ⟨w.fs, w.heap.set c.cell t1, some c1⟩ c1 l2 now2 .ok hcell with
      ⟨hn, -⟩ | ⟨t', hr, ⟨-, -, hu⟩ | ⟨hne, -⟩⟩
    · rw [h2] at hn; cases hn
    · rw [h2] at hr
      injection hr with hr
      subst hr
      rw [hu]
    · rw [h2] at hr
      injection hr with hr
      subst hr
      exact absurd ⟨hv, .inr hvis⟩ hne
  have hrun : (w.run E S [.update l1 now1 .notCreated, .update l2 now2 .ok]).1 =
      ⟨w.fs, (w.heap.set c.cell t1).set c1.cell t2, some c1⟩ := by
    simp only [World.run, hs1, hs2]
  rw [hrun]
  refine ⟨rfl, ?_⟩
  unfold table
  exact heap_set (w := ⟨w.fs, w.heap.set c.cell t1, some c1⟩) hcell t2

/-- The hypotheses are met: a new service is saved and one that is known already is not; the second of these
updates does not change the versions. -/
example : let w := (emptyWorld.run demoEnv demoSetup [.start (demoStart .ok)]).1
    let t := (table w).getD (Table.new 0)
    let t1 := (t.run demoEnv.farm (changes [(5, Props.SvcTable.svcA)] 6)).getD t
    let t2 := (t1.run demoEnv.farm (changes [(7, Props.SvcTable.svcA)] 8)).getD t
    (table w).isSome ∧ known t 0 ≠ known t 0xffff ∧
    (w.step demoEnv demoSetup (.update [(5, Props.SvcTable.svcA)] 6 .ok)).2.length = 1 ∧
    (w.step demoEnv demoSetup (.update [(5, Props.SvcTable.svcB)] 6 .ok)).2.length = 0 ∧
    (∃ i, known t i ≠ known t1 i) ∧ (t.run demoEnv.farm (changes [(5, Props.SvcTable.svcA)] 6)).isSome ∧
    t2.version = t1.version ∧ t2.visVersion = t1.visVersion := by
  refine ⟨by decide +kernel, by decide +kernel, by decide +kernel, by decide +kernel, ⟨1, ?_⟩, by decide +kernel,
    by decide +kernel, by decide +kernel⟩
  decide +kernel

/-! ### C52 -/

/-- C52: after a reset the table is the one the client started with: the services of the configuration that was
loaded, with the given static services added. (So services that were found in an earlier run, and saved, are
not forgotten.) -/
theorem C52_reset (E : Env) (S : Setup) (w : World) (a : StartUp) (p : PConfig) (ops : List Op) (o : Out)
    (hw : w.proc = none) (hp : (loadConfiguration E S w.fs a).2 = some p)
    (hrun : (w.step E S (.start a)).1.proc ≠ none) (hops : ∀ op ∈ ops, ∀ b, op ≠ .start b)
    (hrun' : (w.run E S (.start a :: ops ++ [.reset o])).1.proc ≠ none) :
    table (w.run E S (.start a :: ops ++ [.reset o])).1 =
      p.table.run E.farm (a.services.map (.addStatic a.now)) := by
  -- the default table does not change
  have hstep : ∀ (w : World) (op : Op) (c c' : Cfg), w.proc = some c → (w.step E S op).1.proc = some c' →
      c'.default = c.default := by
    intro w op c c' hc hc'
    cases op with
    | start b =>
      simp only [World.step, hc] at hc'
      injection hc' with hc'
      rw [hc']
    | update l now o =>
      simp only [World.step, hc, World.update] at hc'
      split at hc'
      · rw [hc] at hc'; injection hc' with hc'; rw [hc']
      · split at hc'
        · cases hc'
        · split at hc'
          · simp only [hc] at hc'; injection hc' with hc'; rw [hc']
          · rw [save_proc hc']
    | reset o =>
      simp only [World.step, hc, World.reset] at hc'
      rw [save_proc hc']
    | stop => cases hc'
  have hdead : ∀ (ops : List Op) (w : World), (∀ op ∈ ops, ∀ b, op ≠ .start b) → w.proc = none →
      (w.run E S ops).1.proc = none := by
    intro ops
    induction ops with
    | nil => intro w _ h; exact h
    | cons op ops ih =>
      intro w hn h
      refine ih _ (fun o ho => hn o (List.mem_cons_of_mem _ ho)) ?_
      cases op with
      | start b => exact absurd rfl (hn _ List.mem_cons_self b)
      | update l now o => simp only [World.step, h]
      | reset o => simp only [World.step, h]
      | stop => rfl
  have hkeep : ∀ (ops : List Op) (w : World) (c c' : Cfg), (∀ op ∈ ops, ∀ b, op ≠ .start b) →
      w.proc = some c → (w.run E S ops).1.proc = some c' → c'.default = c.default := by
    intro ops
    induction ops with
    | nil =>
      intro w c c' _ hc hc'
      simp only [World.run, hc] at hc'
      injection hc' with hc'
      rw [hc']
    | cons op ops ih =>
      intro w c c' hn hc hc'
      cases h1 : (w.step E S op).1.proc with
      | none =>
        have := hdead ops _ (fun o ho => hn o (List.mem_cons_of_mem _ ho)) h1
        rw [show (w.run E S (op :: ops)).1 = ((w.step E S op).1.run E S ops).1 from rfl, this] at hc'
        cases hc'
      | some c1 =>
        exact (ih _ c1 c' (fun o ho => hn o (List.mem_cons_of_mem _ ho)) h1 hc').trans (hstep w op c c1 hc h1)
  -- the table after the start
  have hstart : ∃ c t, (w.step E S (.start a)).1.proc = some c ∧ c.default = t ∧
      p.table.run E.farm (a.services.map (.addStatic a.now)) = some t := by
    simp only [World.step, hw] at hrun ⊢
    rcases start_cases E S w a with h' | ⟨p', t, hp', hr, -, ⟨-, h', hpr⟩ | ⟨-, h'⟩⟩
    · rw [h'] at hrun; exact absurd rfl hrun
    · rw [hp] at hp'
      injection hp' with hp'
      subst hp'
      rw [h', hpr]
      exact ⟨_, t, rfl, rfl, hr⟩
    · rw [h'] at hrun; exact absurd rfl hrun
  obtain ⟨c, t, hc, hd, hr⟩ := hstart
  have hsplit : (w.run E S (.start a :: ops ++ [.reset o])).1 =
      (((w.step E S (.start a)).1.run E S ops).1.step E S (.reset o)).1 := by
    rw [List.cons_append, show (w.run E S (.start a :: (ops ++ [.reset o]))).1 =
      ((w.step E S (.start a)).1.run E S (ops ++ [.reset o])).1 from rfl, Config.run_append]
    rfl
  rw [hsplit] at hrun' ⊢
  generalize hw1 : (w.step E S (.start a)).1 = w1 at *
  cases h2 : (w1.run E S ops).1.proc with
  | none => simp only [World.step, h2] at hrun'; exact absurd rfl hrun'
  | some c2 =>
    have hd2 := hkeep ops w1 c c2 hops hc h2
    simp only [World.step, h2] at hrun' ⊢
    cases h3 : ((w1.run E S ops).1.reset E c2 o).1.proc with
    | none => exact absurd h3 hrun'
    | some c3 =>
      unfold table
      rw [h3, hr]
      have h4 : c3 = _ := save_proc h3
      rw [h4]
      unfold World.reset
      rw [Option.bind_some, save_heap]
      simp [hd2, hd]

/-- C52: a connection that was set up before a reset keeps the old table, which never changes again, so that it
never learns what the server should be told. -/
theorem C52_old_table_frozen (E : Env) (S : Setup) (w : World) (c : Cfg) (t : Table) (o : Out) (ops : List Op)
    (hc : w.proc = some c) (ht : w.heap[c.cell]? = some t) :
    (w.run E S (.reset o :: ops)).1.heap[c.cell]? = some t ∧
    ∀ c', (w.run E S (.reset o :: ops)).1.proc = some c' → c'.cell ≠ c.cell := by
  have hlt : c.cell < w.heap.length := (List.getElem?_eq_some_iff.mp ht).1
  generalize hr : c.cell = r at *
  -- invariant: the table is there and the process uses a later one
  let P : World → Prop := fun w => r < w.heap.length ∧ w.heap[r]? = some t ∧ ∀ c, w.proc = some c → r < c.cell
  have hsave : ∀ (w : World) (c : Cfg) (t' : Table) (o : Out), r < w.heap.length → w.heap[r]? = some t →
      r < c.cell → P (w.save E c t' o).1 := by
    intro w c t' o h1 h2 h3
    refine ⟨h1, h2, ?_⟩
    intro c' hc'
    rw [save_proc hc']
    exact h3
  have happ : ∀ (w : World) (t' : Table), r < w.heap.length → w.heap[r]? = some t →
      (w.heap ++ [t'])[r]? = some t := by
    intro w t' h1 h2
    rw [List.getElem?_append_left h1]
    exact h2
  have hstep : ∀ (w : World) (op : Op), P w → P (w.step E S op).1 := by
    rintro w op ⟨h1, h2, h3⟩
    cases op with
    | start a =>
      simp only [World.step]
      cases hp : w.proc with
      | some c => exact ⟨h1, h2, h3⟩
      | none =>
        dsimp only
        rcases start_cases E S w a with h' | ⟨p', t', hp', hr, -, ⟨-, h', hpr⟩ | ⟨-, h'⟩⟩
        · rw [h']; exact ⟨h1, h2, nofun⟩
        · rw [h']
          refine hsave _ _ _ _ ?_ ?_ h1
          · show r < (w.heap ++ [t']).length
            simp only [List.length_append, List.length_singleton]; omega
          · exact happ w t' h1 h2
        · rw [h']
          refine ⟨?_, happ w t' h1 h2, nofun⟩
          show r < (w.heap ++ [t']).length
          simp only [List.length_append, List.length_singleton]; omega
    | update l now o =>
      simp only [World.step]
      cases hp : w.proc with
      | none => exact ⟨h1, h2, fun c hc => by rw [hp] at hc; cases hc⟩
      | some c =>
        dsimp only
        have hcell := h3 c hp
        have hset : ∀ t', (w.heap.set c.cell t')[r]? = some t := by
          intro t'
          rw [List.getElem?_set_ne (by omega)]
          exact h2
        simp only [World.update]
        split
        · exact ⟨h1, h2, h3⟩
        · split
          · exact ⟨h1, h2, nofun⟩
          · rename_i t' _
            split
            · exact ⟨by rw [List.length_set]; exact h1, hset t', h3⟩
            · exact hsave _ _ _ _ (by rw [List.length_set]; exact h1) (hset t') hcell
    | reset o =>
      simp only [World.step]
      cases hp : w.proc with
      | none => exact ⟨h1, h2, fun c hc => by rw [hp] at hc; cases hc⟩
      | some c =>
        refine hsave _ _ _ _ ?_ (happ w c.default h1 h2) h1
        show r < (w.heap ++ [c.default]).length
        simp only [List.length_append, List.length_singleton]; omega
    | stop => exact ⟨h1, h2, nofun⟩
  have hrun : ∀ (ops : List Op) (w : World), P w → P (w.run E S ops).1 := by
    intro ops
    induction ops with
    | nil => intro w h; exact h
    | cons op ops ih => intro w h; exact ih _ (hstep w op h)
  have hfirst : P (w.step E S (.reset o)).1 := by
    simp only [World.step, hc]
    refine hsave _ _ _ _ ?_ (happ w c.default hlt ht) hlt
    show r < (w.heap ++ [c.default]).length
    simp only [List.length_append, List.length_singleton]; omega
  obtain ⟨-, h2, h3⟩ := hrun ops _ hfirst
  exact ⟨h2, fun c' hc' hx => Nat.lt_irrefl r (by have := h3 c' hc'; omega)⟩

/-- C52: without a reset a connection has the table of the client. -/
theorem C52_same_table_without_reset (E : Env) (S : Setup) (w : World) (c c' : Cfg) (ops : List Op)
    (hc : w.proc = some c) (hops : ∀ op ∈ ops, ∃ l now o, op = .update l now o)
    (hc' : (w.run E S ops).1.proc = some c') : c'.cell = c.cell := by
  induction ops generalizing w c with
  | nil =>
    simp only [World.run, hc] at hc'
    injection hc' with hc'
    rw [hc']
  | cons op ops ih =>
    have hrest : ∀ op ∈ ops, ∃ l now o, op = .update l now o := fun o ho => hops o (List.mem_cons_of_mem _ ho)
    obtain ⟨l, now, o, rfl⟩ := hops op List.mem_cons_self
    cases h1 : (w.step E S (.update l now o)).1.proc with
    | none =>
      have hdead : ∀ (ops : List Op) (w : World), (∀ op ∈ ops, ∃ l now o, op = Op.update l now o) →
          w.proc = none → (w.run E S ops).1.proc = none := by
        intro ops
        induction ops with
        | nil => intro w _ h; exact h
        | cons op ops ih =>
          intro w hn h
          refine ih _ (fun o ho => hn o (List.mem_cons_of_mem _ ho)) ?_
          obtain ⟨l, now, o, rfl⟩ := hn op List.mem_cons_self
          simp only [World.step, h]
      have := hdead ops _ hrest h1
      rw [show (w.run E S (.update l now o :: ops)).1 = ((w.step E S (.update l now o)).1.run E S ops).1
        from rfl, this] at hc'
      cases hc'
    | some c1 =>
      refine (ih _ c1 h1 hrest hc').trans ?_
      simp only [World.step, hc, World.update] at h1
      split at h1
      · rw [hc] at h1; injection h1 with h1; rw [h1]
      · split at h1
        · cases h1
        · split at h1
          · simp only [hc] at h1; injection h1 with h1; rw [h1]
          · rw [save_proc h1]

/-- The hypotheses of C52 are met by the first start of a client. -/
example : (loadConfiguration demoEnv demoSetup emptyWorld.fs (demoStart .ok)).2.map (·.uuid) = some [1] ∧
    (emptyWorld.step demoEnv demoSetup (.start (demoStart .ok))).1.proc ≠ none ∧
    (emptyWorld.run demoEnv demoSetup [.start (demoStart .ok), .reset .ok]).1.proc ≠ none ∧
    (table (emptyWorld.run demoEnv demoSetup [.start (demoStart .ok), .reset .ok]).1).map (·.visible) =
      some [(0xffff, Props.SvcTable.svcB)] := by
  decide +kernel

/-! ### C53 -/

theorem fromJson_fields {E : Env} {now : Int64} {l : List (Bytes × Json)} {s : PConfig} {u p u' p' : Bytes}
    (h3 : Json.field l (asc "uuid") = some (.str u)) (h4 : Json.field l (asc "passwd") = some (.str p))
    (h6 : E.parseUuid u = some u') (h7 : E.parseUuid p = some p')
    (h : PConfig.fromJson E now (.obj l) = .ok s) : s.uuid = u' ∧ s.passwd = p' := by
  unfold PConfig.fromJson at h
  simp only [h3, h4, Option.bind_some, Json.asStr] at h
  split at h
  · cases h
  · split at h
    · cases h
    · cases h
    · split at h
      · rename_i e1 e2 e3
        injection e1 with e1
        injection e2 with e2
        subst e1 e2
        rw [h6, h7] at h
        injection h with h
        subst h
        exact ⟨rfl, rfl⟩
      · cases h

theorem fromJson_identity {E : Env} (hE : Faithful E) {c s : PConfig} {now : Int64}
    (h : PConfig.fromJson E now (c.toJson E) = .ok s) : s.uuid = c.uuid ∧ s.passwd = c.passwd := by
  rw [toJson_cfields] at h
  exact fromJson_fields (cfield_uuid E c) (cfield_passwd E c) (hE.uuid _) (hE.uuid _) h

theorem loadFile_identity {E : Env} (hE : Faithful E) {c s : PConfig} {now : Int64} {r : Bool}
    (h : loadFile E now (some (E.render (c.toJson E))) r = .ok (some s)) :
    s.uuid = c.uuid ∧ s.passwd = c.passwd := by
  unfold loadFile at h
  split at h
  · simp only [hE.json] at h
    split at h
    · rename_i x hx
      injection h with h
      injection h with h
      subst h
      exact fromJson_identity hE hx
    · cases h
    · cases h
  · cases h

/-- Everything that is stored has the identity `i`. -/
structure Keeps (E : Env) (i : Bytes × Bytes) (w : World) : Prop where
  skeleton : ∀ now, ∃ s, loadFile E now w.fs.skeleton true = .ok (some s) ∧ (s.uuid, s.passwd) = i
  config : ∀ now r s, loadFile E now w.fs.config r = .ok (some s) → (s.uuid, s.passwd) = i
  proc : ∀ c, w.proc = some c → (c.uuid, c.passwd) = i

theorem keeps_save {E : Env} (hE : Faithful E) {i : Bytes × Bytes} {w : World}
    (h1 : ∀ now, ∃ s, loadFile E now w.fs.skeleton true = .ok (some s) ∧ (s.uuid, s.passwd) = i)
    (h2 : ∀ now r s, loadFile E now w.fs.config r = .ok (some s) → (s.uuid, s.passwd) = i)
    {c : Cfg} (hc : (c.uuid, c.passwd) = i) (t : Table) (o : Out) : Keeps E i (w.save E c t o).1 := by
  refine ⟨h1, ?_, ?_⟩
  · intro now r s hs
    have he : (w.save E c t o).1.fs.config =
        (writeFile w.fs.config (E.render (PConfig.toJson E ⟨c.uuid, c.passwd, c.version, t⟩)) o).1 := rfl
    rcases write_cases hE w.fs.config ⟨c.uuid, c.passwd, c.version, t⟩ o with ⟨-, h⟩ | h | ⟨-, h⟩
    · rw [he, h] at hs; exact h2 now r s hs
    · rw [he, h] at hs
      obtain ⟨e1, e2⟩ := loadFile_identity hE hs
      rw [e1, e2]
      exact hc
    · cases r with
      | false => cases hs
      | true => rw [he, unusable_load h now] at hs; cases hs
  · intro c' hc'
    rw [save_proc hc']
    exact hc

theorem keeps_start {E : Env} (hE : Faithful E) {S : Setup} (hS : S.skeleton = true) {i : Bytes × Bytes}
    {w : World} (h : Keeps E i w) {a : StartUp} (ha : a.readSkeleton = true) : Keeps E i (w.start E S a).1 := by
  -- loading leaves the files alone and gives the identity
  have hload : (loadConfiguration E S w.fs a).1.config = w.fs.config ∧
      (loadConfiguration E S w.fs a).1.skeleton = w.fs.skeleton ∧
      ∀ p, (loadConfiguration E S w.fs a).2 = some p → (p.uuid, p.passwd) = i := by
    rcases load_cases E S w.fs a with h' | ⟨skel, config, hs, hc, f, o, h', ho⟩
    · rw [h']; exact ⟨rfl, rfl, nofun⟩
    · rw [if_pos hS, ha] at hs
      obtain ⟨s, hs', hi⟩ := h.skeleton a.now
      rw [hs'] at hs
      injection hs with hs
      subst hs
      rw [h']
      refine ⟨rfl, if_neg (by simp), ?_⟩
      intro p hp
      dsimp only at hp
      rcases ho with ho | ho
      · rw [ho] at hp; cases hp
      · rw [ho] at hp
        injection hp with hp
        subst hp
        cases config with
        | none => exact hi
        | some x => exact h.config _ _ _ hc
  obtain ⟨l1, l2, l3⟩ := hload
  have k1 : ∀ now, ∃ s, loadFile E now (loadConfiguration E S w.fs a).1.skeleton true = .ok (some s) ∧
      (s.uuid, s.passwd) = i := by rw [l2]; exact h.skeleton
  have k2 : ∀ now r s, loadFile E now (loadConfiguration E S w.fs a).1.config r = .ok (some s) →
      (s.uuid, s.passwd) = i := by rw [l1]; exact h.config
  rcases start_cases E S w a with h' | ⟨p, t, hp, hr, -, ⟨-, h', -⟩ | ⟨-, h'⟩⟩
  · rw [h']; exact ⟨k1, k2, nofun⟩
  · rw [h']
    exact keeps_save hE (w := { w with fs := (loadConfiguration E S w.fs a).1, heap := w.heap ++ [t] }) k1 k2
      (c := ⟨p.version, p.uuid, p.passwd, w.heap.length, t, a.flashFriendly⟩) (l3 p hp) t a.outConfig
  · rw [h']
    have := keeps_save hE (w := { w with fs := (loadConfiguration E S w.fs a).1, heap := w.heap ++ [t] }) k1 k2
      (c := ⟨p.version, p.uuid, p.passwd, w.heap.length, t, a.flashFriendly⟩) (l3 p hp) t a.outConfig
    exact ⟨this.skeleton, this.config, nofun⟩

theorem keeps_step {E : Env} (hE : Faithful E) {S : Setup} (hS : S.skeleton = true) {i : Bytes × Bytes}
    {w : World} (h : Keeps E i w) {op : Op} (ho : SkeletonReadable op) : Keeps E i (w.step E S op).1 := by
  cases op with
  | start a =>
    simp only [World.step]
    cases hp : w.proc with
    | some c => exact h
    | none => exact keeps_start hE hS h ho
  | update l now o =>
    simp only [World.step]
    cases hp : w.proc with
    | none => exact h
    | some c =>
      have hi := h.proc c hp
      simp only [World.update]
      split
      · exact h
      · split
        · exact ⟨h.skeleton, h.config, nofun⟩
        · rename_i t' _
          split
          · exact ⟨h.skeleton, h.config, h.proc⟩
          · exact keeps_save hE (w := { w with heap := w.heap.set c.cell t' }) h.skeleton h.config
              (c := { c with version := c.version + 1 }) hi t' o
  | reset o =>
    simp only [World.step]
    cases hp : w.proc with
    | none => exact h
    | some c =>
      exact keeps_save hE (w := { w with heap := w.heap ++ [c.default] }) h.skeleton h.config
        (c := { c with cell := w.heap.length, version := c.version + 1 }) (h.proc c hp) c.default o
  | stop => exact ⟨h.skeleton, h.config, nofun⟩

theorem keeps_run {E : Env} (hE : Faithful E) {S : Setup} (hS : S.skeleton = true) {i : Bytes × Bytes}
    {ops : List Op} {w : World} (h : Keeps E i w) (ho : ∀ op ∈ ops, SkeletonReadable op) :
    Keeps E i (w.run E S ops).1 := by
  induction ops generalizing w with
  | nil => exact h
  | cons op ops ih =>
    exact ih (keeps_step hE hS h (ho op List.mem_cons_self)) (fun o h => ho o (List.mem_cons_of_mem _ h))

/-- The files after a start that created the skeleton file. -/
theorem first_start {E : Env} (hE : Faithful E) {S : Setup} (hS : S.skeleton = true) {w : World} {a : StartUp}
    {i : Bytes × Bytes} (hw : w.proc = none)
    (hskel : loadFile E a.now w.fs.skeleton a.readSkeleton = .ok none)
    (ha : a.outSkeleton = .ok) (hi : identity (w.step E S (.start a)).1 = some i) :
    Keeps E i (w.step E S (.start a)).1 ∧ ∃ p, (loadConfiguration E S w.fs a).2 = some p ∧
      (p.uuid, p.passwd) = i := by
  simp only [World.step, hw] at hi ⊢
  rcases start_cases E S w a with h' | ⟨p, t, hp, hr, -, ⟨ho', h', hpr⟩ | ⟨-, h'⟩⟩
  · rw [h'] at hi; cases hi
  · rw [h'] at hi ⊢
    rw [show identity _ = Option.map _ (World.proc _) from rfl, hpr] at hi
    injection hi with hi
    refine ⟨?_, p, hp, hi⟩
    have k1 : ∀ now, ∃ s, loadFile E now (loadConfiguration E S w.fs a).1.skeleton true = .ok (some s) ∧
        (s.uuid, s.passwd) = i := by
      intro now
      rcases load_cases E S w.fs a with h1 | ⟨skel, config, hs, hc, f, o, h1, ho⟩
      · rw [h1] at hp; cases hp
      · rw [h1] at hp ⊢
        rw [if_pos hS, hskel] at hs
        injection hs with hs
        subst hs
        dsimp only at hp ⊢
        rw [if_pos ⟨hS, rfl⟩, ha]
        rcases ho with ho | ho
        · rw [ho] at hp; cases hp
        · rw [ho] at hp
          injection hp with hp
          rw [hp]
          obtain ⟨t', e1, -, -⟩ := loadFile_render hE (c := p.toSkeleton a.now) (Good.start (.new a.now)) now
          exact ⟨_, e1, hi⟩
    have k2 := keeps_save hE (w := { w with fs := { (loadConfiguration E S w.fs a).1 with config := none }, heap := w.heap ++ [t] })
      k1 (fun now r s h => by cases r <;> cases h)
      (c := ⟨p.version, p.uuid, p.passwd, w.heap.length, t, a.flashFriendly⟩) hi t .ok
    rw [ho']
    exact ⟨k2.skeleton, k2.config, k2.proc⟩
  · rw [h'] at hi; cases hi

/-- C53: once a client with a skeleton file has started for the first time, its identity stays the same for
ever: over any number of restarts, with saves that fail or are cut short and with crashes at any point, as long
as the skeleton file can be read. -/
theorem C53_identity_kept (E : Env) (hE : Faithful E) (S : Setup) (hS : S.skeleton = true) (w : World)
    (a : StartUp) (ops : List Op) (i j : Bytes × Bytes) (hw : w.proc = none) (hskel : Unusable E w.fs.skeleton)
    (ha : a.outSkeleton = .ok) (hi : identity (w.step E S (.start a)).1 = some i)
    (hops : ∀ op ∈ ops, SkeletonReadable op)
    (hj : identity (w.run E S (.start a :: ops)).1 = some j) : j = i := by
  have hsk : loadFile E a.now w.fs.skeleton a.readSkeleton = .ok none := by
    cases a.readSkeleton with
    | true => exact unusable_load hskel _ _
    | false => rfl
  have := keeps_run hE hS (first_start hE hS hw hsk ha hi).1 hops
  rw [show (w.run E S (.start a :: ops)).1 = ((w.step E S (.start a)).1.run E S ops).1 from rfl] at hj
  unfold identity at hj
  obtain ⟨c, hc, hj⟩ := Option.map_eq_some_iff.mp hj
  rw [← hj]
  exact this.proc c hc

theorem load_live {E : Env} {S : Setup} {fs : Files} {a : StartUp} {skel config : Option PConfig}
    (hs : (if S.skeleton then loadFile E a.now fs.skeleton a.readSkeleton else .ok none) = .ok skel)
    (hc : loadFile E a.now fs.config a.readConfig = .ok config)
    (h1 : a.outSkeleton = .ok) (h2 : a.outIdentity = .ok) :
    (loadConfiguration E S fs a).2 =
      some ((config.or skel).getD (PConfig.new a.now a.freshUuid a.freshPasswd)) := by
  unfold loadConfiguration
  rw [hs, hc, h1, h2]
  dsimp only
  by_cases hx : S.skeleton = true ∧ skel.isNone = true
  · simp only [if_pos hx]
    rw [if_neg (by simp [writeFile])]
    dsimp only
    cases S.identity <;> rfl
  · simp only [if_neg hx]
    rw [if_neg (by decide)]
    dsimp only
    cases S.identity <;> rfl

theorem start_live {E : Env} {S : Setup} {w : World} {a : StartUp} {p : PConfig} {t : Table}
    (hw : w.proc = none) (hl : (loadConfiguration E S w.fs a).2 = some p)
    (hr : p.table.run E.farm (a.services.map (.addStatic a.now)) = some t) (ho : a.outConfig = .ok) :
    identity (w.step E S (.start a)).1 = some (p.uuid, p.passwd) := by
  simp only [World.step, hw]
  unfold World.start
  generalize loadConfiguration E S w.fs a = r at hl
  obtain ⟨fs, o⟩ := r
  dsimp only at hl
  subst hl
  dsimp only
  rw [hr]
  dsimp only
  rw [if_pos ho, ho]
  rfl

/-- C53: a client whose configuration file is missing or damaged starts with the identity of its skeleton
file. -/
theorem C53_recovered (E : Env) (S : Setup) (hS : S.skeleton = true) (w : World) (a : StartUp) (s : PConfig)
    (hw : w.proc = none) (hconf : Unusable E w.fs.config)
    (hskel : loadFile E a.now w.fs.skeleton true = .ok (some s)) (hread : a.readSkeleton = true)
    (hrun : s.table.run E.farm (a.services.map (.addStatic a.now)) ≠ none)
    (h1 : a.outSkeleton = .ok) (h2 : a.outIdentity = .ok) (h3 : a.outConfig = .ok) :
    identity (w.step E S (.start a)).1 = some (s.uuid, s.passwd) := by
  have hcf : loadFile E a.now w.fs.config a.readConfig = .ok none := by
    cases a.readConfig with
    | true => exact unusable_load hconf _ _
    | false => rfl
  cases hr : s.table.run E.farm (a.services.map (.addStatic a.now)) with
  | none => exact absurd hr hrun
  | some t =>
    exact start_live hw (load_live (skel := some s) (by rw [if_pos hS, hread]; exact hskel) hcf h1 h2) hr h3

/-- C53: a client with neither a usable configuration nor a usable skeleton starts with a new identity, if it can
write its files. -/
theorem C53_first_start (E : Env) (S : Setup) (w : World) (a : StartUp)
    (hw : w.proc = none) (hconf : Unusable E w.fs.config) (hskel : Unusable E w.fs.skeleton)
    (hs : ∀ s ∈ a.services, s.Constructible) (hlen : a.services.length ≤ 65535)
    (h1 : a.outSkeleton = .ok) (h2 : a.outIdentity = .ok) (h3 : a.outConfig = .ok) :
    identity (w.step E S (.start a)).1 = some (a.freshUuid, a.freshPasswd) := by
  have hs' : (if S.skeleton then loadFile E a.now w.fs.skeleton a.readSkeleton else .ok none) = .ok none := by
    split
    · exact unusable_load hskel _ _
    · rfl
  have hl := load_live hs' (unusable_load hconf _ _) h1 h2
  have hr := Props.SvcTable.C39_never_panics E.farm a.now (a.services.map (.addStatic a.now))
    (a.services.map Service.toIdentifier) (by
      intro op hop x hx
      obtain ⟨s, hs1, rfl⟩ := List.mem_map.mp hop
      injection hx with hx
      subst hx
      exact hs s hs1) (by simpa using hlen) (by
      intro op hop x hx
      obtain ⟨s, hs1, rfl⟩ := List.mem_map.mp hop
      injection hx with hx
      subst hx
      exact .inr (List.mem_map_of_mem hs1))
  cases hr' : (Table.new a.now).run E.farm (a.services.map (.addStatic a.now)) with
  | none => exact absurd hr' hr
  | some t => exact start_live hw hl hr' h3

example : identity (emptyWorld.step demoEnv demoSetup (.start (demoStart .ok))).1 = some ([1], [2]) :=
  C53_first_start _ _ _ _ rfl nofun nofun
    (by intro s hs; rw [List.mem_singleton.mp hs]; constructor) (by decide +kernel) rfl rfl rfl

/-- A client that was started for the first time and crashed while saving its configuration. -/
noncomputable def crashed (S : Setup) : World := (emptyWorld.run demoEnv S [.start (demoStart .ok), .reset (.crash 0)]).1

theorem crashed_config (S : Setup) (h : (crashed S).fs.config = some []) :
    Unusable demoEnv (crashed S).fs.config := by
  rw [h]
  intro d hd j hj
  injection hd with hd
  rw [← hd, show demoEnv.parse [] = none from demo_faithful.cut [] 0 (by decide +kernel)] at hj
  cases hj

/-- The start after the crash. -/
def again (readable : Bool) : StartUp :=
  { demoStart .ok with freshUuid := [7], freshPasswd := [8], readSkeleton := readable, services := [] }

theorem crashed_skeleton : ∃ t, loadFile demoEnv 0 (crashed demoSetup).fs.skeleton true =
    .ok (some ⟨[1], [2], 0, t⟩) := by
  obtain ⟨t', e1, -, -⟩ := loadFile_render demo_faithful (c := ⟨[1], [2], 0, Table.new 0⟩)
    (Good.start (.new 0)) 0
  refine ⟨t', ?_⟩
  rw [← e1, show (crashed demoSetup).fs.skeleton =
    some (demoEnv.render (PConfig.toJson demoEnv ⟨[1], [2], 0, Table.new 0⟩)) from by decide +kernel]

/-- The hypotheses of `C53_identity_kept` and `C53_recovered` are met: a crash destroys the configuration file,
and the identity is kept. -/
example : identity (emptyWorld.run demoEnv demoSetup
    [.start (demoStart .ok), .reset (.crash 0), .start (again true)]).1 = some ([1], [2]) := by
  obtain ⟨t, ht⟩ := crashed_skeleton
  exact C53_recovered demoEnv demoSetup rfl (crashed demoSetup) (again true) _ (by decide +kernel)
    (crashed_config _ (by decide +kernel)) ht rfl (by intro h; cases h) rfl rfl rfl

theorem load_fresh {E : Env} {S : Setup} {w : World} {a : StartUp} {p : PConfig}
    (hc : loadFile E a.now w.fs.config a.readConfig = .ok none)
    (hs : (if S.skeleton then loadFile E a.now w.fs.skeleton a.readSkeleton else .ok none) = .ok none)
    (h : (loadConfiguration E S w.fs a).2 = some p) : (p.uuid, p.passwd) = (a.freshUuid, a.freshPasswd) := by
  rcases load_cases E S w.fs a with h1 | ⟨skel, config, hs', hc', f, o, h1, ho⟩
  · rw [h1] at h; cases h
  · rw [h1] at h
    rw [hs] at hs'
    rw [hc] at hc'
    injection hs' with hs'
    injection hc' with hc'
    subst hs' hc'
    dsimp only at h
    rcases ho with ho | ho
    · rw [ho] at h; cases h
    · rw [ho] at h
      injection h with h
      subst h
      rfl

/-- C53: without a skeleton file one crash while the configuration is being saved loses the identity: at the
next start the client makes up a new one. -/
theorem C53_lost_without_skeleton (E : Env) (hE : Faithful E) (S : Setup) (hS : S.skeleton = false) (w : World)
    (c : Cfg) (n : Nat) (a : StartUp) (j : Bytes × Bytes) (hc : w.proc = some c)
    (hn : n < (E.render (PConfig.toJson E ⟨c.uuid, c.passwd, c.version + 1, c.default⟩)).length)
    (hj : identity (w.run E S [.reset (.crash n), .start a]).1 = some j) : j = (a.freshUuid, a.freshPasswd) := by
  have h1 : (w.step E S (.reset (.crash n))).1.proc = none := by
    simp only [World.step, hc]; rfl
  have h2 : loadFile E a.now (w.step E S (.reset (.crash n))).1.fs.config a.readConfig = .ok none := by
    simp only [World.step, hc]
    have := hE.cut (cfields E ⟨c.uuid, c.passwd, c.version + 1, c.default⟩) n (by rw [← toJson_cfields]; exact hn)
    rw [← toJson_cfields] at this
    show loadFile E a.now (some (List.take n _)) a.readConfig = _
    unfold loadFile
    split
    · dsimp only; rw [this]
    · rfl
  generalize hw1 : (w.step E S (.reset (.crash n))).1 = w1 at *
  rw [show (w.run E S [.reset (.crash n), .start a]).1 =
    ((w.step E S (.reset (.crash n))).1.step E S (.start a)).1 from rfl, hw1] at hj
  simp only [World.step, h1] at hj
  rcases start_cases E S w1 a with h' | ⟨p, t, hp, hr, -, ⟨ho', h', hpr⟩ | ⟨-, h'⟩⟩
  · rw [h'] at hj; cases hj
  · rw [h'] at hj
    rw [show identity _ = Option.map _ (World.proc _) from rfl, hpr] at hj
    injection hj with hj
    rw [← hj]
    exact load_fresh h2 (by rw [hS]; rfl) hp
  · rw [h'] at hj; cases hj

theorem fresh_live {E : Env} {S : Setup} {w : World} {a : StartUp} (hw : w.proc = none)
    (hc : Unusable E w.fs.config) (hs : S.skeleton = false ∨ a.readSkeleton = false)
    (hserv : a.services = []) (h1 : a.outSkeleton = .ok) (h2 : a.outIdentity = .ok) (h3 : a.outConfig = .ok) :
    identity (w.step E S (.start a)).1 = some (a.freshUuid, a.freshPasswd) := by
  have hcf : loadFile E a.now w.fs.config a.readConfig = .ok none := by
    cases a.readConfig with
    | true => exact unusable_load hc _ _
    | false => rfl
  refine start_live hw (load_live (skel := none) ?_ hcf h1 h2) (t := Table.new a.now) (by rw [hserv]; rfl) h3
  rcases hs with hs | hs
  · rw [hs]; rfl
  · rw [hs]; split <;> rfl

/-- It does happen. -/
example : identity (emptyWorld.run demoEnv ⟨false, false⟩
    [.start (demoStart .ok), .reset (.crash 0), .start (again true)]).1 = some ([7], [8]) :=
  fresh_live (w := crashed ⟨false, false⟩) (by decide +kernel) (crashed_config _ (by decide +kernel))
    (.inl rfl) rfl rfl rfl rfl

/-- C53: if the configuration is damaged and the skeleton file cannot be read at one start, then the skeleton
is overwritten with a new identity, and the old one is lost for ever. -/
theorem C53_lost_if_unreadable (E : Env) (hE : Faithful E) (S : Setup) (hS : S.skeleton = true) (w : World)
    (a : StartUp) (ops : List Op) (i j : Bytes × Bytes) (hw : w.proc = none) (hconf : Unusable E w.fs.config)
    (hread : a.readSkeleton = false) (ha : a.outSkeleton = .ok)
    (hi : identity (w.step E S (.start a)).1 = some i) (hops : ∀ op ∈ ops, SkeletonReadable op)
    (hj : identity (w.run E S (.start a :: ops)).1 = some j) : j = (a.freshUuid, a.freshPasswd) := by
  have hsk : loadFile E a.now w.fs.skeleton a.readSkeleton = .ok none := by rw [hread]; rfl
  have hcf : loadFile E a.now w.fs.config a.readConfig = .ok none := by
    cases a.readConfig with
    | true => exact unusable_load hconf _ _
    | false => rfl
  obtain ⟨hk, p, hp, hpi⟩ := first_start hE hS hw hsk ha hi
  have hfr := load_fresh hcf (by rw [if_pos hS]; exact hsk) hp
  have := keeps_run hE hS hk hops
  rw [show (w.run E S (.start a :: ops)).1 = ((w.step E S (.start a)).1.run E S ops).1 from rfl] at hj
  unfold identity at hj
  obtain ⟨c, hc, hj⟩ := Option.map_eq_some_iff.mp hj
  rw [← hj, this.proc c hc, ← hpi, hfr]

/-- It does happen: the identity was `([1], [2])`. -/
example : identity (emptyWorld.run demoEnv demoSetup
    [.start (demoStart .ok), .reset (.crash 0), .start (again false)]).1 = some ([7], [8]) :=
  fresh_live (w := crashed demoSetup) (by decide +kernel) (crashed_config _ (by decide +kernel))
    (.inr rfl) rfl rfl rfl rfl

end Verif.Props.Config
