import Verif.Lemmas.Clients
import Verif.Props.Config
/-!
# Properties of several clients on the same files: C102
-/
namespace Verif.Props.Clients
open Verif Verif.SvcTable Verif.Config Verif.Clients Verif.Spec.Config Verif.Spec.Clients Verif.Spec.Lock

variable {E : Env} {S : Setup} {text : Nat → Bytes}

/-- Before the first start of a sequential history on these files. -/
def alone (fs : Files) : World := ⟨fs, [], none⟩

/-! ### One after another -/

/-- C102. Several processes that use the same lock file do to the files exactly what a single client does that is started,
used and stopped again and again: there is a sequential history with the same files at the end, the same writes to the
configuration file in the same order, and in which the client that runs at the end has the memory that the running
process has. -/
theorem C102_sequential (lockFile : Option Bytes) (fs : Files) (ops : List Clients.Op) :
    let r := (Clients.Sys.new lockFile fs).run E S text true ops
    ∃ seq : List Config.Op,
      r.1.fs = ((alone fs).run E S seq).1.fs ∧
      (∀ p m, Up r.1 p m → Has ((alone fs).run E S seq).1 m) ∧
      reached r.2 = reached1 ((alone fs).run E S seq).2 := by
  dsimp only
  obtain ⟨seq, -, ⟨p, h1, h2⟩, h3⟩ := sim_run (R1 := fun _ => True) (R2 := fun _ => True) (E := E) (S := S) (text := text)
    (link_new lockFile fs) (w := alone fs) ⟨0, ⟨rfl, rfl⟩, fun _ _ => rfl⟩ (ops := ops)
    (by intro op _; cases op <;> trivial)
  have hup : ∀ q m, Up ((Clients.Sys.new lockFile fs).run E S text true ops).1 q m →
      ((Clients.Sys.new lockFile fs).run E S text true ops).1.stage p = some (.up m) := by
    intro q m hm
    by_cases e : q = p
    · subst e; exact hm
    · have := h2 q e
      rw [show _ = some (Stage.up m) from hm] at this
      cases this
  by_cases hm : ∃ m, ((Clients.Sys.new lockFile fs).run E S text true ops).1.stage p = some (.up m)
  · obtain ⟨m, hm⟩ := hm
    rw [hm] at h1
    refine ⟨seq, h1.1, fun q m' hm' => ?_, h3⟩
    have := hup q m' hm'
    rw [hm] at this
    injection this with this
    injection this with this
    rw [← this]
    exact h1.2
  · obtain ⟨more, -, h4, h5⟩ := rel_end h1
    refine ⟨seq ++ more, ?_, fun q m hq => absurd ⟨m, hup q m hq⟩ hm, ?_⟩
    · rw [Config.run_append]; exact h4.2
    · rw [Config.run_append, reached1_append, h5, List.append_nil]; exact h3

/-! ### Only the holder of the lock writes -/

/-- The lock file is used as in the model of the lock file. -/
theorem lock_step (s : Clients.Sys) (op : Clients.Op) :
    ∃ l, (s.step E S text true op).1.lock = (s.lock.run text l).1 ∧
      locks (s.step E S text true op).2 = (s.lock.run text l).2 := by
  have hfin : ∀ (s : Clients.Sys) (p : Nat), ∃ l, (s.finish text p).1.lock = (s.lock.run text l).1 ∧
      locks (s.finish text p).2 = (s.lock.run text l).2 := by
    intro s p
    refine ⟨[.exit p], rfl, ?_⟩
    rw [Lock.run_cons]
    exact (locks_map _).trans (List.append_nil _).symm
  have hsave : ∀ (s : Clients.Sys) (p : Nat) (m : Mem) (o : Out), ∃ l, (s.save E text p m o).1.lock = (s.lock.run text l).1 ∧
      locks (s.save E text p m o).2 = (s.lock.run text l).2 := by
    intro s p m o
    unfold Clients.Sys.save
    dsimp only
    split
    · exact hfin { s with fs := _ } p
    · exact ⟨[], rfl, rfl⟩
  cases op with
  | lock o =>
    refine ⟨[o], rfl, ?_⟩
    rw [Lock.run_cons]
    exact (locks_map _).trans (List.append_nil _).symm
  | enter p => exact ⟨[], rfl, rfl⟩
  | exit p => exact hfin s p
  | readSkeleton p now r =>
    unfold Clients.Sys.step
    dsimp only
    split
    · split
      · exact ⟨[], rfl, rfl⟩
      · exact hfin s p
    · exact ⟨[], rfl, rfl⟩
  | readConfig p r u pw =>
    unfold Clients.Sys.step
    dsimp only
    split
    · split
      · exact ⟨[], rfl, rfl⟩
      · exact hfin s p
    · exact ⟨[], rfl, rfl⟩
  | writeSkeleton p o =>
    unfold Clients.Sys.step
    dsimp only
    split
    · split
      · split
        · exact hfin { s with fs := _ } p
        · exact ⟨[], rfl, rfl⟩
      · exact ⟨[], rfl, rfl⟩
    · exact ⟨[], rfl, rfl⟩
  | writeIdentity p o =>
    unfold Clients.Sys.step
    dsimp only
    split
    · split
      · split
        · exact hfin { s with fs := _ } p
        · exact ⟨[], rfl, rfl⟩
      · exact ⟨[], rfl, rfl⟩
    · exact ⟨[], rfl, rfl⟩
  | save p services flash o =>
    unfold Clients.Sys.step
    dsimp only
    split
    · split
      · exact hfin s p
      · obtain ⟨l, a1, a2⟩ := hsave s p ⟨_, _, _, _, _, _⟩ o
        split
        · obtain ⟨l', b1, b2⟩ := hfin _ p
          refine ⟨l ++ l', ?_, ?_⟩
          · rw [Lock.run_append, ← a1]; exact b1
          · rw [Lock.run_append, ← a1, locks_append, a2]
            exact congrArg (_ ++ ·) b2
        · exact ⟨l, a1, a2⟩
    · exact ⟨[], rfl, rfl⟩
  | update p services now o =>
    unfold Clients.Sys.step
    dsimp only
    split
    · split
      · exact hfin s p
      · split
        · exact ⟨[], rfl, rfl⟩
        · exact hsave s p _ o
    · exact ⟨[], rfl, rfl⟩
  | reset p o =>
    unfold Clients.Sys.step
    dsimp only
    split
    · exact hsave s p _ o
    · exact ⟨[], rfl, rfl⟩

theorem lock_run (s : Clients.Sys) (ops : List Clients.Op) :
    ∃ l, (s.run E S text true ops).1.lock = (s.lock.run text l).1 ∧
      locks (s.run E S text true ops).2 = (s.lock.run text l).2 := by
  induction ops generalizing s with
  | nil => exact ⟨[], rfl, rfl⟩
  | cons op ops ih =>
    obtain ⟨l, a1, a2⟩ := lock_step (E := E) (S := S) (text := text) s op
    obtain ⟨l', b1, b2⟩ := ih (s.step E S text true op).1
    refine ⟨l ++ l', ?_, ?_⟩
    · rw [Clients.run_cons, Lock.run_append, ← a1]; exact b1
    · rw [Clients.run_cons, Lock.run_append, ← a1, locks_append, a2]
      exact congrArg (_ ++ ·) b2

/-- A step writes at most once, first, and the process that writes has a storage. -/
theorem write_step (s : Clients.Sys) (op : Clients.Op) :
    (∃ l : List Lock.Ev, (s.step E S text true op).2 = l.map .lock) ∨
    ∃ p f d o, ∃ l : List Lock.Ev, (s.step E S text true op).2 = .write p f d o :: l.map .lock ∧ s.stage p ≠ none := by
  have hsave : ∀ (p : Nat) (m : Mem) (o : Out), ∃ f d o', ∃ l : List Lock.Ev, (s.save E text p m o).2 = .write p f d o' :: l.map .lock := by
    intro p m o
    unfold Clients.Sys.save
    dsimp only
    split
    · exact ⟨_, _, _, _, rfl⟩
    · exact ⟨_, _, _, [], rfl⟩
  cases op with
  | lock o => exact .inl ⟨_, rfl⟩
  | enter p => exact .inl ⟨[], rfl⟩
  | exit p => exact .inl ⟨_, rfl⟩
  | readSkeleton p now r =>
    unfold Clients.Sys.step
    dsimp only
    split
    · split
      · exact .inl ⟨[], rfl⟩
      · exact .inl ⟨_, rfl⟩
    · exact .inl ⟨[], rfl⟩
  | readConfig p r u pw =>
    unfold Clients.Sys.step
    dsimp only
    split
    · split
      · exact .inl ⟨[], rfl⟩
      · exact .inl ⟨_, rfl⟩
    · exact .inl ⟨[], rfl⟩
  | writeSkeleton p o =>
    unfold Clients.Sys.step
    dsimp only
    split
    · next hs =>
      split
      · split
        · exact .inr ⟨_, _, _, _, _, rfl, by rw [hs]; exact nofun⟩
        · exact .inr ⟨_, _, _, _, [], rfl, by rw [hs]; exact nofun⟩
      · exact .inl ⟨[], rfl⟩
    · exact .inl ⟨[], rfl⟩
  | writeIdentity p o =>
    unfold Clients.Sys.step
    dsimp only
    split
    · next hs =>
      split
      · split
        · exact .inr ⟨_, _, _, _, _, rfl, by rw [hs]; exact nofun⟩
        · exact .inr ⟨_, _, _, _, [], rfl, by rw [hs]; exact nofun⟩
      · exact .inl ⟨[], rfl⟩
    · exact .inl ⟨[], rfl⟩
  | save p services flash o =>
    unfold Clients.Sys.step
    dsimp only
    split
    · next hs =>
      split
      · exact .inl ⟨_, rfl⟩
      · obtain ⟨f, d, o', l, h⟩ := hsave p ⟨_, _, _, _, _, _⟩ o
        split
        · dsimp only
          rw [h]
          exact .inr ⟨p, f, d, o', _, (congrArg (_ :: ·) List.map_append).symm, by rw [hs]; exact nofun⟩
        · exact .inr ⟨p, f, d, o', l, h, by rw [hs]; exact nofun⟩
    · exact .inl ⟨[], rfl⟩
  | update p services now o =>
    unfold Clients.Sys.step
    dsimp only
    split
    · next hs =>
      split
      · exact .inl ⟨_, rfl⟩
      · split
        · exact .inl ⟨[], rfl⟩
        · obtain ⟨f, d, o', l, h⟩ := hsave p _ o
          exact .inr ⟨p, f, d, o', l, h, by rw [hs]; exact nofun⟩
    · exact .inl ⟨[], rfl⟩
  | reset p o =>
    unfold Clients.Sys.step
    dsimp only
    split
    · next hs =>
      obtain ⟨f, d, o', l, h⟩ := hsave p _ o
      exact .inr ⟨p, f, d, o', l, h, by rw [hs]; exact nofun⟩
    · exact .inl ⟨[], rfl⟩

theorem lock_no_write {l : List Lock.Ev} {p : Nat} {f : Which} {d : Bytes} {o : Out} :
    Ev.write p f d o ∉ l.map Ev.lock := by
  intro h
  obtain ⟨e, -, he⟩ := List.mem_map.1 h
  cases he

/-- A write of a sequence of steps is one of a step. -/
theorem write_run {s : Clients.Sys} {ops : List Clients.Op} {a b : List Ev} {p : Nat} {f : Which} {d : Bytes} {o : Out}
    (h : (s.run E S text true ops).2 = a ++ .write p f d o :: b) :
    ∃ pre, a = (s.run E S text true pre).2 ∧ (s.run E S text true pre).1.stage p ≠ none := by
  induction ops generalizing s a with
  | nil => cases a <;> cases h
  | cons op ops ih =>
    rw [Clients.run_cons] at h
    dsimp only at h
    rcases List.append_eq_append_iff.1 h with ⟨m, h1, h2⟩ | ⟨m, h1, h2⟩
    · obtain ⟨pre, h3, h4⟩ := ih h2
      exact ⟨op :: pre, by rw [Clients.run_cons, h1, h3], h4⟩
    · cases m with
      | nil =>
        obtain ⟨pre, h3, h4⟩ := ih (a := []) h2.symm
        refine ⟨op :: pre, ?_, h4⟩
        rw [Clients.run_cons, ← h3, h1]
        simp
      | cons x m =>
        injection h2 with h2 h2'
        subst h2
        rcases write_step (E := E) (S := S) (text := text) s op with ⟨l, hl⟩ | ⟨p', f', d', o', l, hl, hs⟩
        · exfalso
          rw [hl] at h1
          exact lock_no_write (l := l) (p := p) (f := f) (d := d) (o := o) (by rw [h1]; simp)
        · rw [hl] at h1
          cases a with
          | nil =>
            injection h1 with h1
            injection h1 with h1
            subst h1
            exact ⟨[], rfl, hs⟩
          | cons y a =>
            exfalso
            injection h1 with _ h1
            exact lock_no_write (l := l) (p := p) (f := f) (d := d) (o := o) (by rw [h1]; simp)

/-- C102. Every write to the configuration, the skeleton or the identity file is made by a process that has the lock, and no
other process has it then. -/
theorem C102_exclusive (lockFile : Option Bytes) (fs : Files) (ops : List Clients.Op) (a b : List Ev) (p : Nat) (f : Which)
    (d : Bytes) (o : Out) (h : ((Clients.Sys.new lockFile fs).run E S text true ops).2 = a ++ .write p f d o :: b) :
    Runs p (locks a) ∧ ∀ q, Runs q (locks a) → q = p := by
  obtain ⟨pre, rfl, h2⟩ := write_run h
  have hl := link_run (E := E) (S := S) (text := text) (link_new lockFile fs) pre
  obtain ⟨l, e1, e2⟩ := lock_run (E := E) (S := S) (text := text) (Clients.Sys.new lockFile fs) pre
  have hrun : ∀ q, Runs q (locks ((Clients.Sys.new lockFile fs).run E S text true pre).2) ↔
      ((Clients.Sys.new lockFile fs).run E S text true pre).1.stage q ≠ none := by
    intro q
    rw [hl.stage q, e2, e1]
    exact Lock.runs_iff (by show Lock.Phase.idle ≠ _; exact nofun)
  exact ⟨(hrun p).2 h2, fun q hq => hl.unique ((hrun q).1 hq) h2⟩

/-! ### The identity of a device -/

/-- Either everything that is stored has one identity, or nothing usable is stored and nobody runs. -/
def OneIdentity (E : Env) (o : Option (Bytes × Bytes)) (w : World) : Prop :=
  match o with
  | some i => Props.Config.Keeps E i w
  | none => Unusable E w.fs.skeleton ∧ Unusable E w.fs.config ∧ w.proc = none

theorem unusable_reads {w : World} (a : StartUp) (h1 : Unusable E w.fs.skeleton) (h2 : Unusable E w.fs.config) :
    Reads E S (fun _ => True) w.fs a false (PConfig.new a.now a.freshUuid a.freshPasswd) := by
  refine ⟨trivial, none, none, ?_, unusable_load h2 _ _, rfl, rfl⟩
  split
  · exact unusable_load h1 _ _
  · rfl

/-- What a start makes of files that are not usable. -/
theorem one_first (hE : Faithful E) (hS : S.skeleton = true) {w : World} (h : OneIdentity E none w) (a : StartUp)
    (ha : a.outSkeleton ≠ .notCreated ∧ ∀ n, a.outSkeleton ≠ .short n) :
    ∃ o, OneIdentity E o (w.step E S (.start a)).1 := by
  obtain ⟨h1, h2, h3⟩ := h
  have hr := unusable_reads (S := S) a h1 h2
  have hl := load_eq hr
  have hsw : skelWrite E S w.fs a.now false (PConfig.new a.now a.freshUuid a.freshPasswd) a.outSkeleton =
      writeFile w.fs.skeleton (E.render (((PConfig.new a.now a.freshUuid a.freshPasswd).toSkeleton a.now).toJson E))
        a.outSkeleton := by
    unfold skelWrite; rw [if_pos ⟨hS, rfl⟩]
  rw [hsw] at hl
  -- a skeleton that is written as a whole
  have hfull : ∀ now, ∃ s, loadFile E now
      (some (E.render (((PConfig.new a.now a.freshUuid a.freshPasswd).toSkeleton a.now).toJson E))) true = .ok (some s) ∧
      (s.uuid, s.passwd) = (a.freshUuid, a.freshPasswd) := by
    intro now
    obtain ⟨t', e1, -, -⟩ := loadFile_render hE
      (c := (PConfig.new a.now a.freshUuid a.freshPasswd).toSkeleton a.now) (Good.start (.new a.now)) now
    exact ⟨_, e1, rfl⟩
  have hcfg : ∀ now r s, loadFile E now w.fs.config r = .ok (some s) → (s.uuid, s.passwd) = (a.freshUuid, a.freshPasswd) := by
    intro now r s hs
    rw [unusable_load h2] at hs
    injection hs with hs
    cases hs
  cases ho : a.outSkeleton with
  | notCreated => exact absurd ho ha.1
  | short n => exact absurd ho (ha.2 n)
  | crashBefore =>
    rw [ho, if_pos (by rfl)] at hl
    obtain ⟨⟨e1, e2⟩, -⟩ := start_dead h3 hl
    exact ⟨none, by rw [e2]; exact h1, by rw [e2]; exact h2, e1⟩
  | crash n =>
    rw [ho, if_pos (by rfl)] at hl
    obtain ⟨⟨e1, e2⟩, -⟩ := start_dead h3 hl
    rcases loadFile_cut hE ((PConfig.new a.now a.freshUuid a.freshPasswd).toSkeleton a.now) n with hc | hc
    · refine ⟨some (a.freshUuid, a.freshPasswd), ?_, ?_, ?_⟩
      · rw [e2]
        show ∀ now, ∃ s, loadFile E now (some (List.take n _)) true = _ ∧ _
        rw [hc]; exact hfull
      · rw [e2]; exact hcfg
      · intro c hc; rw [e1] at hc; cases hc
    · exact ⟨none, by rw [e2]; exact hc, by rw [e2]; exact h2, e1⟩
  | ok =>
    rw [ho, if_neg (by exact nofun)] at hl
    refine ⟨some (a.freshUuid, a.freshPasswd), ?_⟩
    show Props.Config.Keeps E _ (w.step E S (.start a)).1
    unfold World.step
    dsimp only
    rw [h3]
    dsimp only
    have k1 : ∀ now, ∃ s, loadFile E now (loadConfiguration E S w.fs a).1.skeleton true = .ok (some s) ∧
        (s.uuid, s.passwd) = (a.freshUuid, a.freshPasswd) := by rw [hl]; exact hfull
    have k2 : ∀ now r s, loadFile E now (loadConfiguration E S w.fs a).1.config r = .ok (some s) →
        (s.uuid, s.passwd) = (a.freshUuid, a.freshPasswd) := by rw [hl]; exact hcfg
    have l3 : ∀ p, (loadConfiguration E S w.fs a).2 = some p → (p.uuid, p.passwd) = (a.freshUuid, a.freshPasswd) := by
      intro p hp
      rw [hl] at hp
      dsimp only at hp
      split at hp
      · cases hp
      · injection hp with hp
        rw [← hp]; rfl
    rcases start_cases E S w a with h' | ⟨p, t, hp, hr, -, ⟨-, h', -⟩ | ⟨-, h'⟩⟩
    · rw [h']; exact ⟨k1, k2, nofun⟩
    · rw [h']
      exact Props.Config.keeps_save hE
        (w := { w with fs := (loadConfiguration E S w.fs a).1, heap := w.heap ++ [t] }) k1 k2
        (c := ⟨p.version, p.uuid, p.passwd, w.heap.length, t, a.flashFriendly⟩) (l3 p hp) t a.outConfig
    · rw [h']
      have := Props.Config.keeps_save hE
        (w := { w with fs := (loadConfiguration E S w.fs a).1, heap := w.heap ++ [t] }) k1 k2
        (c := ⟨p.version, p.uuid, p.passwd, w.heap.length, t, a.flashFriendly⟩) (l3 p hp) t a.outConfig
      exact ⟨this.skeleton, this.config, nofun⟩

/-- The starts of a sequential history can read the skeleton, and do not go on if they cannot write it. -/
abbrev Good1 : Bool → Prop := (· = true)
abbrev Good2 : Out → Prop := fun o => o ≠ .notCreated ∧ ∀ n, o ≠ .short n

theorem one_step (hE : Faithful E) (hS : S.skeleton = true) {w : World} {o : Option (Bytes × Bytes)}
    (h : OneIdentity E o w) {op : Config.Op} (hop : ∀ a, op = .start a → Good1 a.readSkeleton ∧ Good2 a.outSkeleton) :
    ∃ o', OneIdentity E o' (w.step E S op).1 ∧ ∀ i, o = some i → o' = some i := by
  cases o with
  | some i =>
    refine ⟨some i, Props.Config.keeps_step hE hS h ?_, fun _ h => h⟩
    cases op with
    | start a => exact (hop a rfl).1
    | _ => trivial
  | none =>
    cases op with
    | start a =>
      obtain ⟨o, ho⟩ := one_first hE hS h a (hop a rfl).2
      exact ⟨o, ho, nofun⟩
    | update l now o =>
      refine ⟨none, ?_, nofun⟩
      unfold World.step
      dsimp only
      rw [h.2.2]
      exact h
    | reset o =>
      refine ⟨none, ?_, nofun⟩
      unfold World.step
      dsimp only
      rw [h.2.2]
      exact h
    | stop => exact ⟨none, ⟨h.1, h.2.1, rfl⟩, nofun⟩

theorem one_run (hE : Faithful E) (hS : S.skeleton = true) {w : World} {o : Option (Bytes × Bytes)}
    (h : OneIdentity E o w) {seq : List Config.Op} (hs : Starts Good1 Good2 seq) :
    ∃ o', OneIdentity E o' (w.run E S seq).1 ∧ ∀ i, o = some i → o' = some i := by
  induction seq generalizing w o with
  | nil => exact ⟨o, h, fun _ h => h⟩
  | cons op seq ih =>
    obtain ⟨o', h1, h2⟩ := one_step hE hS h (op := op) (fun a ha => hs a (by rw [ha]; exact List.mem_cons_self))
    obtain ⟨o'', h3, h4⟩ := ih h1 (fun a ha => hs a (List.mem_cons_of_mem _ ha))
    exact ⟨o'', h3, fun i hi => h4 i (h2 i hi)⟩

theorem up_identity {s : Clients.Sys} {w : World} {o : Option (Bytes × Bytes)} {p : Nat} {m : Mem}
    (h : Only Good1 Good2 E S s w) (ho : OneIdentity E o w) (hm : Up s p m) : o = some (idOf m) := by
  obtain ⟨hr, -⟩ := only_at h hm
  rw [show s.stage p = some (.up m) from hm] at hr
  obtain ⟨-, c, hc, -, e2, e3, -⟩ := hr
  cases o with
  | none => rw [ho.2.2] at hc; cases hc
  | some i =>
    have := ho.proc c hc
    rw [← this, e2, e3]
    rfl

/-- C102. On a new device whose clients use the same lock file and skeleton file, every client that ever runs has the same
identity: whatever processes are started, whenever they are killed, and whichever writes of the configuration fail. -/
theorem C102_identity (hE : Faithful E) (hS : S.skeleton = true) (lockFile identityFile : Option Bytes)
    (before after : List Clients.Op) (hw : ∀ op ∈ before ++ after, SkeletonWorks op) (p q : Nat) (m m' : Mem) :
    let s := Clients.Sys.new lockFile ⟨none, none, identityFile⟩
    Up (s.run E S text true before).1 p m → Up (s.run E S text true (before ++ after)).1 q m' →
      idOf m' = idOf m := by
  dsimp only
  intro hp hq
  have hal : ∀ op ∈ before ++ after, Allowed Good1 Good2 op := by
    intro op ho
    have := hw op ho
    cases op <;> first | exact this | trivial
  have h0 : OneIdentity E none (alone ⟨none, none, identityFile⟩) := ⟨nofun, nofun, rfl⟩
  have hl0 := link_new lockFile ⟨none, none, identityFile⟩
  obtain ⟨seq, s1, s2, -⟩ := sim_run (R1 := Good1) (R2 := Good2) (E := E) (S := S) (text := text) hl0
    (w := alone ⟨none, none, identityFile⟩) ⟨0, ⟨rfl, rfl⟩, fun _ _ => rfl⟩ (ops := before)
    (fun op ho => hal op (List.mem_append_left _ ho))
  obtain ⟨o1, k1, -⟩ := one_run hE hS h0 s1
  have e1 := up_identity s2 k1 hp
  rw [Clients.run_append] at hq
  obtain ⟨seq', t1, t2, -⟩ := sim_run (R1 := Good1) (R2 := Good2) (E := E) (S := S) (text := text)
    (link_run (E := E) (S := S) (text := text) hl0 before) s2 (ops := after)
    (fun op ho => hal op (List.mem_append_right _ ho))
  obtain ⟨o2, k2, k3⟩ := one_run hE hS k1 t1
  have e2 := up_identity t2 k2 hq
  exact Option.some.inj (e2.symm.trans (k3 _ e1))

/-! ### Without the lock file -/

/-- C102. Without the lock file two clients started at the same time on a new device run with two different identities. The
files hold the identity of the one that was later: the other one runs with an identity that is lost when it ends. -/
theorem C102_no_lock (hS : S = ⟨true, true⟩) (u v pu pv : Bytes) (hne : u ≠ v) :
    let r := (Clients.Sys.new none ⟨none, none, none⟩).run E S text false
      ([.enter 1, .enter 2, .readSkeleton 1 0 true, .readConfig 1 true u pu] ++ startSteps 2 v pv ++
        [.writeSkeleton 1 .ok, .writeIdentity 1 .ok, .save 1 [] false .ok])
    ∃ m m', Up r.1 1 m ∧ Up r.1 2 m' ∧ idOf m = (u, pu) ∧ idOf m' = (v, pv) ∧ idOf m ≠ idOf m' ∧
      r.1.fs.skeleton = some (E.render (PConfig.toJson E ⟨u, pu, 0, Table.new 0⟩)) ∧
      r.1.fs.config = some (E.render (PConfig.toJson E ⟨u, pu, 0, Table.new 0⟩)) ∧
      r.1.fs.identity = some (E.render (.obj [(asc "uuid", .str (E.formatUuid u))])) := by
  subst hS
  dsimp only
  refine ⟨⟨0, u, pu, Table.new 0, Table.new 0, false⟩, ⟨0, v, pv, Table.new 0, Table.new 0, false⟩, rfl, rfl, rfl, rfl, ?_,
    rfl, rfl, rfl⟩
  intro h
  exact hne (congrArg Prod.fst h)

/-! ### Examples -/

/-- The calls of a process that takes the lock. -/
def lockOps (p : Nat) : List Clients.Op := (Spec.Lock.startOps p).map .lock

/-- Process 7 starts, crashes while it writes the configuration; process 9, started in the meantime, gets the lock after
that. -/
def exOps : List Clients.Op :=
  lockOps 7 ++ [.readSkeleton 7 0 true, .lock (.create 9 true), .readConfig 7 true [1] [2], .writeSkeleton 7 .ok,
    .writeIdentity 7 .ok, .save 7 [] false .ok, .reset 7 (.crash 3), .lock (.lock 9 true), .lock (.number 9 none),
    .lock (.newline 9 true), .lock (.sync 9 true)]

/-- A start that finds a skeleton and cannot read the configuration. -/
theorem ex_restart {s : Clients.Sys} {p : Nat} {c : PConfig} (hp : s.stage p = some .fresh)
    (hc : loadFile E 0 s.fs.skeleton true = .ok (some c)) :
    identityOf (s.run E ⟨true, true⟩ text true
      [.readSkeleton p 0 true, .readConfig p false [3] [4], .writeSkeleton p .ok, .writeIdentity p .ok,
        .save p [] false .ok]).1 p = some (c.uuid, c.passwd) := by
  simp [Clients.Sys.run, Clients.Sys.step, hp, hc, Clients.Sys.set, loadFile_unreadable, writeFile, Table.run,
    Clients.Sys.save, failed, identityOf, idOf]

/-- A run on a new device. -/
def exRun (E : Env) : List Clients.Op → Clients.Sys × List Ev :=
  (Clients.Sys.new none ⟨none, none, none⟩).run E ⟨true, true⟩ (fun _ => [55]) true

theorem ex_fresh : (exRun E exOps).1.stage 9 = some .fresh := rfl

theorem ex_skeleton : (exRun E exOps).1.fs.skeleton = some (E.render (PConfig.toJson E ⟨[1], [2], 0, Table.new 0⟩)) := rfl

/-- C102: process 7 runs, and dies while it writes the configuration file ... -/
example : identityOf (exRun E (exOps.take 11)).1 7 = some ([1], [2]) := rfl

example : (reached (exRun E exOps).2).map Save.out = [.ok, .crash 3] := rfl

theorem ex_load (hE : Faithful E) : ∃ c, loadFile E 0 (exRun E exOps).1.fs.skeleton true = .ok (some c) ∧ c.uuid = [1] ∧
    c.passwd = [2] := by
  have hg : Good E (Table.new 0) := Good.start (.new 0)
  rw [ex_skeleton]
  exact (loadFile_render hE (c := ⟨[1], [2], 0, Table.new 0⟩) hg 0).elim fun t' h => ⟨_, h.1, rfl, rfl⟩

/-- ... then process 9 runs with the identity of process 7, not the one it would have drawn. -/
example (hE : Faithful E) :
    identityOf (exRun E (exOps ++ [.readSkeleton 9 0 true, .readConfig 9 false [3] [4], .writeSkeleton 9 .ok,
      .writeIdentity 9 .ok, .save 9 [] false .ok])).1 9 = some ([1], [2]) := by
  obtain ⟨c, ht, hu, hp⟩ := ex_load hE
  have key := ex_restart (text := fun _ => [55]) ex_fresh ht
  rw [hu, hp] at key
  unfold exRun at key ⊢
  rw [Clients.run_append]
  exact key

/-- C102: the assumptions of the theorem on identities are met by this history. -/
example : ∀ op ∈ exOps ++ [.readSkeleton 9 0 true, .readConfig 9 false [3] [4], .writeSkeleton 9 .ok, .writeIdentity 9 .ok,
    .save 9 [] false .ok], SkeletonWorks op := by
  intro op h
  rcases List.mem_append.1 h with h | h
  · rcases List.mem_append.1 h with h | h
    · obtain ⟨o, -, rfl⟩ := List.mem_map.1 h
      trivial
    · simp only [List.mem_cons, List.not_mem_nil, or_false] at h
      rcases h with rfl | rfl | rfl | rfl | rfl | rfl | rfl | rfl | rfl | rfl | rfl <;>
        first | trivial | exact ⟨nofun, nofun⟩ | rfl
  · simp only [List.mem_cons, List.not_mem_nil, or_false] at h
    rcases h with rfl | rfl | rfl | rfl | rfl <;> first | trivial | exact ⟨nofun, nofun⟩ | rfl

/-- C102: in this history there are writes, so that the theorem on the lock says something. -/
example : ∃ a b d, ((Clients.Sys.new none ⟨none, none, none⟩).run Props.Config.demoEnv Props.Config.demoSetup
    (fun _ => [55]) true (exOps.take 11)).2 = a ++ .write 7 .config d .ok :: b :=
  ⟨[.lock (.started 7), .write 7 .skeleton _ .ok, .write 7 .identity _ .ok], [], _, rfl⟩

end Verif.Props.Clients
