import Verif.Spec.Clients
import Verif.Lemmas.Lock
import Verif.Lemmas.Config
/-!
# Lemmas on several clients on the same files
-/
namespace Verif.Clients
open Verif Verif.SvcTable Verif.Config Spec.Clients

variable {E : Env} {S : Setup} {text : Nat → Bytes}

/-! ## Events -/

theorem locks_append (a b : List Ev) : locks (a ++ b) = locks a ++ locks b := by
  induction a with
  | nil => rfl
  | cons e a ih => cases e with
    | lock e => exact congrArg (e :: ·) ih
    | write => exact ih

theorem locks_map (l : List Lock.Ev) : locks (l.map .lock) = l := by
  induction l with
  | nil => rfl
  | cons e l ih => exact congrArg (e :: ·) ih

theorem reached_append (a b : List Ev) : reached (a ++ b) = reached a ++ reached b := by
  induction a with
  | nil => rfl
  | cons e a ih => cases e with
    | lock e => exact ih
    | write p f d o =>
      cases f with
      | config =>
        rw [List.cons_append, reached, reached]
        split
        · exact ih
        · rw [ih]; rfl
      | skeleton => exact ih
      | identity => exact ih

theorem reached_map (l : List Lock.Ev) : reached (l.map .lock) = [] := by
  induction l with
  | nil => rfl
  | cons e l ih => exact ih

theorem reached1_append (a b : List Save) : reached1 (a ++ b) = reached1 a ++ reached1 b := List.filter_append ..

/-! ## The lock -/

/-- The processes with a storage are those that hold the lock. -/
structure Link (s : Sys) : Prop where
  lock : Lock.Inv s.lock
  stage : ∀ q, s.stage q ≠ none ↔ s.lock.phase q = .running

theorem link_new (f : Option Bytes) (fs : Files) : Link (Sys.new f fs) :=
  ⟨Lock.inv_new f, fun _ => ⟨fun h => absurd rfl h, fun h => by cases h⟩⟩

theorem Link.unique {s : Sys} (h : Link s) {p q : Nat} (hp : s.stage p ≠ none) (hq : s.stage q ≠ none) : p = q := by
  have h1 := (h.lock p).1 (by rw [(h.stage p).1 hp]; rfl)
  have h2 := (h.lock q).1 (by rw [(h.stage q).1 hq]; rfl)
  rw [h1] at h2
  exact Option.some.inj h2

theorem link_fs {s : Sys} {fs : Files} (h : Link s) : Link { s with fs := fs } := ⟨h.lock, h.stage⟩

theorem link_set {s : Sys} {p : Nat} {x : Stage} (h : Link s) (hp : s.stage p ≠ none) : Link (s.set p (some x)) := by
  refine ⟨h.lock, fun q => ?_⟩
  show (if q = p then some x else s.stage q) ≠ none ↔ s.lock.phase q = .running
  split
  · next e => subst e; exact ⟨fun _ => (h.stage q).1 hp, fun _ => nofun⟩
  · exact h.stage q

theorem link_lock {s : Sys} (h : Link s) (o : Lock.Op) :
    Link { s with
      lock := (s.lock.step text o).1
      stage := fun q => if .started q ∈ (s.lock.step text o).2 then some .fresh
        else if .ended q ∈ (s.lock.step text o).2 then none else s.stage q } := by
  refine ⟨Lock.inv_step h.lock o, fun q => ?_⟩
  obtain ⟨h1, h2, h3⟩ := Lock.step_running (text := text) (s := s.lock) (op := o) (q := q)
  show (if _ then _ else _) ≠ none ↔ (s.lock.step text o).1.phase q = .running
  split
  · next hs => exact ⟨fun _ => (h1 hs).2, fun _ => nofun⟩
  · next hs =>
    split
    · next he => exact ⟨fun h => absurd rfl h, fun h => absurd h (h2 he)⟩
    · next he => rw [h3 hs he]; exact h.stage q

/-- The storage of a process is dropped. -/
theorem finish_eq (s : Sys) (p : Nat) (h : Link s) :
    (s.finish text p).1 = { s with
      lock := (s.lock.step text (.exit p)).1
      stage := fun q => if .started q ∈ (s.lock.step text (.exit p)).2 then some .fresh
        else if .ended q ∈ (s.lock.step text (.exit p)).2 then none else s.stage q } := by
  have hev : (s.lock.step text (.exit p)).2 = if s.lock.phase p = .idle then [] else [.ended p] := by
    unfold Lock.Sys.step
    dsimp only
    split <;> rfl
  unfold Sys.finish Sys.set
  dsimp only
  congr 1
  funext q
  rw [hev]
  split
  · next e =>
    subst e
    split
    · next hi =>
      have : s.stage q = none := by
        cases hq : s.stage q with
        | none => rfl
        | some x =>
          have := (h.stage q).1 (by rw [hq]; exact nofun)
          rw [hi] at this
          cases this
      rw [this]
      rfl
    · next hi =>
      rw [if_neg (by intro h; cases h with | tail _ h => cases h), if_pos List.mem_cons_self]
  · next e =>
    split
    · rfl
    · rw [if_neg (by intro h; cases h with | tail _ h => cases h), if_neg]
      intro h
      cases h with
      | head => exact e rfl
      | tail _ h => cases h

theorem link_finish {s : Sys} (h : Link s) (p : Nat) : Link (s.finish text p).1 := by
  rw [finish_eq s p h]
  exact link_lock h _

theorem link_save {s : Sys} (h : Link s) {p : Nat} (hp : s.stage p ≠ none) (m : Mem) (o : Out) :
    Link (s.save E text p m o).1 := by
  unfold Sys.save
  dsimp only
  split
  · exact link_finish (link_fs h) p
  · exact link_set (link_fs h) hp

theorem link_step {s : Sys} (h : Link s) (op : Op) : Link (s.step E S text true op).1 := by
  have hne : ∀ {p : Nat} {x : Stage}, s.stage p = some x → s.stage p ≠ none := by
    intro p x h; rw [h]; exact nofun
  cases op with
  | lock o => exact link_lock h o
  | enter p => exact h
  | exit p => exact link_finish h p
  | readSkeleton p now r =>
    unfold Sys.step
    dsimp only
    split
    · next hs =>
      split
      · exact link_set h (hne hs)
      · exact link_finish h p
    · exact h
  | readConfig p r u pw =>
    unfold Sys.step
    dsimp only
    split
    · next hs =>
      split
      · exact link_set h (hne hs)
      · exact link_finish h p
    · exact h
  | writeSkeleton p o =>
    unfold Sys.step
    dsimp only
    split
    · next hs =>
      split
      · split
        · exact link_finish (link_fs h) p
        · exact link_set (link_fs h) (hne hs)
      · exact link_set h (hne hs)
    · exact h
  | writeIdentity p o =>
    unfold Sys.step
    dsimp only
    split
    · next hs =>
      split
      · split
        · exact link_finish (link_fs h) p
        · exact link_set (link_fs h) (hne hs)
      · exact link_set h (hne hs)
    · exact h
  | save p services flash o =>
    unfold Sys.step
    dsimp only
    split
    · next hs =>
      split
      · exact link_finish h p
      · split
        · exact link_finish (link_save h (hne hs) _ o) p
        · exact link_save h (hne hs) _ o
    · exact h
  | update p services now o =>
    unfold Sys.step
    dsimp only
    split
    · next hs =>
      split
      · exact link_finish h p
      · split
        · exact link_set h (hne hs)
        · exact link_save h (hne hs) _ o
    · exact h
  | reset p o =>
    unfold Sys.step
    dsimp only
    split
    · next hs => exact link_save h (hne hs) _ o
    · exact h

theorem run_cons {b : Bool} {s : Sys} {op : Op} {ops : List Op} :
    s.run E S text b (op :: ops) =
      (((s.step E S text b op).1.run E S text b ops).1,
        (s.step E S text b op).2 ++ ((s.step E S text b op).1.run E S text b ops).2) := rfl

theorem run_append {b : Bool} {s : Sys} {x y : List Op} :
    s.run E S text b (x ++ y) =
      (((s.run E S text b x).1.run E S text b y).1, (s.run E S text b x).2 ++ ((s.run E S text b x).1.run E S text b y).2) := by
  induction x generalizing s with
  | nil => rfl
  | cons op x ih => rw [List.cons_append, run_cons, run_cons, ih, List.append_assoc]

theorem link_run {s : Sys} (h : Link s) (ops : List Op) : Link (s.run E S text true ops).1 := by
  induction ops generalizing s with
  | nil => exact h
  | cons op ops ih => rw [run_cons]; exact ih (link_step h op)

/-! ## The sequential history -/

section
variable (E S)
variable (R1 : Bool → Prop) (R2 : Out → Prop)

/-- What a start writes to the skeleton file. -/
def skelWrite (fs : Files) (now : Int64) (skelExists : Bool) (c : PConfig) (o : Out) : Option Bytes × Status :=
  if S.skeleton ∧ skelExists = false then writeFile fs.skeleton (E.render ((c.toSkeleton now).toJson E)) o
  else (fs.skeleton, .done)

/-- What a start writes to the identity file. -/
def idWrite (fs : Files) (c : PConfig) (o : Out) : Option Bytes × Status :=
  if S.identity then writeFile fs.identity (E.render (identityJson E c)) o else (fs.identity, .done)

/-- The skeleton and the configuration are read. -/
structure Reads (fs : Files) (a : StartUp) (skelExists : Bool) (c : PConfig) : Prop where
  readable : R1 a.readSkeleton
  values : ∃ skel config, (if S.skeleton then loadFile E a.now fs.skeleton a.readSkeleton else .ok none) = .ok skel ∧
    loadFile E a.now fs.config a.readConfig = .ok config ∧ skelExists = skel.isSome ∧
    c = (config.or skel).getD (PConfig.new a.now a.freshUuid a.freshPasswd)

/-- The files of the processes are those of the sequential history, but for what the start in progress did. -/
def Rel (fs : Files) (w : World) : Option Stage → Prop
  | none => w.proc = none ∧ fs = w.fs
  | some .fresh => w.proc = none ∧ fs = w.fs
  | some (.skeleton now skel) => w.proc = none ∧ fs = w.fs ∧
      ∃ r, R1 r ∧ (if S.skeleton then loadFile E now w.fs.skeleton r else .ok none) = .ok skel
  | some (.loaded now ex c) => w.proc = none ∧ fs = w.fs ∧ ∃ a : StartUp, a.now = now ∧ Reads E S R1 w.fs a ex c
  | some (.skeletonDone now c) => w.proc = none ∧ ∃ (a : StartUp) (ex : Bool), a.now = now ∧ Reads E S R1 w.fs a ex c ∧
      R2 a.outSkeleton ∧ (skelWrite E S w.fs now ex c a.outSkeleton).2 ≠ .crashed ∧
      fs = { w.fs with skeleton := (skelWrite E S w.fs now ex c a.outSkeleton).1 }
  | some (.identityDone now c) => w.proc = none ∧ ∃ a : StartUp, a.now = now ∧ R1 a.readSkeleton ∧ R2 a.outSkeleton ∧
      loadConfiguration E S w.fs a = (fs, some c)
  | some (.up m) => fs = w.fs ∧ Has w m

/-- The starts of a sequential history meet the assumptions. -/
def Starts (seq : List Config.Op) : Prop := ∀ a, .start a ∈ seq → R1 a.readSkeleton ∧ R2 a.outSkeleton

end

variable {R1 : Bool → Prop} {R2 : Out → Prop}

theorem load_eq {fs : Files} {a : StartUp} {ex : Bool} {c : PConfig} (h : Reads E S R1 fs a ex c) :
    loadConfiguration E S fs a =
      if (skelWrite E S fs a.now ex c a.outSkeleton).2 = .crashed then
        ({ fs with skeleton := (skelWrite E S fs a.now ex c a.outSkeleton).1 }, none)
      else
        ({ fs with
            skeleton := (skelWrite E S fs a.now ex c a.outSkeleton).1
            identity := (idWrite E S fs c a.outIdentity).1 },
          if (idWrite E S fs c a.outIdentity).2 = .crashed then none else some c) := by
  obtain ⟨-, skel, config, h1, h2, h3, h4⟩ := h
  unfold loadConfiguration
  rw [h1, h2]
  dsimp only
  rw [← h4]
  have hex : (S.skeleton = true ∧ skel.isNone = true) = (S.skeleton = true ∧ ex = false) := by
    rw [h3]; cases skel <;> simp
  unfold skelWrite idWrite
  simp only [hex]

theorem starts_nil : Starts R1 R2 [] := nofun

theorem starts_append {x y : List Config.Op} (hx : Starts R1 R2 x) (hy : Starts R1 R2 y) : Starts R1 R2 (x ++ y) :=
  fun a h => (List.mem_append.1 h).elim (hx a) (hy a)

theorem run_one (w : World) (op : Config.Op) : w.run E S [op] = w.step E S op := by
  show (_, _ ++ []) = _
  rw [List.append_nil]
  rfl

/-- The process that has a storage, if any, and what the sequential history knows of it. -/
def Only (R1 : Bool → Prop) (R2 : Out → Prop) (E : Env) (S : Setup) (s : Sys) (w : World) : Prop :=
  ∃ p, Rel E S R1 R2 s.fs w (s.stage p) ∧ ∀ q, q ≠ p → s.stage q = none

/-- A step of the processes is matched by steps of a sequential history. -/
def Sim (R1 : Bool → Prop) (R2 : Out → Prop) (E : Env) (S : Setup) (s' : Sys) (evs : List Ev) (w : World) : Prop :=
  ∃ seq, Starts R1 R2 seq ∧ Only R1 R2 E S s' (w.run E S seq).1 ∧ reached evs = reached1 (w.run E S seq).2

theorem sim_nil {s' : Sys} {evs : List Ev} {w : World} (h : Only R1 R2 E S s' w) (he : reached evs = []) :
    Sim R1 R2 E S s' evs w := ⟨[], starts_nil, h, he⟩

theorem sim_one {s' : Sys} {evs : List Ev} {w : World} (op : Config.Op) (ho : Starts R1 R2 [op])
    (h : Only R1 R2 E S s' (w.step E S op).1) (he : reached evs = reached1 (w.step E S op).2) : Sim R1 R2 E S s' evs w :=
  ⟨[op], ho, by rw [run_one]; exact h, by rw [run_one]; exact he⟩

theorem starts_one {a : StartUp} (h1 : R1 a.readSkeleton) (h2 : R2 a.outSkeleton) : Starts R1 R2 [.start a] := by
  intro b hb
  have := List.mem_singleton.1 hb
  injection this with this
  subst this
  exact ⟨h1, h2⟩

theorem starts_other {op : Config.Op} (h : ∀ a, op ≠ .start a) : Starts R1 R2 [op] := by
  intro b hb
  exact absurd (List.mem_singleton.1 hb).symm (h b)

/-- A start of which only the loading happens. -/
theorem start_load {w : World} {a : StartUp} {fs : Files} {c : PConfig} (hw : w.proc = none)
    (h : loadConfiguration E S w.fs a = (fs, some c)) (hs : a.services = []) (ho : a.outConfig = .crashBefore) :
    ((w.step E S (.start a)).1.proc = none ∧ (w.step E S (.start a)).1.fs = fs) ∧
      reached1 (w.step E S (.start a)).2 = [] := by
  unfold World.step
  dsimp only
  rw [hw]
  dsimp only
  unfold World.start
  rw [h, hs, ho]
  dsimp only
  split
  · exact ⟨⟨rfl, rfl⟩, rfl⟩
  · exact ⟨⟨rfl, rfl⟩, rfl⟩

theorem start_dead {w : World} {a : StartUp} {fs : Files} (hw : w.proc = none)
    (h : loadConfiguration E S w.fs a = (fs, none)) :
    ((w.step E S (.start a)).1.proc = none ∧ (w.step E S (.start a)).1.fs = fs) ∧
      reached1 (w.step E S (.start a)).2 = [] := by
  unfold World.step
  dsimp only
  rw [hw]
  dsimp only
  unfold World.start
  rw [h]
  exact ⟨⟨rfl, rfl⟩, rfl⟩

/-- The process ends. -/
theorem rel_end {fs : Files} {w : World} {x : Option Stage} (h : Rel E S R1 R2 fs w x) :
    ∃ seq, Starts R1 R2 seq ∧ Rel E S R1 R2 fs (w.run E S seq).1 none ∧ reached1 (w.run E S seq).2 = [] := by
  cases x with
  | none => exact ⟨[], starts_nil, h, rfl⟩
  | some x =>
    cases x with
    | fresh => exact ⟨[], starts_nil, h, rfl⟩
    | skeleton => exact ⟨[], starts_nil, ⟨h.1, h.2.1⟩, rfl⟩
    | loaded => exact ⟨[], starts_nil, ⟨h.1, h.2.1⟩, rfl⟩
    | skeletonDone now c =>
      obtain ⟨hw, a, ex, rfl, hr, h2, hc, rfl⟩ := h
      have hr' : Reads E S R1 w.fs { a with outIdentity := .crashBefore, outConfig := .crashBefore, services := [] } ex c :=
        ⟨hr.readable, hr.values⟩
      have hl := load_eq hr'
      dsimp only at hl
      rw [if_neg hc] at hl
      refine ⟨[.start { a with outIdentity := .crashBefore, outConfig := .crashBefore, services := [] }],
        starts_one hr.readable h2, ?_⟩
      rw [run_one]
      have hid : (idWrite E S w.fs c .crashBefore).1 = w.fs.identity := by
        unfold idWrite; split <;> rfl
      rw [hid] at hl
      split at hl
      · obtain ⟨⟨e1, e2⟩, e3⟩ := start_dead hw hl
        exact ⟨⟨e1, e2.symm⟩, e3⟩
      · obtain ⟨⟨e1, e2⟩, e3⟩ := start_load hw hl rfl rfl
        exact ⟨⟨e1, e2.symm⟩, e3⟩
    | identityDone now c =>
      obtain ⟨hw, a, rfl, h1, h2, hl⟩ := h
      refine ⟨[.start { a with outConfig := .crashBefore, services := [] }], starts_one h1 h2, ?_⟩
      rw [run_one]
      obtain ⟨⟨e1, e2⟩, e3⟩ := start_load (a := { a with outConfig := .crashBefore, services := [] }) hw
        (show loadConfiguration E S w.fs _ = _ from hl) rfl rfl
      exact ⟨⟨e1, e2.symm⟩, e3⟩
    | up m =>
      refine ⟨[.stop], starts_other nofun, ?_⟩
      rw [run_one]
      exact ⟨⟨rfl, h.1⟩, rfl⟩

/-- The storage of a process is dropped. -/
theorem sim_finish {s : Sys} {w : World} {p : Nat} {evs : List Ev} (h : Rel E S R1 R2 s.fs w (s.stage p))
    (ho : ∀ q, q ≠ p → s.stage q = none) (he : reached evs = []) :
    Sim R1 R2 E S (s.finish text p).1 (evs ++ (s.finish text p).2) w := by
  obtain ⟨seq, h1, h2, h3⟩ := rel_end h
  refine ⟨seq, h1, ⟨p, ?_, fun q hq => ?_⟩, ?_⟩
  · show Rel E S R1 R2 s.fs _ (if p = p then none else s.stage p)
    rw [if_pos rfl]; exact h2
  · show (if q = p then none else s.stage q) = none
    rw [if_neg hq]; exact ho q hq
  · rw [h3, reached_append, he]
    exact reached_map _

/-- The storage of a process is dropped when the sequential history knows it. -/
theorem only_finish {s : Sys} {w : World} {p : Nat} (hw : w.proc = none) (hf : s.fs = w.fs)
    (ho : ∀ q, q ≠ p → s.stage q = none) : Only R1 R2 E S (s.finish text p).1 w := by
  refine ⟨p, ?_, fun q hq => ?_⟩
  · show Rel E S R1 R2 s.fs _ (if p = p then none else s.stage p)
    rw [if_pos rfl]; exact ⟨hw, hf⟩
  · show (if q = p then none else s.stage q) = none
    rw [if_neg hq]; exact ho q hq

theorem only_set {s : Sys} {w : World} {p : Nat} {x : Option Stage} (h : Rel E S R1 R2 s.fs w x)
    (ho : ∀ q, q ≠ p → s.stage q = none) : Only R1 R2 E S (s.set p x) w := by
  refine ⟨p, ?_, fun q hq => ?_⟩
  · show Rel E S R1 R2 s.fs _ (if p = p then x else s.stage p)
    rw [if_pos rfl]; exact h
  · show (if q = p then x else s.stage q) = none
    rw [if_neg hq]; exact ho q hq

/-- Saving. -/
theorem only_save {s : Sys} {w : World} {p : Nat} {c : Cfg} {m : Mem} {o : Out} (hf : s.fs = w.fs)
    (ho : ∀ q, q ≠ p → s.stage q = none)
    (hc : c.version = m.version ∧ c.uuid = m.uuid ∧ c.passwd = m.passwd ∧ c.default = m.default ∧
      c.flashFriendly = m.flashFriendly ∧ w.heap[c.cell]? = some m.table) :
    Only R1 R2 E S (s.save E text p m o).1 (w.save E c m.table o).1 ∧
      reached (s.save E text p m o).2 = reached1 (w.save E c m.table o).2 := by
  obtain ⟨h1, h2, h3, h4, h5, h6⟩ := hc
  unfold Sys.save World.save
  rw [h1, h2, h3, hf]
  dsimp only
  have hev : ∀ (d : Bytes) (l : List Lock.Ev), reached (.write p .config d o :: l.map .lock) = reached1 [⟨d, o⟩] := by
    intro d l
    show (if o = .crashBefore then reached (l.map .lock) else ⟨d, o⟩ :: reached (l.map .lock)) = _
    rw [reached_map]
    unfold reached1
    by_cases ho : o = .crashBefore
    · rw [if_pos ho]; simp [ho]
    · rw [if_neg ho]; simp [ho]
  split
  · refine ⟨only_finish rfl rfl ho, hev _ _⟩
  · exact ⟨only_set ⟨rfl, _, rfl, h1, h2, h3, h4, h5, h6⟩ ho, hev _ []⟩

/-- What is assumed about the reads and writes of the skeleton file. -/
def Allowed (R1 : Bool → Prop) (R2 : Out → Prop) : Op → Prop
  | .readSkeleton _ _ r => R1 r
  | .writeSkeleton _ o => R2 o
  | _ => True

/-- The process with a storage is the only one. -/
theorem only_at {s : Sys} {w : World} {p : Nat} {x : Stage} (h : Only R1 R2 E S s w) (hp : s.stage p = some x) :
    Rel E S R1 R2 s.fs w (s.stage p) ∧ ∀ q, q ≠ p → s.stage q = none := by
  obtain ⟨p', h1, h2⟩ := h
  by_cases e : p = p'
  · subst e; exact ⟨h1, h2⟩
  · rw [h2 p e] at hp; cases hp

/-- A step on the lock file. -/
theorem sim_lock {s : Sys} {w : World} (hl : Link s) (h : Only R1 R2 E S s w) (o : Lock.Op) :
    Sim R1 R2 E S { s with
      lock := (s.lock.step text o).1
      stage := fun q => if .started q ∈ (s.lock.step text o).2 then some .fresh
        else if .ended q ∈ (s.lock.step text o).2 then none else s.stage q }
      ((s.lock.step text o).2.map .lock) w := by
  have hl' := link_lock (text := text) hl o
  obtain ⟨p, hr, ho⟩ := h
  have he : reached ((s.lock.step text o).2.map .lock) = [] := reached_map _
  by_cases hst : ∃ q, .started q ∈ (s.lock.step text o).2
  · obtain ⟨q, hq⟩ := hst
    obtain ⟨h1, h2, h3⟩ := Lock.step_running (text := text) (s := s.lock) (op := o) (q := q)
    have hnew := (h1 hq).1
    -- nobody had a storage
    have hp : s.stage p = none := by
      cases hp : s.stage p with
      | none => rfl
      | some x =>
        -- p still runs, so p = q, but q did not run before
        have hpp : s.stage p ≠ none := by rw [hp]; exact nofun
        have hrun := (hl.stage p).1 hpp
        have hpq : p = q := by
          refine hl'.unique (p := p) (q := q) ?_ ?_
          · show (if _ then _ else _) ≠ none
            split
            · exact nofun
            · rw [if_neg]
              · exact hpp
              · rw [hnew]; intro h; cases h with | tail _ h => cases h
          · show (if _ then _ else _) ≠ none
            rw [if_pos hq]; exact nofun
        subst hpq
        exact absurd hrun (Lock.started_before hq)
    rw [hp] at hr
    refine sim_nil ⟨q, ?_, fun r hr' => ?_⟩ he
    · show Rel E S R1 R2 s.fs w (if _ then _ else _)
      rw [if_pos hq]
      exact hr
    · show (if _ then _ else _) = none
      rw [hnew, if_neg, if_neg]
      · by_cases e : r = p
        · rw [e]; exact hp
        · exact ho r e
      · intro h; cases h with | tail _ h => cases h
      · intro h
        cases h with
        | head => exact hr' rfl
        | tail _ h => cases h
  · by_cases hend : .ended p ∈ (s.lock.step text o).2
    · obtain ⟨seq, h1, h2, h3⟩ := rel_end hr
      refine ⟨seq, h1, ⟨p, ?_, fun r hr' => ?_⟩, ?_⟩
      · show Rel E S R1 R2 s.fs _ (if _ then _ else _)
        rw [if_neg (fun h => hst ⟨p, h⟩), if_pos hend]
        exact h2
      · show (if _ then _ else _) = none
        rw [if_neg (fun h => hst ⟨r, h⟩)]
        split
        · rfl
        · exact ho r hr'
      · rw [h3, he]
    · refine sim_nil ⟨p, ?_, fun r hr' => ?_⟩ he
      · show Rel E S R1 R2 s.fs _ (if _ then _ else _)
        rw [if_neg (fun h => hst ⟨p, h⟩), if_neg hend]
        exact hr
      · show (if _ then _ else _) = none
        rw [if_neg (fun h => hst ⟨r, h⟩)]
        split
        · rfl
        · exact ho r hr'

theorem sim_step {s : Sys} {w : World} (hl : Link s) (h : Only R1 R2 E S s w) {op : Op} (ha : Allowed R1 R2 op) :
    Sim R1 R2 E S (s.step E S text true op).1 (s.step E S text true op).2 w := by
  cases op with
  | lock o => exact sim_lock hl h o
  | enter p => exact sim_nil h rfl
  | exit p =>
    show Sim R1 R2 E S (s.finish text p).1 (s.finish text p).2 w
    rw [finish_eq s p hl]
    exact sim_lock hl h (.exit p)
  | readSkeleton p now r =>
    unfold Sys.step
    dsimp only
    split
    · next hs =>
      obtain ⟨hr, ho⟩ := only_at h hs
      rw [hs] at hr
      split
      · next skel hk => exact sim_nil (only_set ⟨hr.1, hr.2, r, ha, by rw [← hr.2]; exact hk⟩ ho) rfl
      · exact sim_finish (evs := []) (by rw [hs]; exact hr) ho rfl
    · exact sim_nil h rfl
  | readConfig p r u pw =>
    unfold Sys.step
    dsimp only
    split
    · next now skel hs =>
      obtain ⟨hr, ho⟩ := only_at h hs
      rw [hs] at hr
      split
      · next config hk =>
        obtain ⟨h1, h2, r', h3, h4⟩ := hr
        refine sim_nil (only_set ⟨h1, h2, ⟨now, r, r', u, pw, .ok, .ok, .ok, [], false⟩, rfl, ⟨h3, ?_⟩⟩ ho) rfl
        exact ⟨skel, config, h4, by rw [← h2]; exact hk, rfl, rfl⟩
      · exact sim_finish (evs := []) (by rw [hs]; exact hr) ho rfl
    · exact sim_nil h rfl
  | writeSkeleton p o =>
    unfold Sys.step
    dsimp only
    split
    · next now ex c hs =>
      obtain ⟨hr, ho⟩ := only_at h hs
      rw [hs] at hr
      obtain ⟨h1, h2, a, rfl, hr⟩ := hr
      have hr' : Reads E S R1 w.fs { a with outSkeleton := o } ex c := ⟨hr.readable, hr.values⟩
      have hl' := load_eq hr'
      dsimp only at hl'
      split
      · next hcond =>
        have hsw : skelWrite E S w.fs a.now ex c o =
            writeFile s.fs.skeleton (E.render ((c.toSkeleton a.now).toJson E)) o := by
          unfold skelWrite; rw [if_pos hcond, h2]
        rw [← hsw]
        split
        · next hc =>
          rw [if_pos hc] at hl'
          obtain ⟨⟨e1, e2⟩, e3⟩ := start_dead h1 hl'
          refine sim_one (.start { a with outSkeleton := o }) (starts_one hr.readable ha) (only_finish e1 ?_ ho) ?_
          · rw [e2, ← h2]
          · rw [e3]; exact reached_map _
        · next hc =>
          refine sim_nil (only_set ?_ ho) rfl
          exact ⟨h1, { a with outSkeleton := o }, ex, rfl, hr', ha, hc, by rw [← h2]⟩
      · next hcond =>
        have hsw : skelWrite E S w.fs a.now ex c o = (w.fs.skeleton, .done) := by
          unfold skelWrite; rw [if_neg hcond]
        refine sim_nil (only_set ?_ ho) rfl
        exact ⟨h1, { a with outSkeleton := o }, ex, rfl, hr', ha, by rw [hsw]; exact nofun, by rw [hsw, ← h2]⟩
    · exact sim_nil h rfl
  | writeIdentity p o =>
    unfold Sys.step
    dsimp only
    split
    · next now c hs =>
      obtain ⟨hr, ho⟩ := only_at h hs
      rw [hs] at hr
      obtain ⟨h1, a, ex, rfl, hr, h2, hc, hf⟩ := hr
      have hr' : Reads E S R1 w.fs { a with outIdentity := o } ex c := ⟨hr.readable, hr.values⟩
      have hl' := load_eq hr'
      dsimp only at hl'
      rw [if_neg hc] at hl'
      have hfid : s.fs.identity = w.fs.identity := by rw [hf]
      split
      · next hcond =>
        have hsw : idWrite E S w.fs c o = writeFile s.fs.identity (E.render (identityJson E c)) o := by
          unfold idWrite; rw [if_pos hcond, hfid]
        rw [← hsw]
        split
        · next hc' =>
          rw [if_pos hc'] at hl'
          obtain ⟨⟨e1, e2⟩, e3⟩ := start_dead h1 hl'
          refine sim_one (.start { a with outIdentity := o }) (starts_one hr.readable h2) (only_finish e1 ?_ ho) ?_
          · rw [e2, hf]
          · rw [e3]; exact reached_map _
        · next hc' =>
          rw [if_neg hc'] at hl'
          refine sim_nil (only_set ?_ ho) rfl
          refine ⟨h1, { a with outIdentity := o }, rfl, hr.readable, h2, ?_⟩
          rw [hl', hf]
      · next hcond =>
        have hsw : idWrite E S w.fs c o = (w.fs.identity, .done) := by
          unfold idWrite; rw [if_neg hcond]
        rw [hsw, if_neg (by exact nofun)] at hl'
        refine sim_nil (only_set ?_ ho) rfl
        exact ⟨h1, { a with outIdentity := o }, rfl, hr.readable, h2, by rw [hl', hf]⟩
    · exact sim_nil h rfl
  | save p services flash o =>
    unfold Sys.step
    dsimp only
    split
    · next now c hs =>
      obtain ⟨hr, ho⟩ := only_at h hs
      split
      · exact sim_finish (evs := []) hr ho rfl
      · next t ht =>
        rw [hs] at hr
        obtain ⟨h1, a, rfl, h2, h3, hload⟩ := hr
        let a' : StartUp := { a with services := services, flashFriendly := flash, outConfig := o }
        have hload' : loadConfiguration E S w.fs a' = (s.fs, some c) := hload
        let w1 : World := { w with fs := s.fs, heap := w.heap ++ [t] }
        let cf : Cfg := ⟨c.version, c.uuid, c.passwd, w.heap.length, t, flash⟩
        have hstep : w.step E S (.start a') =
            (if o = .ok then (w1.save E cf t o).1 else { (w1.save E cf t o).1 with proc := none }, (w1.save E cf t o).2) := by
          unfold World.step
          dsimp only
          rw [h1]
          dsimp only
          unfold World.start
          rw [hload']
          dsimp only
          rw [show a'.services = services from rfl, show a'.now = a.now from rfl, ht]
        have key := only_save (R1 := R1) (R2 := R2) (E := E) (S := S) (text := text) (s := s) (w := w1) (p := p) (c := cf)
          (m := ⟨c.version, c.uuid, c.passwd, t, t, flash⟩) (o := o) rfl ho
          ⟨rfl, rfl, rfl, rfl, rfl, by show (w.heap ++ [t])[w.heap.length]? = some t; simp⟩
        obtain ⟨k1, k2⟩ := key
        refine sim_one (.start a') (starts_one h2 h3) ?_ ?_
        · rw [hstep]
          dsimp only
          cases o with
          | ok => exact k1
          | notCreated =>
            refine only_finish rfl rfl (fun q hq => ?_)
            show (if q = p then _ else s.stage q) = none
            rw [if_neg hq]; exact ho q hq
          | short n =>
            refine only_finish rfl rfl (fun q hq => ?_)
            show (if q = p then _ else s.stage q) = none
            rw [if_neg hq]; exact ho q hq
          | crashBefore => exact k1
          | crash n => exact k1
        · rw [hstep]
          dsimp only
          cases o with
          | ok => exact k2
          | notCreated =>
            rw [if_pos (show failed .notCreated = true from rfl)]
            dsimp only
            rw [reached_append, k2]
            exact (congrArg (_ ++ ·) (reached_map _)).trans (List.append_nil _)
          | short n =>
            rw [if_pos (show failed (.short n) = true from rfl)]
            dsimp only
            rw [reached_append, k2]
            exact (congrArg (_ ++ ·) (reached_map _)).trans (List.append_nil _)
          | crashBefore => exact k2
          | crash n => exact k2
    · exact sim_nil h rfl
  | update p services now o =>
    unfold Sys.step
    dsimp only
    split
    · next m hs =>
      obtain ⟨hr, ho⟩ := only_at h hs
      split
      · exact sim_finish (evs := []) hr ho rfl
      · next t ht =>
        rw [hs] at hr
        obtain ⟨hf, c, hc, e1, e2, e3, e4, e5, e6⟩ := hr
        have hlen : c.cell < w.heap.length := by
          rcases Nat.lt_or_ge c.cell w.heap.length with h | h
          · exact h
          · rw [List.getElem?_eq_none h] at e6; cases e6
        have hset : (w.heap.set c.cell t)[c.cell]? = some t := by
          rw [List.getElem?_set_self hlen]
        have hstep : w.step E S (.update services now o) =
            if t.version = m.table.version ∧ (c.flashFriendly ∨ t.visVersion = m.table.visVersion) then
              ({ w with heap := w.heap.set c.cell t }, [])
            else World.save E { w with heap := w.heap.set c.cell t } { c with version := c.version + 1 } t o := by
          unfold World.step
          dsimp only
          rw [hc]
          dsimp only
          unfold World.update
          rw [e6]
          dsimp only
          rw [ht]
          dsimp only
          rw [hc]
        split
        · next hcond =>
          rw [← e5] at hcond
          rw [if_pos hcond] at hstep
          refine sim_one (.update services now o) (starts_other nofun) ?_ (by rw [hstep]; rfl)
          rw [hstep]
          exact only_set ⟨hf, c, hc, e1, e2, e3, e4, e5, hset⟩ ho
        · next hcond =>
          rw [← e5] at hcond
          rw [if_neg hcond] at hstep
          have key := only_save (R1 := R1) (R2 := R2) (E := E) (S := S) (text := text) (s := s)
            (w := { w with heap := w.heap.set c.cell t }) (p := p) (c := { c with version := c.version + 1 })
            (m := { m with version := m.version + 1, table := t }) (o := o) hf ho
            ⟨congrArg (· + 1) e1, e2, e3, e4, e5, hset⟩
          exact sim_one (.update services now o) (starts_other nofun) (by rw [hstep]; exact key.1)
            (by rw [hstep]; exact key.2)
    · exact sim_nil h rfl
  | reset p o =>
    unfold Sys.step
    dsimp only
    split
    · next m hs =>
      obtain ⟨hr, ho⟩ := only_at h hs
      rw [hs] at hr
      obtain ⟨hf, c, hc, e1, e2, e3, e4, e5, e6⟩ := hr
      have hstep : w.step E S (.reset o) = w.reset E c o := by
        unfold World.step
        dsimp only
        rw [hc]
      have key := only_save (R1 := R1) (R2 := R2) (E := E) (S := S) (text := text) (s := s)
        (w := { w with heap := w.heap ++ [c.default] }) (p := p)
        (c := { c with cell := w.heap.length, version := c.version + 1 })
        (m := { m with version := m.version + 1, table := m.default }) (o := o) hf ho
        ⟨congrArg (· + 1) e1, e2, e3, e4, e5, by
          show (w.heap ++ [c.default])[w.heap.length]? = some m.default
          rw [e4]; simp⟩
      refine sim_one (.reset o) (starts_other nofun) ?_ ?_
      · rw [hstep]
        unfold World.reset
        dsimp only
        rw [e4] at key ⊢
        exact key.1
      · rw [hstep]
        unfold World.reset
        dsimp only
        rw [e4] at key ⊢
        exact key.2
    · exact sim_nil h rfl

theorem sim_run {s : Sys} {w : World} (hl : Link s) (h : Only R1 R2 E S s w) {ops : List Op}
    (ha : ∀ op ∈ ops, Allowed R1 R2 op) :
    Sim R1 R2 E S (s.run E S text true ops).1 (s.run E S text true ops).2 w := by
  induction ops generalizing s w with
  | nil => exact sim_nil h rfl
  | cons op ops ih =>
    obtain ⟨x, x1, x2, x3⟩ := sim_step (text := text) hl h (ha op List.mem_cons_self)
    obtain ⟨y, y1, y2, y3⟩ := ih (link_step (E := E) (S := S) (text := text) hl op) x2
      (fun o ho => ha o (List.mem_cons_of_mem _ ho))
    refine ⟨x ++ y, starts_append x1 y1, ?_, ?_⟩
    · rw [run_cons, Config.run_append]; exact y2
    · rw [run_cons, Config.run_append, reached_append, x3, y3, reached1_append]

end Verif.Clients
