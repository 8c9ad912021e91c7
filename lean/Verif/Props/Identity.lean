import Verif.Spec.Identity
import Verif.Props.Config
/-!
# The identity file: C137
-/
namespace Verif.Props.Identity
open Verif Verif.SvcTable Verif.Config Verif.Spec.SvcTable Verif.Spec.Config Verif.Spec.Identity
open Verif.Props.Config

/-- What loading does to the identity file. -/
theorem load_identity (E : Env) (S : Setup) (fs : Files) (a : StartUp) :
    ((loadConfiguration E S fs a).1.identity = fs.identity ∧
      (S.identity = true → (loadConfiguration E S fs a).2 = none)) ∨
    ∃ p, S.identity = true ∧ (loadConfiguration E S fs a).1.identity =
        (writeFile fs.identity (E.render (publicIdentity E p.uuid)) a.outIdentity).1 ∧
      ((loadConfiguration E S fs a).2 = none ∨ (loadConfiguration E S fs a).2 = some p) := by
  unfold loadConfiguration
  split
  · rename_i skel config h1 h2
    dsimp only
    generalize (config.or skel).getD (PConfig.new a.now a.freshUuid a.freshPasswd) = c
    generalize (if S.skeleton = true ∧ skel.isNone = true then
      writeFile fs.skeleton (E.render ((c.toSkeleton a.now).toJson E)) a.outSkeleton else (fs.skeleton, .done)) = r
    obtain ⟨f, st⟩ := r
    dsimp only
    split
    · exact .inl ⟨rfl, fun _ => rfl⟩
    · by_cases hi : S.identity = true
      · refine .inr ⟨c, hi, ?_⟩
        rw [if_pos hi]
        exact ⟨rfl, ite_none_or _ _⟩
      · rw [if_neg hi]
        exact .inl ⟨rfl, fun h => absurd h hi⟩
  · exact .inl ⟨rfl, fun _ => rfl⟩

theorem save_identity (E : Env) (w : World) (c : Cfg) (t : Table) (o : Out) :
    (w.save E c t o).1.fs.identity = w.fs.identity := rfl

theorem start_identity (E : Env) (S : Setup) (w : World) (a : StartUp) :
    (w.start E S a).1.fs.identity = (loadConfiguration E S w.fs a).1.identity ∧
    ∀ c, (w.start E S a).1.proc = some c → ∃ p, (loadConfiguration E S w.fs a).2 = some p ∧ c.uuid = p.uuid := by
  rcases start_cases E S w a with h | ⟨p, t, hp, -, -, ⟨-, h, hpr⟩ | ⟨-, h⟩⟩
  · rw [h]; exact ⟨rfl, nofun⟩
  · rw [h]
    refine ⟨rfl, fun c hc => ⟨p, hp, ?_⟩⟩
    rw [save_proc hc]
  · rw [h]; exact ⟨rfl, nofun⟩

/-- Only a start writes the identity file, and the UUID of a running client does not change. -/
theorem step_other (E : Env) (S : Setup) (w : World) (op : Op) (h : ∀ a, op ≠ .start a) :
    (w.step E S op).1.fs.identity = w.fs.identity ∧
    ∀ c', (w.step E S op).1.proc = some c' → ∃ c, w.proc = some c ∧ c'.uuid = c.uuid := by
  cases op with
  | start a => exact absurd rfl (h a)
  | update l now o =>
    simp only [World.step]
    cases hp : w.proc with
    | none => exact ⟨rfl, fun c hc => by rw [hp] at hc; cases hc⟩
    | some c =>
      simp only [World.update]
      split
      · exact ⟨rfl, fun c' hc => ⟨c', by rw [← hp, hc], rfl⟩⟩
      · split
        · exact ⟨rfl, nofun⟩
        · split
          · exact ⟨rfl, fun c' hc => ⟨c', by rw [← hp]; exact hc, rfl⟩⟩
          · exact ⟨rfl, fun c' hc => ⟨c, rfl, by rw [save_proc hc]⟩⟩
  | reset o =>
    simp only [World.step]
    cases hp : w.proc with
    | none => exact ⟨rfl, fun c hc => by rw [hp] at hc; cases hc⟩
    | some c => exact ⟨rfl, fun c' hc => ⟨c, rfl, by rw [save_proc hc]⟩⟩
  | stop => exact ⟨rfl, nofun⟩

/-! ### The file names the running client -/

theorem names_whole {E : Env} (hE : Faithful E) (u : Bytes) : Names E (some (E.render (publicIdentity E u))) u :=
  ⟨_, _, rfl, hE.json _, hE.uuid u⟩

theorem names_step {E : Env} (hE : Faithful E) {S : Setup} (hS : S.identity = true) {w : World}
    (h : ∀ c, w.proc = some c → Names E w.fs.identity c.uuid) {op : Op} (ho : IdentityWritten op) :
    ∀ c, (w.step E S op).1.proc = some c → Names E (w.step E S op).1.fs.identity c.uuid := by
  intro c hc
  by_cases hst : ∃ a, op = .start a
  · obtain ⟨a, rfl⟩ := hst
    simp only [World.step] at hc ⊢
    cases hp : w.proc with
    | some c0 => rw [hp] at hc; exact h c hc
    | none =>
      rw [hp] at hc
      dsimp only at hc ⊢
      obtain ⟨h1, h2⟩ := start_identity E S w a
      obtain ⟨p, hp', hu⟩ := h2 c hc
      rw [h1, hu]
      rcases load_identity E S w.fs a with ⟨-, hn⟩ | ⟨q, -, hf, hq⟩
      · rw [hn hS] at hp'; cases hp'
      · rw [hp'] at hq
        rcases hq with hq | hq
        · cases hq
        · injection hq with hq
          subst hq
          rw [hf, show a.outIdentity = .ok from ho]
          exact names_whole hE p.uuid
  · obtain ⟨h1, h2⟩ := step_other E S w op (fun a ha => hst ⟨a, ha⟩)
    obtain ⟨c0, hc0, hu⟩ := h2 c hc
    rw [h1, hu]
    exact h c0 hc0

/-- C137: if the identity file can be written whenever the client is started, then whenever the client runs, over any
number of restarts, resets, updates, failing saves and crashes, the identity file is a JSON object with the UUID of
the running client and nothing else. -/
theorem C137_names_the_client (E : Env) (hE : Faithful E) (S : Setup) (hS : S.identity = true) (w : World)
    (hw : w.proc = none) (ops : List Op) (ho : ∀ op ∈ ops, IdentityWritten op) (i : Bytes × Bytes)
    (hi : identity (w.run E S ops).1 = some i) : Names E (w.run E S ops).1.fs.identity i.1 := by
  have key : ∀ (ops : List Op) (w : World), (∀ c, w.proc = some c → Names E w.fs.identity c.uuid) →
      (∀ op ∈ ops, IdentityWritten op) →
      ∀ c, (w.run E S ops).1.proc = some c → Names E (w.run E S ops).1.fs.identity c.uuid := by
    intro ops
    induction ops with
    | nil => intro w h _; exact h
    | cons op ops ih =>
      intro w h ho
      exact ih _ (names_step hE hS h (ho op List.mem_cons_self)) (fun o h => ho o (List.mem_cons_of_mem _ h))
  unfold identity at hi
  obtain ⟨c, hc, rfl⟩ := Option.map_eq_some_iff.mp hi
  exact key ops w (fun c hc => by rw [hw] at hc; cases hc) ho c hc

/-! ### The file is public -/

/-- A part of the public identity, from its beginning. -/
def Part (E : Env) (data : Bytes) : Prop := ∃ u n, data = (E.render (publicIdentity E u)).take n

theorem part_write (E : Env) (old : Option Bytes) (u : Bytes) (o : Out) (h : ∀ d, old = some d → Part E d) :
    ∀ d, (writeFile old (E.render (publicIdentity E u)) o).1 = some d → Part E d := by
  intro d hd
  cases o with
  | ok => cases hd; exact ⟨u, (E.render (publicIdentity E u)).length, (List.take_length ..).symm⟩
  | notCreated => exact h d hd
  | short n => cases hd; exact ⟨u, n, rfl⟩
  | crashBefore => exact h d hd
  | crash n => cases hd; exact ⟨u, n, rfl⟩

theorem part_step {E : Env} {S : Setup} {w : World} (h : ∀ d, w.fs.identity = some d → Part E d) (op : Op) :
    ∀ d, (w.step E S op).1.fs.identity = some d → Part E d := by
  by_cases hst : ∃ a, op = .start a
  · obtain ⟨a, rfl⟩ := hst
    simp only [World.step]
    cases hp : w.proc with
    | some c0 => exact h
    | none =>
      dsimp only
      rw [(start_identity E S w a).1]
      rcases load_identity E S w.fs a with ⟨h1, -⟩ | ⟨q, -, hf, -⟩
      · rw [h1]; exact h
      · rw [hf]; exact part_write E _ _ _ h
  · rw [(step_other E S w op (fun a ha => hst ⟨a, ha⟩)).1]; exact h

/-- C137: whatever happens, what the client puts into the identity file depends on UUIDs only, not on the password nor
on any service: it is the text of a public identity, or the beginning of one if writing was cut short; and if it can be
parsed it is the whole one. -/
theorem C137_public (E : Env) (hE : Faithful E) (S : Setup) (w : World) (hw : w.fs.identity = none) (ops : List Op)
    (data : Bytes) (hd : (w.run E S ops).1.fs.identity = some data) :
    ∃ u n, data = (E.render (publicIdentity E u)).take n ∧
      ∀ j, E.parse data = some j → j = publicIdentity E u ∧ data = E.render (publicIdentity E u) := by
  have key : ∀ (ops : List Op) (w : World), (∀ d, w.fs.identity = some d → Part E d) →
      ∀ d, (w.run E S ops).1.fs.identity = some d → Part E d := by
    intro ops
    induction ops with
    | nil => intro w h; exact h
    | cons op ops ih => intro w h; exact ih _ (part_step h op)
  obtain ⟨u, n, h⟩ := key ops w (fun d hd => by rw [hw] at hd; cases hd) data hd
  refine ⟨u, n, h, fun j hj => ?_⟩
  by_cases hn : n < (E.render (publicIdentity E u)).length
  · have hc : E.parse ((E.render (publicIdentity E u)).take n) = none := hE.cut _ _ hn
    rw [h, hc] at hj
    cases hj
  · rw [List.take_of_length_le (Nat.le_of_not_lt hn)] at h
    rw [h, hE.json] at hj
    injection hj with hj
    exact ⟨hj.symm, h⟩

/-- C137: a client that was not given an identity file writes none. -/
theorem C137_only_if_asked (E : Env) (S : Setup) (hS : S.identity = false) (w : World) (ops : List Op) :
    (w.run E S ops).1.fs.identity = w.fs.identity := by
  induction ops generalizing w with
  | nil => rfl
  | cons op ops ih =>
    refine (ih _).trans ?_
    by_cases hst : ∃ a, op = .start a
    · obtain ⟨a, rfl⟩ := hst
      cases hp : w.proc with
      | some c0 => simp only [World.step, hp]
      | none =>
        simp only [World.step, hp]
        rw [(start_identity E S w a).1]
        rcases load_identity E S w.fs a with ⟨h1, -⟩ | ⟨q, h1, -⟩
        · exact h1
        · rw [hS] at h1; cases h1
    · exact (step_other E S w op (fun a ha => hst ⟨a, ha⟩)).1

/-! ### Examples -/

/-- A start with the given UUID if a new one is needed, where writing the identity file ends with `o`. -/
def startWith (uuid : Bytes) (o : Out) : StartUp :=
  { demoStart .ok with freshUuid := uuid, readConfig := false, outIdentity := o }

/-- Two starts, with a crash in between that destroys the configuration file. -/
def twice : List Op := [.start (startWith [1] .ok), .reset (.crash 0), .start (startWith [3] .ok), .reset .ok]

/-- Non-vacuity of C137_names_the_client. -/
example : identity (emptyWorld.run demoEnv ⟨false, true⟩ twice).1 = some ([3], [2]) ∧
    ∀ op ∈ twice, IdentityWritten op := by
  refine ⟨by decide +kernel, ?_⟩
  intro op hop
  simp only [twice, List.mem_cons, List.not_mem_nil, or_false] at hop
  rcases hop with rfl | rfl | rfl | rfl <;> trivial

/-- C137 (finding): that the identity file cannot be written is only logged. A client without a skeleton file whose
configuration cannot be read draws a new UUID and runs with it, while the identity file still names the one before. -/
theorem C137_may_be_stale : ∃ (S : Setup) (ops : List Op) (i : Bytes × Bytes) (u : Bytes),
    identity (emptyWorld.run demoEnv S ops).1 = some i ∧
    Names demoEnv (emptyWorld.run demoEnv S ops).1.fs.identity u ∧ u ≠ i.1 := by
  refine ⟨⟨false, true⟩, [.start (startWith [1] .ok), .stop, .start (startWith [3] .notCreated)], ([3], [2]), [1],
    by decide +kernel, ?_, by decide⟩
  rw [show (emptyWorld.run demoEnv ⟨false, true⟩ [.start (startWith [1] .ok), .stop,
    .start (startWith [3] .notCreated)]).1.fs.identity = some (demoEnv.render (publicIdentity demoEnv [1])) from
      by decide +kernel]
  exact names_whole demo_faithful [1]

end Verif.Props.Identity
