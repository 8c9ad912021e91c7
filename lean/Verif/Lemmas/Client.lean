import Verif.Spec.Client
import Verif.Lemmas.SessionManager
import Verif.Props.Control
/-!
# Lemmas about a connection
-/
namespace Verif.Client
open Verif.Spec
open Verif.Control Verif.Session Verif.Spec.Client

/-! ## The parts of a history -/

/-- The result of `connect` after a failed operation. -/
def Out.result : Out → Result
  | .ok => .panic
  | .err e => .error e
  | .panic => .panic

/-- Assumptions under which `I` holds throughout a connection, and `J` after a refused message or a
timeout: they are preserved by every elementary step except the I/O of a session. `R` relates clock readings,
`E` is assumed of what the steps read from the outside. -/
structure Steps0 (R : Nat → Nat → Prop) (E : Env → Prop) (I : Cli → List NEv → Nat → Prop)
    (J : List NEv → Result → Prop) : Prop where
  time : ∀ c es t t', I c es t → R t t' → I c es t'
  recv : ∀ c es env m, E env → I c es env.now → c.isClosed = false → (c.handle env m).1 = .ok →
    I (c.handle env m).2.1 (es ++ .ev (.got m .ok) :: (c.handle env m).2.2.map .ev) env.now
  refused : ∀ c es env m, E env → I c es env.now → c.isClosed = false → (c.handle env m).1 ≠ .ok →
    J (es ++ .ev (.got m (c.handle env m).1) :: (c.handle env m).2.2.map .ev) (c.handle env m).1.result
  ping : ∀ c es t, I c es t → c.isClosed = false → c.established = true →
    pingPeriod ≤ t - c.lastPing → I (c.sendPing t).1 (es ++ (c.sendPing t).2.map .ev) t
  check : ∀ c es env, E env → I c es env.now → c.isClosed = false → c.established = true →
    updateCheckPeriod ≤ env.now - c.lastCheck →
    I (c.checkForUpdates env).1 (es ++ (c.checkForUpdates env).2.map .ev) env.now
  timeout : ∀ c es t, I c es t → c.isClosed = false → c.ackTimedOut t = true → J es (.error .connection)
  ready : ∀ c es t m, I c es t → c.isClosed = false → c.ctxPoll.1 = .ready m →
    I c.ctxPoll.2.1 (es ++ c.ctxPoll.2.2.map .ev ++ [.sent m]) t
  pending : ∀ c es t, I c es t → c.isClosed = false → c.ctxPoll.1 = .pending →
    I c.ctxPoll.2.1 (es ++ c.ctxPoll.2.2.map .ev) t
  idle : ∀ c es t, I c es t → I { c with idle := false } es t
  close : ∀ c es t, I c es t → I { c with closed := true } es t

/-- The same with the I/O of sessions. -/
structure Steps (R : Nat → Nat → Prop) (E : Env → Prop) (I : Cli → List NEv → Nat → Prop)
    (J : List NEv → Result → Prop) : Prop extends Steps0 R E I J where
  io : ∀ c es t sid o, I c es t → c.isClosed = false →
    I (c.onMgr (.io sid o)).1 (es ++ (c.onMgr (.io sid o)).2.map .ev) t

/-- The outcome of a history fits the last state of the client. -/
def Final (ops : List COp) (s : Conn) (c : Cli) : Prop :=
  match s with
  | .live x => x = c ∧ c.isClosed = false
  | .closing r => c.isClosed = true ∧ r = c.result
  | .over r => (∃ e, r = .error e ∧ (c.isClosed = false ∨ .sinkError e ∈ ops)) ∨
    (c.isClosed = true ∧ r = c.result)

theorem Final.cons {ops s c} (o : COp) (h : Final ops s c) : Final (o :: ops) s c := by
  unfold Final at h ⊢
  split at h
  · exact h
  · exact h
  · rcases h with ⟨e, h1, h2 | h2⟩ | h
    · exact .inl ⟨e, h1, .inl h2⟩
    · exact .inl ⟨e, h1, .inr (List.mem_cons_of_mem _ h2)⟩
    · exact .inr h

theorem ctxPoll_done {c : Cli} (h : c.ctxPoll.1 = .done) : c.isClosed = true ∧ c.ctxPoll.2 = (c, []) := by
  unfold Cli.ctxPoll at h ⊢
  by_cases hc : c.isClosed = true
  · simp [hc]
  · simp only [hc, Bool.false_eq_true, if_false] at h
    split at h
    · cases h
    · split at h <;> cases h

theorem ctxPoll_closed {c : Cli} (h : c.isClosed = true) : c.ctxPoll = (.done, c, []) := by
  simp [Cli.ctxPoll, h]

theorem ctxPoll_open {c : Cli} (h : c.ctxPoll.1 ≠ .done) : c.isClosed = false := by
  cases hc : c.isClosed
  · rfl
  · rw [ctxPoll_closed hc] at h; exact absurd rfl h

theorem ctxPoll_isClosed (c : Cli) : c.ctxPoll.2.1.isClosed = c.isClosed := by
  unfold Cli.ctxPoll
  split
  · rfl
  · split
    · rfl
    · dsimp only
      split <;> rfl

theorem recv_closed {c : Cli} (h : c.isClosed = true) (env : Env) (m : Wire.Message) :
    c.recv env m = (.ok, c, []) := by
  simp [Cli.recv, h]

theorem recv_open {c : Cli} (h : c.isClosed = false) (env : Env) (m : Wire.Message) :
    c.recv env m = ((c.handle env m).1, (c.handle env m).2.1,
      .got m (c.handle env m).1 :: (c.handle env m).2.2) := by
  simp [Cli.recv, h]

/-- What a poll leaves behind. -/
def PollPost (I : Cli → List NEv → Nat → Prop) (J : List NEv → Result → Prop) (es : List NEv)
    (r : Polled × Cli × List CEv) (t' : Nat) : Prop :=
  match r.1 with
  | .send m => I r.2.1 (es ++ r.2.2.map .ev ++ [.sent m]) t' ∧ r.2.1.isClosed = false
  | .done => I r.2.1 (es ++ r.2.2.map .ev) t' ∧ r.2.1.isClosed = true
  | .pending => I r.2.1 (es ++ r.2.2.map .ev) t' ∧ r.2.1.isClosed = false
  | .error e => (I r.2.1 (es ++ r.2.2.map .ev) t' ∧ r.2.1.isClosed = false) ∨ J (es ++ r.2.2.map .ev) (.error e)
  | .panic => J (es ++ r.2.2.map .ev) .panic

theorem PollPost.shift {I J es a t'} {r : Polled × Cli × List CEv}
    (h : PollPost I J (es ++ List.map NEv.ev a) r t') : PollPost I J es (r.1, r.2.1, a ++ r.2.2) t' := by
  unfold PollPost at h ⊢
  dsimp only
  simp only [List.map_append, List.append_assoc] at h ⊢
  exact h

theorem pairwise_skip {R : Nat → Nat → Prop} {t : Nat} {a b : List Nat}
    (h : (t :: (a ++ b)).Pairwise R) : (t :: b).Pairwise R :=
  h.sublist (List.Sublist.cons_cons t (List.sublist_append_right a b))

theorem recv_post {R E I J} (S : Steps0 R E I J) {c : Cli} {es : List NEv} {t : Nat} (h : I c es t)
    (env : Env) (hE : E env) (hR : R t env.now) (m : Wire.Message) :
    match (c.recv env m).1 with
    | .ok => I (c.recv env m).2.1 (es ++ (c.recv env m).2.2.map .ev) env.now
    | .err e => J (es ++ (c.recv env m).2.2.map .ev) (.error e)
    | .panic => J (es ++ (c.recv env m).2.2.map .ev) .panic := by
  have h' := S.time _ _ _ _ h hR
  cases hc : c.isClosed
  · rw [recv_open hc]
    cases ho : (c.handle env m).1 with
    | ok => exact S.recv c es env m hE h' hc ho
    | err e =>
      have := S.refused c es env m hE h' hc (by rw [ho]; simp)
      rw [ho] at this; exact this
    | panic =>
      have := S.refused c es env m hE h' hc (by rw [ho]; simp)
      rw [ho] at this; exact this
  · rw [recv_closed hc]
    simpa using h'

theorem pollLoop_inv {R E I J} (S : Steps0 R E I J) (ins : List Incoming) (rest : List Nat)
    (hEs : ∀ env ∈ ins.flatMap Incoming.envs, E env) :
    ∀ (c : Cli) (es : List NEv) (t : Nat), I c es t →
      (t :: (ins.flatMap Incoming.times ++ rest)).Pairwise R →
      ∃ t', PollPost I J es (c.pollLoop ins) t' ∧ (t' :: rest).Pairwise R := by
  induction ins with
  | nil =>
    intro c es t hI hp
    simp only [List.flatMap_nil, List.nil_append] at hp
    refine ⟨t, ?_, hp⟩
    simp only [Cli.pollLoop]
    cases hr : c.ctxPoll.1 with
    | ready m =>
      have ho := ctxPoll_open (c := c) (by rw [hr]; simp)
      exact ⟨S.ready c es t m hI ho hr, (ctxPoll_isClosed c).trans ho⟩
    | done =>
      obtain ⟨h1, h2⟩ := ctxPoll_done hr
      simp only [PollPost, h2, List.map_nil, List.append_nil]
      exact ⟨hI, h1⟩
    | pending =>
      have ho := ctxPoll_open (c := c) (by rw [hr]; simp)
      exact ⟨S.pending c es t hI ho hr, (ctxPoll_isClosed c).trans ho⟩
  | cons i ins ih =>
    intro c es t hI hp
    have ih := ih (fun env h => hEs env (by rw [List.flatMap_cons]; exact List.mem_append_right _ h))
    simp only [Cli.pollLoop]
    have hp' : (t :: rest).Pairwise R := pairwise_skip hp
    cases hr : c.ctxPoll.1 with
    | ready m =>
      have ho := ctxPoll_open (c := c) (by rw [hr]; simp)
      exact ⟨t, ⟨S.ready c es t m hI ho hr, (ctxPoll_isClosed c).trans ho⟩, hp'⟩
    | done =>
      obtain ⟨h1, h2⟩ := ctxPoll_done hr
      refine ⟨t, ?_, hp'⟩
      simp only [PollPost, h2, List.map_nil, List.append_nil]
      exact ⟨hI, h1⟩
    | pending =>
      have ho := ctxPoll_open (c := c) (by rw [hr]; simp)
      have h1 := S.pending c es t hI ho hr
      rw [← ctxPoll_isClosed c] at ho
      generalize c.ctxPoll.2 = q at h1 ho
      cases i with
      | msg env m =>
        dsimp only
        simp only [List.flatMap_cons, Incoming.times, List.cons_append, List.nil_append] at hp
        have hR : R t env.now := by
          rw [List.pairwise_cons] at hp; exact hp.1 _ List.mem_cons_self
        have hpt : (env.now :: (ins.flatMap Incoming.times ++ rest)).Pairwise R := by
          rw [List.pairwise_cons] at hp; exact hp.2
        have hE : E env := hEs env (by simp [Incoming.envs])
        have h2 := recv_post S h1 env hE hR m
        generalize q.1.recv env m = s at h2 ⊢
        cases ho : s.1 with
        | ok =>
          rw [ho] at h2
          obtain ⟨t', h3, h4⟩ := ih _ _ _ h2 hpt
          refine ⟨t', ?_, h4⟩
          have := PollPost.shift (PollPost.shift h3)
          simpa [List.append_assoc] using this
        | err e =>
          rw [ho] at h2
          refine ⟨_, .inr ?_, pairwise_skip hpt⟩
          simpa [List.append_assoc] using h2
        | panic =>
          rw [ho] at h2
          refine ⟨env.now, ?_, pairwise_skip hpt⟩
          simpa [PollPost, List.append_assoc] using h2
      | error e => exact ⟨t, .inl ⟨h1, ho⟩, hp'⟩
      | eof =>
        dsimp only
        obtain ⟨t', h3, h4⟩ := ih _ _ _ (S.close _ _ _ h1) hp
        exact ⟨t', PollPost.shift h3, h4⟩
      | pending => exact ⟨t, ⟨h1, ho⟩, hp'⟩

theorem poll_inv' {R E I J} (S : Steps0 R E I J) (f : Incoming) (ins : List Incoming) (rest : List Nat)
    (hEs : ∀ env ∈ Incoming.envs f ++ ins.flatMap Incoming.envs, E env)
    (c : Cli) (es : List NEv) (t : Nat) (hI : I c es t) (hc : c.isClosed = false)
    (hp : (t :: (Incoming.times f ++ ins.flatMap Incoming.times ++ rest)).Pairwise R) :
    ∃ t', PollPost I J es (c.poll f ins) t' ∧ (t' :: rest).Pairwise R := by
  have h0 := S.idle c es t hI
  have hEi : ∀ env ∈ ins.flatMap Incoming.envs, E env :=
    fun env h => hEs env (List.mem_append_right _ h)
  unfold Cli.poll
  dsimp only
  have hp' : (t :: rest).Pairwise R := pairwise_skip hp
  cases f with
  | msg env m =>
    simp only [Incoming.times, List.cons_append, List.nil_append] at hp
    have hR : R t env.now := by
      rw [List.pairwise_cons] at hp; exact hp.1 _ List.mem_cons_self
    have hpt : (env.now :: (ins.flatMap Incoming.times ++ rest)).Pairwise R := by
      rw [List.pairwise_cons] at hp; exact hp.2
    dsimp only
    have h2 := recv_post S h0 env (hEs env (by simp [Incoming.envs])) hR m
    generalize Cli.recv { c with idle := false } env m = s at h2 ⊢
    cases ho : s.1 with
    | ok =>
      rw [ho] at h2
      obtain ⟨t', h3, h4⟩ := pollLoop_inv S ins rest hEi _ _ _ h2 hpt
      exact ⟨t', PollPost.shift h3, h4⟩
    | err e =>
      rw [ho] at h2
      exact ⟨env.now, .inr h2, pairwise_skip hpt⟩
    | panic =>
      rw [ho] at h2
      exact ⟨env.now, h2, pairwise_skip hpt⟩
  | error e =>
    refine ⟨t, .inl ⟨?_, hc⟩, hp'⟩
    simp only [List.map_nil, List.append_nil]
    exact h0
  | eof => exact pollLoop_inv S ins rest hEi _ _ _ (S.close _ _ _ h0) hp
  | pending => exact pollLoop_inv S ins rest hEi _ _ _ h0 hp

theorem timeEvent_isClosed (c : Cli) (env : Env) : (c.timeEvent env).2.1.isClosed = c.isClosed := by
  unfold Cli.timeEvent Cli.checkForUpdates
  dsimp only
  split <;> split <;> (try split) <;> rfl

theorem tick_inv {R E I J} (S : Steps0 R E I J) {c : Cli} {es : List NEv} {env : Env} (hE : E env)
    (h : I c es env.now) (hc : c.isClosed = false) :
    I (c.timeEvent env).2.1 (es ++ (c.timeEvent env).2.2.map .ev) env.now ∧
    ((c.timeEvent env).1 = .ok ∨
      (c.timeEvent env).1 = .err .connection ∧
        J (es ++ (c.timeEvent env).2.2.map .ev) (.error .connection)) := by
  have key : I (c.timeEvent env).2.1 (es ++ (c.timeEvent env).2.2.map .ev) env.now := by
    unfold Cli.timeEvent
    dsimp only
    simp only [List.map_append]
    rw [← List.append_assoc]
    by_cases h1 : (c.established && decide (pingPeriod ≤ env.now - c.lastPing)) = true
    · simp only [h1, if_true]
      simp only [Bool.and_eq_true, decide_eq_true_eq] at h1
      have hI := S.ping c es env.now h hc h1.1 h1.2
      have hc' : (c.sendPing env.now).1.isClosed = false := hc
      generalize c.sendPing env.now = r at hI hc' ⊢
      by_cases h2 : (r.1.established && decide (updateCheckPeriod ≤ env.now - r.1.lastCheck)) = true
      · simp only [h2, if_true]
        simp only [Bool.and_eq_true, decide_eq_true_eq] at h2
        have := S.check _ _ env hE hI hc' h2.1 h2.2
        simpa [List.append_assoc] using this
      · simp only [if_neg h2]
        simpa using hI
    · simp only [if_neg h1]
      by_cases h2 : (c.established && decide (updateCheckPeriod ≤ env.now - c.lastCheck)) = true
      · simp only [h2, if_true]
        simp only [Bool.and_eq_true, decide_eq_true_eq] at h2
        have := S.check c es env hE h hc h2.1 h2.2
        simpa using this
      · simp only [if_neg h2]
        simpa using h
  refine ⟨key, ?_⟩
  cases ht : (c.timeEvent env).2.1.ackTimedOut env.now
  · left
    unfold Cli.timeEvent at ht ⊢
    dsimp only at ht ⊢
    rw [ht]; rfl
  · right
    refine ⟨?_, S.timeout _ _ _ key ((timeEvent_isClosed c env).trans hc) ht⟩
    unfold Cli.timeEvent at ht ⊢
    dsimp only at ht ⊢
    rw [ht]; rfl

theorem run_over (r : Result) (ops : List COp) : (Conn.over r).run ops = (.over r, []) := by
  induction ops with
  | nil => rfl
  | cons o ops ih => simp [Conn.run, Conn.step, ih]

theorem run_closing (c : Cli) (hc : c.isClosed = true) (ops : List COp) :
    ((Conn.closing c.result).run ops).2 = [] ∧ Final ops ((Conn.closing c.result).run ops).1 c := by
  induction ops with
  | nil => exact ⟨rfl, hc, rfl⟩
  | cons o ops ih =>
    cases o with
    | flushed =>
      simp only [Conn.run, Conn.step, run_over]
      exact ⟨rfl, .inr ⟨hc, rfl⟩⟩
    | tick env =>
      simp only [Conn.run, Conn.step, run_over]
      exact ⟨rfl, .inr ⟨hc, rfl⟩⟩
    | sinkError e =>
      simp only [Conn.run, Conn.step, run_over]
      exact ⟨rfl, .inl ⟨e, rfl, .inr List.mem_cons_self⟩⟩
    | poll f ins => exact ⟨by simpa [Conn.run, Conn.step] using ih.1,
        by simpa [Conn.run, Conn.step] using ih.2.cons _⟩
    | io sid o => exact ⟨by simpa [Conn.run, Conn.step] using ih.1,
        by simpa [Conn.run, Conn.step] using ih.2.cons _⟩

/-- What a history leaves behind. -/
def RunPost (I : Cli → List NEv → Nat → Prop) (J : List NEv → Result → Prop) (ops : List COp)
    (r : Conn × List NEv) (es : List NEv) : Prop :=
  (∃ c t, I c (es ++ r.2) t ∧ Final ops r.1 c) ∨ (∃ x, r.1 = .over x ∧ J (es ++ r.2) x)

theorem RunPost.cons {I J ops s es a} {l : List NEv} (o : COp) (h : RunPost I J ops (s, l) (es ++ a)) :
    RunPost I J (o :: ops) (s, a ++ l) es := by
  unfold RunPost at h ⊢
  dsimp only at h ⊢
  rw [← List.append_assoc]
  rcases h with ⟨c, t, h1, h2⟩ | h
  · exact .inl ⟨c, t, h1, h2.cons o⟩
  · exact .inr h

/-- Induction over the histories of a connection. -/
theorem run_inv {R E I J} (S : Steps R E I J) (ops : List COp) (hEs : ∀ env ∈ envs ops, E env) :
    ∀ (c : Cli) (es : List NEv) (t : Nat), I c es t → c.isClosed = false →
      (t :: times ops).Pairwise R → RunPost I J ops ((Conn.live c).run ops) es := by
  induction ops with
  | nil => intro c es t h hc _; exact .inl ⟨c, t, by simpa [Conn.run] using h, rfl, hc⟩
  | cons o ops ih =>
    intro c es t h hc hp
    have ih := ih (fun env h => hEs env (by
      cases o <;> simp only [envs, List.mem_append, List.mem_cons] <;> first | exact h | exact .inr h))
    simp only [Conn.run]
    cases o with
    | poll f ins =>
      simp only [times] at hp
      obtain ⟨t', h1, h2⟩ := poll_inv' S.toSteps0 f ins (times ops)
        (fun env h => hEs env (List.mem_append_left _ h)) c es t h hc hp
      simp only [Conn.step, Cli.step]
      unfold PollPost at h1
      generalize c.poll f ins = r at h1 ⊢
      cases hr : r.1 with
      | send m =>
        rw [hr] at h1
        refine RunPost.cons _ (ih _ _ _ ?_ h1.2 h2)
        rw [← List.append_assoc]; exact h1.1
      | error e =>
        rw [hr] at h1
        simp only [run_over, List.append_nil]
        rcases h1 with h1 | h1
        · exact .inl ⟨_, _, h1.1, .inl ⟨e, rfl, .inl h1.2⟩⟩
        · exact .inr ⟨_, rfl, h1⟩
      | done =>
        rw [hr] at h1
        obtain ⟨h3, h4⟩ := run_closing r.2.1 h1.2 ops
        exact .inl ⟨_, _, by simpa [h3] using h1.1, h4.cons _⟩
      | pending =>
        rw [hr] at h1
        exact RunPost.cons _ (ih _ _ _ h1.1 h1.2 h2)
      | panic =>
        rw [hr] at h1
        simp only [run_over, List.append_nil]
        exact .inr ⟨_, rfl, h1⟩
    | tick env =>
      simp only [times] at hp
      simp only [Conn.step, Cli.step, hc, Bool.false_eq_true, if_false]
      have hR : R t env.now := by
        rw [List.pairwise_cons] at hp; exact hp.1 _ List.mem_cons_self
      obtain ⟨h1, h3⟩ := tick_inv S.toSteps0 (hEs env List.mem_cons_self) (S.time _ _ _ _ h hR) hc
      have h2 : (env.now :: times ops).Pairwise R := by
        rw [List.pairwise_cons] at hp; exact hp.2
      have hc' := (timeEvent_isClosed c env).trans hc
      generalize c.timeEvent env = r at h1 h3 hc' ⊢
      rcases h3 with h3 | ⟨h3, h4⟩ <;> rw [h3]
      · exact RunPost.cons _ (ih _ _ _ h1 hc' h2)
      · simp only [run_over, List.append_nil]
        exact .inr ⟨_, rfl, h4⟩
    | io sid o =>
      simp only [times] at hp
      exact RunPost.cons _ (ih _ _ _ (S.io c es t sid o h hc) hc hp)
    | sinkError e =>
      simp only [Conn.step, Cli.step, run_over]
      exact .inl ⟨c, t, by simpa using h, .inl ⟨e, rfl, .inl hc⟩⟩
    | flushed =>
      simp only [times] at hp
      simp only [Conn.step, Cli.step]
      exact RunPost.cons _ (ih _ _ _ (by simpa using h) hc hp)

/-! ## What handling a message does -/

/-- A message that tells the server nothing about the service table and needs no ACK. -/
def Plain (m : ControlMessage) : Prop :=
  needsAck m = false ∧ m.msgType ≠ 1 ∧ (∀ a b c d e f g, m.body ≠ .register a b c d e f g) ∧
    (∀ t, m.body ≠ .update t)

/-- All ways in which a message can be handled. -/
inductive Handled (c : Cli) (env : Env) (msg : Wire.Message) : Out → Cli → List CEv → Prop
  | refused : ackId msg = none → Handled c env msg (.err .other) c []
  | noAck (id : Nat) : ackId msg = some id → c.acks = [] → Handled c env msg (.err .other) c []
  | wrongAck (id : Nat) (a : Nat × UInt16) (l : List (Nat × UInt16)) : ackId msg = some id →
    c.acks = a :: l → id ≠ a.2.toNat → Handled c env msg (.err .other) { c with acks := l } []
  | hsRefused (id : Nat) (a : Nat × UInt16) (l : List (Nat × UInt16)) (e : ErrKind) :
    ackId msg = some id → c.acks = a :: l → id = a.2.toNat → c.established = false →
    (id = 0 → handshakeOutcome msg = .err e) →
    Handled c env msg (.err e) { c with acks := l } []
  | hsOk (id : Nat) (a : Nat × UInt16) (l : List (Nat × UInt16)) : ackId msg = some id →
    c.acks = a :: l → id = a.2.toNat → c.established = false → field msg.payload 4 4 = 0 →
    Handled c env msg .ok { c with
      acks := l, established := true
      redirect := if c.cfg.diagnostic then some [] else c.redirect } []
  | ackOk (id : Nat) (a : Nat × UInt16) (l : List (Nat × UInt16)) : ackId msg = some id →
    c.acks = a :: l → id = a.2.toNat → c.established = true →
    Handled c env msg .ok { c with acks := l } []
  | mgr (op : MOp) : ackId msg = none → redirectTarget msg = none → c.established = true →
    Handled c env msg .ok (c.onMgr op).1 (c.onMgr op).2
  | reply (m : ControlMessage) : ackId msg = none → redirectTarget msg = none → c.established = true →
    Plain m → Handled c env msg .ok (c.sendControl env.now m).1 (c.sendControl env.now m).2
  | replyId (m : ControlMessage) : ackId msg = none → redirectTarget msg = none →
    c.established = true → Plain m →
    Handled c env msg .ok (c.nextId.2.sendControl env.now m).1 (c.nextId.2.sendControl env.now m).2
  | redirect (t : Bytes) : ackId msg = none → redirectTarget msg = some t → c.established = true →
    Handled c env msg .ok { c with redirect := some t }.wake []
  | command (x : Cmd) : ackId msg = none → redirectTarget msg = none → c.established = true →
    Handled c env msg .ok c [.command x]

theorem field_msgType (i0 i1 t0 t1 : UInt8) (rest : Bytes) :
    field (i0 :: i1 :: t0 :: t1 :: rest) 2 2 = (rd16 t0 t1).toNat := by
  simp [field, slice, natBE_two]

theorem field_msgId (i0 i1 t0 t1 : UInt8) (rest : Bytes) :
    field (i0 :: i1 :: t0 :: t1 :: rest) 0 2 = (rd16 i0 i1).toNat := by
  simp [field, slice, natBE_two]

theorem ofCode_ack {c : UInt16} (h : MsgType.ofCode c ≠ .ack) : c.toNat ≠ 0 := by
  intro h0
  apply h
  have : c = 0 := UInt16.toNat.inj h0
  subst this; rfl

theorem ofCode_redirect {c : UInt16} (h : MsgType.ofCode c ≠ .redirect) : c.toNat ≠ 3 := by
  intro h0
  apply h
  have : c = 3 := UInt16.toNat.inj h0
  subst this; rfl

theorem ofCode_eq_ack {c : UInt16} (h : MsgType.ofCode c = .ack) : c.toNat = 0 := by
  have h1 := Props.Control.code_of_ofCode c (by rw [h]; simp)
  rw [h] at h1
  cases h1; rfl

theorem ofCode_eq_redirect {c : UInt16} (h : MsgType.ofCode c = .redirect) : c.toNat = 3 := by
  have h1 := Props.Control.code_of_ofCode c (by rw [h]; simp)
  rw [h] at h1
  cases h1; rfl

theorem decodeAck_cases (r : Bytes) :
    (decodeAck r = .err ∧ r.length ≠ 4) ∨ ∃ a b c d, r = [a, b, c, d] := by
  by_cases h : r.length = 4
  · obtain ⟨a, b, c, d, rfl⟩ := Props.Control.four_exact h
    exact .inr ⟨a, b, c, d, rfl⟩
  · refine .inl ⟨?_, h⟩
    unfold decodeAck
    split
    · exact absurd rfl h
    · rfl

theorem decodeConnect_cases (r : Bytes) :
    decodeConnect r = .err ∨ ∃ a b, decodeConnect r = .ok (.connect a b) := by
  unfold decodeConnect
  split
  · exact .inr ⟨_, _, rfl⟩
  · exact .inl rfl

theorem decodeDataAck_cases (r : Bytes) :
    decodeDataAck r = .err ∨ ∃ a b, decodeDataAck r = .ok (.dataAck a b) := by
  unfold decodeDataAck
  split
  · exact .inr ⟨_, _, rfl⟩
  · exact .inl rfl

theorem decodeHup_cases (r : Bytes) :
    decodeHup r = .err ∨ ∃ a b, decodeHup r = .ok (.hup a b) := by
  unfold decodeHup
  split
  · exact .inr ⟨_, _, rfl⟩
  · exact .inl rfl

theorem decodeEmpty_cases (r : Bytes) : decodeEmpty r = .err ∨ decodeEmpty r = .ok .empty := by
  unfold decodeEmpty
  split
  · exact .inr rfl
  · exact .inl rfl

theorem handle_handled (c : Cli) (env : Env) (msg : Wire.Message) :
    Handled c env msg (c.handle env msg).1 (c.handle env msg).2.1 (c.handle env msg).2.2 := by
  unfold Cli.handle
  by_cases hs : msg.header.service = 0
  · simp only [hs, if_true]
    by_cases hl : 4 ≤ msg.payload.length
    · obtain ⟨i0, i1, t0, t1, rest, hp⟩ := four_of_length hl
      have hty := field_msgType i0 i1 t0 t1 rest
      rw [← hp] at hty
      have hid := field_msgId i0 i1 t0 t1 rest
      rw [← hp] at hid
      have hnoack : MsgType.ofCode (rd16 t0 t1) ≠ .ack → ackId msg = none := by
        intro h
        have := ofCode_ack h
        simp only [ackId, hty, this, and_false, if_false]
      have hnored : MsgType.ofCode (rd16 t0 t1) ≠ .redirect → redirectTarget msg = none := by
        intro h
        have := ofCode_redirect h
        simp only [redirectTarget, hty, this, false_and, and_false, if_false]
      rw [hp]
      simp only [ControlMessage.fromBytes]
      generalize hT : MsgType.ofCode (rd16 t0 t1) = T at *
      cases T with
      | ack =>
        have h0 := ofCode_eq_ack hT
        simp only [decodeBody]
        rcases decodeAck_cases rest with ⟨hde, hne⟩ | ⟨a, b, d, e, hrest⟩
        · rw [hde]
          refine .refused ?_
          have : msg.payload.length ≠ 8 := by
            rw [hp]; simp only [List.length_cons]; omega
          simp only [ackId, this, false_and, and_false, if_false]
        · subst hrest
          simp only [decodeAck]
          simp only [Cli.processControl, hT, Cli.processAck]
          have hack : ackId msg = some (rd16 i0 i1).toNat := by
            simp only [ackId, hs, hty, h0, hid, and_true, true_and]
            rw [hp]; rfl
          cases hacks : c.acks with
          | nil => exact .noAck _ hack hacks
          | cons q l =>
            dsimp only
            by_cases hq : rd16 i0 i1 = q.2
            · simp only [hq, if_true]
              rcases (Bool.eq_false_or_eq_true c.established).symm with hest | hest
              · simp only [if_neg (ne_true_of_eq_false hest), Cli.handshakeAck]
                have hcode : field msg.payload 4 4 = (rd32 a b d e).toNat := by
                  rw [hp]; simp [field, slice, natBE_four]
                have hcodes : ∀ n : Nat, n < 2 ^ 32 → rd32 a b d e ≠ UInt32.ofNat n →
                    field msg.payload 4 4 ≠ n := by
                  intro n hn h1 h2
                  apply h1
                  apply UInt32.toNat.inj
                  rw [← hcode, h2, UInt32.toNat_ofNat_of_lt' hn]
                have hcode' : ∀ n : Nat, n < 2 ^ 32 → rd32 a b d e = UInt32.ofNat n →
                    field msg.payload 4 4 = n := by
                  intro n hn h1
                  rw [hcode, h1, UInt32.toNat_ofNat_of_lt' hn]
                by_cases k0 : rd32 a b d e = ecNoError
                · simp only [k0, if_true]
                  exact .hsOk _ q l hack hacks (by rw [hq]) hest (hcode' 0 (by decide) k0)
                · have c0 := hcodes 0 (by decide) k0
                  simp only [k0, if_false]
                  by_cases k2 : rd32 a b d e = ecUnauthorized
                  · have c2 := hcode' 2 (by decide) k2
                    simp only [k2, if_true]
                    refine .hsRefused _ q l _ hack hacks (by rw [hq]) hest (fun h => ?_)
                    simp [handshakeOutcome, hack, h, c2]
                  · have c2 := hcodes 2 (by decide) k2
                    simp only [k2, if_false]
                    by_cases k1 : rd32 a b d e = ecUnsupportedProtocolVersion
                    · have c1 := hcode' 1 (by decide) k1
                      simp only [k1, if_true]
                      refine .hsRefused _ q l _ hack hacks (by rw [hq]) hest (fun h => ?_)
                      simp [handshakeOutcome, hack, h, c1]
                    · have c1 := hcodes 1 (by decide) k1
                      simp only [k1, if_false]
                      by_cases k3 : rd32 a b d e = ecInternalServerError
                      · have c3 := hcode' 0xffffffff (by decide) k3
                        simp only [k3, if_true]
                        refine .hsRefused _ q l _ hack hacks (by rw [hq]) hest (fun h => ?_)
                        simp [handshakeOutcome, hack, h, c3]
                      · have c3 := hcodes 0xffffffff (by decide) k3
                        simp only [k3, if_false]
                        refine .hsRefused _ q l _ hack hacks (by rw [hq]) hest (fun h => ?_)
                        simp only [handshakeOutcome, hack, h, if_true, c0, c1, c2, c3, if_false]
              · simp only [if_pos hest]
                exact .ackOk _ q l hack hacks (by rw [hq]) hest
            · simp only [hq, if_false]
              refine .wrongAck _ q l hack hacks (fun h => hq (UInt16.toNat.inj h))
      | redirect =>
        have h3 := ofCode_eq_redirect hT
        simp only [decodeBody]
        cases hd : decodeRedirect rest with
        | ok b =>
          obtain ⟨cs, hr, rfl⟩ := decodeRedirect_ok.mp hd
          simp only [Cli.processControl, hT, Cli.whenEstablished]
          rcases (Bool.eq_false_or_eq_true c.established).symm with hest | hest
          · simp only [if_neg (ne_true_of_eq_false hest)]
            exact .refused (hnoack (by simp))
          · simp only [if_pos hest]
            refine .redirect _ (hnoack (by simp)) ?_ hest
            have h5 : 5 ≤ msg.payload.length := by
              rw [hp, hr]; simp
            have h0 : msg.payload.getLast? = some 0 := by
              rw [hp, hr, show ∀ l : Bytes, i0 :: i1 :: t0 :: t1 :: (l ++ [0]) = (i0 :: i1 :: t0 :: t1 :: l) ++ [0] from
                fun _ => rfl, List.getLast?_concat]
            simp only [redirectTarget, hs, h5, hty, h3, h0, and_self, if_true]
            rw [hp, hr]
            simp
        | err => exact .refused (hnoack (by simp))
        | panic =>
          exfalso
          unfold decodeRedirect at hd
          split at hd
          · cases hd
          · dsimp only at hd; split at hd <;> cases hd
      | connect =>
        have ha := hnoack (by simp)
        have hr := hnored (by simp)
        simp only [decodeBody]
        rcases decodeConnect_cases rest with hd | ⟨x, y, hd⟩ <;> rw [hd]
        · exact .refused ha
        · simp only [Cli.processControl, hT, Cli.whenEstablished]
          rcases (Bool.eq_false_or_eq_true c.established).symm with hest | hest
          · simp only [if_neg (ne_true_of_eq_false hest)]; exact .refused ha
          · simp only [if_pos hest]; exact .mgr _ ha hr hest
      | dataAck =>
        have ha := hnoack (by simp)
        have hr := hnored (by simp)
        simp only [decodeBody]
        rcases decodeDataAck_cases rest with hd | ⟨x, y, hd⟩ <;> rw [hd]
        · exact .refused ha
        · simp only [Cli.processControl, hT, Cli.whenEstablished]
          rcases (Bool.eq_false_or_eq_true c.established).symm with hest | hest
          · simp only [if_neg (ne_true_of_eq_false hest)]; exact .refused ha
          · simp only [if_pos hest]; exact .mgr _ ha hr hest
      | hup =>
        have ha := hnoack (by simp)
        have hr := hnored (by simp)
        simp only [decodeBody]
        rcases decodeHup_cases rest with hd | ⟨x, y, hd⟩ <;> rw [hd]
        · exact .refused ha
        · simp only [Cli.processControl, hT, Cli.whenEstablished]
          rcases (Bool.eq_false_or_eq_true c.established).symm with hest | hest
          · simp only [if_neg (ne_true_of_eq_false hest)]; exact .refused ha
          · simp only [if_pos hest]; exact .mgr _ ha hr hest
      | ping =>
        have ha := hnoack (by simp)
        have hr := hnored (by simp)
        simp only [decodeBody]
        rcases decodeEmpty_cases rest with hd | hd <;> rw [hd]
        · exact .refused ha
        · simp only [Cli.processControl, hT, Cli.whenEstablished]
          rcases (Bool.eq_false_or_eq_true c.established).symm with hest | hest
          · simp only [if_neg (ne_true_of_eq_false hest)]; exact .refused ha
          · simp only [if_pos hest]; exact .reply _ ha hr hest (by simp [Plain, needsAck, mkAck])
      | getStatus =>
        have ha := hnoack (by simp)
        have hr := hnored (by simp)
        simp only [decodeBody]
        rcases decodeEmpty_cases rest with hd | hd <;> rw [hd]
        · exact .refused ha
        · simp only [Cli.processControl, hT, Cli.whenEstablished]
          rcases (Bool.eq_false_or_eq_true c.established).symm with hest | hest
          · simp only [if_neg (ne_true_of_eq_false hest)]; exact .refused ha
          · simp only [if_pos hest]; exact .replyId _ ha hr hest (by simp [Plain, needsAck, mkStatus])
      | getScanReport =>
        have ha := hnoack (by simp)
        have hr := hnored (by simp)
        simp only [decodeBody]
        rcases decodeEmpty_cases rest with hd | hd <;> rw [hd]
        · exact .refused ha
        · simp only [Cli.processControl, hT, Cli.whenEstablished]
          rcases (Bool.eq_false_or_eq_true c.established).symm with hest | hest
          · simp only [if_neg (ne_true_of_eq_false hest)]; exact .refused ha
          · simp only [if_pos hest]; exact .replyId _ ha hr hest (by simp [Plain, needsAck, mkScanReport])
      | resetSvcTable =>
        have ha := hnoack (by simp)
        have hr := hnored (by simp)
        simp only [decodeBody]
        rcases decodeEmpty_cases rest with hd | hd <;> rw [hd]
        · exact .refused ha
        · simp only [Cli.processControl, hT, Cli.whenEstablished]
          rcases (Bool.eq_false_or_eq_true c.established).symm with hest | hest
          · simp only [if_neg (ne_true_of_eq_false hest)]; exact .refused ha
          · simp only [if_pos hest]; exact .command _ ha hr hest
      | scanNetwork =>
        have ha := hnoack (by simp)
        have hr := hnored (by simp)
        simp only [decodeBody]
        rcases decodeEmpty_cases rest with hd | hd <;> rw [hd]
        · exact .refused ha
        · simp only [Cli.processControl, hT, Cli.whenEstablished]
          rcases (Bool.eq_false_or_eq_true c.established).symm with hest | hest
          · simp only [if_neg (ne_true_of_eq_false hest)]; exact .refused ha
          · simp only [if_pos hest]; exact .command _ ha hr hest
      | unknown => exact .refused (hnoack (by simp))
      | register => exact .refused (hnoack (by simp))
      | update => exact .refused (hnoack (by simp))
      | status => exact .refused (hnoack (by simp))
      | scanReport => exact .refused (hnoack (by simp))
    · have : ControlMessage.fromBytes msg.payload = .err := by
        unfold ControlMessage.fromBytes
        split
        · rename_i hp; rw [hp] at hl; simp at hl
        · rfl
      rw [this]
      refine .refused ?_
      have : msg.payload.length ≠ 8 := by omega
      simp only [ackId, this, false_and, and_false, if_false]
  · have ha : ackId msg = none := by simp only [ackId, hs, false_and, if_false]
    have hr : redirectTarget msg = none := by simp only [redirectTarget, hs, false_and, if_false]
    simp only [hs, if_false, Cli.whenEstablished]
    rcases (Bool.eq_false_or_eq_true c.established).symm with hest | hest
    · simp only [if_neg (ne_true_of_eq_false hest)]; exact .refused ha
    · simp only [if_pos hest]; exact .mgr _ ha hr hest

/-! ## Elementary steps -/

theorem new_eq (cfg : Cfg) (env : Env) : Cli.new cfg env =
    ({ cfg := cfg, mgr := { Mgr.new cfg.gateway 65536 0 with counter := 1 },
       messages := [(register cfg env).toArrow], acks := [(env.now, 0)], established := false,
       task := false, redirect := none, closed := false, lastPing := env.now, lastCheck := env.now,
       lastVer := env.versionAfter, idle := false }, [.queued env.now (register cfg env)]) := rfl

theorem ctxPoll_ready {c : Cli} {m : Wire.Message} (h : c.ctxPoll.1 = .ready m) :
    (∃ ms, c.messages = m :: ms ∧ c.ctxPoll.2 = ({ c with messages := ms }, [])) ∨
    (c.messages = [] ∧ c.mgr.poll.1 = .ready m ∧
      c.ctxPoll.2 = ({ c with mgr := c.mgr.poll.2.1 }, c.mgr.poll.2.2.map .mgr)) := by
  have ho := ctxPoll_open (c := c) (by rw [h]; simp)
  unfold Cli.ctxPoll at h ⊢
  simp only [ho, Bool.false_eq_true, if_false] at h ⊢
  cases hm : c.messages with
  | cons x ms =>
    simp only [hm] at h ⊢
    cases h
    exact .inl ⟨ms, rfl, rfl⟩
  | nil =>
    simp only [hm] at h ⊢
    cases hp : c.mgr.poll.1 with
    | ready x =>
      simp only [hp] at h ⊢
      cases h
      exact .inr ⟨trivial, rfl, trivial⟩
    | pending => simp only [hp] at h; cases h

theorem ctxPoll_pending {c : Cli} (h : c.ctxPoll.1 = .pending) :
    c.messages = [] ∧ c.mgr.poll.1 = .pending ∧
      c.ctxPoll.2 = ({ c with mgr := c.mgr.poll.2.1, task := true, idle := true },
        c.mgr.poll.2.2.map .mgr) := by
  have ho := ctxPoll_open (c := c) (by rw [h]; simp)
  unfold Cli.ctxPoll at h ⊢
  simp only [ho, Bool.false_eq_true, if_false] at h ⊢
  cases hm : c.messages with
  | cons x ms => simp only [hm] at h; cases h
  | nil =>
    simp only [hm] at h ⊢
    cases hp : c.mgr.poll.1 with
    | ready x => simp only [hp] at h; cases h
    | pending => exact ⟨trivial, rfl, rfl⟩

/-- Events of the manager do not move an automaton that ignores them. -/
theorem foldl_mgr {α : Type} (f : α → NEv → α) (s : α) (h : ∀ e, f s (.ev (.mgr e)) = s) (l : List Ev) :
    ((l.map CEv.mgr).map NEv.ev).foldl f s = s := by
  induction l with
  | nil => rfl
  | cons e l ih => simp only [List.map_cons, List.foldl_cons, h, ih]

/-- The events of a time event with an UPDATE check. -/
theorem check_eq (c : Cli) (env : Env) : c.checkForUpdates env =
    if c.lastVer ≠ env.version then
      ({ (c.sendUpdate env).1 with lastCheck := env.now },
        [.checked env.now env.version,
         .queued env.now (mkUpdate (UInt16.ofNat c.mgr.counter) (SimpleTable.ofServices env.visible))])
    else ({ c with lastCheck := env.now }, [.checked env.now env.version]) := by
  unfold Cli.checkForUpdates
  split <;> rfl

theorem pollLoop_quiet (k : Nat) (m : Mgr) (h : m.order = []) :
    m.pollLoop k = (.pending, { m with task := true, idle := true }, []) := by
  induction k with
  | zero => rfl
  | succ k ih => simp only [Mgr.pollLoop, h, ih]

theorem poll_quiet (m : Mgr) (hq : m.queue = []) (h : m.order = []) :
    m.poll = (.pending, { m with task := true, idle := true }, []) := by
  simp only [Mgr.poll, hq, pollLoop_quiet _ m h]

end Verif.Client
