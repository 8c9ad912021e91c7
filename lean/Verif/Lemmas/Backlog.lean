import Verif.Spec.Backlog
import Verif.Props.Client
/-!
# Lemmas: what a connection holds back
-/
namespace Verif.Props.Backlog
open Verif Verif.Control Verif.Session Verif.Client Verif.Spec.Backlog
open Verif.Props.Client (hist)

/-- Messages that wait to be sent. -/
def bk (c : Cli) : Nat := c.messages.length + c.mgr.queue.length

/-- The counts of some events. -/
structure Counts (es : List NEv) (made periodic sent sess got : Nat) : Prop where
  made : es.countP isMade = made
  periodic : es.countP isPeriodic = periodic
  sent : es.countP isSent = sent
  sess : es.countP isFromSession = sess
  got : es.countP isHandled = got

theorem Counts.nil : Counts [] 0 0 0 0 0 := ⟨rfl, rfl, rfl, rfl, rfl⟩

theorem Counts.append {a b : List NEv} {x1 x2 x3 x4 x5 y1 y2 y3 y4 y5 : Nat} (h : Counts a x1 x2 x3 x4 x5)
    (k : Counts b y1 y2 y3 y4 y5) : Counts (a ++ b) (x1 + y1) (x2 + y2) (x3 + y3) (x4 + y4) (x5 + y5) := by
  constructor <;> rw [List.countP_append]
  · rw [h.made, k.made]
  · rw [h.periodic, k.periodic]
  · rw [h.sent, k.sent]
  · rw [h.sess, k.sess]
  · rw [h.got, k.got]

theorem Counts.all (es : List NEv) : Counts es (es.countP isMade) (es.countP isPeriodic) (es.countP isSent)
    (es.countP isFromSession) (es.countP isHandled) := ⟨rfl, rfl, rfl, rfl, rfl⟩

/-! ## The session manager -/

theorem mgr_pollLoop (k : Nat) : ∀ (m : Mgr), (m.pollLoop k).2.1.queue = m.queue ∧
    (((m.pollLoop k).1 = .pending ∧ (m.pollLoop k).2.2 = []) ∨
     (∃ x, (m.pollLoop k).1 = .ready x) ∧
      ((∃ sid i, (m.pollLoop k).2.2 = [.sent sid i]) ∨ ∃ sid code, (m.pollLoop k).2.2 = [.ended sid code])) := by
  induction k with
  | zero => intro m; exact ⟨rfl, .inl ⟨rfl, rfl⟩⟩
  | succ k ih =>
    intro m
    simp only [Mgr.pollLoop]
    split
    · exact ih m
    · split
      · exact ih _
      · split
        · exact ih _
        · exact ⟨rfl, .inr ⟨⟨_, rfl⟩, .inr ⟨_, _, rfl⟩⟩⟩
        · exact ⟨rfl, .inr ⟨⟨_, rfl⟩, .inl ⟨_, _, rfl⟩⟩⟩
        · exact ⟨rfl, .inr ⟨⟨_, rfl⟩, .inr ⟨_, _, rfl⟩⟩⟩

/-- A poll of the manager that is ready takes a message from its queue or, if that is empty, from a session. -/
theorem mgr_ready {m : Mgr} {x : Wire.Message} (h : m.poll.1 = .ready x) :
    (m.poll.2.1.queue.length + 1 = m.queue.length ∧ m.poll.2.2 = []) ∨
    (m.queue = [] ∧ m.poll.2.1.queue = [] ∧
      ((∃ sid i, m.poll.2.2 = [.sent sid i]) ∨ ∃ sid code, m.poll.2.2 = [.ended sid code])) := by
  unfold Mgr.poll at h ⊢
  cases hq : m.queue with
  | cons y q => exact .inl ⟨rfl, rfl⟩
  | nil =>
    simp only [hq] at h ⊢
    have := mgr_pollLoop m.order.length m
    rw [h, hq] at this
    rcases this with ⟨h1, ⟨h2, _⟩ | ⟨_, h3⟩⟩
    · cases h2
    · exact .inr ⟨trivial, h1, h3⟩

theorem mgr_pending {m : Mgr} (h : m.poll.1 = .pending) :
    m.queue = [] ∧ m.poll.2.1.queue = [] ∧ m.poll.2.2 = [] := by
  unfold Mgr.poll at h ⊢
  cases hq : m.queue with
  | cons y q => simp only [hq] at h; cases h
  | nil =>
    simp only [hq] at h ⊢
    have := mgr_pollLoop m.order.length m
    rw [h, hq] at this
    rcases this with ⟨h1, ⟨_, h3⟩ | ⟨⟨x, h2⟩, _⟩⟩
    · exact ⟨trivial, h1, h3⟩
    · cases h2

/-- Operations that come from messages of the server. -/
def fromServer : MOp → Prop
  | .connect _ _ _ => True
  | .send _ => True
  | .close _ => True
  | .dataAck _ _ => True
  | _ => False

/-- An operation of the server adds one message to the queue, which is a refusal, or none. -/
theorem mgr_server (m : Mgr) (op : MOp) (h : fromServer op) :
    ∃ k, k ≤ 1 ∧ (m.step op).1.queue.length = m.queue.length + k ∧
      Counts (((m.step op).2.1.map CEv.mgr).map NEv.ev) k 0 0 0 0 := by
  cases op with
  | connect get svc sid =>
    simp only [Mgr.step, Mgr.connect]
    split
    · exact ⟨0, by omega, rfl, rfl, rfl, rfl, rfl, rfl⟩
    · exact ⟨1, by omega, by simp [Mgr.wake, Mgr.createHup], rfl, rfl, rfl, rfl, rfl⟩
  | send msg =>
    simp only [Mgr.step, Mgr.send]
    split
    · exact ⟨0, by omega, rfl, rfl, rfl, rfl, rfl, rfl⟩
    · exact ⟨1, by omega, by simp [Mgr.wake, Mgr.createHup], rfl, rfl, rfl, rfl, rfl⟩
  | close sid =>
    simp only [Mgr.step, Mgr.close]
    split <;> exact ⟨0, by omega, rfl, rfl, rfl, rfl, rfl, rfl⟩
  | dataAck sid len =>
    simp only [Mgr.step, Mgr.dataAck]
    split <;> exact ⟨0, by omega, rfl, rfl, rfl, rfl, rfl, rfl⟩
  | io _ _ => exact absurd h id
  | poll => exact absurd h id
  | newId => exact absurd h id

/-! ## Handling a message -/

/-- What handling a message does to the queues and to the session manager. -/
structure Step (c c' : Cli) (evs : List NEv) (k : Nat) : Prop where
  le : k ≤ 1
  bk : bk c' = bk c + k
  counts : Counts evs k 0 0 0 0
  mgr : c'.mgr = c.mgr ∨ c'.mgr = (c.mgr.step .newId).1 ∨ ∃ op, fromServer op ∧ c'.mgr = (c.mgr.step op).1

theorem Step.same {c c' : Cli} {evs : List NEv} (hm : c'.messages = c.messages) (hg : c'.mgr = c.mgr)
    (he : Counts evs 0 0 0 0 0) : ∃ k, Step c c' evs k :=
  ⟨0, by omega, by simp [Backlog.bk, hm, hg], he, .inl hg⟩

theorem Step.onMgr (c : Cli) (op : MOp) (h : fromServer op) :
    ∃ k, Step c (c.onMgr op).1 ((c.onMgr op).2.map .ev) k := by
  obtain ⟨k, hk, hq, hc⟩ := mgr_server c.mgr op h
  refine ⟨k, hk, ?_, hc, .inr (.inr ⟨op, h, rfl⟩)⟩
  simp only [Backlog.bk, Cli.onMgr, hq]
  omega

theorem Step.reply (c c0 : Cli) (t : Nat) (m : ControlMessage) (hm : c0.messages = c.messages)
    (hg : c0.mgr = c.mgr ∨ c0.mgr = (c.mgr.step .newId).1) (h1 : m.msgType ≠ 1) (h4 : m.msgType ≠ 4) :
    ∃ k, Step c (c0.sendControl t m).1 ((c0.sendControl t m).2.map .ev) k := by
  refine ⟨1, by omega, ?_, ⟨rfl, ?_, rfl, rfl, rfl⟩, hg.elim .inl (fun h => .inr (.inl h))⟩
  · have hq : c0.mgr.queue = c.mgr.queue := by
      rcases hg with h | h <;> rw [h]
      rfl
    show (c0.messages ++ [m.toArrow]).length + c0.mgr.queue.length = _
    rw [hq, hm, List.length_append]
    simp only [Backlog.bk, List.length_singleton]
    omega
  · simp [Cli.sendControl, isPeriodic, h1, h4]

theorem processAck_step (c : Cli) (id : UInt16) (body : Body) : ∃ k, Step c (c.processAck id body).2 [] k := by
  apply Step.same _ _ Counts.nil
  all_goals
    unfold Cli.processAck
    split
    · rfl
    · dsimp only
      split
      · split
        · rfl
        · split
          · unfold Cli.handshakeAck
            repeat' split
            all_goals rfl
          · rfl
      · rfl

theorem handle_step (c : Cli) (env : Env) (m : Wire.Message) :
    ∃ k, Step c (c.handle env m).2.1 ((c.handle env m).2.2.map .ev) k := by
  have same : ∃ k, Step c c [] k := Step.same rfl rfl Counts.nil
  unfold Cli.handle
  split
  · split
    · rename_i cm _
      unfold Cli.processControl Cli.whenEstablished
      split
      · exact processAck_step c _ _
      · split
        · split
          · exact Step.onMgr c _ trivial
          · exact same
        · exact same
      · split
        · split
          · exact Step.onMgr c _ trivial
          · exact same
        · exact same
      · split
        · exact Step.reply c c _ _ rfl (.inl rfl) (by simp [mkAck]) (by simp [mkAck])
        · exact same
      · split
        · split
          · exact Step.onMgr c _ trivial
          · exact same
        · exact same
      · split
        · split
          · exact Step.same rfl rfl Counts.nil
          · exact same
        · exact same
      · split
        · exact Step.reply c c.nextId.2 _ _ rfl (.inr rfl) (by simp [mkStatus]) (by simp [mkStatus])
        · exact same
      · split
        · exact Step.reply c c.nextId.2 _ _ rfl (.inr rfl) (by simp [mkScanReport]) (by simp [mkScanReport])
        · exact same
      · split
        · exact Step.same rfl rfl ⟨rfl, rfl, rfl, rfl, rfl⟩
        · exact same
      · split
        · exact Step.same rfl rfl ⟨rfl, rfl, rfl, rfl, rfl⟩
        · exact same
      · exact same
      · exact same
      · exact same
      · exact same
      · exact same
    · exact same
    · exact same
  · unfold Cli.whenEstablished
    split
    · exact Step.onMgr c _ trivial
    · exact same

theorem recv_step (c : Cli) (env : Env) (m : Wire.Message) : ∃ k g, g ≤ 1 ∧ k ≤ 1 ∧
    bk (c.recv env m).2.1 = bk c + k ∧ Counts ((c.recv env m).2.2.map .ev) k 0 0 0 g := by
  unfold Cli.recv
  split
  · exact ⟨0, 0, by omega, by omega, rfl, Counts.nil⟩
  · obtain ⟨k, h⟩ := handle_step c env m
    refine ⟨k, 1, by omega, h.le, h.bk, ?_⟩
    have : Counts [NEv.ev (.got m (c.handle env m).1)] 0 0 0 0 1 := ⟨rfl, rfl, rfl, rfl, rfl⟩
    have := this.append h.counts
    simpa using this

/-! ## Polling -/

theorem ctxPoll_ready_step {c : Cli} {m : Wire.Message} (h : c.ctxPoll.1 = .ready m) :
    ∃ s, bk c.ctxPoll.2.1 = bk c - 1 ∧ bk c + s = bk c.ctxPoll.2.1 + 1 ∧
      Counts (c.ctxPoll.2.2.map .ev ++ [.sent m]) 0 0 1 s 0 := by
  rcases ctxPoll_ready h with ⟨ms, hm, h2⟩ | ⟨hm, hr, h2⟩
  · refine ⟨0, ?_, ?_, ?_⟩ <;> rw [h2]
    · simp only [bk, hm, List.length_cons]; omega
    · simp only [bk, hm, List.length_cons]; omega
    · exact ⟨rfl, rfl, rfl, rfl, rfl⟩
  · rcases mgr_ready hr with ⟨hq, he⟩ | ⟨hq, hq', he⟩
    · refine ⟨0, ?_, ?_, ?_⟩ <;> rw [h2]
      · simp [bk, hm]; omega
      · simp [bk, hm]; omega
      · rw [he]; exact ⟨rfl, rfl, rfl, rfl, rfl⟩
    · refine ⟨1, ?_, ?_, ?_⟩ <;> rw [h2]
      · simp [bk, hm, hq, hq']
      · simp [bk, hm, hq, hq']
      · rcases he with ⟨a, b, he⟩ | ⟨a, b, he⟩ <;> rw [he] <;> exact ⟨rfl, rfl, rfl, rfl, rfl⟩

theorem ctxPoll_pending_step {c : Cli} (h : c.ctxPoll.1 = .pending) :
    bk c = 0 ∧ bk c.ctxPoll.2.1 = 0 ∧ c.ctxPoll.2.2 = [] := by
  obtain ⟨h1, h2, h3⟩ := ctxPoll_pending h
  obtain ⟨h4, h5, h6⟩ := mgr_pending h2
  rw [h3]
  exact ⟨by simp [bk, h1, h4], by simp [bk, h1, h5], by simp [h6]⟩

/-- The events of a poll with the message it sends. -/
def pollEvents (r : Polled × Cli × List CEv) : List NEv :=
  match r.1 with
  | .send m => r.2.2.map .ev ++ [.sent m]
  | _ => r.2.2.map .ev

/-- What a poll does to the queues: the messages made and sent account for the difference, and none is left behind if the
poll did not end the connection. -/
structure Polls (c : Cli) (r : Polled × Cli × List CEv) (b : Nat) : Prop where
  periodic : (pollEvents r).countP isPeriodic = 0
  account : bk c + (pollEvents r).countP isMade + (pollEvents r).countP isFromSession =
    bk r.2.1 + (pollEvents r).countP isSent
  less : (∃ m, r.1 = .send m) ∨ r.1 = .pending → bk r.2.1 ≤ b
  one : 0 < bk c → (pollEvents r).countP isHandled ≤ (if b < bk c then 0 else 1)

theorem pollEvents_cons (a : List CEv) (r : Polled × Cli × List CEv) :
    pollEvents (r.1, r.2.1, a ++ r.2.2) = a.map .ev ++ pollEvents r := by
  unfold pollEvents
  dsimp only
  split <;> simp

theorem pollLoop_polls (ins : List Incoming) : ∀ c : Cli, Polls c (c.pollLoop ins) (bk c - 1) := by
  have hready : ∀ (c : Cli) (m : Wire.Message), c.ctxPoll.1 = .ready m →
      Polls c (.send m, c.ctxPoll.2) (bk c - 1) := by
    intro c m h
    obtain ⟨s, h1, h2, h3⟩ := ctxPoll_ready_step h
    have e : pollEvents (.send m, c.ctxPoll.2) = c.ctxPoll.2.2.map .ev ++ [.sent m] := rfl
    refine ⟨?_, ?_, ?_, ?_⟩
    · rw [e, h3.periodic]
    · rw [e, h3.made, h3.sess, h3.sent]; simpa using h2
    · intro _; dsimp only; omega
    · intro _; rw [e, h3.got]; exact Nat.zero_le _
  have hdone : ∀ (c : Cli), c.ctxPoll.1 = .done → Polls c (.done, c.ctxPoll.2) (bk c - 1) := by
    intro c h
    rw [(ctxPoll_done h).2]
    refine ⟨rfl, rfl, ?_, ?_⟩
    · rintro (⟨m, h⟩ | h) <;> cases h
    · intro _; exact Nat.zero_le _
  have hpend : ∀ (c : Cli), c.ctxPoll.1 = .pending → Polls c (.pending, c.ctxPoll.2) (bk c - 1) := by
    intro c h
    obtain ⟨h1, h2, h3⟩ := ctxPoll_pending_step h
    have e : pollEvents (.pending, c.ctxPoll.2) = [] := by simp [pollEvents, h3]
    refine ⟨by rw [e]; rfl, ?_, ?_, ?_⟩
    · rw [e]; simp [h1, h2]
    · intro _; dsimp only; omega
    · intro h; omega
  induction ins with
  | nil =>
    intro c
    simp only [Cli.pollLoop]
    split
    · rename_i m h; exact hready c m h
    · rename_i h; exact hdone c h
    · rename_i h; exact hpend c h
  | cons i ins ih =>
    intro c
    simp only [Cli.pollLoop]
    split
    · rename_i m h; exact hready c m h
    · rename_i h; exact hdone c h
    · rename_i h
      obtain ⟨h1, h2, h3⟩ := ctxPoll_pending_step h
      cases i with
      | msg env m =>
        obtain ⟨k, g, hg, hk, hb, hc⟩ := recv_step c.ctxPoll.2.1 env m
        dsimp only
        split
        · have t := ih (c.ctxPoll.2.1.recv env m).2.1
          have e := pollEvents_cons (c.ctxPoll.2.2 ++ (c.ctxPoll.2.1.recv env m).2.2)
            ((c.ctxPoll.2.1.recv env m).2.1.pollLoop ins)
          rw [h3, List.nil_append] at e
          simp only [h3, List.nil_append]
          refine ⟨?_, ?_, ?_, ?_⟩
          · rw [e, List.countP_append, hc.periodic, t.periodic]
          · have := t.account
            rw [e, List.countP_append, List.countP_append, List.countP_append, hc.made, hc.sess, hc.sent]
            dsimp only
            omega
          · intro hx
            have := t.less hx
            dsimp only at this ⊢
            omega
          · intro hx; omega
        · rename_i e he
          have hev : pollEvents (.error e, (c.ctxPoll.2.1.recv env m).2.1,
              c.ctxPoll.2.2 ++ (c.ctxPoll.2.1.recv env m).2.2) = (c.ctxPoll.2.1.recv env m).2.2.map .ev := by
            simp [pollEvents, h3]
          refine ⟨?_, ?_, ?_, ?_⟩
          · rw [hev, hc.periodic]
          · rw [hev, hc.made, hc.sess, hc.sent]; dsimp only; omega
          · rintro (⟨m, h⟩ | h) <;> cases h
          · intro hx; omega
        · have hev : pollEvents (.panic, (c.ctxPoll.2.1.recv env m).2.1,
              c.ctxPoll.2.2 ++ (c.ctxPoll.2.1.recv env m).2.2) = (c.ctxPoll.2.1.recv env m).2.2.map .ev := by
            simp [pollEvents, h3]
          refine ⟨?_, ?_, ?_, ?_⟩
          · rw [hev, hc.periodic]
          · rw [hev, hc.made, hc.sess, hc.sent]; dsimp only; omega
          · rintro (⟨m, h⟩ | h) <;> cases h
          · intro hx; omega
      | error e =>
        dsimp only
        have hev : pollEvents (.error e, c.ctxPoll.2) = [] := by simp [pollEvents, h3]
        refine ⟨by rw [hev]; rfl, ?_, ?_, ?_⟩
        · rw [hev]; simp [h1, h2]
        · rintro (⟨m, h⟩ | h) <;> cases h
        · intro hx; omega
      | eof =>
        dsimp only
        have hb : bk { c.ctxPoll.2.1 with closed := true } = 0 := h2
        simp only [h3, List.nil_append]
        generalize ({ c.ctxPoll.2.1 with closed := true } : Cli) = d at hb ⊢
        have t := ih d
        have e := pollEvents_cons [] (d.pollLoop ins)
        rw [List.map_nil, List.nil_append, List.nil_append] at e
        refine ⟨?_, ?_, ?_, ?_⟩
        · rw [e]; exact t.periodic
        · have := t.account
          rw [e]
          dsimp only
          omega
        · intro hx
          have := t.less hx
          dsimp only at this ⊢
          omega
        · intro hx; omega
      | pending => exact hpend c h

/-- A poll that starts with a message of the server leaves at most as many messages waiting as there were; one that does
not leaves one less. -/
theorem poll_polls (c : Cli) (first : Incoming) (ins : List Incoming) :
    Polls c (c.poll first ins) (match first with | .msg _ _ => bk c | _ => bk c - 1) := by
  unfold Cli.poll
  have h0 : bk { c with idle := false } = bk c := rfl
  cases first with
  | msg env m =>
    dsimp only
    obtain ⟨k, g, hg, hk, hb, hc⟩ := recv_step { c with idle := false } env m
    rw [h0] at hb
    split
    · have t := pollLoop_polls ins (Cli.recv { c with idle := false } env m).2.1
      have e := pollEvents_cons (Cli.recv { c with idle := false } env m).2.2
        ((Cli.recv { c with idle := false } env m).2.1.pollLoop ins)
      refine ⟨?_, ?_, ?_, ?_⟩
      · rw [e, List.countP_append, hc.periodic, t.periodic]
      · have := t.account
        rw [e, List.countP_append, List.countP_append, List.countP_append, hc.made, hc.sess, hc.sent]
        dsimp only
        omega
      · intro hx
        have := t.less hx
        dsimp only at this ⊢
        omega
      · intro hx
        have := t.one (by omega)
        rw [if_pos (by omega)] at this
        rw [e, List.countP_append, hc.got, if_neg (by omega)]
        omega
    · rename_i e he
      refine ⟨hc.periodic, ?_, ?_, ?_⟩
      · show bk c + List.countP isMade (List.map _ _) + List.countP isFromSession (List.map _ _) =
          _ + List.countP isSent (List.map _ _)
        rw [hc.made, hc.sess, hc.sent]; dsimp only; omega
      · rintro (⟨m, h⟩ | h) <;> cases h
      · intro hx
        show List.countP isHandled (List.map _ _) ≤ _
        rw [hc.got, if_neg (by omega)]
        exact hg
    · refine ⟨hc.periodic, ?_, ?_, ?_⟩
      · show bk c + List.countP isMade (List.map _ _) + List.countP isFromSession (List.map _ _) =
          _ + List.countP isSent (List.map _ _)
        rw [hc.made, hc.sess, hc.sent]; dsimp only; omega
      · rintro (⟨m, h⟩ | h) <;> cases h
      · intro hx
        show List.countP isHandled (List.map _ _) ≤ _
        rw [hc.got, if_neg (by omega)]
        exact hg
  | error e =>
    refine ⟨rfl, rfl, ?_, ?_⟩
    · rintro (⟨m, h⟩ | h) <;> cases h
    · intro _; exact Nat.zero_le _
  | eof =>
    have t := pollLoop_polls ins { { c with idle := false } with closed := true }
    exact ⟨t.periodic, t.account, t.less, t.one⟩
  | pending =>
    have t := pollLoop_polls ins { c with idle := false }
    exact ⟨t.periodic, t.account, t.less, t.one⟩

/-! ## The other steps -/

theorem ping_step (c : Cli) (t : Nat) :
    bk (c.sendPing t).1 = bk c + 1 ∧ Counts ((c.sendPing t).2.map .ev) 1 1 0 0 0 := by
  refine ⟨?_, rfl, rfl, rfl, rfl, rfl⟩
  show (c.messages ++ [_]).length + c.mgr.queue.length = _
  simp only [bk, List.length_append, List.length_singleton]
  omega

theorem check_step (c : Cli) (env : Env) : ∃ k, bk (c.checkForUpdates env).1 = bk c + k ∧
    Counts ((c.checkForUpdates env).2.map .ev) k k 0 0 0 := by
  rw [check_eq]
  split
  · refine ⟨1, ?_, rfl, rfl, rfl, rfl, rfl⟩
    show (c.messages ++ [_]).length + c.mgr.queue.length = _
    simp only [bk, List.length_append, List.length_singleton]
    omega
  · exact ⟨0, rfl, rfl, rfl, rfl, rfl, rfl⟩

theorem tick_step (c : Cli) (env : Env) : ∃ k, bk (c.timeEvent env).2.1 = bk c + k ∧
    Counts ((c.timeEvent env).2.2.map .ev) k k 0 0 0 := by
  unfold Cli.timeEvent
  dsimp only
  have h1 : ∃ k, bk (if c.established && decide (pingPeriod ≤ env.now - c.lastPing) then c.sendPing env.now
      else (c, [])).1 = bk c + k ∧
      Counts ((if c.established && decide (pingPeriod ≤ env.now - c.lastPing) then c.sendPing env.now
      else (c, [])).2.map .ev) k k 0 0 0 := by
    split
    · exact ⟨1, ping_step c env.now⟩
    · exact ⟨0, rfl, Counts.nil⟩
  generalize (if c.established && decide (pingPeriod ≤ env.now - c.lastPing) then c.sendPing env.now
      else (c, [])) = r at h1 ⊢
  obtain ⟨k, hb, hc⟩ := h1
  rw [List.map_append]
  split
  · obtain ⟨k', hb', hc'⟩ := check_step r.1 env
    exact ⟨k + k', by omega, hc.append hc'⟩
  · exact ⟨k, hb, hc.append Counts.nil⟩

theorem io_step (c : Cli) (sid : UInt32) (o : Io) :
    bk (c.onMgr (.io sid o)).1 = bk c ∧ (c.onMgr (.io sid o)).2 = [] := by
  unfold Cli.onMgr
  simp only [Mgr.step]
  split <;> exact ⟨rfl, rfl⟩

/-- A step of a live connection that stays live. -/
theorem step_account (c c' : Cli) (op : COp) (h : (c.step op).1 = .live c') :
    bk c + (c.step op).2.countP isMade + (c.step op).2.countP isFromSession =
      bk c' + (c.step op).2.countP isSent ∧
    bk c' ≤ bk c + (c.step op).2.countP isPeriodic ∧
    (∀ first ins, op = .poll first ins → bk c' ≤ bk c ∧ ((∀ env m, first ≠ .msg env m) → bk c' ≤ bk c - 1)) := by
  cases op with
  | poll first ins =>
    have P := poll_polls c first ins
    have hev : (c.step (.poll first ins)).2 = pollEvents (c.poll first ins) := by
      simp only [Cli.step, pollEvents]
      cases (c.poll first ins).1 <;> rfl
    have hlive : c' = (c.poll first ins).2.1 ∧
        ((∃ m, (c.poll first ins).1 = .send m) ∨ (c.poll first ins).1 = .pending) := by
      simp only [Cli.step] at h
      cases hp : (c.poll first ins).1 <;> rw [hp] at h <;> simp at h
      · exact ⟨h.symm, .inl ⟨_, rfl⟩⟩
      · exact ⟨h.symm, .inr rfl⟩
    obtain ⟨rfl, hl⟩ := hlive
    have hle := P.less hl
    have hle' : bk (c.poll first ins).2.1 ≤ bk c := by
      cases first <;> simp only at hle <;> omega
    refine ⟨by rw [hev]; exact P.account, by omega, ?_⟩
    rintro f i he
    cases he
    refine ⟨hle', ?_⟩
    intro hn
    cases first with
    | msg env m => exact absurd rfl (hn env m)
    | _ => exact hle
  | tick env =>
    obtain ⟨k, hb, hc⟩ := tick_step c env
    simp only [Cli.step] at h ⊢
    split at h
    · cases h
    · rename_i hcl
      rw [if_neg hcl]
      cases ho : (c.timeEvent env).1 <;> rw [ho] at h <;> simp at h
      subst h
      refine ⟨?_, ?_, fun _ _ he => by cases he⟩
      · rw [hc.made, hc.sess, hc.sent]; omega
      · rw [hc.periodic]; omega
  | io sid o =>
    obtain ⟨h1, h2⟩ := io_step c sid o
    simp only [Cli.step] at h ⊢
    simp at h
    subst h
    rw [h2]
    exact ⟨by simp [h1], by omega, fun _ _ he => by cases he⟩
  | sinkError e => simp [Cli.step] at h
  | flushed =>
    simp [Cli.step] at h
    subst h
    exact ⟨rfl, by omega, fun _ _ he => by cases he⟩

/-! ## Predicates of the session manager -/

/-- A predicate of the session manager that is kept by whatever the client does with it. -/
structure Kept (P : Mgr → Prop) : Prop where
  newId : ∀ m, P m → P (m.step .newId).1
  server : ∀ m op, fromServer op → P m → P (m.step op).1
  poll : ∀ m, P m → P m.poll.2.1

theorem Step.kept {P : Mgr → Prop} (K : Kept P) {c c' : Cli} {evs : List NEv} {k : Nat} (h : Step c c' evs k)
    (hp : P c.mgr) : P c'.mgr := by
  rcases h.mgr with e | e | ⟨op, ho, e⟩ <;> rw [e]
  · exact hp
  · exact K.newId _ hp
  · exact K.server _ op ho hp

theorem recv_kept {P : Mgr → Prop} (K : Kept P) (c : Cli) (env : Env) (m : Wire.Message) (hp : P c.mgr) :
    P (c.recv env m).2.1.mgr := by
  unfold Cli.recv
  split
  · exact hp
  · obtain ⟨k, h⟩ := handle_step c env m
    exact h.kept K hp

theorem ctxPoll_kept {P : Mgr → Prop} (K : Kept P) (c : Cli) (hp : P c.mgr) : P c.ctxPoll.2.1.mgr := by
  unfold Cli.ctxPoll
  split
  · exact hp
  · split
    · exact hp
    · dsimp only
      split <;> exact K.poll _ hp

theorem pollLoop_kept {P : Mgr → Prop} (K : Kept P) (ins : List Incoming) :
    ∀ c : Cli, P c.mgr → P (c.pollLoop ins).2.1.mgr := by
  induction ins with
  | nil =>
    intro c hp
    have h := ctxPoll_kept K c hp
    simp only [Cli.pollLoop]
    split <;> exact h
  | cons i ins ih =>
    intro c hp
    have h := ctxPoll_kept K c hp
    simp only [Cli.pollLoop]
    split
    · exact h
    · exact h
    · cases i with
      | msg env m =>
        have h2 := recv_kept K c.ctxPoll.2.1 env m h
        dsimp only
        split
        · exact ih _ h2
        · exact h2
        · exact h2
      | error e => exact h
      | eof => exact ih { c.ctxPoll.2.1 with closed := true } h
      | pending => exact h

theorem poll_kept {P : Mgr → Prop} (K : Kept P) (c : Cli) (first : Incoming) (ins : List Incoming) (hp : P c.mgr) :
    P (c.poll first ins).2.1.mgr := by
  unfold Cli.poll
  cases first with
  | msg env m =>
    have h2 := recv_kept K { c with idle := false } env m hp
    dsimp only
    split
    · exact pollLoop_kept K ins _ h2
    · exact h2
    · exact h2
  | error e => exact hp
  | eof => exact pollLoop_kept K ins { { c with idle := false } with closed := true } hp
  | pending => exact pollLoop_kept K ins { c with idle := false } hp

theorem tick_kept {P : Mgr → Prop} (K : Kept P) (c : Cli) (env : Env) (hp : P c.mgr) :
    P (c.timeEvent env).2.1.mgr := by
  have h1 : P (if c.established && decide (pingPeriod ≤ env.now - c.lastPing) then c.sendPing env.now
      else (c, [])).1.mgr := by
    split
    · exact K.newId _ hp
    · exact hp
  unfold Cli.timeEvent
  dsimp only
  generalize (if c.established && decide (pingPeriod ≤ env.now - c.lastPing) then c.sendPing env.now
      else (c, [])) = r at h1 ⊢
  split
  · rw [check_eq]
    split
    · exact K.newId _ h1
    · exact h1
  · exact h1

theorem step_kept {P : Mgr → Prop} (K : Kept P) (c c' : Cli) (op : COp)
    (hio : ∀ sid o m, op = .io sid o → P m → P (m.step (.io sid o)).1)
    (hp : P c.mgr) (h : (c.step op).1 = .live c') : P c'.mgr := by
  cases op with
  | poll first ins =>
    have := poll_kept K c first ins hp
    simp only [Cli.step] at h
    cases hr : (c.poll first ins).1 <;> rw [hr] at h <;> simp at h <;> subst h <;> exact this
  | tick env =>
    have := tick_kept K c env hp
    simp only [Cli.step] at h
    split at h
    · cases h
    · cases hr : (c.timeEvent env).1 <;> rw [hr] at h <;> simp at h
      subst h
      exact this
  | io sid o =>
    simp only [Cli.step, Conn.live.injEq] at h
    subst h
    exact hio sid o c.mgr rfl hp
  | sinkError e => simp [Cli.step] at h
  | flushed => simp [Cli.step] at h; subst h; exact hp

/-! ## Bytes held for sessions -/

/-- A session as it can become after its start, if reads deliver at most `m` bytes. -/
def Lived (m : Nat) (s : Sess) : Prop :=
  ∃ svc sid ops, s = (Session.life svc sid 65536 ops).1 ∧ Session.ReadsAtMost m ops

theorem Lived.new (m : Nat) (svc : UInt16) (sid : UInt32) : Lived m (Sess.new svc sid 65536) :=
  ⟨svc, sid, [], rfl, by intro bs wr h; cases h⟩

theorem Lived.step {m : Nat} {s : Sess} (h : Lived m s) (op : Op)
    (hop : ∀ bs wr, op = .transport (.ok bs) wr → bs.length ≤ m) : Lived m (s.step op).1 := by
  obtain ⟨svc, sid, ops, rfl, h2⟩ := h
  refine ⟨svc, sid, ops ++ [op], by rw [Session.life_snoc], ?_⟩
  intro bs wr hm
  rcases List.mem_append.mp hm with hm | hm
  · exact h2 bs wr hm
  · exact hop bs wr (List.mem_singleton.mp hm).symm

theorem Lived.bound {m : Nat} {s : Sess} (h : Lived m s) :
    s.ctx.input.length ≤ 8191 + m ∧ s.ctx.output.length ≤ 65536 := by
  obtain ⟨svc, sid, ops, rfl, h2⟩ := h
  have h3 := (Session.inv svc sid 65536 (by decide) ops).outCap
  exact ⟨Session.C18_buffer_bound svc sid 65536 m ops h2, by omega⟩

/-- All sessions of the manager are such. -/
structure AllLived (m : Nat) (g : Mgr) : Prop where
  window : g.window = 65536
  lived : ∀ p ∈ g.sessions, Lived m p.2

theorem AllLived.get {m : Nat} {g : Mgr} (h : AllLived m g) {sid : UInt32} {s : Sess}
    (hs : g.sessions.get sid = some s) : Lived m s := by
  simp only [AMap.get, Option.map_eq_some_iff] at hs
  obtain ⟨p, h1, h2⟩ := hs
  rw [← h2]
  exact h.lived p (List.mem_of_find?_eq_some h1)

theorem lived_remove {m : Nat} {l : AMap UInt32 Sess} (h : ∀ p ∈ l, Lived m p.2) (sid : UInt32) :
    ∀ p ∈ l.remove sid, Lived m p.2 := fun p hp => h p (List.mem_filter.mp hp).1

theorem lived_insert {m : Nat} {l : AMap UInt32 Sess} (h : ∀ p ∈ l, Lived m p.2) (sid : UInt32) {s : Sess}
    (hs : Lived m s) : ∀ p ∈ l.insert sid s, Lived m p.2 := by
  intro p hp
  rcases List.mem_append.mp hp with hp | hp
  · exact lived_remove h sid p hp
  · rw [List.mem_singleton.mp hp]; exact hs

theorem AllLived.onSession {m : Nat} {g : Mgr} (h : AllLived m g) {sid : UInt32} {s : Sess}
    (hs : g.sessions.get sid = some s) (op : Op) (hop : ∀ bs wr, op = .transport (.ok bs) wr → bs.length ≤ m) :
    AllLived m (g.onSession sid s op) :=
  ⟨h.window, lived_insert h.lived sid ((h.get hs).step op hop)⟩

theorem lived_pollLoop (m k : Nat) : ∀ g : Mgr, AllLived m g → AllLived m (g.pollLoop k).2.1 := by
  induction k with
  | zero => intro g h; exact ⟨h.window, h.lived⟩
  | succ k ih =>
    intro g h
    simp only [Mgr.pollLoop]
    split
    · exact ih g h
    · split
      · exact ih _ ⟨h.window, h.lived⟩
      · rename_i sid _ _ _ s hs
        have hs' : Lived m (s.step (.take g.counter)).1 := (h.get hs).step _ (by intro _ _ e; cases e)
        split
        · exact ih _ ⟨h.window, lived_insert h.lived sid hs'⟩
        · exact ⟨h.window, lived_remove h.lived sid⟩
        · exact ⟨h.window, lived_insert h.lived sid hs'⟩
        · exact ⟨h.window, lived_remove h.lived sid⟩

theorem lived_kept (m : Nat) : Kept (AllLived m) where
  newId := fun g h => ⟨h.window, h.lived⟩
  poll := by
    intro g h
    unfold Mgr.poll
    split
    · exact ⟨h.window, h.lived⟩
    · exact lived_pollLoop m _ g h
  server := by
    intro g op ho h
    cases op with
    | connect get svc sid =>
      simp only [Mgr.step, Mgr.connect]
      split
      · refine ⟨h.window, lived_insert h.lived sid ?_⟩
        rw [h.window]
        exact Lived.new m svc sid
      · exact ⟨h.window, h.lived⟩
    | send msg =>
      simp only [Mgr.step, Mgr.send]
      split
      · rename_i s hs
        exact h.onSession hs _ (by intro _ _ e; cases e)
      · exact ⟨h.window, h.lived⟩
    | close sid =>
      simp only [Mgr.step, Mgr.close]
      split
      · rename_i s hs
        have := h.onSession hs .close (by intro _ _ e; cases e)
        exact ⟨this.window, lived_remove this.lived sid⟩
      · exact h
    | dataAck sid len =>
      simp only [Mgr.step, Mgr.dataAck]
      split
      · rename_i s hs
        exact h.onSession hs _ (by intro _ _ e; cases e)
      · exact h
    | io _ _ => exact absurd ho id
    | poll => exact absurd ho id
    | newId => exact absurd ho id

theorem lived_io {m : Nat} {g : Mgr} (h : AllLived m g) (sid : UInt32) (o : Io)
    (ho : ∀ bs wr, o = .transport (.ok bs) wr → bs.length ≤ m) : AllLived m (g.step (.io sid o)).1 := by
  simp only [Mgr.step]
  split
  · rename_i s hs
    refine h.onSession hs _ ?_
    intro bs wr e
    cases o <;> simp [Io.op] at e
    exact ho bs wr (by rw [e.1, e.2])
  · exact h

theorem sum_le {l : List (UInt32 × Sess)} {b : Nat}
    (h : ∀ p ∈ l, p.2.ctx.input.length + p.2.ctx.output.length ≤ b) :
    (l.map fun p => p.2.ctx.input.length + p.2.ctx.output.length).sum ≤ l.length * b := by
  induction l with
  | nil => simp
  | cons p l ih =>
    have h1 := h p (by simp)
    have h2 := ih fun q hq => h q (by simp [hq])
    simp only [List.map_cons, List.sum_cons, List.length_cons, Nat.add_mul]
    omega

/-! ## Histories -/

/-- A state of a live connection stays what it is, step by step. -/
theorem live_induct (I : Cli → List NEv → Prop) (cfg : Cfg) (env : Env) (ops : List COp)
    (h0 : I (Cli.new cfg env).1 (Conn.start cfg env).2)
    (hs : ∀ c c' es op, op ∈ ops → I c es → (c.step op).1 = .live c' → I c' (es ++ (c.step op).2))
    (c : Cli) (hl : (hist cfg env ops).1 = .live c) : I c (hist cfg env ops).2 := by
  have key : ∀ (os : List COp) (s : Conn) (es : List NEv) (c' : Cli), (∀ o ∈ os, o ∈ ops) →
      (∀ d, s = .live d → I d es) → (s.run os).1 = .live c' → I c' (es ++ (s.run os).2) := by
    intro os
    induction os with
    | nil =>
      intro s es c' _ hi h
      simp only [Conn.run, List.append_nil] at h ⊢
      exact hi c' h
    | cons op os ih =>
      intro s es c' hm hi h
      simp only [Conn.run] at h ⊢
      rw [← List.append_assoc]
      refine ih (s.step op).1 _ c' (fun o ho => hm o (by simp [ho])) ?_ h
      intro d hd
      cases s with
      | live e => exact hs e d es op (hm op (by simp)) (hi e rfl) hd
      | closing r => cases op <;> simp [Conn.step] at hd
      | over r => simp [Conn.step] at hd
  exact key ops _ _ c (fun o ho => ho) (by intro d hd; cases hd; exact h0) hl

end Verif.Props.Backlog
