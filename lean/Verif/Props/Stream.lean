import Verif.Spec.Stream
import Verif.Lemmas.SessionManager
import Verif.Props.Wire
import Verif.Props.Control
import Verif.Props.Client
/-!
# C138: what a server sees of one connection
-/
namespace Verif.Props.Stream
open Verif Verif.Control Verif.Session Verif.Client Verif.Spec.Client Verif.Spec Verif.Spec.Stream
open Verif.Props.Client (hist hist_inv' demoCfg demoEnv demoStart demoMsg)

/-- The kinds of control messages the client creates. -/
def Kind (m : ControlMessage) : Prop := clientKind m.msgType.toNat m.len = true

theorem control_of_kind {m : ControlMessage} (h : Kind m) : IsControl m.toArrow := by
  refine ⟨rfl, ?_, ?_⟩
  · show mask24 0 = 0
    decide
  · have hl : (m.toArrow).payload.length = m.len := Props.Control.C06_declared_length m
    have hf : field (m.toArrow).payload 2 2 = m.msgType.toNat := by
      show field (be16 m.msgId ++ be16 m.msgType ++ m.body.encode) 2 2 = _
      simp only [field, slice, be16, List.cons_append, List.nil_append, List.drop_succ_cons, List.drop_zero,
        List.take_succ_cons, List.take_zero, natBE, List.foldl_cons, List.foldl_nil]
      have := m.msgType.toNat_lt
      simp
      omega
    rw [hl, hf]
    exact h

theorem table_len (t : SimpleTable) : 30 ≤ t.len := by
  have : controlElem.len = 30 := by decide
  unfold SimpleTable.len
  omega

theorem kind_ack (id : UInt16) (e : UInt32) : Kind (mkAck id e) := rfl
theorem kind_ping (id : UInt16) : Kind (mkPing id) := rfl
theorem kind_hup (id : UInt16) (s e : UInt32) : Kind (mkHup id s e) := rfl
theorem kind_dataAck (id : UInt16) (s l : UInt32) : Kind (mkDataAck id s l) := rfl
theorem kind_status (id r : UInt16) (f n : UInt32) : Kind (mkStatus id r f n) := rfl
theorem kind_update (id : UInt16) (t : SimpleTable) : Kind (mkUpdate id t) := by
  have := table_len t
  show decide (34 ≤ 4 + t.len) = true
  simp; omega
theorem kind_register (cfg : Cfg) (env : Env) : Kind (register cfg env) := by
  have := table_len (SimpleTable.ofServices env.visible)
  show decide (79 ≤ 4 + (44 + cfg.info.length + 1 + (SimpleTable.ofServices env.visible).len)) = true
  simp; omega
theorem kind_report (id r : UInt16) (hs : List HostRecord) (ss : List Service)
    (g : ServiceIdentifier → Option UInt16) : Kind (mkScanReport id r hs ss g) := by
  have h1 := table_len (SimpleTable.ofServices (ss.filterMap (fun s => (g s.toIdentifier).map (fun i => (i, s)))))
  have h2 : ∀ (l : List HostRecord) (n : Nat), n ≤ l.foldl (fun n h => n + h.len) n := by
    intro l
    induction l with
    | nil => intro n; exact Nat.le_refl n
    | cons h l ih => intro n; exact Nat.le_trans (Nat.le_add_right _ _) (ih _)
  have h3 := h2 hs 4
  show decide (40 ≤ 4 + (2 + hs.foldl (fun n h => n + h.len) 4 + (SimpleTable.ofServices (ss.filterMap (fun s =>
    (g s.toIdentifier).map (fun i => (i, s))))).len)) = true
  simp; omega

/-! ## Sessions keep their names -/

def Same (a b : Ctx) : Prop := b.svc = a.svc ∧ b.sess = a.sess

theorem same_close (c : Ctx) : Same c c.close.1 := ⟨rfl, rfl⟩

theorem same_error (c : Ctx) (e : ConnErr) : Same c (c.setError e).1 := by
  unfold Ctx.setError
  split <;> exact ⟨rfl, rfl⟩

theorem same_push (c : Ctx) (d : Bytes) : Same c (c.push d).1 := by
  unfold Ctx.push
  split
  · exact ⟨rfl, rfl⟩
  · split
    · exact same_error c _
    · dsimp only
      split <;> exact ⟨rfl, rfl⟩

theorem same_take (c : Ctx) (n : Nat) : Same c (c.take n).2.1 := by
  unfold Ctx.take Ctx.takeDataAck
  by_cases h : c.written > 0
  · rw [if_pos h]; exact ⟨rfl, rfl⟩
  · rw [if_neg h]
    dsimp only
    repeat' split
    all_goals exact ⟨rfl, rfl⟩

theorem same_read (c : Ctx) (rd : ReadRes) : Same c (c.pollRead rd).1 := by
  have hw : ∀ x : Ctx, Same c x → Same c (if x.input ≠ [] then x.wakeMgr else (x, Wakes.none)).1 := by
    intro x hx
    split <;> exact hx
  unfold Ctx.pollRead
  split
  · exact ⟨rfl, rfl⟩
  · split
    · exact ⟨rfl, rfl⟩
    · split
      · exact ⟨rfl, rfl⟩
      · refine hw _ ?_
        split <;> exact ⟨rfl, rfl⟩
      · exact hw _ (same_error c _)

theorem same_write (c : Ctx) (wr : WriteRes) : Same c (c.pollWrite wr).1 := by
  unfold Ctx.pollWrite
  split
  · split <;> exact ⟨rfl, rfl⟩
  · split
    · exact ⟨rfl, rfl⟩
    · exact ⟨rfl, rfl⟩
    · exact same_error c _

theorem step_names (s : Sess) (op : Op) : Same s.ctx (s.step op).1.ctx := by
  cases op with
  | push data => exact same_push _ _
  | dataAck len => exact ⟨rfl, rfl⟩
  | take n => exact same_take _ _
  | close => exact same_close _
  | connected => simp only [Sess.step]; split <;> exact ⟨rfl, rfl⟩
  | connectFailed n =>
    simp only [Sess.step]
    split
    · exact same_error _ _
    · exact ⟨rfl, rfl⟩
  | transport rd wr =>
    simp only [Sess.step]
    split
    · split
      · exact ⟨rfl, rfl⟩
      · rename_i hc
        have h1 := same_read s.ctx rd
        have h2 := same_write (s.ctx.pollRead rd).1 wr
        simp only [Ctx.pollTransport, if_neg hc]
        exact ⟨h2.1.trans h1.1, h2.2.trans h1.2⟩
    · exact ⟨rfl, rfl⟩

/-- What a session hands out: a DATA_ACK, or data under its own names. -/
theorem take_item {c : Ctx} {n : Nat} {i : Item} (h : (c.take n).1 = .item i) :
    IsControl i.toArrow ∨ ∃ d, d ≠ [] ∧ i.toArrow = Wire.Message.new c.svc c.sess d := by
  unfold Ctx.take Ctx.takeDataAck at h
  by_cases hw : c.written > 0
  · rw [if_pos hw] at h
    dsimp only at h
    cases h
    exact .inl (control_of_kind (kind_dataAck _ _ _))
  · rw [if_neg hw] at h
    dsimp only at h
    repeat' split at h
    all_goals first
      | (cases h; done)
      | (cases h; exact .inr ⟨_, by assumption, rfl⟩)

/-! ## The manager -/

/-- What holds of the manager: HUPs are waiting, and every session was opened under its names. -/
structure MI (m : Mgr) (es : List NEv) : Prop where
  queue : ∀ x ∈ m.queue, IsControl x
  names : ∀ sid s, m.sessions.get sid = some s → s.ctx.sess = sid ∧
    ∃ ty mac addr, .ev (.mgr (.opened sid s.ctx.svc ty mac addr)) ∈ es

theorem MI.more {m : Mgr} {es : List NEv} (h : MI m es) (l : List NEv) : MI m (es ++ l) :=
  ⟨h.queue, fun sid s hs => by
    obtain ⟨h1, ty, mac, a, h2⟩ := h.names sid s hs
    exact ⟨h1, ty, mac, a, List.mem_append_left _ h2⟩⟩

theorem names_insert {m : Mgr} {es : List NEv} (h : MI m es) {sid : UInt32} {s : Sess}
    (hs : m.sessions.get sid = some s) (op : Op) (j : UInt32) (t : Sess)
    (hj : (m.sessions.insert sid (s.step op).1).get j = some t) : t.ctx.sess = j ∧
    ∃ ty mac addr, .ev (.mgr (.opened j t.ctx.svc ty mac addr)) ∈ es := by
  rw [AMap.get_insert] at hj
  split at hj
  · rename_i e
    cases hj
    subst e
    rw [(step_names s op).1, (step_names s op).2]
    exact h.names _ s hs
  · exact h.names j t hj

theorem names_remove {m : Mgr} {es : List NEv} (h : MI m es) (sid j : UInt32) (t : Sess)
    (hj : (m.sessions.remove sid).get j = some t) : t.ctx.sess = j ∧
    ∃ ty mac addr, .ev (.mgr (.opened j t.ctx.svc ty mac addr)) ∈ es := by
  rw [AMap.get_remove] at hj
  split at hj
  · cases hj
  · exact h.names j t hj

theorem queue_hup {q : List Wire.Message} (h : ∀ x ∈ q, IsControl x) (id : UInt16) (sid e : UInt32) :
    ∀ x ∈ q ++ [(mkHup id sid e).toArrow], IsControl x := by
  intro x hx
  rcases List.mem_append.1 hx with hx | hx
  · exact h x hx
  · rw [List.mem_singleton.1 hx]
    exact control_of_kind (kind_hup _ _ _)

def evs (l : List Ev) : List NEv := (l.map CEv.mgr).map NEv.ev

theorem MI.step {m : Mgr} {es : List NEv} (h : MI m es) (op : MOp) (hop : op ≠ .poll) :
    MI (m.step op).1 (es ++ evs (m.step op).2.1) := by
  cases op with
  | poll => exact absurd rfl hop
  | connect get sv sid =>
    simp only [Mgr.step, Mgr.connect]
    split
    · rename_i s a _
      refine ⟨h.queue, fun j t hj => ?_⟩
      simp only [Mgr.wake] at hj
      rw [AMap.get_insert] at hj
      split at hj
      · rename_i e
        cases hj
        subst e
        exact ⟨rfl, _, _, _, List.mem_append_right _ List.mem_cons_self⟩
      · obtain ⟨h1, ty, mac, a, h2⟩ := h.names j t hj
        exact ⟨h1, ty, mac, a, List.mem_append_left _ h2⟩
    · refine MI.more ?_ _; exact ⟨queue_hup h.queue _ _ _, h.names⟩
  | send msg =>
    simp only [Mgr.step, Mgr.send]
    split
    · rename_i s hs
      refine MI.more ?_ _; exact ⟨h.queue, names_insert h hs _⟩
    · refine MI.more ?_ _; exact ⟨queue_hup h.queue _ _ _, h.names⟩
  | close sid =>
    simp only [Mgr.step, Mgr.close]
    split
    · rename_i s hs
      have h' : MI (m.onSession sid s .close) es := ⟨h.queue, names_insert h hs _⟩
      refine MI.more ?_ _; exact ⟨h.queue, names_remove h' sid⟩
    · exact h.more _
  | dataAck sid len =>
    simp only [Mgr.step, Mgr.dataAck]
    split
    · rename_i s hs
      refine MI.more ?_ _; exact ⟨h.queue, names_insert h hs _⟩
    · exact h.more _
  | io sid o =>
    simp only [Mgr.step]
    split
    · rename_i s hs
      refine MI.more ?_ _; exact ⟨h.queue, names_insert h hs _⟩
    · exact h.more _
  | newId => refine MI.more ?_ _; exact ⟨h.queue, h.names⟩

theorem MI.poll {m : Mgr} {es : List NEv} (h : MI m es) :
    MI m.poll.2.1 es ∧ ∀ x, m.poll.1 = .ready x → IsControl x ∨ IsData es x := by
  unfold Mgr.poll
  split
  · rename_i msg q hq
    refine ⟨⟨fun x hx => h.queue x (by rw [hq]; exact List.mem_cons_of_mem _ hx), h.names⟩, ?_⟩
    intro x hx
    cases hx
    exact .inl (h.queue _ (by rw [hq]; exact List.mem_cons_self))
  · refine pollLoop_cases (fun _ m => MI m es)
      (fun r => MI r.2.1 es ∧ ∀ x, r.1 = .ready x → IsControl x ∨ IsData es x) ?_ ?_ ?_ ?_ ?_ ?_ ?_ _ m h
    · intro m h
      exact ⟨⟨h.queue, h.names⟩, fun x hx => by cases hx⟩
    · intro k m _ h; exact h
    · intro k m sid rest _ _ h; exact ⟨h.queue, h.names⟩
    · intro k m sid rest s _ hs _ h
      exact ⟨h.queue, names_insert h hs _⟩
    · intro k m sid rest s _ _ _ h
      refine ⟨⟨h.queue, names_remove h sid⟩, fun x hx => ?_⟩
      cases hx
      exact .inl (control_of_kind (kind_hup _ _ _))
    · intro k m sid rest s i _ hs hi h
      refine ⟨⟨h.queue, names_insert h hs _⟩, fun x hx => ?_⟩
      cases hx
      rcases take_item hi with h1 | ⟨d, hd, h1⟩
      · exact .inl h1
      · obtain ⟨h2, ty, mac, a, h3⟩ := h.names sid s hs
        rw [h1]
        refine .inr ⟨hd, sid, ty, mac, a, h3, ?_⟩
        show (mask24 s.ctx.sess).toNat = _
        rw [h2]
        exact mask24_toNat sid
    · intro k m sid rest s e _ _ _ h
      refine ⟨⟨h.queue, names_remove h sid⟩, fun x hx => ?_⟩
      cases hx
      exact .inl (control_of_kind (kind_hup _ _ _))

/-! ## The client -/

/-- Every message sent so far was one a client may send, given what happened before. -/
def Ok (es : List NEv) : Prop := ∀ pre m post, es = pre ++ .sent m :: post → IsControl m ∨ IsData pre m

theorem Ok.ev {es : List NEv} (h : Ok es) (l : List CEv) : Ok (es ++ l.map .ev) := by
  intro pre m post he
  rcases List.append_eq_append_iff.1 he with ⟨a, h1, h2⟩ | ⟨a, h1, h2⟩
  · exfalso
    have : NEv.sent m ∈ l.map NEv.ev := by rw [h2]; simp
    obtain ⟨x, _, hx⟩ := List.mem_map.1 this
    cases hx
  · cases a with
    | nil =>
      exfalso
      have : NEv.sent m ∈ l.map NEv.ev := by rw [← List.nil_append (l.map NEv.ev), ← h2]; simp
      obtain ⟨x, _, hx⟩ := List.mem_map.1 this
      cases hx
    | cons b a =>
      rw [List.cons_append] at h2
      injection h2 with h2 h3
      subst h2
      exact h pre m a h1

theorem Ok.sent {es : List NEv} (h : Ok es) {x : Wire.Message} (hx : IsControl x ∨ IsData es x) :
    Ok (es ++ [.sent x]) := by
  intro pre m post he
  rcases List.append_eq_append_iff.1 he with ⟨a, h1, h2⟩ | ⟨a, h1, h2⟩
  · cases a with
    | nil =>
      injection h2 with h2 _
      injection h2 with h2
      subst h2
      rw [List.append_nil] at h1
      rw [h1]; exact hx
    | cons b a => injection h2 with _ h2; simp at h2
  · cases a with
    | nil =>
      rw [List.nil_append] at h2
      injection h2 with h2 _
      injection h2 with h2
      subst h2
      rw [List.append_nil] at h1
      rw [← h1]; exact hx
    | cons b a =>
      rw [List.cons_append] at h2
      injection h2 with h2 h3
      subst h2
      exact h pre m a h1

structure CI (c : Cli) (es : List NEv) : Prop where
  messages : ∀ m ∈ c.messages, IsControl m
  mgr : MI c.mgr es
  ok : Ok es

theorem CI.same {c c' : Cli} {es : List NEv} (h : CI c es) (l : List CEv) (h1 : c'.messages = c.messages)
    (h2 : c'.mgr.queue = c.mgr.queue) (h3 : c'.mgr.sessions = c.mgr.sessions) : CI c' (es ++ l.map .ev) :=
  ⟨by rw [h1]; exact h.messages, MI.more ⟨by rw [h2]; exact h.mgr.queue, by rw [h3]; exact h.mgr.names⟩ _, h.ok.ev l⟩

theorem CI.control {c c' : Cli} {es : List NEv} (h : CI c es) (l : List CEv) {m : ControlMessage} (hk : Kind m)
    (h1 : c'.messages = c.messages ++ [m.toArrow]) (h2 : c'.mgr.queue = c.mgr.queue)
    (h3 : c'.mgr.sessions = c.mgr.sessions) : CI c' (es ++ l.map .ev) := by
  refine ⟨?_, MI.more ⟨by rw [h2]; exact h.mgr.queue, by rw [h3]; exact h.mgr.names⟩ _, h.ok.ev l⟩
  intro x hx
  rw [h1] at hx
  rcases List.mem_append.1 hx with hx | hx
  · exact h.messages x hx
  · rw [List.mem_singleton.1 hx]; exact control_of_kind hk

theorem CI.onMgr {c : Cli} {es : List NEv} (h : CI c es) (op : MOp) (hop : op ≠ .poll) :
    CI (c.onMgr op).1 (es ++ (c.onMgr op).2.map .ev) :=
  ⟨h.messages, h.mgr.step op hop, h.ok.ev _⟩

theorem handshake_same (c : Cli) (e : UInt32) :
    (c.handshakeAck e).2.messages = c.messages ∧ (c.handshakeAck e).2.mgr = c.mgr := by
  unfold Cli.handshakeAck
  repeat' split
  all_goals exact ⟨rfl, rfl⟩

theorem ack_same (c : Cli) (id : UInt16) (b : Body) :
    (c.processAck id b).2.messages = c.messages ∧ (c.processAck id b).2.mgr = c.mgr := by
  unfold Cli.processAck
  split
  · exact ⟨rfl, rfl⟩
  · dsimp only
    split
    · split
      · exact ⟨rfl, rfl⟩
      · split
        · exact handshake_same _ _
        · exact ⟨rfl, rfl⟩
    · exact ⟨rfl, rfl⟩

theorem CI.handle {c : Cli} {es : List NEv} (h : CI c es) (env : Env) (m : Wire.Message) :
    CI (c.handle env m).2.1 (es ++ (c.handle env m).2.2.map .ev) := by
  have hsame : ∀ l : List CEv, CI c (es ++ l.map .ev) := fun l => h.same l rfl rfl rfl
  unfold Cli.handle
  split
  · split
    · rename_i cm _
      unfold Cli.processControl Cli.whenEstablished
      split
      · have := ack_same c cm.msgId cm.body
        exact h.same [] this.1 (by rw [this.2]) (by rw [this.2])
      · split
        · split
          · exact h.onMgr _ (by simp)
          · exact hsame []
        · exact hsame []
      · split
        · split
          · exact h.onMgr _ (by simp)
          · exact hsame []
        · exact hsame []
      · split
        · exact h.control _ (kind_ack _ _) rfl rfl rfl
        · exact hsame []
      · split
        · split
          · exact h.onMgr _ (by simp)
          · exact hsame []
        · exact hsame []
      · split
        · split
          · exact h.same [] rfl rfl rfl
          · exact hsame []
        · exact hsame []
      · split
        · exact h.control _ (kind_status _ _ _ _) rfl rfl rfl
        · exact hsame []
      · split
        · exact h.control _ (kind_report _ _ _ _ _) rfl rfl rfl
        · exact hsame []
      · split <;> exact hsame _
      · split <;> exact hsame _
      all_goals exact hsame []
    · exact hsame []
    · exact hsame []
  · unfold Cli.whenEstablished
    split
    · exact h.onMgr _ (by simp)
    · exact hsame []

theorem says_steps : Steps (fun _ _ => True) (fun _ => True) (fun c es _ => CI c es) (fun es _ => Ok es) where
  time _ _ _ _ h _ := h
  idle _ _ _ h := ⟨h.messages, h.mgr, h.ok⟩
  close _ _ _ h := ⟨h.messages, h.mgr, h.ok⟩
  timeout _ _ _ h _ _ := h.ok
  ping c es t h _ _ _ := h.control _ (kind_ping _) rfl rfl rfl
  check c es env _ h _ _ _ := by
    unfold Cli.checkForUpdates
    dsimp only
    split
    · exact h.control _ (kind_update _ _) rfl rfl rfl
    · exact h.same _ rfl rfl rfl
  ready c es t m h ho hr := by
    rcases ctxPoll_ready hr with ⟨ms, hm, h2⟩ | ⟨hm, hp, h2⟩ <;> rw [h2] <;> dsimp only
    · have hc : IsControl m := h.messages m (by rw [hm]; exact List.mem_cons_self)
      rw [List.map_nil, List.append_nil]
      exact ⟨fun x hx => h.messages x (by rw [hm]; exact List.mem_cons_of_mem _ hx), h.mgr.more _,
        h.ok.sent (.inl hc)⟩
    · obtain ⟨h3, h4⟩ := h.mgr.poll
      refine ⟨h.messages, (h3.more _).more _, (h.ok.ev _).sent ?_⟩
      rcases h4 m hp with h5 | ⟨h5, sid, ty, mac, a, h6, h7⟩
      · exact .inl h5
      · exact .inr ⟨h5, sid, ty, mac, a, List.mem_append_left _ h6, h7⟩
  pending c es t h ho hr := by
    obtain ⟨h1, h2, h3⟩ := ctxPoll_pending hr
    rw [h3]
    exact ⟨h.messages, (h.mgr.poll.1).more _, h.ok.ev _⟩
  io c es t sid o h _ := h.onMgr _ (by simp)
  recv c es env m _ h ho hok := by
    rw [show es ++ NEv.ev (.got m .ok) :: (c.handle env m).2.2.map .ev =
      (es ++ [CEv.got m .ok].map .ev) ++ (c.handle env m).2.2.map .ev by simp]
    exact CI.handle (h.same _ rfl rfl rfl) env m
  refused c es env m _ h ho hok := by
    rw [show es ++ NEv.ev (.got m (c.handle env m).1) :: (c.handle env m).2.2.map .ev =
      (es ++ [CEv.got m (c.handle env m).1].map .ev) ++ (c.handle env m).2.2.map .ev by simp]
    exact (CI.handle (h.same _ rfl rfl rfl) env m).ok

/-- C138: every message the client sends on a connection, whatever the server, the services and the other
threads do, is a control message of a kind that is the client's to send, or data of a session that was
opened before, under the service and the number of that session. -/
theorem C138_only_what_a_client_says (cfg : Cfg) (env : Env) (ops : List COp) (before after : List NEv)
    (m : Wire.Message) (h : (hist cfg env ops).2 = before ++ .sent m :: after) :
    IsControl m ∨ IsData before m := by
  have h0 : CI (Cli.new cfg env).1 [.ev (.queued env.now (register cfg env))] := by
    rw [new_eq]
    refine ⟨?_, ⟨?_, ?_⟩, ?_⟩
    · intro x hx
      rw [List.mem_singleton.1 hx]
      exact control_of_kind (kind_register cfg env)
    · intro x hx; cases hx
    · intro sid s hs; cases hs
    · exact Ok.ev (es := []) (fun pre m post he => by simp at he) [.queued env.now (register cfg env)]
  rcases hist_inv' says_steps cfg env ops h0 with ⟨c, t, hI, _⟩ | ⟨x, _, hJ⟩
  · exact hI.ok _ _ _ h
  · exact hJ _ _ _ h

theorem session_small {m : Wire.Message} {es : List NEv} (h : IsControl m ∨ IsData es m) :
    m.header.session.toNat < 2 ^ 24 := by
  rcases h with ⟨_, h, _⟩ | ⟨_, sid, _, _, _, _, h⟩
  · rw [h]; decide
  · rw [h]; exact Nat.mod_lt _ (by decide)

theorem sent_split {es : List NEv} {m : Wire.Message} (h : m ∈ sentBy es) : ∃ a b, es = a ++ .sent m :: b := by
  obtain ⟨e, he, hm⟩ := List.mem_filterMap.1 h
  cases e with
  | ev x => cases hm
  | sent x =>
    cases hm
    exact List.append_of_mem he

/-- C138: the bytes a server receives, cut into pieces in any way, are decoded to exactly the messages the
client sent, in their order, with nothing left over: none is split, merged, lost or renamed. The only
condition is that payloads fit the length field. -/
theorem C138_server_decodes (cfg : Cfg) (env : Env) (ops : List COp) (pieces : List Bytes)
    (hsize : ∀ m ∈ sentBy (hist cfg env ops).2, m.payload.length < 2 ^ 32)
    (hp : pieces.flatten = wire (hist cfg env ops).2) :
    ∃ ms, ms.map view = (sentBy (hist cfg env ops).2).map view ∧
      Wire.feedAll Wire.Reader.init pieces = (ms, Wire.Reader.init) := by
  have henc : ∀ l : List Wire.Message, l.flatMap Wire.Message.encode =
      (l.map fun m => (m.header.service, m.header.session, m.payload)).flatMap
        (fun x => (Wire.Message.new x.1 x.2.1 x.2.2).encode) := by
    intro l
    induction l with
    | nil => rfl
    | cons m l ih =>
      rw [List.flatMap_cons, List.map_cons, List.flatMap_cons, ih]
      simp only [Wire.Message.encode, Wire.Message.new, Wire.Header.new, mask24_idem]
  obtain ⟨ms, h1, h2⟩ := Props.Wire.C02_stream_of_messages
    ((sentBy (hist cfg env ops).2).map fun m => (m.header.service, m.header.session, m.payload)) pieces
    (by
      intro x hx
      obtain ⟨m, hm, rfl⟩ := List.mem_map.1 hx
      exact hsize m hm)
    (by rw [hp, wire, henc])
  refine ⟨ms, ?_, h2⟩
  refine h1.trans ?_
  rw [List.map_map]
  apply List.map_congr_left
  intro m hm
  obtain ⟨a, b, hab⟩ := sent_split hm
  have := session_small (C138_only_what_a_client_says cfg env ops a b m hab)
  show (_, _ % 2 ^ 24, _) = (_, _, _)
  rw [Nat.mod_eq_of_lt this]

/-- Non-vacuity of C138: session 7 of service 1 is opened and sends data: the last message sent. -/
example :
    let es := (hist demoCfg (demoEnv 0 0) (demoStart ++
      [.poll (.msg (demoEnv 2 0) (demoMsg 5 13 (be16 1 ++ be32 7))) [], .io 7 .connected,
        .io 7 (.transport (.ok [1, 2, 3]) .pending), .poll .pending []])).2
    (sentBy es).map (fun m => (m.header.service, m.header.session)) = [(0, 0), (1, 7)] ∧
    es.getLast? = some (.sent (Wire.Message.new 1 7 [1, 2, 3])) := by
  decide +kernel

/-- Non-vacuity of C138: a connection on which REGISTER and a PING are sent; the server decodes the bytes
one by one. -/
example :
    let es := (hist demoCfg (demoEnv 0 0) (demoStart ++ [.tick (demoEnv 60 0), .poll .pending []])).2
    (sentBy es).map (fun m => field m.payload 2 2) = [2, 1] ∧
    (∀ m ∈ sentBy es, m.payload.length < 2 ^ 32) ∧
    ((Wire.feedAll Wire.Reader.init ((wire es).map fun b => [b])).1.map view) = (sentBy es).map view := by
  decide +kernel

end Verif.Props.Stream
