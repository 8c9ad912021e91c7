import Verif.Spec.Busy
import Verif.Props.Progress
/-!
# C108: no busy loop

The tasks of a connection are polled a number of times that is bounded by what comes from outside.
-/
namespace Verif.Props.Busy
open Verif Verif.Control Verif.Session Verif.Client Verif.Tunnel Verif.Spec Verif.Spec.Busy
open Verif.Spec.SessionManager (HasOutput)
open Verif.Props.Client (hist demoCfg demoEnv demoMsg demoStart)

/-! ### Work left in a session -/

def dueAck (written : Nat) : Nat := if written = 0 then 0 else 1
def dueData (input : Bytes) (cap : Nat) : Nat := if input.take cap = [] then 0 else 1
def dueEnd (closed : Bool) : Nat := if closed then 1 else 0

/-- Messages a session has for the server at least: an acknowledgement, data, its end. -/
def due (c : Ctx) : Nat := dueAck c.written + dueData c.input c.inCap + dueEnd c.closed

theorem dueAck_le (n : Nat) : dueAck n ≤ 1 := by unfold dueAck; split <;> omega
theorem dueData_le (i : Bytes) (n : Nat) : dueData i n ≤ 1 := by unfold dueData; split <;> omega
theorem dueEnd_le (b : Bool) : dueEnd b ≤ 1 := by unfold dueEnd; split <;> omega

theorem due_close (c : Ctx) : due c.close.1 ≤ due c + 1 := by
  simp only [due, Ctx.close, Ctx.wakeTrans, Ctx.wakeMgr]
  have := dueEnd_le true
  omega

theorem due_setError (c : Ctx) (e : ConnErr) : due (c.setError e).1 ≤ due c + 1 := by
  rw [setError_eq]
  split
  · omega
  · simp only [due]
    have := dueEnd_le true
    omega

theorem due_push (c : Ctx) (d : Bytes) : due (c.push d).1 ≤ due c + 1 := by
  unfold Ctx.push
  split
  · exact Nat.le_add_right _ _
  · split
    · exact due_setError _ _
    · dsimp only
      split <;> exact Nat.le_add_right _ 1

theorem due_ack (c : Ctx) (n : Nat) : due (c.processDataAck n).1 ≤ due c + 1 := by
  simp only [due, Ctx.processDataAck, Ctx.wakeMgr]
  have := dueData_le c.input (c.inCap + n)
  omega

theorem dueData_after (c : Ctx) : dueData c.afterTake.input c.afterTake.inCap = 0 := by
  unfold dueData
  rw [if_pos]
  simp only [Ctx.afterTake]
  apply List.eq_nil_of_length_eq_zero
  simp only [List.length_take, List.length_drop]
  omega

/-- Taking a message reduces the work, and nothing to take means no work. -/
theorem due_take (c : Ctx) (n : Nat) :
    (∀ i, (c.take n).1 = .item i → due (c.take n).2.1 + 1 ≤ due c) ∧
    ((c.take n).1 = .pending → due (c.take n).2.1 ≤ due c) ∧
    ((c.take n).1 = .finished → 1 ≤ due c) ∧ (∀ e, (c.take n).1 = .err e → 1 ≤ due c) := by
  obtain ⟨h1, h2⟩ := take_cases n c
  rcases Nat.eq_zero_or_pos c.written with hz | hp
  · obtain ⟨-, -, k1, k2, k3, k4⟩ := h2 hz
    by_cases hd : c.input.take c.inCap = []
    · cases hc : c.closed with
      | false =>
        obtain ⟨e1, e2⟩ := k2 hd hc
        rw [e1, e2]
        refine ⟨nofun, fun _ => ?_, nofun, nofun⟩
        have := dueData_after c
        simp only [due]
        simp only [Ctx.afterTake] at this ⊢
        omega
      | true =>
        have : 1 ≤ due c := by unfold due dueEnd; rw [hc, if_pos rfl]; omega
        cases he : c.error with
        | none =>
          rw [(k3 hd hc he).1]
          exact ⟨nofun, nofun, fun _ => this, nofun⟩
        | some e =>
          rw [(k4 e hd hc he).1]
          exact ⟨nofun, nofun, nofun, fun _ _ => this⟩
    · obtain ⟨e1, e2⟩ := k1 hd
      rw [e1, e2]
      refine ⟨fun _ _ => ?_, nofun, nofun, nofun⟩
      have h3 := dueData_after c
      have h4 : dueData c.input c.inCap = 1 := by unfold dueData; rw [if_neg hd]
      simp only [due]
      simp only [Ctx.afterTake] at h3 ⊢
      omega
  · obtain ⟨e1, e2, -⟩ := h1 hp
    rw [e1, e2]
    refine ⟨fun _ _ => ?_, nofun, nofun, nofun⟩
    have h3 : dueAck c.written = 1 := by unfold dueAck; rw [if_neg (by omega)]
    have h4 : dueAck 0 = 0 := rfl
    simp only [due]
    omega

/-- What a transport poll adds: at most one message for each thing read, written or ended. -/
theorem due_io (s : Sess) (o : Io) : due (s.step o.op).1.ctx ≤ due s.ctx + (s.step o.op).2.length ∧
    ((s.step o.op).2 = [] → (s.step o.op).1.ghost.mgrIdle = s.ghost.mgrIdle) := by
  cases o with
  | connected =>
    simp only [Io.op, Sess.step]
    split <;> exact ⟨Nat.le_add_right _ _, fun _ => rfl⟩
  | connectFailed n =>
    simp only [Io.op, Sess.step]
    split
    · exact ⟨due_setError _ _, nofun⟩
    · exact ⟨Nat.le_add_right _ _, fun _ => rfl⟩
  | transport rd wr =>
    simp only [Io.op, Sess.step]
    split
    · rename_i hp
      by_cases hc : s.ctx.closed = true
      · simp only [if_pos hc]
        exact ⟨Nat.le_add_right _ _, fun _ => trivial⟩
      · simp only [if_neg hc]
        have hr : due (s.ctx.pollRead rd).1 ≤ due s.ctx + (readObs s.ctx rd).length ∧
            (readObs s.ctx rd = [] → (s.ctx.pollRead rd).2.1.mgr = false) := by
          unfold Ctx.pollRead readObs
          rw [if_neg hc]
          split
          · exact ⟨Nat.le_add_right _ _, fun _ => rfl⟩
          · cases rd with
            | pending => exact ⟨Nat.le_add_right _ _, fun _ => rfl⟩
            | ok bs =>
              dsimp only
              by_cases hb : bs = []
              · simp only [if_pos hb]
                refine ⟨?_, nofun⟩
                have := due_close s.ctx
                split
                · exact this
                · exact this
              · simp only [if_neg hb]
                refine ⟨?_, nofun⟩
                have := dueData_le (s.ctx.input ++ bs) s.ctx.inCap
                split
                · simp only [due, Ctx.wakeMgr, List.length_singleton]; omega
                · simp only [due, List.length_singleton]; omega
            | err n =>
              dsimp only
              refine ⟨?_, nofun⟩
              have := due_setError s.ctx (.io n)
              split
              · exact this
              · exact this
        have hw : ∀ c : Ctx, due (c.pollWrite wr).1 ≤ due c + (writeObs c wr).length ∧
            (writeObs c wr = [] → (c.pollWrite wr).2.1.mgr = false) := by
          intro c
          unfold Ctx.pollWrite writeObs
          split
          · split <;> exact ⟨Nat.le_add_right _ _, fun _ => rfl⟩
          · cases wr with
            | pending => exact ⟨Nat.le_add_right _ _, fun _ => rfl⟩
            | ok k =>
              refine ⟨?_, nofun⟩
              have := dueAck_le (c.written + min k c.output.length)
              simp only [due, Ctx.wakeMgr, List.length_singleton]; omega
            | err n => exact ⟨due_setError _ _, nofun⟩
        have hw' := hw (s.ctx.pollRead rd).1
        simp only [Ctx.pollTransport, if_neg hc, List.length_append]
        refine ⟨by omega, fun h0 => ?_⟩
        obtain ⟨h0, h1⟩ := List.append_eq_nil_iff.1 h0
        simp [Ghost.woken, Wakes.or, hr.2 h0, hw'.2 h1]
    · exact ⟨Nat.le_add_right _ _, fun _ => rfl⟩

/-! ### Work left in the session manager -/

/-- Sum of the work of the sessions. -/
def dueAll (m : AMap UInt32 Sess) : Nat := (m.map fun p => due p.2.ctx).sum

theorem dueAll_append (a b : AMap UInt32 Sess) : dueAll (a ++ b) = dueAll a + dueAll b := by simp [dueAll]

theorem dueAll_remove {m : AMap UInt32 Sess} (hn : m.keys.Nodup) {k : UInt32} {s : Sess}
    (h : m.get k = some s) : dueAll (m.remove k) + due s.ctx = dueAll m := by
  induction m with
  | nil => cases h
  | cons p m ih =>
    simp only [AMap.keys, List.map_cons, List.nodup_cons] at hn
    rw [AMap.get_cons] at h
    have e : dueAll (p :: m) = due p.2.ctx + dueAll m := by simp [dueAll]
    by_cases hp : p.1 = k
    · rw [if_pos hp] at h
      cases h
      have : AMap.remove (p :: m) k = m := by
        have h0 : AMap.get m k = none := by
          rw [AMap.get_none_iff]; exact hp ▸ hn.1
        have := AMap.remove_of_get_none h0
        unfold AMap.remove at this ⊢
        rw [List.filter_cons, if_neg (by simp [hp]), this]
      rw [this, e]; omega
    · rw [if_neg hp] at h
      have : AMap.remove (p :: m) k = p :: AMap.remove m k := by
        unfold AMap.remove; simp [hp]
      have e' : dueAll (p :: AMap.remove m k) = due p.2.ctx + dueAll (AMap.remove m k) := by simp [dueAll]
      rw [this, e, e', ← ih hn.2 h]; omega

theorem dueAll_insert {m : AMap UInt32 Sess} (hn : m.keys.Nodup) {k : UInt32} {s : Sess}
    (h : m.get k = some s) (t : Sess) : dueAll (m.insert k t) + due s.ctx = dueAll m + due t.ctx := by
  have := dueAll_remove hn h
  unfold AMap.insert
  rw [dueAll_append]
  have e : dueAll [(k, t)] = due t.ctx := by simp [dueAll]
  omega

theorem dueAll_new {m : AMap UInt32 Sess} {k : UInt32} (h : m.get k = none) (t : Sess) :
    dueAll (m.insert k t) = dueAll m + due t.ctx := by
  unfold AMap.insert
  rw [dueAll_append, AMap.remove_of_get_none h]
  simp [dueAll]

/-- Messages the manager has for the server at least. -/
def dueMgr (m : Mgr) : Nat := m.queue.length + dueAll m.sessions

theorem due_onSession {m : Mgr} (hn : m.sessions.keys.Nodup) {k : UInt32} {s : Sess}
    (h : m.sessions.get k = some s) (op : Op) :
    dueMgr (m.onSession k s op) + due s.ctx = dueMgr m + due (s.step op).1.ctx := by
  have := dueAll_insert hn h (s.step op).1
  simp only [dueMgr, Mgr.onSession]
  omega

theorem due_mgr {m : Mgr} (hn : m.sessions.keys.Nodup) (op : MOp) (h : op ≠ .poll) (hio : ∀ x o, op ≠ .io x o) :
    dueMgr (m.step op).1 ≤ dueMgr m + 1 := by
  cases op with
  | poll => exact absurd rfl h
  | io x o => exact absurd rfl (hio x o)
  | newId => exact Nat.le_add_right _ _
  | connect get svc sid =>
    simp only [Mgr.step, Mgr.connect]
    split
    · rename_i s addr ht
      have h0 : m.sessions.get sid = none := by
        unfold Mgr.connectTarget at ht
        split at ht
        · cases ht
        · rename_i h0; simpa using h0
      simp only [Mgr.wake, dueMgr, dueAll_new h0]
      have : due (Sess.new svc sid m.window).ctx = 0 := by simp [due, dueAck, dueData, dueEnd, Sess.new, Ctx.new]
      omega
    · simp [Mgr.wake, Mgr.createHup, dueMgr]; omega
  | send msg =>
    simp only [Mgr.step, Mgr.send]
    split
    · rename_i s hs
      have h1 := due_onSession hn hs (.push msg.payload)
      have h2 := due_push s.ctx msg.payload
      have e : (s.step (.push msg.payload)).1.ctx = (s.ctx.push msg.payload).1 := rfl
      rw [e] at h1
      dsimp only
      omega
    · simp [Mgr.wake, Mgr.createHup, dueMgr]; omega
  | close sid =>
    simp only [Mgr.step, Mgr.close]
    split
    · rename_i s hs
      have h1 : (m.onSession sid s .close).sessions.get sid = some (s.step .close).1 := AMap.get_insert_self _ _ _
      have h2 : (m.onSession sid s .close).sessions.keys.Nodup := AMap.nodup_insert hn _ _
      have h3 := dueAll_remove h2 h1
      have h4 := due_onSession hn hs .close
      have h5 := due_close s.ctx
      have e : (s.step .close).1.ctx = s.ctx.close.1 := rfl
      rw [e] at h3 h4
      simp only [dueMgr] at h4 ⊢
      omega
    · exact Nat.le_add_right _ _
  | dataAck sid len =>
    simp only [Mgr.step, Mgr.dataAck]
    split
    · rename_i s hs
      have h1 := due_onSession hn hs (.dataAck len.toNat)
      have h2 := due_ack s.ctx len.toNat
      have e : (s.step (.dataAck len.toNat)).1.ctx = (s.ctx.processDataAck len.toNat).1 := rfl
      rw [e] at h1
      dsimp only
      omega
    · exact Nat.le_add_right _ _

theorem due_poll {m : Mgr} (hn : m.sessions.keys.Nodup) :
    (m.poll.1 = .pending ∧ dueMgr m.poll.2.1 ≤ dueMgr m ∧ m.poll.2.1.idle = true) ∨
    (∃ d, m.poll.1 = .ready d ∧ dueMgr m.poll.2.1 + 1 ≤ dueMgr m) := by
  unfold Mgr.poll
  split
  · rename_i msg q hq
    refine .inr ⟨msg, rfl, ?_⟩
    simp only [dueMgr, hq, List.length_cons]; omega
  · refine pollLoop_cases (fun _ m' => m'.sessions.keys.Nodup ∧ dueMgr m' ≤ dueMgr m)
      (fun r => (r.1 = .pending ∧ dueMgr r.2.1 ≤ dueMgr m ∧ r.2.1.idle = true) ∨
        (∃ d, r.1 = .ready d ∧ dueMgr r.2.1 + 1 ≤ dueMgr m)) ?_ ?_ ?_ ?_ ?_ ?_ ?_ _ m ⟨hn, Nat.le_refl _⟩
    · intro m' h; exact .inl ⟨rfl, h.2, rfl⟩
    · intro k m' _ h; exact h
    · intro k m' sid rest _ _ h; exact h
    · intro k m' sid rest s _ hs ho h
      refine ⟨AMap.nodup_insert h.1 _ _, ?_⟩
      have h1 := dueAll_insert h.1 hs (s.step (.take m'.counter)).1
      have h2 := (due_take s.ctx m'.counter).2.1 ((take_pending_iff s m'.counter).2 ho)
      have e : (s.step (.take m'.counter)).1.ctx = (s.ctx.take m'.counter).2.1 := rfl
      rw [e] at h1
      have := h.2
      simp only [dueMgr] at this ⊢
      omega
    · intro k m' sid rest s _ hs hf h
      refine .inr ⟨_, rfl, ?_⟩
      have h1 := dueAll_remove h.1 hs
      have h2 := (due_take s.ctx m'.counter).2.2.1 hf
      have := h.2
      simp only [dueMgr] at this ⊢
      omega
    · intro k m' sid rest s i _ hs hf h
      refine .inr ⟨_, rfl, ?_⟩
      have h1 := dueAll_insert h.1 hs (s.step (.take m'.counter)).1
      have h2 := (due_take s.ctx m'.counter).1 i hf
      have e : (s.step (.take m'.counter)).1.ctx = (s.ctx.take m'.counter).2.1 := rfl
      rw [e] at h1
      have := h.2
      simp only [dueMgr] at this ⊢
      omega
    · intro k m' sid rest s e _ hs hf h
      refine .inr ⟨_, rfl, ?_⟩
      have h1 := dueAll_remove h.1 hs
      have h2 := (due_take s.ctx m'.counter).2.2.2 e hf
      have := h.2
      simp only [dueMgr] at this ⊢
      omega

theorem nodup_step {m : Mgr} (hn : m.sessions.keys.Nodup) (op : MOp) : (m.step op).1.sessions.keys.Nodup := by
  cases op with
  | newId => exact hn
  | io x o =>
    simp only [Mgr.step]
    split
    · exact AMap.nodup_insert hn _ _
    · exact hn
  | connect get svc sid =>
    simp only [Mgr.step, Mgr.connect]
    split
    · exact AMap.nodup_insert hn _ _
    · exact hn
  | send msg =>
    simp only [Mgr.step, Mgr.send]
    split
    · exact AMap.nodup_insert hn _ _
    · exact hn
  | close sid =>
    simp only [Mgr.step, Mgr.close]
    split
    · exact AMap.nodup_remove (AMap.nodup_insert hn _ _) _
    · exact hn
  | dataAck sid len =>
    simp only [Mgr.step, Mgr.dataAck]
    split
    · exact AMap.nodup_insert hn _ _
    · exact hn
  | poll =>
    simp only [Mgr.step, Mgr.poll]
    split
    · exact hn
    · exact pollLoop_cases (fun _ m' => m'.sessions.keys.Nodup) (fun r => r.2.1.sessions.keys.Nodup)
        (fun _ h => h) (fun _ _ _ h => h) (fun _ _ _ _ _ _ h => h)
        (fun _ _ _ _ _ _ _ _ h => AMap.nodup_insert h _ _) (fun _ _ _ _ _ _ _ _ h => AMap.nodup_remove h _)
        (fun _ _ _ _ _ _ _ _ _ h => AMap.nodup_insert h _ _)
        (fun _ _ _ _ _ _ _ _ _ h => AMap.nodup_remove h _) _ m hn

/-! ### Work left on the connection -/

/-- Messages there are for the server at least. -/
def work (c : Cli) : Nat := c.messages.length + dueMgr c.mgr

/-- Whether the sending task will be polled again by itself. -/
def awake (c : Cli) : Nat := if c.idle && c.mgr.idle then 0 else 1

theorem awake_le (c : Cli) : awake c ≤ 1 := by unfold awake; split <;> omega

abbrev Uniq (c : Cli) : Prop := c.mgr.sessions.keys.Nodup

/-- Messages handled, among the events of the client. -/
def gots (evs : List CEv) : Nat := (evs.filter fun | .got _ _ => true | _ => false).length

theorem gots_append (a b : List CEv) : gots (a ++ b) = gots a + gots b := by simp [gots]

theorem gots_mgr (l : List Ev) : gots (l.map .mgr) = 0 := by
  induction l with
  | nil => rfl
  | cons e l ih => simpa [gots] using ih

theorem gots_zero {evs : List CEv} (h : ∀ e ∈ evs, ∀ y o, e ≠ .got y o) : gots evs = 0 := by
  unfold gots
  rw [List.length_eq_zero_iff, List.filter_eq_nil_iff]
  intro e he
  cases e with
  | got y o => exact absurd rfl (h _ he y o)
  | _ => simp

theorem handle_work {c : Cli} (hn : Uniq c) (env : Env) (m : Wire.Message) (hok : (c.handle env m).1 = .ok) :
    Uniq (c.handle env m).2.1 ∧ work (c.handle env m).2.1 ≤ work c + 1 ∧ gots (c.handle env m).2.2 = 0 := by
  have H := handle_tunnelled c env m hok
  generalize (c.handle env m).2.1 = c' at H ⊢
  generalize (c.handle env m).2.2 = evs at H ⊢
  cases H with
  | mgr op h1 h2 =>
    refine ⟨nodup_step hn op, ?_, gots_mgr _⟩
    have hio : ∀ x o, op ≠ .io x o := by
      rintro x o rfl
      have := h2 x
      simp only [Spec.Tunnel.inboxOf, Spec.SessionLog.given, if_true] at this
      repeat' split at this
      all_goals first
        | (cases o <;> cases this)
        | cases this
    have := due_mgr hn op h1 hio
    simp only [work, Cli.onMgr]
    omega
  | quiet _ _ h1 h2 h3 h4 h5 h6 h7 =>
    refine ⟨by unfold Uniq; rw [h1]; exact hn, ?_, gots_zero h6⟩
    simp only [work, dueMgr, h1, h3]
    rcases h7 with h7 | ⟨y, -, h7⟩ <;> rw [h7]
    · omega
    · rw [List.length_append, List.length_singleton]; omega

theorem recv_work {c : Cli} (hn : Uniq c) (env : Env) (m : Wire.Message) (hok : (c.recv env m).1 = .ok) :
    Uniq (c.recv env m).2.1 ∧ work (c.recv env m).2.1 ≤ work c + gots (c.recv env m).2.2 := by
  unfold Cli.recv at hok ⊢
  split
  · exact ⟨hn, Nat.le_add_right _ _⟩
  · rename_i hc
    rw [if_neg hc] at hok
    obtain ⟨h1, h2, h3⟩ := handle_work hn env m hok
    refine ⟨h1, ?_⟩
    have e : gots (.got m (c.handle env m).1 :: (c.handle env m).2.2) = 1 + gots (c.handle env m).2.2 := by
      simp [gots]; omega
    dsimp only
    rw [e, h3]
    exact h2

theorem ctxPoll_work {c : Cli} (hn : Uniq c) :
    Uniq c.ctxPoll.2.1 ∧ gots c.ctxPoll.2.2 = 0 ∧
    (∀ m, c.ctxPoll.1 = .ready m → work c.ctxPoll.2.1 + 1 ≤ work c) ∧
    (c.ctxPoll.1 = .pending → work c.ctxPoll.2.1 ≤ work c ∧ awake c.ctxPoll.2.1 = 0) := by
  unfold Cli.ctxPoll
  split
  · exact ⟨hn, rfl, nofun, nofun⟩
  · split
    · rename_i m ms hm
      refine ⟨hn, rfl, fun _ _ => ?_, nofun⟩
      simp only [work, hm, List.length_cons]; omega
    · rename_i hm
      have hu : c.mgr.poll.2.1.sessions.keys.Nodup := nodup_step hn .poll
      rcases due_poll hn with ⟨h1, h2, h3⟩ | ⟨d, h1, h2⟩
      · simp only [h1]
        refine ⟨hu, gots_mgr _, nofun, fun _ => ⟨?_, ?_⟩⟩
        · simp only [work]; omega
        · simp [awake, h3]
      · simp only [h1]
        refine ⟨hu, gots_mgr _, fun _ _ => ?_, nofun⟩
        simp only [work]; omega

/-- The answers after which the connection goes on. -/
def GoesOn (p : Polled) : Prop := p = .pending ∨ ∃ m, p = .send m

theorem loop_work (ins : List Incoming) : ∀ {c : Cli}, Uniq c → GoesOn (c.pollLoop ins).1 →
    Uniq (c.pollLoop ins).2.1 ∧
    work (c.pollLoop ins).2.1 + awake (c.pollLoop ins).2.1 ≤ work c + gots (c.pollLoop ins).2.2 := by
  induction ins with
  | nil =>
    intro c hn hg
    obtain ⟨h1, h2, h3, h4⟩ := ctxPoll_work hn
    unfold Cli.pollLoop at hg ⊢
    cases hp : c.ctxPoll.1 with
    | ready m =>
      have := h3 m hp
      have := awake_le c.ctxPoll.2.1
      simp only [hp]
      exact ⟨h1, by omega⟩
    | done => simp [hp, GoesOn] at hg
    | pending =>
      obtain ⟨h5, h6⟩ := h4 hp
      simp only [hp]
      exact ⟨h1, by omega⟩
  | cons i ins ih =>
    intro c hn hg
    obtain ⟨h1, h2, h3, h4⟩ := ctxPoll_work hn
    unfold Cli.pollLoop at hg ⊢
    cases hp : c.ctxPoll.1 with
    | ready m =>
      have := h3 m hp
      have := awake_le c.ctxPoll.2.1
      simp only [hp]
      exact ⟨h1, by omega⟩
    | done => simp [hp, GoesOn] at hg
    | pending =>
      obtain ⟨h5, h6⟩ := h4 hp
      simp only [hp] at hg ⊢
      cases i with
      | msg env m =>
        dsimp only at hg ⊢
        cases ho : (c.ctxPoll.2.1.recv env m).1 with
        | ok =>
          simp only [ho] at hg ⊢
          obtain ⟨k1, k2⟩ := recv_work h1 env m ho
          obtain ⟨j1, j2⟩ := ih k1 hg
          refine ⟨j1, ?_⟩
          rw [gots_append, gots_append]
          omega
        | err e => simp [ho, GoesOn] at hg
        | panic => simp [ho, GoesOn] at hg
      | error e => simp [GoesOn] at hg
      | eof =>
        dsimp only at hg ⊢
        have j := ih (c := { c.ctxPoll.2.1 with closed := true }) h1 hg
        refine ⟨j.1, Nat.le_trans j.2 ?_⟩
        rw [gots_append]
        exact Nat.add_le_add h5 (Nat.le_add_left _ _)
      | pending => exact ⟨h1, by dsimp only; omega⟩

theorem poll_work {c : Cli} (hn : Uniq c) (first : Incoming) (ins : List Incoming) (hg : GoesOn (c.poll first ins).1) :
    Uniq (c.poll first ins).2.1 ∧
    work (c.poll first ins).2.1 + awake (c.poll first ins).2.1 ≤ work c + gots (c.poll first ins).2.2 := by
  have hn' : Uniq { c with idle := false } := hn
  have e : work { c with idle := false } = work c := rfl
  unfold Cli.poll at hg ⊢
  dsimp only at hg ⊢
  cases first with
  | msg env m =>
    dsimp only at hg ⊢
    cases ho : (({ c with idle := false } : Cli).recv env m).1 with
    | ok =>
      simp only [ho] at hg ⊢
      obtain ⟨k1, k2⟩ := recv_work hn' env m ho
      obtain ⟨j1, j2⟩ := loop_work ins k1 hg
      refine ⟨j1, ?_⟩
      rw [gots_append]
      omega
    | err e => simp [ho, GoesOn] at hg
    | panic => simp [ho, GoesOn] at hg
  | error e => simp [GoesOn] at hg
  | eof => exact loop_work ins (c := { c with idle := false, closed := true }) hn hg
  | pending => exact loop_work ins hn' hg

theorem time_work (c : Cli) (env : Env) : (c.timeEvent env).2.1.mgr.sessions = c.mgr.sessions ∧
    work (c.timeEvent env).2.1 ≤ work c + 2 := by
  have h1 : ∀ c : Cli, (c.sendPing env.now).1.mgr.sessions = c.mgr.sessions ∧
      work (c.sendPing env.now).1 ≤ work c + 1 := by
    intro c
    refine ⟨rfl, ?_⟩
    simp [Cli.sendPing, Cli.sendUnconfirmed, Cli.sendControl, Cli.nextId, Cli.wake, work, dueMgr, Mgr.step]
    omega
  have h2 : ∀ c : Cli, (c.checkForUpdates env).1.mgr.sessions = c.mgr.sessions ∧
      work (c.checkForUpdates env).1 ≤ work c + 1 := by
    intro c
    unfold Cli.checkForUpdates
    split
    · refine ⟨rfl, ?_⟩
      simp [Cli.sendUpdate, Cli.sendControl, Cli.nextId, Cli.wake, work, dueMgr, Mgr.step]
      omega
    · exact ⟨rfl, Nat.le_add_right _ _⟩
  unfold Cli.timeEvent
  dsimp only
  split <;> split
  · exact ⟨((h2 _).1).trans (h1 c).1, by have := (h2 (c.sendPing env.now).1).2; have := (h1 c).2; (try dsimp only at *); omega⟩
  · exact ⟨(h1 c).1, by have := (h1 c).2; (try dsimp only at *); omega⟩
  · exact ⟨(h2 c).1, by have := (h2 c).2; (try dsimp only at *); omega⟩
  · exact ⟨rfl, Nat.le_add_right _ _⟩

/-! ### The sending task -/

/-- Polls of the sending task that may still come. -/
def left : Conn → Nat
  | .live c => work c + awake c
  | _ => 0

def Good : Conn → Prop
  | .live c => Uniq c
  | _ => True

theorem handled_evs (evs : List CEv) (l : List NEv) (hl : ∀ e ∈ l, ∀ y o, e ≠ .ev (.got y o)) :
    ((evs.map NEv.ev ++ l).filter fun | .ev (.got _ _) => true | _ => false).length = gots evs := by
  rw [List.filter_append, List.length_append]
  have h0 : (l.filter fun | .ev (.got _ _) => true | _ => false) = ([] : List NEv) := by
    rw [List.filter_eq_nil_iff]
    intro e he
    split
    · rename_i y o; exact absurd rfl (hl _ he y o)
    · simp
  rw [h0, List.length_nil, Nat.add_zero]
  induction evs with
  | nil => rfl
  | cons e evs ih =>
    rw [List.map_cons, List.filter_cons]
    have e1 : gots (e :: evs) = gots [e] + gots evs := gots_append [e] evs
    rw [e1, ← ih]
    cases e <;> simp [gots] <;> omega

theorem sender_step (s : Conn) (op : COp) (h : Good s) :
    Good (s.step op).1 ∧
    left (s.step op).1 + polled s op ≤
      left s + handled s op + roused s op + 3 * ticked s op + 2 * serviced s op := by
  cases s with
  | over r => exact ⟨trivial, Nat.zero_le _⟩
  | closing r =>
    cases op <;> exact ⟨trivial, Nat.zero_le _⟩
  | live c =>
    have hn : Uniq c := h
    have hend : ∀ f ins (s' : Conn), (∀ c', s' ≠ .live c') → Good s' ∧
        left s' + polled (.live c) (.poll f ins) ≤ left (.live c) + roused (.live c) (.poll f ins) := by
      intro f ins s' hs
      have e : left s' = 0 ∧ Good s' := by
        cases s' with
        | live c' => exact absurd rfl (hs c')
        | _ => exact ⟨rfl, trivial⟩
      refine ⟨e.2, ?_⟩
      simp only [e.1, polled, left, roused, awake]
      split <;> omega
    cases op with
    | poll first ins =>
      have hp := poll_work hn first ins
      have hgo : GoesOn (c.poll first ins).1 → ∀ l, (∀ e ∈ l, ∀ y o, e ≠ .ev (.got y o)) →
          (c.step (.poll first ins)) = (.live (c.poll first ins).2.1, (c.poll first ins).2.2.map .ev ++ l) →
          Good ((Conn.live c).step (.poll first ins)).1 ∧
          left ((Conn.live c).step (.poll first ins)).1 + polled (.live c) (.poll first ins) ≤
            left (.live c) + handled (.live c) (.poll first ins) + roused (.live c) (.poll first ins) +
            3 * ticked (.live c) (.poll first ins) + 2 * serviced (.live c) (.poll first ins) := by
        intro hg l hl he
        obtain ⟨h1, h2⟩ := hp hg
        have hh : handled (.live c) (.poll first ins) = gots (c.poll first ins).2.2 := by
          simp only [handled, Conn.step, he]
          exact handled_evs _ _ hl
        simp only [Conn.step, he, hh]
        refine ⟨h1, ?_⟩
        simp only [left, polled, roused, ticked, serviced]
        have : awake c = if c.idle && c.mgr.idle then 0 else 1 := rfl
        rw [this]
        split <;> omega
      have hstop : ∀ s' l, (∀ c', s' ≠ Conn.live c') → c.step (.poll first ins) = (s', l) →
          Good ((Conn.live c).step (.poll first ins)).1 ∧
          left ((Conn.live c).step (.poll first ins)).1 + polled (.live c) (.poll first ins) ≤
            left (.live c) + handled (.live c) (.poll first ins) + roused (.live c) (.poll first ins) +
            3 * ticked (.live c) (.poll first ins) + 2 * serviced (.live c) (.poll first ins) := by
        intro s' l hs he
        obtain ⟨h1, h2⟩ := hend first ins s' hs
        simp only [Conn.step, he]
        exact ⟨h1, by omega⟩
      cases hr : (c.poll first ins).1 with
      | send m =>
        refine hgo (hr ▸ .inr ⟨m, rfl⟩) [.sent m] (by simp) ?_
        simp only [Cli.step, hr]
      | pending =>
        refine hgo (hr ▸ .inl rfl) [] (by simp) ?_
        simp only [Cli.step, hr, List.append_nil]
      | error e => exact hstop (.over (.error e)) ((c.poll first ins).2.2.map .ev) nofun (by simp only [Cli.step, hr])
      | done => exact hstop (.closing (c.poll first ins).2.1.result) ((c.poll first ins).2.2.map .ev) nofun (by simp only [Cli.step, hr])
      | panic => exact hstop (.over .panic) ((c.poll first ins).2.2.map .ev) nofun (by simp only [Cli.step, hr])
    | tick env =>
      simp only [Conn.step, Cli.step]
      split
      · exact ⟨trivial, Nat.zero_le _⟩
      · obtain ⟨h1, h2⟩ := time_work c env
        cases hr : (c.timeEvent env).1 with
        | ok =>
          dsimp only
          refine ⟨by show Uniq _; unfold Uniq; rw [h1]; exact hn, ?_⟩
          have := awake_le (c.timeEvent env).2.1
          simp only [left, polled, ticked]
          omega
        | err e => exact ⟨trivial, Nat.zero_le _⟩
        | panic => exact ⟨trivial, Nat.zero_le _⟩
    | io sid o =>
      refine ⟨nodup_step hn _, ?_⟩
      simp only [Conn.step, Cli.step, Cli.onMgr, left, polled, roused, ticked, serviced, servicedAt, session,
        if_true, Mgr.step]
      cases hs : c.mgr.sessions.get sid with
      | none => exact Nat.le_add_right _ _
      | some t =>
        obtain ⟨h1, h2⟩ := due_io t o
        have h3 := due_onSession hn hs o.op
        have h4 := awake_le { c with mgr := c.mgr.onSession sid t o.op }
        dsimp only
        simp only [work]
        by_cases h0 : (t.step o.op).2 = []
        · have h5 := h2 h0
          have : awake { c with mgr := c.mgr.onSession sid t o.op } = awake c := by
            simp only [awake, Mgr.onSession, h5]
            cases t.ghost.mgrIdle <;> cases c.mgr.idle <;> rfl
          rw [h0, List.length_nil] at h1
          rw [this]
          omega
        · have : 1 ≤ (t.step o.op).2.length := by
            cases hh : (t.step o.op).2 with
            | nil => exact absurd hh h0
            | cons _ _ => simp
          omega
    | sinkError e => exact ⟨trivial, Nat.zero_le _⟩
    | flushed => exact ⟨hn, Nat.le_add_right _ _⟩

theorem sender_total (ops : List COp) : ∀ s, Good s →
    total polled s ops ≤ left s + total handled s ops + total roused s ops + 3 * total ticked s ops +
      2 * total serviced s ops := by
  induction ops with
  | nil => intro s _; exact Nat.zero_le _
  | cons op ops ih =>
    intro s h
    obtain ⟨h1, h2⟩ := sender_step s op h
    have := ih _ h1
    simp only [total]
    omega

/-! ### The task of a session -/

/-- The task of session `sid` will be polled again by itself. -/
def restless (sid : UInt32) (s : Conn) : Nat :=
  match session s sid with
  | some t => if t.phase = .running ∧ t.ghost.transIdle = false then 1 else 0
  | none => 0

theorem restless_le (sid : UInt32) (s : Conn) : restless sid s ≤ 1 := by
  unfold restless
  split
  · split <;> omega
  · omega

/-- A poll of the transport that finds nothing to read and nothing to write leaves it waiting. -/
theorem quiet_poll (t : Sess) (rd : ReadRes) (wr : WriteRes) (hp : t.phase = .running)
    (h : (t.step (.transport rd wr)).2 = []) :
    ¬ ((t.step (.transport rd wr)).1.phase = .running ∧ (t.step (.transport rd wr)).1.ghost.transIdle = false) := by
  simp only [Sess.step, if_pos hp] at h ⊢
  by_cases hc : t.ctx.closed = true
  · simp [if_pos hc]
  · simp only [if_neg hc] at h ⊢
    obtain ⟨h1, h2⟩ := List.append_eq_nil_iff.1 h
    have hr : (t.ctx.pollRead rd).2.2 = false ∧ (t.ctx.pollRead rd).2.1.trans = false ∧
        (t.ctx.pollRead rd).1.closed = false := by
      unfold readObs at h1
      unfold Ctx.pollRead
      rw [if_neg hc]
      split
      · exact ⟨rfl, rfl, by simpa using hc⟩
      · rename_i hl
        rw [if_neg hl] at h1
        cases rd with
        | pending => exact ⟨rfl, rfl, by simpa using hc⟩
        | ok bs => dsimp only at h1; split at h1 <;> cases h1
        | err n => cases h1
    have hw : ((t.ctx.pollRead rd).1.pollWrite wr).2.2 = false ∧
        ((t.ctx.pollRead rd).1.pollWrite wr).2.1.trans = false := by
      unfold writeObs at h2
      unfold Ctx.pollWrite
      split
      · rw [if_neg (by rw [hr.2.2]; simp)]
        exact ⟨rfl, rfl⟩
      · rename_i hl
        rw [if_neg hl] at h2
        cases wr with
        | pending => exact ⟨rfl, rfl⟩
        | ok k => cases h2
        | err n => cases h2
    simp [Ctx.pollTransport, hc, hr.1, hr.2.1, hw.1, hw.2, Wakes.or]

theorem session_step (sid : UInt32) (s : Conn) (op : COp) :
    restless sid (s.step op).1 + driven sid s op ≤
      restless sid s + polled s op + connectedAt sid s op + rousedAt sid s op + servicedAt sid s op := by
  cases s with
  | over r =>
    have : driven sid (.over r) op = 0 := by
      unfold driven; split
      · rw [if_neg (by simp [session])]
      · rfl
    rw [this]
    exact Nat.zero_le _
  | closing r =>
    have : driven sid (.closing r) op = 0 := by
      unfold driven; split
      · rw [if_neg (by simp [session])]
      · rfl
    rw [this]
    cases op <;> exact Nat.zero_le _
  | live c =>
    cases op with
    | poll first ins =>
      have := restless_le sid ((Conn.live c).step (.poll first ins)).1
      simp only [driven, polled]
      omega
    | tick env =>
      simp only [Conn.step, Cli.step, driven]
      split
      · exact Nat.zero_le _
      · obtain ⟨h1, -⟩ := time_work c env
        cases hr : (c.timeEvent env).1 with
        | ok =>
          have : restless sid (.live (c.timeEvent env).2.1) = restless sid (.live c) := by
            simp only [restless, session, h1]
          dsimp only
          rw [this]
          omega
        | err e => exact Nat.zero_le _
        | panic => exact Nat.zero_le _
    | sinkError e => exact Nat.zero_le _
    | flushed => exact Nat.le_add_right _ _
    | io x o =>
      by_cases hx : x = sid
      · subst hx
        simp only [Conn.step, Cli.step, Cli.onMgr, Mgr.step]
        cases hs : c.mgr.sessions.get x with
        | none =>
          have h0 : restless x (.live c) = 0 := by simp [restless, session, hs]
          have h1 : driven x (.live c) (.io x o) = 0 := by
            unfold driven
            split
            · rw [if_neg]; simp [session, hs]
            · rfl
          dsimp only
          rw [h1]
          show restless x (.live c) + 0 ≤ _
          omega
        | some t =>
          have hr' : restless x (.live { c with mgr := c.mgr.onSession x t o.op }) =
              if (t.step o.op).1.phase = .running ∧ (t.step o.op).1.ghost.transIdle = false then 1 else 0 := by
            simp only [restless, session, Mgr.onSession, AMap.get_insert_self]
          have hr : restless x (.live c) = if t.phase = .running ∧ t.ghost.transIdle = false then 1 else 0 := by
            simp only [restless, session, hs]
          dsimp only
          rw [hr', hr]
          cases o with
          | connected =>
            simp only [driven, connectedAt, session, hs]
            simp
            split <;> omega
          | connectFailed n =>
            simp only [driven, Io.op, Sess.step]
            by_cases hp : t.phase = .connecting
            · simp [hp]
            · simp only [if_neg hp]; omega
          | transport rd wr =>
            simp only [driven, rousedAt, servicedAt, session, hs, Option.map_some, true_and, if_true]
            by_cases hp : t.phase = .running
            · have hq := quiet_poll t rd wr hp
              by_cases h0 : (t.step (.transport rd wr)).2 = []
              · have e : (Io.transport rd wr).op = .transport rd wr := rfl
                rw [e, if_neg (hq h0)]
                cases ht : t.ghost.transIdle <;> simp [hp] <;> omega
              · have : 1 ≤ (t.step (Io.transport rd wr).op).2.length := by
                  cases hh : (t.step (Io.transport rd wr).op).2 with
                  | nil => exact absurd hh h0
                  | cons _ _ => simp
                cases ht : t.ghost.transIdle <;> simp [hp] <;> split <;> omega
            · simp only [Io.op, Sess.step, if_neg hp]
              simp [hp]
      · have h0 : driven sid (.live c) (.io x o) = 0 := by
          cases o <;> simp [driven, hx]
        have h1 : restless sid ((Conn.live c).step (.io x o)).1 = restless sid (.live c) := by
          simp only [Conn.step, Cli.step, Cli.onMgr, Mgr.step]
          cases hs : c.mgr.sessions.get x with
          | none => rfl
          | some t =>
            simp only [restless, session, Mgr.onSession]
            rw [AMap.get_insert_ne _ _ (fun e => hx e.symm)]
        rw [h0, h1]
        omega

theorem session_total (sid : UInt32) (ops : List COp) : ∀ s,
    total (driven sid) s ops ≤ restless sid s + total polled s ops + total (connectedAt sid) s ops +
      total (rousedAt sid) s ops + total (servicedAt sid) s ops := by
  induction ops with
  | nil => intro s; exact Nat.zero_le _
  | cons op ops ih =>
    intro s
    have h1 := session_step sid s op
    have := ih (s.step op).1
    simp only [total]
    omega

/-! ### C108 -/

/-- C108: the task sending messages to the server is polled no more often than twice, plus once for each message of
the server that is handled and each wake-up from outside, three times for each timer event, and twice for each time
that something is read from or written to a service or the connection with it fails or ends. So it never spins. -/
theorem C108_sender_does_not_spin (cfg : Cfg) (env : Env) (ops : List COp) :
    let s := (Conn.start cfg env).1
    total polled s ops ≤ 2 + total handled s ops + total roused s ops + 3 * total ticked s ops +
      2 * total serviced s ops :=
  sender_total ops (Conn.start cfg env).1 List.nodup_nil

/-- C108: the task of a session is polled no more often than the sending task, plus once when its connection is made
and once for each wake-up by the service and each time that something is read from or written to the service or the
connection with it ends. So it does not spin either. -/
theorem C108_session_does_not_spin (cfg : Cfg) (env : Env) (ops : List COp) (sid : UInt32) :
    let s := (Conn.start cfg env).1
    total (driven sid) s ops ≤ total polled s ops + total (connectedAt sid) s ops + total (rousedAt sid) s ops +
      total (servicedAt sid) s ops := by
  have := session_total sid ops (Conn.start cfg env).1
  have e : restless sid (Conn.start cfg env).1 = 0 := rfl
  dsimp only
  omega

theorem good_run (ops : List COp) : ∀ s, Good s → Good (s.run ops).1 := by
  induction ops with
  | nil => intro s h; exact h
  | cons op ops ih => intro s h; exact ih _ (sender_step s op h).1

/-- C108: whatever happened so far, when nothing comes from outside any more (no message, no timer event, nothing read
from or written to a service, no wake-up from outside), there is a bound on how often the tasks are polled: the
connection comes to rest. (What has been done by then is the subject of C107.) -/
theorem C108_comes_to_rest (cfg : Cfg) (env : Env) (ops : List COp) :
    let s := (hist cfg env ops).1
    ∃ N, ∀ more, total handled s more = 0 → total roused s more = 0 → total ticked s more = 0 →
      total serviced s more = 0 → total polled s more ≤ N ∧
      ∀ sid, total (connectedAt sid) s more = 0 → total (rousedAt sid) s more = 0 →
        total (servicedAt sid) s more = 0 → total (driven sid) s more ≤ N + 1 := by
  intro s
  have hg : Good s := good_run ops (Conn.start cfg env).1 List.nodup_nil
  refine ⟨left s, fun more h1 h2 h3 h4 => ?_⟩
  have h5 := sender_total more s hg
  refine ⟨by omega, fun sid h6 h7 h8 => ?_⟩
  have h9 := session_total sid more s
  have := restless_le sid s
  omega

/-- Non-vacuity of C108: the counters of a connection with an open session that ends up waiting. Without anything from
outside the bound is 2. -/
example :
    let s := (Conn.start demoCfg (demoEnv 0 0)).1
    let ops := Props.Progress.doneOps
    total polled s ops = 10 ∧ total handled s ops = 4 ∧ total roused s ops = 2 ∧ total ticked s ops = 0 ∧
    total serviced s ops = 4 ∧ total (driven 7) s ops = 4 ∧ total (connectedAt 7) s ops = 1 ∧
    total (rousedAt 7) s ops = 0 ∧ total (servicedAt 7) s ops = 4 := by decide +kernel

/-- Non-vacuity of the last one: after what the connection above did before it came to rest, the sending task is polled
twice and the task of the session once, with nothing from outside. -/
example :
    let s := (hist demoCfg (demoEnv 0 0) (Props.Progress.doneOps.take 12)).1
    let more := Props.Progress.doneOps.drop 12
    total polled s more = 2 ∧ total (driven 7) s more = 1 ∧ total handled s more = 0 ∧ total roused s more = 0 ∧
    total ticked s more = 0 ∧ total serviced s more = 0 ∧ total (connectedAt 7) s more = 0 ∧
    total (rousedAt 7) s more = 0 ∧ total (servicedAt 7) s more = 0 := by decide +kernel

end Verif.Props.Busy
