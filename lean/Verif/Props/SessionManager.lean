import Verif.Lemmas.SessionManager
import Verif.Props.Session
import Verif.Props.Wire
/-!
# Properties of the session manager (C21-C28, C74)
-/
namespace Verif.Props.SessionManager
open Verif Verif.Session Verif.Spec.SessionManager
open Verif.Spec.Session (causes ends)
open Verif.Props.Session (life)

theorem loopback_iff (ip : IpAddr) : ip.isLoopback = true ↔ Loopback ip := by
  cases ip <;> simp [IpAddr.isLoopback, Loopback]

theorem hup_eq (id : UInt16) (sid code : UInt32) :
    (Control.mkHup id sid code).toArrow = hupMessage id sid code := by
  have : mask24 sid = UInt32.ofNat (sid.toNat % 2 ^ 24) := by
    apply UInt32.toNat.inj
    rw [mask24_toNat, UInt32.toNat_ofNat']
    omega
  have h0 : mask24 0 = 0 := by decide
  simp [h0, Control.mkHup, Control.ControlMessage.toArrow, Wire.Message.new, Wire.Header.new, hupMessage,
    Control.ControlMessage.encode, Control.Body.encode, this, Wire.protocolVersion]

/-- A manager after a history; the message counter may have any start value. -/
abbrev hist (gw : Bool) (W n : Nat) (ops : List MOp) : Mgr × List Ev × List PollRes :=
  (Mgr.new gw W n).run ops

theorem hist_inv (gw : Bool) (W n : Nat) (ops : List MOp) : MInv (hist gw W n ops).1 :=
  run_minv (MInv.new gw W n) ops

/-! ## C21 -/

/-- C21: a permitted CONNECT opens exactly one connection, to the address given by the service table,
and a fresh session under this id; nothing else changes and no message is queued. -/
theorem C21_connect_granted (m : Mgr) (table : UInt16 → Option Service) (svc : UInt16) (sid : UInt32)
    (s : Service) (addr : SocketAddr) (h : Allowed m table svc sid s addr) :
    let r := m.step (.connect table svc sid)
    r.2.1 = [.opened sid svc s.svcType (s.mac.getD ⟨0, 0, 0, 0, 0, 0⟩) addr] ∧
    r.1.sessions.get sid = some (Sess.new svc sid m.window) ∧
    (∀ x, x ≠ sid → r.1.sessions.get x = m.sessions.get x) ∧
    r.1.queue = m.queue ∧ r.1.counter = m.counter := by
  obtain ⟨h1, h2, h3, h4⟩ := h
  have ht : m.connectTarget table svc sid = some (s, addr) := by
    simp only [Mgr.connectTarget, h1, h2, h3, Option.isSome_none, Bool.false_eq_true, if_false]
    rw [if_neg]
    rw [← loopback_iff] at h4
    rcases h4 with h4 | h4 <;> simp [h4]
  simp only [Mgr.step, Mgr.connect, ht, Mgr.wake]
  refine ⟨rfl, AMap.get_insert_self _ _ _, fun x hx => AMap.get_insert_ne _ _ hx, ?_, ?_⟩ <;> trivial

/-- C21: any other CONNECT opens nothing, leaves all sessions as they are, and queues exactly one HUP
with EC_CONNECTION_ERROR (3) for the requested session id. -/
theorem C21_connect_refused (m : Mgr) (table : UInt16 → Option Service) (svc : UInt16) (sid : UInt32)
    (h : ∀ s addr, ¬ Allowed m table svc sid s addr) :
    let r := m.step (.connect table svc sid)
    r.2.1 = [.refused sid] ∧ r.1.sessions = m.sessions ∧ r.1.order = m.order ∧
    r.1.queue = m.queue ++ [hupMessage (UInt16.ofNat m.counter) sid 3] := by
  have ht : m.connectTarget table svc sid = none := by
    unfold Mgr.connectTarget
    split
    · rfl
    · rename_i h1
      split
      · rfl
      · rename_i s h2
        split
        · rfl
        · rename_i addr h3
          split
          · rfl
          · rename_i h4
            refine absurd ⟨by simpa using h1, h2, h3, ?_⟩ (h s addr)
            rw [← loopback_iff]
            cases hg : m.gateway <;> simp_all
  simp only [Mgr.step, Mgr.connect, ht, Mgr.wake, Mgr.createHup, hup_eq, Control.ecConnectionError]
  refine ⟨?_, ?_, ?_, ?_⟩ <;> trivial

/-- C21: a connection is opened iff the request is permitted. -/
theorem C21_opened_iff (m : Mgr) (table : UInt16 → Option Service) (svc : UInt16) (sid : UInt32) :
    openedAddrs (m.step (.connect table svc sid)).2.1 ≠ [] ↔
      ∃ s addr, Allowed m table svc sid s addr := by
  constructor
  · intro h
    apply Classical.byContradiction
    intro hn
    have := (C21_connect_refused m table svc sid (fun s a ha => hn ⟨s, a, ha⟩)).1
    rw [this] at h
    exact h rfl
  · rintro ⟨s, addr, h⟩
    rw [(C21_connect_granted m table svc sid s addr h).1]
    simp [openedAddrs]

/-- An HTTP service at a loopback and one at a LAN address, ids 1 and 2 (for examples). -/
def demoTable : UInt16 → Option Service := fun i =>
  if i = 1 then some (.http .zero ⟨.v4 127 0 0 1, 80⟩)
  else if i = 2 then some (.http .zero ⟨.v4 192 168 1 5, 80⟩)
  else if i = 0 then some .control else none

/-- Non-vacuity of C21: the loopback service is permitted without gateway mode, the other one only
with it; the control service has no address; ids in use are refused. -/
example : Allowed (Mgr.new false 65536 0) demoTable 1 7 (.http .zero ⟨.v4 127 0 0 1, 80⟩)
    ⟨.v4 127 0 0 1, 80⟩ ∧
    (hist false 65536 0 [.connect demoTable 1 7, .connect demoTable 1 7, .connect demoTable 2 8,
      .connect demoTable 0 9, .connect demoTable 3 10]).2.1 =
      [.opened 7 1 .http .zero ⟨.v4 127 0 0 1, 80⟩, .refused 7, .refused 8, .refused 9, .refused 10] ∧
    (hist true 65536 0 [.connect demoTable 2 8]).2.1 =
      [.opened 8 2 .http .zero ⟨.v4 192 168 1 5, 80⟩] := by
  refine ⟨⟨rfl, by decide, rfl, .inr rfl⟩, by decide +kernel, by decide +kernel⟩

/-! ## C22 -/

theorem openedAddrs_append (a b : List Ev) :
    openedAddrs (a ++ b) = openedAddrs a ++ openedAddrs b := by
  induction a with
  | nil => rfl
  | cons e a ih => cases e <;> simp [openedAddrs, ih]

theorem openedAddrs_poll (m : Mgr) : openedAddrs m.poll.2.2 = [] := by
  unfold Mgr.poll
  split
  · rfl
  · refine pollLoop_cases (fun _ _ => True) (fun r => openedAddrs r.2.2 = []) ?_ ?_ ?_ ?_ ?_ ?_ ?_
      _ m trivial
    all_goals intros; first | rfl | trivial

theorem openedAddrs_step (m : Mgr) (op : MOp) (hg : m.gateway = false) :
    ∀ a ∈ openedAddrs (m.step op).2.1, Loopback a.ip := by
  cases op with
  | connect table svc sid =>
    by_cases h : ∃ s addr, Allowed m table svc sid s addr
    · obtain ⟨s, addr, h⟩ := h
      rw [(C21_connect_granted m table svc sid s addr h).1]
      intro a ha
      simp only [openedAddrs, List.mem_singleton] at ha
      subst ha
      rcases h.2.2.2 with h | h
      · rw [hg] at h; cases h
      · exact h
    · rw [(C21_connect_refused m table svc sid (fun s a ha => h ⟨s, a, ha⟩)).1]
      intro a ha; cases ha
  | send msg => simp only [Mgr.step, Mgr.send]; split <;> (intro a ha; cases ha)
  | close sid => simp only [Mgr.step, Mgr.close]; split <;> (intro a ha; cases ha)
  | dataAck sid len => simp only [Mgr.step, Mgr.dataAck]; split <;> (intro a ha; cases ha)
  | io sid o => simp only [Mgr.step]; split <;> (intro a ha; cases ha)
  | poll => simp only [Mgr.step, openedAddrs_poll]; intro a ha; cases ha
  | newId => intro a ha; cases ha

/-- C22: without gateway mode every connection ever opened goes to a loopback address. -/
theorem C22_loopback_only (W n : Nat) (ops : List MOp) :
    ∀ a ∈ openedAddrs (hist false W n ops).2.1, Loopback a.ip := by
  have : ∀ (ops : List MOp) (m : Mgr), m.gateway = false →
      ∀ a ∈ openedAddrs (m.run ops).2.1, Loopback a.ip := by
    intro ops
    induction ops with
    | nil => intro m _ a ha; cases ha
    | cons o ops ih =>
      intro m hm a ha
      simp only [Mgr.run, openedAddrs_append, List.mem_append] at ha
      rcases ha with ha | ha
      · exact openedAddrs_step m o hm a ha
      · exact ih _ ((step_const m o).1.trans hm) a ha
  exact this ops _ rfl

/-- Non-vacuity of C22: connections are opened. -/
example : openedAddrs (hist false 65536 0 [.connect demoTable 1 7, .connect demoTable 2 8]).2.1 =
    [⟨.v4 127 0 0 1, 80⟩] := by decide +kernel

/-! ## C23 -/

/-- C23: a data message for an unknown session changes no session and queues exactly one HUP with
EC_CONNECTION_ERROR for its session id. -/
theorem C23_unknown_session (m : Mgr) (msg : Wire.Message)
    (h : m.sessions.get msg.header.session = none) :
    let r := m.step (.send msg)
    r.1.sessions = m.sessions ∧ r.2.1 = [.refused msg.header.session] ∧
    r.1.queue = m.queue ++ [hupMessage (UInt16.ofNat m.counter) msg.header.session 3] := by
  simp only [Mgr.step, Mgr.send, h, Mgr.wake, Mgr.createHup, hup_eq, Control.ecConnectionError]
  refine ⟨?_, ?_, ?_⟩ <;> trivial

/-- C23: a data message for an open session is given to this session and to no other, and queues
nothing. -/
theorem C23_known_session (m : Mgr) (msg : Wire.Message) (s : Sess)
    (h : m.sessions.get msg.header.session = some s) :
    let r := m.step (.send msg)
    r.1.sessions.get msg.header.session = some (s.step (.push msg.payload)).1 ∧
    (∀ x, x ≠ msg.header.session → r.1.sessions.get x = m.sessions.get x) ∧
    r.2.1 = [] ∧ r.1.queue = m.queue := by
  simp only [Mgr.step, Mgr.send, h, Mgr.onSession]
  refine ⟨AMap.get_insert_self _ _ _, fun x hx => AMap.get_insert_ne _ _ hx, ?_, ?_⟩ <;> trivial

/-- Non-vacuity of C23: one message for the open session 7 (which buffers it), one for session 9. -/
example :
    let m := (hist false 65536 0 [.connect demoTable 1 7, .send (Wire.Message.new 1 7 [1, 2]),
      .send (Wire.Message.new 1 9 [3])]).1
    (m.sessions.get 7).map (·.ctx.output) = some [1, 2] ∧ m.queue = [hupMessage 0 9 3] := by
  decide +kernel

/-! ## C24 -/

/-- C24: an operation addressed to one session leaves every other session as it is. -/
theorem C24_isolated (m : Mgr) (op : MOp) (sid : UInt32) (h : target op = some sid) (x : UInt32)
    (hx : x ≠ sid) : (m.step op).1.sessions.get x = m.sessions.get x := by
  have hon : ∀ (s : Sess) (o : Op), (m.onSession sid s o).sessions.get x = m.sessions.get x :=
    fun s o => AMap.get_insert_ne _ _ hx
  cases op <;> simp only [target, Option.some.injEq, reduceCtorEq] at h <;> subst h
  · simp only [Mgr.step, Mgr.connect]
    split
    · exact AMap.get_insert_ne _ _ hx
    · rfl
  · simp only [Mgr.step, Mgr.send]
    split
    · exact hon _ _
    · rfl
  · simp only [Mgr.step, Mgr.close]
    split
    · rw [AMap.get_remove_ne _ hx]; exact hon _ _
    · rfl
  · simp only [Mgr.step, Mgr.dataAck]
    split
    · exact hon _ _
    · rfl
  · simp only [Mgr.step]
    split
    · exact hon _ _
    · rfl

theorem sameData_refl (s : Sess) : SameData s s := ⟨rfl, rfl⟩

theorem sameData_trans {a b c : Sess} (h1 : SameData a b) (h2 : SameData b c) : SameData a c := by
  refine ⟨h2.1.trans h1.1, ?_⟩
  rw [h2.2]
  generalize c.ctx.mgrTask = x
  generalize c.ctx.transTask = y
  rw [h1.2]

theorem sameData_take (s : Sess) (n : Nat) (h : ¬ HasOutput s) :
    SameData s (s.step (.take n)).1 := by
  have hp := (take_pending_iff s n).mpr h
  obtain ⟨h1, h2⟩ := take_cases n s.ctx
  rcases Nat.eq_zero_or_pos s.ctx.written with hz | hpos
  · obtain ⟨-, -, ha, hb, hd, he⟩ := h2 hz
    by_cases hi : s.ctx.input.take s.ctx.inCap = []
    · cases hc : s.ctx.closed
      · have hk : min s.ctx.inCap s.ctx.input.length = 0 := by
          have := congrArg List.length hi
          simpa using this
        refine ⟨rfl, ?_⟩
        show (s.ctx.take n).2.1 = _
        simp only [Sess.step, (hb hi hc).2, Ctx.afterTake, hk, List.drop_zero, Nat.sub_zero]
      · exact absurd (.inr (.inr hc)) h
    · rw [(ha hi).1] at hp; cases hp
  · rw [(h1 hpos).1] at hp; cases hp

/-- C24: a poll of the manager changes only the session whose message it returns (up to stored wakers),
and removes no other. -/
theorem C24_poll_isolated (m : Mgr) (x : UInt32) (hx : x ∉ served (m.step .poll).2.1) :
    (∀ s, m.sessions.get x = some s →
      ∃ s', (m.step .poll).1.sessions.get x = some s' ∧ SameData s s') ∧
    (m.sessions.get x = none → (m.step .poll).1.sessions.get x = none) := by
  simp only [Mgr.step, Mgr.poll] at hx ⊢
  split at hx
  · exact ⟨fun s hs => ⟨s, hs, sameData_refl s⟩, fun h => h⟩
  · revert hx
    refine pollLoop_cases
      (fun _ m' => (∀ s, m.sessions.get x = some s →
          ∃ s', m'.sessions.get x = some s' ∧ SameData s s') ∧
        (m.sessions.get x = none → m'.sessions.get x = none))
      (fun r => x ∉ served r.2.2 → (∀ s, m.sessions.get x = some s →
          ∃ s', r.2.1.sessions.get x = some s' ∧ SameData s s') ∧
        (m.sessions.get x = none → r.2.1.sessions.get x = none)) ?_ ?_ ?_ ?_ ?_ ?_ ?_ _ m
        ⟨fun s hs => ⟨s, hs, sameData_refl s⟩, fun h => h⟩
    · intro m' h _; exact h
    · intro k m' _ h; exact h
    · intro k m' sid rest _ _ h; exact h
    · intro k m' sid rest t _ hg hno h
      by_cases hsid : x = sid
      · subst hsid
        constructor
        · intro s hs
          obtain ⟨s', h1, h2⟩ := h.1 s hs
          rw [hg] at h1
          cases h1
          exact ⟨_, AMap.get_insert_self _ _ _, sameData_trans h2 (sameData_take t _ hno)⟩
        · intro hn; rw [h.2 hn] at hg; cases hg
      · simp only [AMap.get_insert_ne _ _ hsid]; exact h
    · intro k m' sid rest t _ hg _ h hx
      have hsid : x ≠ sid := by simpa [served] using hx
      simp only [AMap.get_remove_ne _ hsid]; exact h
    · intro k m' sid rest t i _ hg _ h hx
      have hsid : x ≠ sid := by simpa [served] using hx
      simp only [AMap.get_insert_ne _ _ hsid]; exact h
    · intro k m' sid rest t e _ hg _ h hx
      have hsid : x ≠ sid := by simpa [served] using hx
      simp only [AMap.get_remove_ne _ hsid]; exact h

/-- Non-vacuity of C24: with two sessions, data for 7 leaves 8 alone; the poll serves 7 only. -/
example :
    let m := (hist true 65536 0 [.connect demoTable 1 7, .connect demoTable 2 8, .io 7 .connected,
      .io 8 .connected, .io 7 (.transport (.ok [5]) .pending)]).1
    target (.send (Wire.Message.new 1 7 [1])) = some 7 ∧
    served (m.step .poll).2.1 = [7] ∧ (m.sessions.get 8).isSome = true := by decide +kernel

/-! ## C25 -/

theorem after_append (sid : UInt32) (o : Bool) (a b : List Ev) :
    after sid o (a ++ b) = (after sid o a).bind (fun o' => after sid o' b) := by
  induction a generalizing o with
  | nil => rfl
  | cons e a ih =>
    simp only [List.cons_append, after]
    cases next sid o e with
    | none => rfl
    | some o' => exact ih o'

theorem after_onSession (m : Mgr) (sid x : UInt32) (s : Sess) (o : Op)
    (hs : m.sessions.get x = some s) :
    ((m.onSession x s o).sessions.get sid).isSome = (m.sessions.get sid).isSome := by
  simp only [Mgr.onSession, AMap.get_insert]
  split
  · rename_i h; subst h; simp [hs]
  · rfl

theorem after_step (m : Mgr) (op : MOp) (sid : UInt32) :
    after sid (m.sessions.get sid).isSome (m.step op).2.1 =
      some ((m.step op).1.sessions.get sid).isSome := by
  cases op with
  | connect table svc x =>
    by_cases h : ∃ s addr, Allowed m table svc x s addr
    · obtain ⟨s, addr, h⟩ := h
      obtain ⟨h1, h2, h3, -⟩ := C21_connect_granted m table svc x s addr h
      rw [h1]
      by_cases hx : x = sid
      · subst hx; simp [after, next, h2, h.1]
      · rw [h3 sid (Ne.symm hx)]; simp [after, next, hx]
    · obtain ⟨h1, h2, -⟩ := C21_connect_refused m table svc x (fun s a ha => h ⟨s, a, ha⟩)
      rw [h1, h2]; rfl
  | send msg =>
    simp only [Mgr.step, Mgr.send]
    split
    · rename_i s hs; rw [after_onSession m sid _ s _ hs]; rfl
    · rfl
  | close x =>
    simp only [Mgr.step, Mgr.close]
    split
    · rename_i s hs
      simp only [after, next]
      by_cases hx : x = sid
      · subst hx; simp [hs]
      · simp only [hx, if_false, AMap.get_remove_ne _ (Ne.symm hx), after_onSession m sid _ s _ hs]
    · rfl
  | dataAck x len =>
    simp only [Mgr.step, Mgr.dataAck]
    split
    · rename_i s hs; rw [after_onSession m sid _ s _ hs]; rfl
    · rfl
  | io x o =>
    simp only [Mgr.step]
    split
    · rename_i s hs; rw [after_onSession m sid _ s _ hs]; rfl
    · rfl
  | poll =>
    simp only [Mgr.step, Mgr.poll]
    split
    · rfl
    · refine pollLoop_cases (fun _ m' => (m'.sessions.get sid).isSome = (m.sessions.get sid).isSome)
        (fun r => after sid (m.sessions.get sid).isSome r.2.2 =
          some (r.2.1.sessions.get sid).isSome) ?_ ?_ ?_ ?_ ?_ ?_ ?_ _ m rfl
      · intro m' h; simp [after, h]
      · intro k m' _ h; exact h
      · intro k m' x rest _ _ h; exact h
      · intro k m' x rest t _ hg _ h
        simp only [AMap.get_insert]
        split
        · rename_i hx; subst hx; rw [← h, hg]; rfl
        · exact h
      · intro k m' x rest t _ hg _ h
        simp only [after, next, AMap.get_remove]
        by_cases hx : x = sid
        · subst hx; rw [← h, hg]; simp
        · simp [hx, Ne.symm hx, h]
      · intro k m' x rest t i _ hg _ h
        simp only [after, next, AMap.get_insert]
        by_cases hx : x = sid
        · subst hx; rw [← h, hg]; simp
        · simp [hx, Ne.symm hx, h]
      · intro k m' x rest t e _ hg _ h
        simp only [after, next, AMap.get_remove]
        by_cases hx : x = sid
        · subst hx; rw [← h, hg]; simp
        · simp [hx, Ne.symm hx, h]
  | newId => rfl

/-- C25: in every history the events of each session id form proper lives: messages only between
CONNECT and end, each end (HUP sent, or hung up by the server) at most once per CONNECT, nothing of the
session after it until the next CONNECT; and a session is open exactly if its latest life has not ended. -/
theorem C25_lives (gw : Bool) (W n : Nat) (ops : List MOp) (sid : UInt32) :
    after sid false (hist gw W n ops).2.1 =
      some ((hist gw W n ops).1.sessions.get sid).isSome := by
  have : ∀ (ops : List MOp) (m : Mgr), after sid (m.sessions.get sid).isSome (m.run ops).2.1 =
      some ((m.run ops).1.sessions.get sid).isSome := by
    intro ops
    induction ops with
    | nil => intro m; rfl
    | cons o ops ih =>
      intro m
      simp only [Mgr.run, after_append, after_step]
      exact ih _
  exact this ops (Mgr.new gw W n)

/-- C25: when a poll reports the end of a session, that session was open, had delivered everything it
could and had ended; the HUP is the only thing returned, has the session's id, and its code is 0 if the
first reason for the end was a clean close and 3 if it was an error. -/
theorem C25_hup (gw : Bool) (W n : Nat) (hW : W < 2 ^ 32) (ops : List MOp) (sid code : UInt32)
    (h : .ended sid code ∈ ((hist gw W n ops).1.step .poll).2.1) :
    ∃ s svc sops id, (hist gw W n ops).1.sessions.get sid = some s ∧
      s = (life svc sid W sops).1 ∧ s.ctx.closed = true ∧ s.ctx.written = 0 ∧
      (s.ctx.input = [] ∨ s.ctx.inCap = 0) ∧
      ((code = 0 ∧ (causes (life svc sid W sops).2).head? = some none) ∨
       (code = 3 ∧ ∃ e, (causes (life svc sid W sops).2).head? = some (some e))) ∧
      ((hist gw W n ops).1.step .poll).2.2 = [.ready (hupMessage id sid code)] ∧
      ((hist gw W n ops).1.step .poll).1.sessions.get sid = none := by
  have hinv := hist_inv gw W n ops
  have hw : (hist gw W n ops).1.window = W := (run_const _ ops).2
  generalize hm : (hist gw W n ops).1 = m at *
  -- the end of a session as seen by `take`
  have key : ∀ (t : Sess) (k : Nat), (∀ r, (t.ctx.take k).1 = r → r = .finished ∨ ∃ e, r = .err e) →
      t.ctx.closed = true ∧ t.ctx.written = 0 ∧ (t.ctx.input = [] ∨ t.ctx.inCap = 0) ∧
      ((t.ctx.take k).1 = .finished → t.ctx.error = none) ∧
      (∀ e, (t.ctx.take k).1 = .err e → t.ctx.error = some e) := by
    intro t k hr
    obtain ⟨h1, h2⟩ := take_cases k t.ctx
    rcases Nat.eq_zero_or_pos t.ctx.written with hz | hpos
    · obtain ⟨-, -, ha, hb, hd, he⟩ := h2 hz
      by_cases hi : t.ctx.input.take t.ctx.inCap = []
      · cases hc : t.ctx.closed
        · have := hr _ (hb hi hc).1; simp at this
        · refine ⟨rfl, hz, ?_, ?_, ?_⟩
          · rw [List.take_eq_nil_iff] at hi; exact hi.symm
          · intro h
            cases her : t.ctx.error with
            | none => rfl
            | some e => rw [(he e hi hc her).1] at h; cases h
          · intro e h
            cases her : t.ctx.error with
            | none => rw [(hd hi hc her).1] at h; cases h
            | some e' => rw [(he e' hi hc her).1] at h; cases h; rfl
      · have := hr _ (ha hi).1; simp at this
    · have := hr _ (h1 hpos).1; simp at this
  simp only [Mgr.step, Mgr.poll] at h ⊢
  split at h
  · cases h
  · revert h
    refine pollLoop_cases
      (fun _ m' => ∀ x t', m'.sessions.get x = some t' →
          ∃ t, m.sessions.get x = some t ∧ SameData t t')
      (fun r => .ended sid code ∈ r.2.2 → ∃ s svc sops id, m.sessions.get sid = some s ∧
        s = (life svc sid W sops).1 ∧ s.ctx.closed = true ∧ s.ctx.written = 0 ∧
        (s.ctx.input = [] ∨ s.ctx.inCap = 0) ∧
        ((code = 0 ∧ (causes (life svc sid W sops).2).head? = some none) ∨
         (code = 3 ∧ ∃ e, (causes (life svc sid W sops).2).head? = some (some e))) ∧
        [r.1] = [.ready (hupMessage id sid code)] ∧ r.2.1.sessions.get sid = none)
      ?_ ?_ ?_ ?_ ?_ ?_ ?_ _ m (fun x t ht => ⟨t, ht, sameData_refl t⟩)
    · intro m' _ h; cases h
    · intro k m' _ h; exact h
    · intro k m' x rest _ _ h; exact h
    · intro k m' x rest t _ hg hno h y t' ht'
      rcases get_insert_cases ht' with ⟨rfl, rfl⟩ | ⟨-, ht'⟩
      · obtain ⟨u, hu, hs⟩ := h _ _ hg
        exact ⟨u, hu, sameData_trans hs (sameData_take t _ hno)⟩
      · exact h _ _ ht'
    · intro k m' x rest t _ hg hf h he
      simp only [List.mem_singleton, Ev.ended.injEq] at he
      obtain ⟨rfl, rfl⟩ := he
      obtain ⟨u, hu, hs⟩ := h _ _ hg
      obtain ⟨svc, sops, hr, hends⟩ := hinv.reach _ _ hu
      rw [hw] at hr hends
      change u = (life svc sid W sops).1 at hr
      obtain ⟨k1, k2, k3, k4, -⟩ := key t m'.counter (fun r hr => .inl (hr.symm.trans hf))
      have e1 := hs.2
      rw [e1] at k1 k2 k3 k4
      have hI := Props.Session.inv svc sid W hW sops
      have herr := hI.err hends (by rw [← hr]; exact k1)
      rw [← hr] at herr
      refine ⟨u, svc, sops, _, hu, hr, k1, k2, k3, .inl ⟨rfl, ?_⟩, by rw [hup_eq],
        AMap.get_remove_self _ _⟩
      have k5 : u.ctx.error = none := k4 (by rw [← e1]; exact hf)
      rw [k5] at herr
      exact herr
    · intro k m' x rest t i _ hg hf h he
      simp at he
    · intro k m' x rest t e _ hg hf h he
      simp only [List.mem_singleton, Ev.ended.injEq] at he
      obtain ⟨rfl, rfl⟩ := he
      obtain ⟨u, hu, hs⟩ := h _ _ hg
      obtain ⟨svc, sops, hr, hends⟩ := hinv.reach _ _ hu
      rw [hw] at hr hends
      change u = (life svc sid W sops).1 at hr
      obtain ⟨k1, k2, k3, -, k4⟩ := key t m'.counter (fun r hr => .inr ⟨e, hr.symm.trans hf⟩)
      have e1 := hs.2
      rw [e1] at k1 k2 k3 k4
      have hI := Props.Session.inv svc sid W hW sops
      have herr := hI.err hends (by rw [← hr]; exact k1)
      rw [← hr] at herr
      refine ⟨u, svc, sops, _, hu, hr, k1, k2, k3, .inr ⟨rfl, e, ?_⟩, by rw [hup_eq],
        AMap.get_remove_self _ _⟩
      have k5 : u.ctx.error = some e := k4 e (by rw [← e1]; exact hf)
      rw [k5] at herr
      exact herr

/-- C25: a message returned for a session (data or DATA_ACK) is exactly what the session hands out, and
the session stays open. -/
theorem C25_sent (m : Mgr) (sid : UInt32) (i : Item) (h : .sent sid i ∈ (m.step .poll).2.1) :
    (m.step .poll).2.2 = [.ready i.toArrow] ∧ ((m.step .poll).1.sessions.get sid).isSome = true := by
  simp only [Mgr.step, Mgr.poll] at h ⊢
  split at h
  · cases h
  · revert h
    refine pollLoop_cases (fun _ _ => True) (fun r => .sent sid i ∈ r.2.2 →
      [r.1] = [.ready i.toArrow] ∧ (r.2.1.sessions.get sid).isSome = true) ?_ ?_ ?_ ?_ ?_ ?_ ?_ _ m
      trivial
    · intro m' _ h; cases h
    · intros; trivial
    · intros; trivial
    · intros; trivial
    · intro k m' x rest t _ hg hf h he; simp at he
    · intro k m' x rest t j _ hg hf h he
      simp only [List.mem_singleton, Ev.sent.injEq] at he
      obtain ⟨rfl, rfl⟩ := he
      exact ⟨rfl, by simp⟩
    · intro k m' x rest t e _ hg hf h he; simp at he

/-- C25: the server's HUP ends an open session without any message; it queues nothing. -/
theorem C25_server_hup (m : Mgr) (sid : UInt32) :
    let r := m.step (.close sid)
    r.1.sessions.get sid = none ∧ r.1.queue = m.queue ∧ r.2.2 = [] ∧
    r.2.1 = if (m.sessions.get sid).isSome then [.hungUp sid] else [] := by
  simp only [Mgr.step, Mgr.close]
  split
  · rename_i s hs
    exact ⟨AMap.get_remove_self _ _, rfl, trivial, by simp [hs]⟩
  · rename_i hs
    exact ⟨hs, rfl, trivial, by simp [hs]⟩

/-- Non-vacuity of C25: session 7 sends a byte, its service closes, the HUP with code 0 follows;
session 8 fails to connect (code 3); session 9 is hung up by the server and stays silent. -/
example : let h := hist true 65536 0 [.connect demoTable 1 7, .connect demoTable 2 8,
      .connect demoTable 2 9, .io 7 .connected, .io 7 (.transport (.ok [5]) .pending),
      .io 7 (.transport (.ok []) .pending), .io 8 (.connectFailed 1), .close 9, .poll, .poll, .poll,
      .poll]
    h.2.1.drop 3 = [.hungUp 9, .sent 7 (.data (Wire.Message.new 1 7 [5])), .ended 8 3, .ended 7 0] ∧
    h.2.2 = [.ready (Wire.Message.new 1 7 [5]), .ready (hupMessage 0 8 3),
      .ready (hupMessage 1 7 0), .pending] := by decide +kernel

/-! ## C26, C27 -/

/-- C27: in every reachable state every open session is in the rotation. -/
theorem C27_open_sessions_polled (gw : Bool) (W n : Nat) (ops : List MOp) (sid : UInt32) (s : Sess)
    (h : (hist gw W n ops).1.sessions.get sid = some s) : sid ∈ (hist gw W n ops).1.order :=
  (hist_inv gw W n ops).covered sid s h

/-- Non-vacuity of C27: a session id that is reopened after the server's HUP, with a stale entry in the
rotation. -/
example : let m := (hist true 65536 0 [.connect demoTable 1 7, .close 7, .connect demoTable 1 7]).1
    (m.sessions.get 7).isSome = true ∧ m.order = [7, 7] := by decide +kernel

/-- C26: in every reachable state a poll says "pending" only if there is no queued message and no open
session has anything to send. -/
theorem C26_pending_means_nothing_to_send (gw : Bool) (W n : Nat) (ops : List MOp)
    (h : ((hist gw W n ops).1.step .poll).2.2 = [.pending]) :
    (hist gw W n ops).1.queue = [] ∧
    ∀ sid s, (hist gw W n ops).1.sessions.get sid = some s → ¬ HasOutput s := by
  have hinv := hist_inv gw W n ops
  generalize (hist gw W n ops).1 = m at *
  simp only [Mgr.step, Mgr.poll] at h
  split at h
  · cases h
  · rename_i hq
    refine ⟨hq, ?_⟩
    revert h
    refine pollLoop_cases
      (fun k m' => (∀ x t, m.sessions.get x = some t →
          ∃ t', m'.sessions.get x = some t' ∧ SameData t t' ∧ x ∈ m'.order ∧
            (x ∈ m'.order.drop k → ¬ HasOutput t)))
      (fun r => [r.1] = [.pending] → ∀ x t, m.sessions.get x = some t → ¬ HasOutput t)
      ?_ ?_ ?_ ?_ ?_ ?_ ?_ _ m ?_
    · intro m' h _ x t ht
      obtain ⟨t', -, -, h3, h4⟩ := h x t ht
      exact h4 (by simpa using h3)
    · intro k m' ho h x t ht
      obtain ⟨t', -, -, h3, -⟩ := h x t ht
      rw [ho] at h3; cases h3
    · intro k m' sid rest ho hg h x t ht
      obtain ⟨t', h1, h2, h3, h4⟩ := h x t ht
      refine ⟨t', h1, h2, ?_, ?_⟩
      · rw [ho, List.mem_cons] at h3
        rcases h3 with rfl | h3
        · rw [hg] at h1; cases h1
        · exact h3
      · intro hm; exact h4 (by rw [ho, List.drop_succ_cons]; exact hm)
    · intro k m' sid rest u ho hg hno h x t ht
      obtain ⟨t', h1, h2, h3, h4⟩ := h x t ht
      by_cases hx : x = sid
      · subst hx
        rw [hg] at h1; cases h1
        refine ⟨_, AMap.get_insert_self _ _ _, sameData_trans h2 (sameData_take u _ hno), by simp,
          fun _ => ?_⟩
        unfold HasOutput at hno ⊢
        rw [h2.2] at hno
        exact hno
      · refine ⟨t', by rw [AMap.get_insert_ne _ _ hx]; exact h1, h2, ?_, ?_⟩
        · rw [ho, List.mem_cons] at h3
          simp [h3.resolve_left hx]
        · intro hm
          refine h4 ?_
          rw [ho, List.drop_succ_cons]
          simp only [List.drop_append] at hm
          rcases List.mem_append.mp hm with hm | hm
          · exact hm
          · have := List.mem_of_mem_drop hm
            simp only [List.mem_singleton] at this
            exact absurd this hx
    · intro k m' sid rest u _ _ _ _ h; cases h
    · intro k m' sid rest u i _ _ _ _ h; cases h
    · intro k m' sid rest u e _ _ _ _ h; cases h
    · intro x t ht
      exact ⟨t, ht, sameData_refl t, hinv.covered _ _ ht, fun hm => by simp at hm⟩

theorem served_append (a b : List Ev) : served (a ++ b) = served a ++ served b := by
  induction a with
  | nil => rfl
  | cons e a ih => cases e <;> simp [served, ih]

theorem idxOf_cons_ne' {a b : UInt32} {l : List UInt32} (h : b ≠ a) :
    (b :: l).idxOf a = l.idxOf a + 1 := by
  simp [List.idxOf_cons, beq_false_of_ne h]

theorem idxOf_append_of_mem' {a : UInt32} {l1 l2 : List UInt32} (h : a ∈ l1) :
    (l1 ++ l2).idxOf a = l1.idxOf a := by
  rw [List.idxOf_append, if_pos h]

/-- A ready session at position `i` of the rotation: the poll serves it, or some session before it. -/
theorem pollLoop_serves (sid : UInt32) (k : Nat) (m : Mgr) (s : Sess)
    (hs : m.sessions.get sid = some s) (ho : HasOutput s) (hmem : sid ∈ m.order)
    (hk : m.order.idxOf sid < k) :
    (∃ msg, (m.pollLoop k).1 = .ready msg) ∧
    (served (m.pollLoop k).2.2 = [sid] ∨
      (∃ x, x ≠ sid ∧ served (m.pollLoop k).2.2 = [x]) ∧
      (m.pollLoop k).2.1.sessions.get sid = some s ∧ sid ∈ (m.pollLoop k).2.1.order ∧
      (m.pollLoop k).2.1.order.idxOf sid < m.order.idxOf sid) := by
  refine pollLoop_cases
    (fun k m' => m'.sessions.get sid = some s ∧ sid ∈ m'.order ∧ m'.order.idxOf sid < k ∧
      m'.order.idxOf sid ≤ m.order.idxOf sid)
    (fun r => (∃ msg, r.1 = .ready msg) ∧ (served r.2.2 = [sid] ∨
      (∃ x, x ≠ sid ∧ served r.2.2 = [x]) ∧ r.2.1.sessions.get sid = some s ∧ sid ∈ r.2.1.order ∧
      r.2.1.order.idxOf sid < m.order.idxOf sid))
    ?_ ?_ ?_ ?_ ?_ ?_ ?_ k m ⟨hs, hmem, hk, Nat.le_refl _⟩
  · rintro m' ⟨-, -, h, -⟩; omega
  · rintro k m' ho ⟨-, h, -⟩; rw [ho] at h; cases h
  · rintro k m' x rest hord hg ⟨h1, h2, h3, h4⟩
    have hx : x ≠ sid := by rintro rfl; rw [hg] at h1; cases h1
    rw [hord, List.mem_cons] at h2
    rw [hord, idxOf_cons_ne' hx] at h3 h4
    exact ⟨h1, h2.resolve_left hx.symm, by simp only; omega, by simp only; omega⟩
  · rintro k m' x rest t hord hg hno ⟨h1, h2, h3, h4⟩
    have hx : x ≠ sid := by rintro rfl; rw [hg] at h1; cases h1; exact hno ho
    rw [hord, List.mem_cons] at h2
    have h2' := h2.resolve_left hx.symm
    rw [hord, idxOf_cons_ne' hx] at h3 h4
    have : (rest ++ [x]).idxOf sid = rest.idxOf sid := idxOf_append_of_mem' h2'
    exact ⟨by rw [AMap.get_insert_ne _ _ hx.symm]; exact h1, by simp [h2'],
      by simp only [this]; omega, by simp only [this]; omega⟩
  · rintro k m' x rest t hord hg - ⟨h1, h2, h3, h4⟩
    refine ⟨⟨_, rfl⟩, ?_⟩
    by_cases hx : x = sid
    · left; simp [served, hx]
    · right
      rw [hord, List.mem_cons] at h2
      have h2' := h2.resolve_left (Ne.symm hx)
      rw [hord, idxOf_cons_ne' hx] at h3 h4
      exact ⟨⟨x, hx, rfl⟩, by simp only [AMap.get_remove_ne _ (Ne.symm hx)]; exact h1, h2', by
        simp only; omega⟩
  · rintro k m' x rest t i hord hg - ⟨h1, h2, h3, h4⟩
    refine ⟨⟨_, rfl⟩, ?_⟩
    by_cases hx : x = sid
    · left; simp [served, hx]
    · right
      rw [hord, List.mem_cons] at h2
      have h2' := h2.resolve_left (Ne.symm hx)
      rw [hord, idxOf_cons_ne' hx] at h3 h4
      have : (rest ++ [x]).idxOf sid = rest.idxOf sid := idxOf_append_of_mem' h2'
      exact ⟨⟨x, hx, rfl⟩, by simp only [AMap.get_insert_ne _ _ (Ne.symm hx)]; exact h1,
        by simp [h2'], by simp only [this]; omega⟩
  · rintro k m' x rest t e hord hg - ⟨h1, h2, h3, h4⟩
    refine ⟨⟨_, rfl⟩, ?_⟩
    by_cases hx : x = sid
    · left; simp [served, hx]
    · right
      rw [hord, List.mem_cons] at h2
      have h2' := h2.resolve_left (Ne.symm hx)
      rw [hord, idxOf_cons_ne' hx] at h3 h4
      exact ⟨⟨x, hx, rfl⟩, by simp only [AMap.get_remove_ne _ (Ne.symm hx)]; exact h1, h2', by
        simp only; omega⟩

/-- A ready session in the rotation stays ready, in the rotation, and every message of another session
brings it at least one position forward - unless the server hangs it up or it is served. -/
theorem ready_step (m : Mgr) (op : MOp) (sid : UInt32) (s : Sess)
    (hs : m.sessions.get sid = some s) (ho : HasOutput s) (hmem : sid ∈ m.order)
    (hop : ∀ x, op = .close x → x ≠ sid) (hns : sid ∉ served (m.step op).2.1) :
    (∃ s', (m.step op).1.sessions.get sid = some s' ∧ HasOutput s') ∧ sid ∈ (m.step op).1.order ∧
    (m.step op).1.order.idxOf sid + (served (m.step op).2.1).length ≤ m.order.idxOf sid ∧
    .pending ∉ (m.step op).2.2 := by
  have hon : ∀ (x : UInt32) (t : Sess) (o : Op), m.sessions.get x = some t → (∀ n, o ≠ .take n) →
      ∃ s', (m.onSession x t o).sessions.get sid = some s' ∧ HasOutput s' := by
    intro x t o ht hno
    simp only [Mgr.onSession, AMap.get_insert]
    split
    · rename_i h; subst h
      rw [hs] at ht; cases ht
      exact ⟨_, rfl, hasOutput_step s o hno ho⟩
    · exact ⟨s, hs, ho⟩
  cases op with
  | connect table svc x =>
    by_cases h : ∃ u addr, Allowed m table svc x u addr
    · obtain ⟨u, addr, h⟩ := h
      have hx : x ≠ sid := by rintro rfl; rw [h.1] at hs; cases hs
      obtain ⟨h1, -, h3, -⟩ := C21_connect_granted m table svc x u addr h
      refine ⟨⟨s, by rw [h3 sid hx.symm]; exact hs, ho⟩, ?_⟩
      have horder : (m.step (.connect table svc x)).1.order = m.order ++ [x] := by
        have : m.connectTarget table svc x = some (u, addr) := by
          cases hc : m.connectTarget table svc x with
          | none =>
            have h1' := h1
            simp only [Mgr.step, Mgr.connect, hc] at h1'
            simp at h1'
          | some p =>
            simp only [Mgr.step, Mgr.connect, hc] at h1
            have := h.2.1
            unfold Mgr.connectTarget at hc
            simp only [h.1, h.2.1, h.2.2.1, Option.isSome_none, Bool.false_eq_true, if_false] at hc
            split at hc
            · cases hc
            · exact hc.symm
        simp [Mgr.step, Mgr.connect, this, Mgr.wake]
      rw [horder, h1, idxOf_append_of_mem' hmem]
      exact ⟨by simp [hmem], by simp [served], by simp [Mgr.step]⟩
    · obtain ⟨h1, h2, h3, -⟩ := C21_connect_refused m table svc x (fun u a ha => h ⟨u, a, ha⟩)
      rw [h1, h2, h3]
      exact ⟨⟨s, hs, ho⟩, hmem, by simp [served], by simp [Mgr.step]⟩
  | send msg =>
    simp only [Mgr.step, Mgr.send]
    split
    · rename_i t ht
      exact ⟨hon _ t _ ht (fun n h => by cases h), hmem, by simp [served, Mgr.onSession], by simp⟩
    · exact ⟨⟨s, hs, ho⟩, hmem, by simp [served, Mgr.wake, Mgr.createHup], by simp⟩
  | close x =>
    have hx := hop x rfl
    simp only [Mgr.step, Mgr.close]
    split
    · rename_i t ht
      refine ⟨?_, hmem, by simp [served, Mgr.onSession], by simp⟩
      simp only [AMap.get_remove_ne _ hx.symm]
      exact hon x t _ ht (fun n h => by cases h)
    · exact ⟨⟨s, hs, ho⟩, hmem, by simp [served], by simp⟩
  | dataAck x len =>
    simp only [Mgr.step, Mgr.dataAck]
    split
    · rename_i t ht
      exact ⟨hon _ t _ ht (fun n h => by cases h), hmem, by simp [served, Mgr.onSession], by simp⟩
    · exact ⟨⟨s, hs, ho⟩, hmem, by simp [served], by simp⟩
  | io x o =>
    simp only [Mgr.step]
    split
    · rename_i t ht
      exact ⟨hon _ t _ ht (fun n h => by cases o <;> cases h), hmem,
        by simp [served, Mgr.onSession], by simp⟩
    · exact ⟨⟨s, hs, ho⟩, hmem, by simp [served], by simp⟩
  | poll =>
    simp only [Mgr.step, Mgr.poll] at hns ⊢
    split at hns
    · exact ⟨⟨s, hs, ho⟩, hmem, by simp [served], by simp⟩
    · obtain ⟨⟨msg, h0⟩, h1 | ⟨⟨x, -, h1⟩, h2, h3, h4⟩⟩ := pollLoop_serves sid m.order.length m s hs ho hmem
        (List.idxOf_lt_length_of_mem hmem)
      · rw [h1] at hns; simp at hns
      · rw [h0, h1]
        exact ⟨⟨s, h2, ho⟩, h3, by simp only [List.length_singleton]; omega, by simp⟩
  | newId => exact ⟨⟨s, hs, ho⟩, hmem, by simp [Mgr.step, served], by simp [Mgr.step]⟩

/-- C26: a session that has something to send, and is not hung up by the server, is passed over at most
as often as its position in the rotation: in every history during which it is not served, the sessions
served instead are at most that many, and no poll says "pending". -/
theorem C26_bounded_bypass (gw : Bool) (W n : Nat) (pre ops : List MOp) (sid : UInt32) (s : Sess)
    (hs : (hist gw W n pre).1.sessions.get sid = some s) (ho : HasOutput s)
    (hop : ∀ x, .close x ∈ ops → x ≠ sid)
    (hns : sid ∉ served ((hist gw W n pre).1.run ops).2.1) :
    (served ((hist gw W n pre).1.run ops).2.1).length ≤ (hist gw W n pre).1.order.idxOf sid ∧
    (hist gw W n pre).1.order.idxOf sid < (hist gw W n pre).1.order.length ∧
    .pending ∉ ((hist gw W n pre).1.run ops).2.2 := by
  have hmem := (hist_inv gw W n pre).covered sid s hs
  generalize (hist gw W n pre).1 = m at *
  have : ∀ (ops : List MOp) (m : Mgr) (s : Sess), m.sessions.get sid = some s → HasOutput s →
      sid ∈ m.order → (∀ x, .close x ∈ ops → x ≠ sid) → sid ∉ served (m.run ops).2.1 →
      (served (m.run ops).2.1).length ≤ m.order.idxOf sid ∧ .pending ∉ (m.run ops).2.2 := by
    intro ops
    induction ops with
    | nil => intro m s _ _ _ _ _; exact ⟨by simp [Mgr.run, served], by simp [Mgr.run]⟩
    | cons o ops ih =>
      intro m s hs ho hmem hop hns
      simp only [Mgr.run, served_append, List.mem_append, not_or] at hns
      obtain ⟨⟨s', h1, h2⟩, h3, h4, h5⟩ := ready_step m o sid s hs ho hmem
        (fun x hx => hop x (hx ▸ List.mem_cons_self)) hns.1
      obtain ⟨h6, h7⟩ := ih _ s' h1 h2 h3 (fun x hx => hop x (List.mem_cons_of_mem _ hx)) hns.2
      simp only [Mgr.run, served_append, List.length_append, List.mem_append, not_or]
      exact ⟨by omega, h5, h7⟩
  obtain ⟨h1, h2⟩ := this ops m s hs ho hmem hop hns
  exact ⟨h1, List.idxOf_lt_length_of_mem hmem, h2⟩

/-- Non-vacuity of C26: sessions 7 and 8 both have data; 8 is second, the first poll serves 7, the
second one 8. -/
example :
    let m := (hist true 65536 0 [.connect demoTable 1 7, .connect demoTable 2 8, .io 7 .connected,
      .io 8 .connected, .io 7 (.transport (.ok [5]) .pending), .io 8 (.transport (.ok [6]) .pending),
      .io 7 (.transport (.ok [5]) .pending)]).1
    m.order.idxOf 8 = 1 ∧ (m.sessions.get 8).map (fun s => decide (s.ctx.input ≠ [])) = some true ∧
    served (m.run [.poll]).2.1 = [7] ∧ served (m.run [.poll, .poll]).2.1 = [7, 8] := by
  decide +kernel

/-! ## C28 -/

/-- C28 is false: CONNECT with a session id of more than 24 bits opens a session, but no message the
decoder can produce carries that id, so no data can ever be addressed to it. -/
theorem C28_false_unreachable_session (sid : UInt32) (h : 2 ^ 24 ≤ sid.toNat) :
    (hist true 65536 0 [.connect demoTable 1 sid]).2.1 =
      [.opened sid 1 .http .zero ⟨.v4 127 0 0 1, 80⟩] ∧
    ∀ (buf rest : Bytes) (msg : Wire.Message), Wire.decode 64 buf = (.ok (some msg), rest) →
      msg.header.session ≠ sid := by
  constructor
  · rfl
  · intro buf rest msg hd
    intro e
    have h3 := Props.Wire.C03_decode_exact buf
    have : msg.header.session.toNat < 2 ^ 24 := by
      by_cases h11 : buf.length < 11
      · rw [h3.1 h11] at hd; cases hd
      · by_cases hv : buf[0]? = some 2
        · by_cases hl : buf.length < 11 + Spec.field buf 7 4
          · rw [h3.2.2.1 (by omega) hv hl] at hd; cases hd
          · obtain ⟨m, h4, -, h5, -⟩ := h3.2.2.2 (by omega) hv (by omega)
            rw [h4] at hd; cases hd
            omega
        · rw [h3.2.1 (by omega) hv] at hd; cases hd
    rw [e] at this
    omega

/-- C28, the part that holds (`_partial`: only for session ids below 2^24): the data message for the id
of an open session reaches this session over the wire. -/
theorem C28_addressable_partial (m : Mgr) (sid : UInt32) (s : Sess) (svc : UInt16) (payload : Bytes)
    (h24 : sid.toNat < 2 ^ 24) (hp : payload.length < 2 ^ 32) (hs : m.sessions.get sid = some s) :
    ∃ msg, Wire.decode 64 (Wire.Message.new svc sid payload).encode = (.ok (some msg), []) ∧
      (m.step (.send msg)).1.sessions.get sid = some (s.step (.push payload)).1 := by
  obtain ⟨msg, hd, -, h1, h2⟩ := Props.Wire.C01_message_round_trip svc sid payload [] hp
  rw [List.append_nil] at hd
  refine ⟨msg, hd, ?_⟩
  replace h1 : msg.header.session = sid := UInt32.toNat.inj (by omega)
  have := C23_known_session m msg s (by rw [h1]; exact hs)
  rw [h1, h2] at this
  exact this.1

/-- Non-vacuity of C28. -/
example : (2 : Nat) ^ 24 ≤ (0x1000007 : UInt32).toNat ∧ (7 : UInt32).toNat < 2 ^ 24 := by decide

/-! ## C74 -/

/-- C74: as long as the consumer of the manager's messages has been told "pending" and has not been woken
since, polling again would still say "pending": no message, no new session and no change of a session is
missed. -/
theorem C74_manager_not_forgotten (gw : Bool) (W n : Nat) (ops : List MOp)
    (h : (hist gw W n ops).1.idle = true) :
    ((hist gw W n ops).1.step .poll).2.2 = [.pending] := by
  have hinv := hist_inv gw W n ops
  generalize (hist gw W n ops).1 = m at *
  obtain ⟨hq, -, hidle⟩ := hinv.idle h
  have hno : ∀ sid s, m.sessions.get sid = some s → ¬ HasOutput s := by
    intro sid s hs
    obtain ⟨svc, sops, rfl, -⟩ := hinv.reach sid s hs
    rw [← take_pending_iff _ 0]
    exact Props.Session.C19_manager_not_forgotten svc sid m.window sops (hidle sid _ hs) 0
  simp only [Mgr.step, Mgr.poll, hq]
  refine pollLoop_cases (fun _ m' => ∀ sid s, m'.sessions.get sid = some s → ¬ HasOutput s)
    (fun r => [r.1] = [.pending]) ?_ ?_ ?_ ?_ ?_ ?_ ?_ _ m hno
  · intros; rfl
  · intro k m' _ h; exact h
  · intro k m' sid rest _ _ h; exact h
  · intro k m' sid rest s _ hg hn h x t ht
    rcases get_insert_cases ht with ⟨rfl, rfl⟩ | ⟨-, ht⟩
    · have := sameData_take s m'.counter hn
      unfold HasOutput at hn ⊢
      rw [this.2]
      exact hn
    · exact h _ _ ht
  · intro k m' sid rest s _ hg hf h
    have := (take_pending_iff s m'.counter).mpr (h _ _ hg)
    rw [hf] at this; cases this
  · intro k m' sid rest s i _ hg hf h
    have := (take_pending_iff s m'.counter).mpr (h _ _ hg)
    rw [hf] at this; cases this
  · intro k m' sid rest s e _ hg hf h
    have := (take_pending_iff s m'.counter).mpr (h _ _ hg)
    rw [hf] at this; cases this

/-- Non-vacuity of C74: idle after a pending poll with an open session; data from the service, a new
CONNECT and data for an unknown session each end the idleness. -/
example :
    let m := (hist true 65536 0 [.connect demoTable 1 7, .io 7 .connected, .poll]).1
    m.idle = true ∧ (m.step (.io 7 (.transport (.ok [1]) .pending))).1.idle = false ∧
    (m.step (.connect demoTable 2 8)).1.idle = false ∧
    (m.step (.send (Wire.Message.new 1 9 []))).1.idle = false := by decide +kernel

/-! ## C75 -/

/-- CONNECT and HUP of session 7, `k` times, then a CONNECT. -/
def reopen (k : Nat) : List MOp :=
  (List.replicate k [MOp.connect demoTable 1 7, .close 7]).flatten ++ [.connect demoTable 1 7]

/-- C75: the rotation is not bounded by the number of open sessions: a server that opens and closes the
same session `k` times between two polls leaves `k + 1` entries for the one open session. -/
theorem C75_rotation_grows (k : Nat) :
    (hist false 65536 0 (reopen k)).1.sessions.keys = [7] ∧
    (hist false 65536 0 (reopen k)).1.order = List.replicate (k + 1) 7 := by
  have hstep : ∀ m : Mgr, m.sessions = [] →
      (m.run [MOp.connect demoTable 1 7, .close 7]).1.sessions = [] ∧
      (m.run [MOp.connect demoTable 1 7, .close 7]).1.order = m.order ++ [7] := by
    intro m hm
    have ht : m.connectTarget demoTable 1 7 =
        some (.http .zero ⟨.v4 127 0 0 1, 80⟩, ⟨.v4 127 0 0 1, 80⟩) := by
      simp only [Mgr.connectTarget, hm, AMap.get_nil]
      cases m.gateway <;> rfl
    simp only [Mgr.run, Mgr.step, Mgr.connect, ht, Mgr.wake, Mgr.close, hm]
    simp [AMap.insert, AMap.remove, AMap.get, Mgr.onSession]
  have hmany : ∀ (k : Nat) (m : Mgr), m.sessions = [] →
      (m.run (List.replicate k [MOp.connect demoTable 1 7, .close 7]).flatten).1.sessions = [] ∧
      (m.run (List.replicate k [MOp.connect demoTable 1 7, .close 7]).flatten).1.order =
        m.order ++ List.replicate k 7 := by
    intro k
    induction k with
    | zero => intro m hm; exact ⟨hm, by simp [Mgr.run]⟩
    | succ k ih =>
      intro m hm
      rw [List.replicate_succ, List.flatten_cons, mrun_append]
      obtain ⟨h1, h2⟩ := hstep m hm
      obtain ⟨h3, h4⟩ := ih _ h1
      exact ⟨h3, by simp only [h4, h2, List.append_assoc]; rw [List.replicate_succ]; rfl⟩
  obtain ⟨h1, h2⟩ := hmany k (Mgr.new false 65536 0) rfl
  rw [hist, reopen, mrun_append]
  generalize ((Mgr.new false 65536 0).run
    (List.replicate k [MOp.connect demoTable 1 7, .close 7]).flatten).1 = m at *
  have ht : m.connectTarget demoTable 1 7 =
      some (.http .zero ⟨.v4 127 0 0 1, 80⟩, ⟨.v4 127 0 0 1, 80⟩) := by
    simp only [Mgr.connectTarget, h1, AMap.get_nil]
    cases m.gateway <;> rfl
  simp only [Mgr.run, Mgr.step, Mgr.connect, ht, Mgr.wake, h1, h2]
  refine ⟨rfl, ?_⟩
  show [] ++ List.replicate k 7 ++ [7] = _
  rw [List.nil_append, ← List.replicate_succ']

theorem openedCount_append (a b : List Ev) :
    openedCount (a ++ b) = openedCount a + openedCount b := by
  induction a with
  | nil => simp [openedCount]
  | cons e a ih => cases e <;> simp [openedCount, ih] <;> omega

theorem endedCount_append (a b : List Ev) :
    endedCount (a ++ b) = endedCount a + endedCount b := by
  induction a with
  | nil => simp [endedCount]
  | cons e a ih => cases e <;> simp [endedCount, ih] <;> omega

theorem rotation_step (m : Mgr) (op : MOp) :
    (m.step op).1.order.length + endedCount (m.step op).2.1 ≤
      m.order.length + openedCount (m.step op).2.1 := by
  cases op with
  | connect table svc sid =>
    simp only [Mgr.step, Mgr.connect]
    split
    · simp [Mgr.wake, openedCount, endedCount]
    · simp [Mgr.wake, Mgr.createHup, openedCount, endedCount]
  | send msg =>
    simp only [Mgr.step, Mgr.send]
    split <;> simp [Mgr.wake, Mgr.createHup, openedCount, endedCount, Mgr.onSession]
  | close sid =>
    simp only [Mgr.step, Mgr.close]
    split <;> simp [openedCount, endedCount, Mgr.onSession]
  | dataAck sid len =>
    simp only [Mgr.step, Mgr.dataAck]
    split <;> simp [openedCount, endedCount, Mgr.onSession]
  | io sid o =>
    simp only [Mgr.step]
    split <;> simp [openedCount, endedCount, Mgr.onSession]
  | poll =>
    simp only [Mgr.step, Mgr.poll]
    split
    · simp [openedCount, endedCount]
    · refine pollLoop_cases (fun _ m' => m'.order.length ≤ m.order.length)
        (fun r => r.2.1.order.length + endedCount r.2.2 ≤ m.order.length + openedCount r.2.2)
        ?_ ?_ ?_ ?_ ?_ ?_ ?_ _ m (Nat.le_refl _)
      · intro m' h; simpa [openedCount, endedCount] using h
      · intro k m' _ h; exact h
      · intro k m' x rest ho _ h
        simp only [ho, List.length_cons] at h ⊢; omega
      · intro k m' x rest t ho _ _ h
        simp only [ho, List.length_cons, List.length_append, List.length_nil] at h ⊢; omega
      · intro k m' x rest t ho _ _ h
        simp only [ho, List.length_cons, endedCount, openedCount] at h ⊢; omega
      · intro k m' x rest t i ho _ _ h
        simp only [ho, List.length_cons, List.length_append, List.length_nil, endedCount,
          openedCount] at h ⊢
        omega
      · intro k m' x rest t e ho _ _ h
        simp only [ho, List.length_cons, endedCount, openedCount] at h ⊢; omega
  | newId => simp [Mgr.step, openedCount, endedCount]

/-- C75, the part that holds (`_partial`: the bound counts every session ever opened, not the open ones):
each CONNECT adds at most one entry, and each session ended by its service gives its entry back. -/
theorem C75_rotation_bound_partial (gw : Bool) (W n : Nat) (ops : List MOp) :
    (hist gw W n ops).1.order.length + endedCount (hist gw W n ops).2.1 ≤
      openedCount (hist gw W n ops).2.1 := by
  have : ∀ (ops : List MOp) (m : Mgr), (m.run ops).1.order.length + endedCount (m.run ops).2.1 ≤
      m.order.length + openedCount (m.run ops).2.1 := by
    intro ops
    induction ops with
    | nil => intro m; simp [Mgr.run, openedCount, endedCount]
    | cons o ops ih =>
      intro m
      have h1 := rotation_step m o
      have h2 := ih (m.step o).1
      simp only [Mgr.run, openedCount_append, endedCount_append]
      omega
  have h := this ops (Mgr.new gw W n)
  have h0 : (Mgr.new gw W n).order.length = 0 := rfl
  rw [h0, Nat.zero_add] at h
  exact h

/-- Non-vacuity of C75: two sessions opened, one of them ended by its service. -/
example : let h := hist true 65536 0 [.connect demoTable 1 7, .connect demoTable 2 8,
      .io 7 (.connectFailed 1), .poll]
    h.1.order = [8] ∧ endedCount h.2.1 = 1 ∧ openedCount h.2.1 = 2 := by decide +kernel

end Verif.Props.SessionManager
