import Verif.Spec.Secrecy
import Verif.Props.Client
/-!
# Lemmas: where the identity of a client shows
-/
namespace Verif.Props.Secrecy
open Verif Verif.Control Verif.Session Verif.Client Verif.Spec.Client Verif.Spec.Secrecy
open Verif.Props.Client (hist)

/-- The client with other settings and other messages waiting. -/
def put (c : Cli) (g : Cfg) (ms : List Wire.Message) : Cli := { c with cfg := g, messages := ms }

/-- A function of clients depends on settings and queue only in that it adds messages at the end. -/
def Frame {α : Type} (f : Cli → α × Cli × List CEv) : Prop :=
  ∀ (c : Cli) (g : Cfg) (ms : List Wire.Message), g.diagnostic = c.cfg.diagnostic →
    ∃ new, (f c).2.1.messages = c.messages ++ new ∧ (f c).2.1.cfg = c.cfg ∧
      f (put c g ms) = ((f c).1, put (f c).2.1 g (ms ++ new), (f c).2.2)

theorem frame_same {α : Type} (o : α) (evs : List CEv) : Frame fun c => (o, c, evs) := by
  intro c g ms _
  exact ⟨[], by simp, rfl, by simp [put]⟩

theorem frame_onMgr {α : Type} (o : α) (op : MOp) : Frame fun c => (o, (c.onMgr op).1, (c.onMgr op).2) := by
  intro c g ms _
  exact ⟨[], by simp [Cli.onMgr], rfl, by simp [put, Cli.onMgr]⟩

theorem frame_established {f : Cli → Out × Cli × List CEv} (h : Frame f) : Frame fun c => c.whenEstablished f := by
  intro c g ms hd
  have he : (put c g ms).established = c.established := rfl
  dsimp only
  unfold Cli.whenEstablished
  rw [he]
  split
  · exact h c g ms hd
  · exact ⟨[], by simp, rfl, by simp [put]⟩

theorem frame_control (now : Nat) (m : Cli → ControlMessage) (pre : Cli → Cli)
    (hm : ∀ c g ms, m (put c g ms) = m c) (hp : ∀ c g ms, pre (put c g ms) = put (pre c) g ms)
    (hq : ∀ c, (pre c).messages = c.messages ∧ (pre c).cfg = c.cfg) :
    Frame fun c => (Out.ok, ((pre c).sendControl now (m c)).1, ((pre c).sendControl now (m c)).2) := by
  intro c g ms _
  refine ⟨[(m c).toArrow], ?_, ?_, ?_⟩
  · simp [Cli.sendControl, Cli.wake, (hq c).1]
  · simp [Cli.sendControl, Cli.wake, (hq c).2]
  · dsimp only
    rw [hm, hp]
    simp [Cli.sendControl, Cli.wake, put]

theorem handshake_frame (c : Cli) (g : Cfg) (ms : List Wire.Message) (err : UInt32)
    (hd : g.diagnostic = c.cfg.diagnostic) :
    (c.handshakeAck err).2.messages = c.messages ∧ (c.handshakeAck err).2.cfg = c.cfg ∧
      (put c g ms).handshakeAck err = ((c.handshakeAck err).1, put (c.handshakeAck err).2 g ms) := by
  unfold Cli.handshakeAck
  by_cases e1 : err = ecNoError
  · simp only [if_pos e1, put, hd, and_self]
  by_cases e2 : err = ecUnauthorized
  · simp only [if_neg e1, if_pos e2, and_self]
  by_cases e3 : err = ecUnsupportedProtocolVersion
  · simp only [if_neg e1, if_neg e2, if_pos e3, and_self]
  by_cases e4 : err = ecInternalServerError
  · simp only [if_neg e1, if_neg e2, if_neg e3, if_pos e4, and_self]
  · simp only [if_neg e1, if_neg e2, if_neg e3, if_neg e4, and_self]

theorem frame_ack (id : UInt16) (body : Body) :
    Frame fun c => ((c.processAck id body).1, (c.processAck id body).2, []) := by
  intro c g ms hd
  have ha : (put c g ms).acks = c.acks := rfl
  refine ⟨[], ?_⟩
  dsimp only
  rw [List.append_nil, List.append_nil]
  unfold Cli.processAck
  rw [ha]
  cases c.acks with
  | nil => exact ⟨rfl, rfl, rfl⟩
  | cons a rest =>
    dsimp only
    by_cases h1 : id = a.2
    · rw [if_pos h1, if_pos h1]
      by_cases h2 : c.established = true
      · rw [if_pos h2, if_pos (show (put c g ms).established = true from h2)]
        exact ⟨rfl, rfl, rfl⟩
      · rw [if_neg h2, if_neg (show ¬ (put c g ms).established = true from h2)]
        cases body with
        | ack err =>
          obtain ⟨k1, k2, k3⟩ := handshake_frame { c with acks := rest } g ms err hd
          refine ⟨k1, k2, ?_⟩
          exact congrArg (fun r : Out × Cli => (r.1, r.2, ([] : List CEv))) k3
        | _ => exact ⟨rfl, rfl, rfl⟩
    · rw [if_neg h1, if_neg h1]
      exact ⟨rfl, rfl, rfl⟩

theorem handle_frame (env : Env) (m : Wire.Message) : Frame fun c => c.handle env m := by
  unfold Cli.handle
  split
  · split
    · rename_i cm _
      unfold Cli.processControl
      split
      · exact frame_ack _ _
      · split
        · exact frame_established (frame_onMgr _ _)
        · exact frame_established (frame_same _ _)
      · split
        · exact frame_established (frame_onMgr _ _)
        · exact frame_established (frame_same _ _)
      · exact frame_established (frame_control _ (fun _ => _) id (fun _ _ _ => rfl) (fun _ _ _ => rfl)
          (fun _ => ⟨rfl, rfl⟩))
      · split
        · exact frame_established (frame_onMgr _ _)
        · exact frame_established (frame_same _ _)
      · split
        · apply frame_established
          intro c g ms _
          exact ⟨[], by simp [Cli.wake], rfl, by simp [put, Cli.wake]⟩
        · exact frame_established (frame_same _ _)
      · exact frame_established (frame_control env.now
          (fun c => mkStatus c.nextId.1 cm.msgId (if env.scanning then 1 else 0) (UInt32.ofNat c.mgr.len))
          (fun c => c.nextId.2) (fun _ _ _ => rfl) (fun _ _ _ => rfl) (fun _ => ⟨rfl, rfl⟩))
      · exact frame_established (frame_control env.now
          (fun c => mkScanReport c.nextId.1 cm.msgId env.hosts env.services env.getId)
          (fun c => c.nextId.2) (fun _ _ _ => rfl) (fun _ _ _ => rfl) (fun _ => ⟨rfl, rfl⟩))
      · exact frame_established (frame_same _ _)
      · exact frame_established (frame_same _ _)
      all_goals exact frame_same _ _
    · exact frame_same _ _
    · exact frame_same _ _
  · exact frame_established (frame_onMgr _ _)

theorem recv_frame (env : Env) (m : Wire.Message) : Frame fun c => c.recv env m := by
  intro c g ms hd
  have he : (put c g ms).isClosed = c.isClosed := rfl
  dsimp only
  unfold Cli.recv
  rw [he]
  split
  · exact ⟨[], by simp, rfl, by simp [put]⟩
  · obtain ⟨new, h1, h2, h3⟩ := handle_frame env m c g ms hd
    dsimp only at h1 h2 h3
    refine ⟨new, h1, h2, ?_⟩
    rw [h3]

theorem ping_frame (t : Nat) : Frame fun c => ((), (c.sendPing t).1, (c.sendPing t).2) := by
  intro c g ms _
  refine ⟨[(mkPing c.nextId.1).toArrow], ?_, rfl, ?_⟩
  · simp [Cli.sendPing, Cli.sendUnconfirmed, Cli.sendControl, Cli.wake, Cli.nextId]
  · simp [Cli.sendPing, Cli.sendUnconfirmed, Cli.sendControl, Cli.wake, Cli.nextId, put]

theorem check_frame (env : Env) : Frame fun c => ((), (c.checkForUpdates env).1, (c.checkForUpdates env).2) := by
  intro c g ms _
  have hl : (put c g ms).lastVer = c.lastVer := rfl
  dsimp only
  unfold Cli.checkForUpdates
  rw [hl]
  split
  · refine ⟨[(mkUpdate c.nextId.1 (SimpleTable.ofServices env.visible)).toArrow], ?_, rfl, ?_⟩
    · simp [Cli.sendUpdate, Cli.sendControl, Cli.wake, Cli.nextId]
    · simp [Cli.sendUpdate, Cli.sendControl, Cli.wake, Cli.nextId, put]
  · exact ⟨[], by simp, rfl, by simp [put]⟩

/-- If a condition that does not depend on settings and queue holds, do one more thing. -/
theorem frame_if {f : Cli → Unit × Cli × List CEv} (p : Cli → Bool) (hp : ∀ c g ms, p (put c g ms) = p c)
    (h : Frame f) : Frame fun c => if p c then f c else ((), c, []) := by
  intro c g ms hd
  dsimp only
  rw [hp]
  split
  · exact h c g ms hd
  · exact ⟨[], by simp, rfl, by simp [put]⟩

theorem tick_frame (env : Env) : Frame fun c => c.timeEvent env := by
  intro c g ms hd
  obtain ⟨n1, h1, h2, h3⟩ := frame_if (fun c => c.established && decide (pingPeriod ≤ env.now - c.lastPing))
    (fun _ _ _ => rfl) (ping_frame env.now) c g ms hd
  let r1 := if c.established && decide (pingPeriod ≤ env.now - c.lastPing) then c.sendPing env.now else (c, [])
  have e1 : (if c.established && decide (pingPeriod ≤ env.now - c.lastPing) then
      ((), (c.sendPing env.now).1, (c.sendPing env.now).2) else ((), c, [])) = ((), r1.1, r1.2) := by
    simp only [r1]; split <;> rfl
  dsimp only at h1 h2 h3
  rw [e1] at h1 h2 h3
  dsimp only at h1 h2 h3
  obtain ⟨n2, k1, k2, k3⟩ := frame_if (fun c => c.established && decide (updateCheckPeriod ≤ env.now - c.lastCheck))
    (fun _ _ _ => rfl) (check_frame env) r1.1 g (ms ++ n1) (by rw [h2]; exact hd)
  let r2 := if r1.1.established && decide (updateCheckPeriod ≤ env.now - r1.1.lastCheck) then
    r1.1.checkForUpdates env else (r1.1, [])
  have e2 : (if r1.1.established && decide (updateCheckPeriod ≤ env.now - r1.1.lastCheck) then
      ((), (r1.1.checkForUpdates env).1, (r1.1.checkForUpdates env).2) else ((), r1.1, [])) = ((), r2.1, r2.2) := by
    simp only [r2]; split <;> rfl
  dsimp only at k1 k2 k3
  rw [e2] at k1 k2 k3
  dsimp only at k1 k2 k3
  have f1 : (if (put c g ms).established && decide (pingPeriod ≤ env.now - (put c g ms).lastPing) then
      (put c g ms).sendPing env.now else (put c g ms, [])) = (put r1.1 g (ms ++ n1), r1.2) := by
    have := congrArg Prod.snd h3
    dsimp only at this
    rw [← this]
    split <;> rfl
  have f2 : (if (put r1.1 g (ms ++ n1)).established && decide (updateCheckPeriod ≤ env.now -
      (put r1.1 g (ms ++ n1)).lastCheck) then (put r1.1 g (ms ++ n1)).checkForUpdates env
      else (put r1.1 g (ms ++ n1), [])) = (put r2.1 g (ms ++ n1 ++ n2), r2.2) := by
    have := congrArg Prod.snd k3
    dsimp only at this
    rw [← this]
    split <;> rfl
  have hc : c.timeEvent env = (if r2.1.ackTimedOut env.now then .err .connection else .ok, r2.1, r1.2 ++ r2.2) := rfl
  refine ⟨n1 ++ n2, ?_, ?_, ?_⟩
  · dsimp only; rw [hc]; dsimp only; rw [k1, h1, List.append_assoc]
  · dsimp only; rw [hc]; dsimp only; rw [k2, h2]
  · dsimp only
    rw [hc]
    unfold Cli.timeEvent
    dsimp only
    rw [f1]
    dsimp only
    rw [f2, List.append_assoc]
    rfl

/-! ## Two clients -/

/-- Two clients before and after their first messages `m`, `m'` were sent. -/
def Twin (g : Cfg) (m m' : Wire.Message) (c c' : Cli) (sent : Bool) : Prop :=
  g.diagnostic = c.cfg.diagnostic ∧
  ((sent = false ∧ ∃ ms, c.messages = m :: ms ∧ c' = put c g (m' :: ms)) ∨
   (sent = true ∧ c' = put c g c.messages))

theorem Twin.frame {α : Type} {f : Cli → α × Cli × List CEv} (F : Frame f) {g : Cfg} {m m' : Wire.Message}
    {c c' : Cli} {b : Bool} (h : Twin g m m' c c' b) :
    (f c').1 = (f c).1 ∧ (f c').2.2 = (f c).2.2 ∧ Twin g m m' (f c).2.1 (f c').2.1 b := by
  obtain ⟨hd, ⟨rfl, ms, h1, rfl⟩ | ⟨rfl, rfl⟩⟩ := h
  · obtain ⟨new, k1, k2, k3⟩ := F c g (m' :: ms) hd
    rw [k3]
    refine ⟨rfl, rfl, by rw [k2]; exact hd, .inl ⟨rfl, ms ++ new, ?_, ?_⟩⟩
    · rw [k1, h1]; rfl
    · rfl
  · obtain ⟨new, k1, k2, k3⟩ := F c g c.messages hd
    rw [k3]
    exact ⟨rfl, rfl, by rw [k2]; exact hd, .inr ⟨rfl, by rw [k1]⟩⟩

/-- What a poll of the queues does to both. -/
theorem Twin.ctxPoll {g : Cfg} {m m' : Wire.Message} {c c' : Cli} {b : Bool} (h : Twin g m m' c c' b) :
    (c'.ctxPoll.1 = c.ctxPoll.1 ∧ c'.ctxPoll.2.2 = c.ctxPoll.2.2 ∧ Twin g m m' c.ctxPoll.2.1 c'.ctxPoll.2.1 b ∧
      (b = false → c.ctxPoll.1 = .done)) ∨
    (b = false ∧ c.ctxPoll.1 = .ready m ∧ c'.ctxPoll.1 = .ready m' ∧ c.ctxPoll.2.2 = [] ∧ c'.ctxPoll.2.2 = [] ∧
      Twin g m m' c.ctxPoll.2.1 c'.ctxPoll.2.1 true) := by
  obtain ⟨hd, ⟨rfl, ms, h1, rfl⟩ | ⟨rfl, rfl⟩⟩ := h
  · have he : (put c g (m' :: ms)).isClosed = c.isClosed := rfl
    have hm : (put c g (m' :: ms)).messages = m' :: ms := rfl
    unfold Cli.ctxPoll
    rw [he, hm, h1]
    split
    · exact .inl ⟨rfl, rfl, ⟨hd, .inl ⟨rfl, ms, h1, rfl⟩⟩, fun _ => rfl⟩
    · exact .inr ⟨rfl, rfl, rfl, rfl, rfl, hd, .inr ⟨rfl, rfl⟩⟩
  · left
    have he : (put c g c.messages).isClosed = c.isClosed := rfl
    have hm : (put c g c.messages).messages = c.messages := rfl
    have hg : (put c g c.messages).mgr = c.mgr := rfl
    unfold Cli.ctxPoll
    rw [he, hm, hg]
    split
    · exact ⟨rfl, rfl, ⟨hd, .inr ⟨rfl, rfl⟩⟩, nofun⟩
    · split
      · exact ⟨rfl, rfl, ⟨hd, .inr ⟨rfl, rfl⟩⟩, nofun⟩
      · dsimp only
        split
        · rename_i hq _ _ _
          exact ⟨rfl, rfl, ⟨hd, .inr ⟨rfl, by simp [put, hq]⟩⟩, nofun⟩
        · rename_i hq _ _
          exact ⟨rfl, rfl, ⟨hd, .inr ⟨rfl, by simp [put, hq]⟩⟩, nofun⟩

/-- What a poll does to both: the same, or the first messages are sent. -/
def TwinPolled (g : Cfg) (m m' : Wire.Message) (b : Bool) (r r' : Polled × Cli × List CEv) : Prop :=
  (r'.1 = r.1 ∧ r'.2.2 = r.2.2 ∧ Twin g m m' r.2.1 r'.2.1 b) ∨
  (b = false ∧ r.1 = .send m ∧ r'.1 = .send m' ∧ r'.2.2 = r.2.2 ∧ Twin g m m' r.2.1 r'.2.1 true)

theorem TwinPolled.after {g : Cfg} {m m' : Wire.Message} {b : Bool} {r r' : Polled × Cli × List CEv}
    (h : TwinPolled g m m' b r r') (e : List CEv) :
    TwinPolled g m m' b (r.1, r.2.1, e ++ r.2.2) (r'.1, r'.2.1, e ++ r'.2.2) := by
  rcases h with ⟨h1, h2, h3⟩ | ⟨h0, h1, h2, h3, h4⟩
  · exact .inl ⟨h1, by rw [h2], h3⟩
  · exact .inr ⟨h0, h1, h2, by rw [h3], h4⟩

theorem twin_closed {g : Cfg} {m m' : Wire.Message} {c c' : Cli} {b : Bool} (h : Twin g m m' c c' b) :
    Twin g m m' { c with closed := true } { c' with closed := true } b := by
  obtain ⟨hd, ⟨rfl, ms, h1, rfl⟩ | ⟨rfl, rfl⟩⟩ := h
  · exact ⟨hd, .inl ⟨rfl, ms, h1, rfl⟩⟩
  · exact ⟨hd, .inr ⟨rfl, rfl⟩⟩

theorem twin_idle {g : Cfg} {m m' : Wire.Message} {c c' : Cli} {b : Bool} (h : Twin g m m' c c' b) :
    Twin g m m' { c with idle := false } { c' with idle := false } b := by
  obtain ⟨hd, ⟨rfl, ms, h1, rfl⟩ | ⟨rfl, rfl⟩⟩ := h
  · exact ⟨hd, .inl ⟨rfl, ms, h1, rfl⟩⟩
  · exact ⟨hd, .inr ⟨rfl, rfl⟩⟩

theorem pollLoop_twin (g : Cfg) (m m' : Wire.Message) (b : Bool) (ins : List Incoming) :
    ∀ c c' : Cli, Twin g m m' c c' b → TwinPolled g m m' b (c.pollLoop ins) (c'.pollLoop ins) := by
  induction ins with
  | nil =>
    intro c c' h
    rcases h.ctxPoll with ⟨h1, h2, h3, -⟩ | ⟨rfl, h1, h2, h3, h4, h5⟩
    · simp only [Cli.pollLoop]
      rw [h1]
      cases c.ctxPoll.1 <;> exact .inl ⟨rfl, h2, h3⟩
    · simp only [Cli.pollLoop]
      rw [h1, h2]
      exact .inr ⟨rfl, rfl, rfl, by dsimp only; rw [h3, h4], h5⟩
  | cons i ins ih =>
    intro c c' h
    rcases h.ctxPoll with ⟨h1, h2, h3, -⟩ | ⟨rfl, h1, h2, h3, h4, h5⟩
    · simp only [Cli.pollLoop]
      rw [h1]
      cases c.ctxPoll.1 with
      | ready x => exact .inl ⟨rfl, h2, h3⟩
      | done => exact .inl ⟨rfl, h2, h3⟩
      | pending =>
        cases i with
        | msg env x =>
          obtain ⟨k1, k2, k3⟩ := h3.frame (recv_frame env x)
          dsimp only at k1 k2 k3 ⊢
          rw [k1]
          cases (c.ctxPoll.2.1.recv env x).1 with
          | ok =>
            have := (ih _ _ k3).after (c.ctxPoll.2.2 ++ (c.ctxPoll.2.1.recv env x).2.2)
            dsimp only
            rw [h2, k2]
            exact this
          | err e => exact .inl ⟨rfl, by dsimp only; rw [h2, k2], k3⟩
          | panic => exact .inl ⟨rfl, by dsimp only; rw [h2, k2], k3⟩
        | error e => exact .inl ⟨rfl, h2, h3⟩
        | eof =>
          have := (ih _ _ (twin_closed h3)).after c.ctxPoll.2.2
          dsimp only
          rw [h2]
          exact this
        | pending => exact .inl ⟨rfl, h2, h3⟩
    · simp only [Cli.pollLoop]
      rw [h1, h2]
      exact .inr ⟨rfl, rfl, rfl, by dsimp only; rw [h3, h4], h5⟩

theorem poll_twin {g : Cfg} {m m' : Wire.Message} {c c' : Cli} {b : Bool} (h : Twin g m m' c c' b)
    (first : Incoming) (ins : List Incoming) : TwinPolled g m m' b (c.poll first ins) (c'.poll first ins) := by
  have h0 := twin_idle h
  unfold Cli.poll
  cases first with
  | msg env x =>
    obtain ⟨k1, k2, k3⟩ := h0.frame (recv_frame env x)
    dsimp only at k1 k2 k3 ⊢
    rw [k1]
    cases (Cli.recv { c with idle := false } env x).1 with
    | ok =>
      have := (pollLoop_twin g m m' b ins _ _ k3).after (Cli.recv { c with idle := false } env x).2.2
      dsimp only
      rw [k2]
      exact this
    | err e => exact .inl ⟨rfl, k2, k3⟩
    | panic => exact .inl ⟨rfl, k2, k3⟩
  | error e => exact .inl ⟨rfl, rfl, h0⟩
  | eof => exact pollLoop_twin g m m' b ins _ _ (twin_closed h0)
  | pending => exact pollLoop_twin g m m' b ins _ _ h0

theorem twin_result {g : Cfg} {m m' : Wire.Message} {c c' : Cli} {b : Bool} (h : Twin g m m' c c' b) :
    c'.result = c.result ∧ c'.isClosed = c.isClosed := by
  obtain ⟨-, ⟨-, ms, -, rfl⟩ | ⟨-, rfl⟩⟩ := h <;> exact ⟨rfl, rfl⟩

/-- Two connections. -/
def TwinConn (g : Cfg) (m m' : Wire.Message) (b : Bool) : Conn → Conn → Prop
  | .live c, .live c' => Twin g m m' c c' b
  | .closing r, .closing r' => r = r'
  | .over r, .over r' => r = r'
  | _, _ => False

theorem twin_step {g : Cfg} {m m' : Wire.Message} {b : Bool} {s s' : Conn} (h : TwinConn g m m' b s s') (op : COp) :
    ((s'.step op).2 = (s.step op).2 ∧ TwinConn g m m' b (s.step op).1 (s'.step op).1) ∨
    (b = false ∧ ∃ a, (s.step op).2 = a ++ [.sent m] ∧ (s'.step op).2 = a ++ [.sent m'] ∧
      TwinConn g m m' true (s.step op).1 (s'.step op).1) := by
  cases s with
  | closing r =>
    cases s' with
    | closing r' =>
      left
      simp only [TwinConn] at h
      subst h
      cases op <;> exact ⟨rfl, rfl⟩
    | live _ => exact absurd h id
    | over _ => exact absurd h id
  | over r =>
    cases s' with
    | over r' => exact .inl ⟨rfl, h⟩
    | live _ => exact absurd h id
    | closing _ => exact absurd h id
  | live c =>
    cases s' with
    | closing _ => exact absurd h id
    | over _ => exact absurd h id
    | live c' =>
      have ht : Twin g m m' c c' b := h
      simp only [Conn.step]
      cases op with
      | poll first ins =>
        simp only [Cli.step]
        rcases poll_twin ht first ins with ⟨h1, h2, h3⟩ | ⟨rfl, h1, h2, h3, h4⟩
        · left
          rw [h1, h2]
          cases (c.poll first ins).1 with
          | send x => exact ⟨rfl, h3⟩
          | error e => exact ⟨rfl, rfl⟩
          | done => exact ⟨rfl, (twin_result h3).1.symm⟩
          | pending => exact ⟨rfl, h3⟩
          | panic => exact ⟨rfl, rfl⟩
        · right
          rw [h1, h2, h3]
          exact ⟨rfl, _, rfl, rfl, h4⟩
      | tick env =>
        left
        simp only [Cli.step]
        rw [(twin_result ht).2]
        split
        · exact ⟨rfl, (twin_result ht).1.symm⟩
        · obtain ⟨k1, k2, k3⟩ := ht.frame (tick_frame env)
          rw [k1, k2]
          cases (c.timeEvent env).1 with
          | ok => exact ⟨rfl, k3⟩
          | err e => exact ⟨rfl, rfl⟩
          | panic => exact ⟨rfl, rfl⟩
      | io sid o =>
        left
        obtain ⟨-, k2, k3⟩ := ht.frame (frame_onMgr () (.io sid o))
        dsimp only at k2 k3
        simp only [Cli.step]
        rw [k2]
        exact ⟨rfl, k3⟩
      | sinkError e => exact .inl ⟨rfl, rfl⟩
      | flushed => exact .inl ⟨rfl, ht⟩

theorem twin_run_after {g : Cfg} {m m' : Wire.Message} (ops : List COp) :
    ∀ s s' : Conn, TwinConn g m m' true s s' →
      (s'.run ops).2 = (s.run ops).2 ∧ TwinConn g m m' true (s.run ops).1 (s'.run ops).1 := by
  induction ops with
  | nil => intro s s' h; exact ⟨rfl, h⟩
  | cons op ops ih =>
    intro s s' h
    rcases twin_step h op with ⟨h1, h2⟩ | ⟨h1, -⟩
    · obtain ⟨h3, h4⟩ := ih _ _ h2
      exact ⟨by simp only [Conn.run]; rw [h1, h3], h4⟩
    · cases h1

theorem twin_run {g : Cfg} {m m' : Wire.Message} (ops : List COp) :
    ∀ s s' : Conn, TwinConn g m m' false s s' →
      ((s'.run ops).2 = (s.run ops).2 ∧ TwinConn g m m' false (s.run ops).1 (s'.run ops).1) ∨
      (∃ a z, (s.run ops).2 = a ++ .sent m :: z ∧ (s'.run ops).2 = a ++ .sent m' :: z ∧
        TwinConn g m m' true (s.run ops).1 (s'.run ops).1) := by
  induction ops with
  | nil => intro s s' h; exact .inl ⟨rfl, h⟩
  | cons op ops ih =>
    intro s s' h
    rcases twin_step h op with ⟨h1, h2⟩ | ⟨-, a, h1, h2, h3⟩
    · rcases ih _ _ h2 with ⟨h3, h4⟩ | ⟨a, z, h3, h4, h5⟩
      · exact .inl ⟨by simp only [Conn.run]; rw [h1, h3], h4⟩
      · refine .inr ⟨(s.step op).2 ++ a, z, ?_, ?_, h5⟩
        · simp only [Conn.run]; rw [h3, List.append_assoc]
        · simp only [Conn.run]; rw [h1, h4, List.append_assoc]
    · obtain ⟨h4, h5⟩ := twin_run_after ops _ _ h3
      refine .inr ⟨a, ((s.step op).1.run ops).2, ?_, ?_, h5⟩
      · simp only [Conn.run]; rw [h1]; simp
      · simp only [Conn.run]; rw [h2, h4]; simp

end Verif.Props.Secrecy
