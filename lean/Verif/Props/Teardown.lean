import Verif.Spec.Teardown
import Verif.Props.SessionManager
/-!
# The connections to services end with the connection to the server: C134
-/
namespace Verif.Props.Teardown
open Verif Verif.Session Verif.Teardown Verif.Spec.Teardown Verif.Spec.SessionManager
open Verif.Props.Session (TransOk wake_inv)
open Verif.Props.SessionManager (demoTable)

/-! ### Sessions that leave the manager -/

/-- A reachable session that is closed is not waiting for anything. -/
theorem reachable_awake {W : Nat} {sid : UInt32} {s : Sess} (h : Reachable W sid s) (op : Op)
    (hc : (s.step op).1.ctx.closed = true) : (s.step op).1.ghost.transIdle = false := by
  obtain ⟨svc, ops, rfl, -⟩ := h
  have h1 := (wake_inv svc sid W (ops ++ [op])).2
  rw [Props.Session.life_snoc] at h1
  cases hi : (((Sess.new svc sid W).run ops).1.step op).1.ghost.transIdle
  · rfl
  · have := (h1 hi).2.1
    change (((Sess.new svc sid W).run ops).1.step op).1.ctx.closed = false at this
    rw [hc] at this; cases this

theorem close_closed (s : Sess) : (s.step .close).1.ctx.closed = true := rfl

theorem close_phase (s : Sess) : (s.step .close).1.phase = s.phase := rfl

theorem take_phase (s : Sess) (n : Nat) : (s.step (.take n)).1.phase = s.phase := rfl

theorem take_closed (s : Sess) (n : Nat) : (s.step (.take n)).1.ctx.closed = s.ctx.closed := by
  show (s.ctx.take n).2.1.closed = _
  unfold Ctx.take Ctx.takeDataAck
  by_cases hw : s.ctx.written > 0
  · simp [hw]
  · simp only [hw, if_false]
    repeat' split
    all_goals simp_all [Ctx.wakeTrans]

/-- A session whose end is reported by a poll was closed. -/
theorem ended_closed (m : Mgr) (sid code : UInt32) (h : .ended sid code ∈ (m.step .poll).2.1) :
    ∃ s, m.sessions.get sid = some s ∧ s.ctx.closed = true := by
  have key : ∀ (t : Sess) (k : Nat), ((t.ctx.take k).1 = .finished ∨ ∃ e, (t.ctx.take k).1 = .err e) →
      t.ctx.closed = true := by
    intro t k hr
    obtain ⟨h1, h2⟩ := take_cases k t.ctx
    rcases Nat.eq_zero_or_pos t.ctx.written with hz | hpos
    · obtain ⟨-, -, ha, hb, -, -⟩ := h2 hz
      by_cases hi : t.ctx.input.take t.ctx.inCap = []
      · cases hc : t.ctx.closed
        · rw [(hb hi hc).1] at hr; simp at hr
        · rfl
      · rw [(ha hi).1] at hr; simp at hr
    · rw [(h1 hpos).1] at hr; simp at hr
  simp only [Mgr.step, Mgr.poll] at h
  split at h
  · cases h
  · revert h
    refine pollLoop_cases
      (fun _ m' => ∀ x t', m'.sessions.get x = some t' →
          ∃ t, m.sessions.get x = some t ∧ t.ctx.closed = t'.ctx.closed)
      (fun r => .ended sid code ∈ r.2.2 → ∃ s, m.sessions.get sid = some s ∧ s.ctx.closed = true)
      ?_ ?_ ?_ ?_ ?_ ?_ ?_ _ m (fun x t ht => ⟨t, ht, rfl⟩)
    · intro m' _ h; cases h
    · intro k m' _ h; exact h
    · intro k m' x rest _ _ h; exact h
    · intro k m' x rest t _ hg hno h y t' ht'
      rcases get_insert_cases ht' with ⟨rfl, rfl⟩ | ⟨-, ht'⟩
      · obtain ⟨u, hu, hs⟩ := h _ _ hg
        exact ⟨u, hu, by rw [take_closed]; exact hs⟩
      · exact h _ _ ht'
    · intro k m' x rest t _ hg hf h he
      simp only [List.mem_singleton, Ev.ended.injEq] at he
      obtain ⟨rfl, rfl⟩ := he
      obtain ⟨u, hu, hs⟩ := h _ _ hg
      exact ⟨u, hu, hs.trans (key t _ (.inl hf))⟩
    · intro k m' x rest t i _ hg hf h he
      simp at he
    · intro k m' x rest t e _ hg hf h he
      simp only [List.mem_singleton, Ev.ended.injEq] at he
      obtain ⟨rfl, rfl⟩ := he
      obtain ⟨u, hu, hs⟩ := h _ _ hg
      exact ⟨u, hu, hs.trans (key t _ (.inr ⟨e, hf⟩))⟩

/-- What a step of the manager reports. -/
theorem step_events (m : Mgr) (op : MOp) (e : Ev) (h : e ∈ (m.step op).2.1) :
    (∀ sid, e = .hungUp sid → op = .close sid) ∧
    (∀ sid c, e = .ended sid c → op = .poll) ∧
    (∀ sid v t a b, e = .opened sid v t a b → needsClient op = true ∧ m.sessions.get sid = none) := by
  cases op with
  | connect get svc sid =>
    simp only [Mgr.step, Mgr.connect] at h
    split at h
    · rename_i s addr ht
      simp only [List.mem_singleton] at h
      subst h
      refine ⟨by simp, by simp, ?_⟩
      intro x v t a b he
      cases he
      refine ⟨rfl, ?_⟩
      unfold Mgr.connectTarget at ht
      split at ht
      · cases ht
      · rename_i hn; simpa using hn
    · simp only [List.mem_singleton] at h
      subst h
      simp
  | send msg =>
    simp only [Mgr.step, Mgr.send] at h
    split at h <;> simp at h
    subst h; simp
  | close sid =>
    simp only [Mgr.step, Mgr.close] at h
    split at h <;> simp at h
    subst h; simp
  | dataAck sid len =>
    simp only [Mgr.step, Mgr.dataAck] at h
    split at h <;> simp at h
  | io sid o =>
    simp only [Mgr.step] at h
    split at h <;> simp at h
  | newId => simp [Mgr.step] at h
  | poll =>
    simp only [Mgr.step, Mgr.poll] at h
    split at h
    · cases h
    · revert h
      refine pollLoop_cases (fun _ _ => True)
        (fun r => e ∈ r.2.2 → (∀ sid, e = .hungUp sid → MOp.poll = .close sid) ∧
          (∀ sid c, e = .ended sid c → MOp.poll = .poll) ∧
          (∀ sid v t a b, e = .opened sid v t a b → needsClient .poll = true ∧ m.sessions.get sid = none))
        ?_ ?_ ?_ ?_ ?_ ?_ ?_ _ m trivial
      · intro m' _ h; cases h
      · intros; trivial
      · intros; trivial
      · intros; trivial
      all_goals
        intros
        simp only [List.mem_singleton] at *
        subst_vars
        simp

/-- A session that leaves the manager was open, is closed and its task is not waiting. -/
theorem leaving_closed {m : Mgr} (hm : MInv m) {op : MOp} {e : Ev} (he : e ∈ (m.step op).2.1)
    {p : UInt32 × Sess} (hp : p ∈ leaving m e) :
    p.2.ctx.closed = true ∧ p.2.ghost.transIdle = false ∧
      ∃ s, m.sessions.get p.1 = some s ∧ p.2.phase = s.phase := by
  cases e with
  | opened => cases hp
  | refused => cases hp
  | sent => cases hp
  | hungUp sid =>
    simp only [leaving, Option.mem_toList, Option.map_eq_some_iff] at hp
    obtain ⟨s, hs, rfl⟩ := hp
    exact ⟨close_closed s, reachable_awake (hm.reach _ _ hs) _ (close_closed s), s, hs, rfl⟩
  | ended sid c =>
    simp only [leaving, Option.mem_toList, Option.map_eq_some_iff] at hp
    obtain ⟨s, hs, rfl⟩ := hp
    have hop := (step_events m op _ he).2.1 sid c rfl
    subst hop
    obtain ⟨t, ht, hc⟩ := ended_closed m sid c he
    rw [hs] at ht
    cases ht
    have := (take_closed s m.counter).trans hc
    exact ⟨this, reachable_awake (hm.reach _ _ hs) _ this, s, hs, rfl⟩

/-- Only a task leaves the connecting phase, and no task returns to it. -/
theorem step_connecting (s : Sess) (op : Op) (h : (s.step op).1.phase = .connecting) : s.phase = .connecting := by
  cases op with
  | push data => exact h
  | dataAck len => exact h
  | take n => exact h
  | close => exact h
  | connected =>
    simp only [Sess.step] at h
    split at h
    · cases h
    · exact h
  | connectFailed n =>
    simp only [Sess.step] at h
    split at h
    · cases h
    · exact h
  | transport rd wr =>
    simp only [Sess.step] at h
    split at h
    · rename_i hr
      split at h
      · cases h
      · exact h
    · exact h

/-- The sessions of a manager after a step: the old ones, and those that were opened. -/
theorem step_sessions (m : Mgr) (op : MOp) (x : UInt32) (s' : Sess)
    (h : (m.step op).1.sessions.get x = some s') :
    x ∈ openings (m.step op).2.1 ∨
      ∃ s, m.sessions.get x = some s ∧ (s'.phase = .connecting → s.phase = .connecting) := by
  have hon : ∀ (sid : UInt32) (s : Sess) (o : Op), m.sessions.get sid = some s →
      (m.onSession sid s o).sessions.get x = some s' →
      ∃ s, m.sessions.get x = some s ∧ (s'.phase = .connecting → s.phase = .connecting) := by
    intro sid s o hs hg
    rcases get_insert_cases hg with ⟨rfl, rfl⟩ | ⟨-, hg⟩
    · exact ⟨s, hs, step_connecting s o⟩
    · exact ⟨s', hg, id⟩
  cases op with
  | connect get svc sid =>
    simp only [Mgr.step, Mgr.connect] at h ⊢
    split at h
    · simp only [openings]
      rcases get_insert_cases h with ⟨rfl, rfl⟩ | ⟨-, hg⟩
      · left; simp
      · exact .inr ⟨s', hg, id⟩
    · exact .inr ⟨s', h, id⟩
  | send msg =>
    simp only [Mgr.step, Mgr.send] at h
    split at h
    · rename_i s hs; exact .inr (hon _ _ _ hs h)
    · exact .inr ⟨s', h, id⟩
  | close sid =>
    simp only [Mgr.step, Mgr.close] at h
    split at h
    · rename_i s hs
      obtain ⟨-, h⟩ := get_remove_cases h
      exact .inr (hon _ _ _ hs h)
    · exact .inr ⟨s', h, id⟩
  | dataAck sid len =>
    simp only [Mgr.step, Mgr.dataAck] at h
    split at h
    · rename_i s hs; exact .inr (hon _ _ _ hs h)
    · exact .inr ⟨s', h, id⟩
  | io sid o =>
    simp only [Mgr.step] at h
    split at h
    · rename_i s hs; exact .inr (hon _ _ _ hs h)
    · exact .inr ⟨s', h, id⟩
  | newId => exact .inr ⟨s', h, id⟩
  | poll =>
    right
    simp only [Mgr.step, Mgr.poll] at h
    split at h
    · exact ⟨s', h, id⟩
    · revert h
      refine pollLoop_cases
        (fun _ m' => ∀ y t', m'.sessions.get y = some t' →
          ∃ t, m.sessions.get y = some t ∧ t'.phase = t.phase)
        (fun r => r.2.1.sessions.get x = some s' →
          ∃ s, m.sessions.get x = some s ∧ (s'.phase = .connecting → s.phase = .connecting))
        ?_ ?_ ?_ ?_ ?_ ?_ ?_ _ m (fun y t ht => ⟨t, ht, rfl⟩)
      · intro m' h hg
        obtain ⟨t, ht, hp⟩ := h _ _ hg
        exact ⟨t, ht, fun hc => hp ▸ hc⟩
      · intro k m' _ h; exact h
      · intro k m' y rest _ _ h; exact h
      · intro k m' y rest t _ hg hno h z t' ht'
        rcases get_insert_cases ht' with ⟨rfl, rfl⟩ | ⟨-, ht'⟩
        · obtain ⟨u, hu, hp⟩ := h _ _ hg
          exact ⟨u, hu, (take_phase t _).trans hp⟩
        · exact h _ _ ht'
      · intro k m' y rest t _ hg hf h hx
        obtain ⟨-, hx⟩ := get_remove_cases hx
        obtain ⟨t, ht, hp⟩ := h _ _ hx
        exact ⟨t, ht, fun hc => hp ▸ hc⟩
      · intro k m' y rest t i _ hg hf h hx
        rcases get_insert_cases hx with ⟨rfl, rfl⟩ | ⟨-, hx⟩
        · obtain ⟨t, ht, hp⟩ := h _ _ hg
          exact ⟨t, ht, fun hc => hp ▸ hc⟩
        · obtain ⟨t, ht, hp⟩ := h _ _ hx
          exact ⟨t, ht, fun hc => hp ▸ hc⟩
      · intro k m' y rest t e _ hg hf h hx
        obtain ⟨-, hx⟩ := get_remove_cases hx
        obtain ⟨t, ht, hp⟩ := h _ _ hx
        exact ⟨t, ht, fun hc => hp ▸ hc⟩

theorem mem_openings {evs : List Ev} {x : UInt32} (h : x ∈ openings evs) :
    ∃ v t a b, .opened x v t a b ∈ evs := by
  simp only [openings, List.mem_filterMap] at h
  obtain ⟨e, he, hx⟩ := h
  cases e <;> simp at hx
  subst hx
  exact ⟨_, _, _, _, he⟩

/-! ### Tasks of removed sessions -/

/-- A closed session stays closed and awake, and exchanges nothing. -/
theorem io_closed (s : Sess) (o : Io) (hc : s.ctx.closed = true) (hi : s.ghost.transIdle = false) :
    (s.step o.op).1.ctx.closed = true ∧ (s.step o.op).1.ghost.transIdle = false ∧
      traffic (s.step o.op).2 = [] := by
  cases o with
  | connected =>
    simp only [Io.op, Sess.step]
    split <;> exact ⟨hc, hi, rfl⟩
  | connectFailed n =>
    simp only [Io.op, Sess.step]
    split
    · simp [Ctx.setError, hc, Ghost.woken, hi, traffic]
    · exact ⟨hc, hi, rfl⟩
  | transport rd wr =>
    simp only [Io.op, Sess.step, hc, if_true]
    split <;> exact ⟨hc, hi, rfl⟩

/-- The next poll of a closed session ends its task. -/
theorem transport_done (s : Sess) (rd : ReadRes) (wr : WriteRes) (hc : s.ctx.closed = true)
    (hp : s.phase = .running) : (s.step (.transport rd wr)).1.phase = .done := by
  simp [Sess.step, hp, hc]

theorem io_running (s : Sess) (o : Io) (hc : s.ctx.closed = true) (ho : o ≠ .connected)
    (h : (s.step o.op).1.phase = .running) : s.phase = .running := by
  cases o with
  | connected => exact absurd rfl ho
  | connectFailed n =>
    simp only [Io.op, Sess.step] at h
    split at h
    · cases h
    · exact h
  | transport rd wr =>
    simp only [Io.op, Sess.step, hc, if_true] at h
    split at h
    · cases h
    · exact h

theorem traffic_append (a b : List Obs) : traffic (a ++ b) = traffic a ++ traffic b := by
  simp [traffic]

/-- A run of the task of a removed session. -/
theorem task_run (t : Task) (o : Io) (hc : t.sess.ctx.closed = true) (hi : t.sess.ghost.transIdle = false) :
    (t.run o).1.sess.ctx.closed = true ∧ (t.run o).1.sess.ghost.transIdle = false ∧
    (t.run o).1.start = t.start ∧ (t.run o).1.since = t.since ∧ (t.run o).2 = [] ∧
    ((t.run o).1.sess.phase = .running → t.sess.phase = .running) ∧
    ((t.run o).1.sess.phase = .connecting → t.sess.phase = .connecting) := by
  obtain ⟨h1, h2, h3⟩ := io_closed t.sess o hc hi
  cases o with
  | connected =>
    obtain ⟨k1, k2, k3⟩ := io_closed (t.sess.step .connected).1 (.transport .pending .pending) h1 h2
    refine ⟨k1, k2, rfl, rfl, ?_, ?_, ?_⟩
    · show traffic (_ ++ _) = []
      rw [traffic_append]
      exact List.append_eq_nil_iff.2 ⟨h3, k3⟩
    · intro h
      exact absurd h (by
        show ((t.sess.step .connected).1.step (.transport .pending .pending)).1.phase ≠ .running
        intro h
        have hr := io_running (t.sess.step .connected).1 (.transport .pending .pending) h1 (by simp) h
        have hd := transport_done (t.sess.step .connected).1 .pending .pending h1 hr
        rw [hd] at h
        cases h)
    · intro h
      exact step_connecting _ _ (step_connecting _ _ h)
  | connectFailed n =>
    exact ⟨h1, h2, rfl, rfl, h3, io_running _ _ hc (by simp), step_connecting _ _⟩
  | transport rd wr =>
    exact ⟨h1, h2, rfl, rfl, h3, io_running _ _ hc (by simp), step_connecting _ _⟩

/-! ### The invariant -/

/-- What holds for the task of every removed session. -/
structure TaskOk (lag : Nat) (w : World) (k : Task) : Prop where
  closed : k.sess.ctx.closed = true
  awake : k.sess.ghost.transIdle = false
  start : k.start ≤ w.now
  since : k.since ≤ w.now
  running : k.sess.phase = .running → w.now ≤ k.since + lag
  connecting : k.sess.phase = .connecting → w.now ≤ k.start + 20000 + lag
  ofClosed : ∀ C, w.closedAt = some C → k.start ≤ C ∧ k.since ≤ C + 21000 + 3 * lag
  ofDropped : ∀ T, w.stage = .dropped T → k.since ≤ T + 1000 + lag

/-- What holds for every open session. -/
structure OpenOk (lag : Nat) (w : World) (sid : UInt32) (s : Sess) : Prop where
  start : w.starts sid ≤ w.now
  connecting : s.phase = .connecting → w.now ≤ w.starts sid + 20000 + lag
  ofClosed : ∀ C, w.closedAt = some C → w.starts sid ≤ C

/-- What holds for the watchdog and the future of `connect`. -/
structure Clock (lag : Nat) (w : World) : Prop where
  dog : ∀ due, w.dog = some due → w.now ≤ due + lag ∧ due ≤ w.now + 1000 ∧
    ∀ C, w.closedAt = some C → due ≤ C + 1000
  dogEnd : w.dog = none → w.dogEnd ≤ w.now ∧ (∀ C, w.closedAt = some C → w.dogEnd ≤ C + 1000 + lag) ∧
    (w.stage = .sending → w.now ≤ w.dogEnd + lag)
  closed : ∀ C, w.closedAt = some C → C ≤ w.now
  open_ : w.closedAt = none → w.stage = .sending
  closing : ∀ t, w.stage = .closing t → w.now ≤ t + 20000 + lag ∧
    ∀ C, w.closedAt = some C → t ≤ C + 1000 + 2 * lag
  dropped : ∀ T, w.stage = .dropped T → T ≤ w.now ∧ ∀ C, w.closedAt = some C →
    C ≤ T ∧ T ≤ C + 21000 + 3 * lag
  gone : w.dog = none → ∀ T, w.stage = .dropped T → w.ctx = none

structure Inv (lag : Nat) (w : World) : Prop where
  clock : Clock lag w
  mgr : ∀ m, w.ctx = some m → MInv m ∧ ∀ sid s, m.sessions.get sid = some s → OpenOk lag w sid s
  tasks : ∀ k ∈ w.tasks, TaskOk lag w k

/-- As long as the context is there, not much time has passed since it was closed. -/
theorem Clock.ctx {lag w} (h : Clock lag w) (hc : w.ctx ≠ none) :
    (∀ C, w.closedAt = some C → w.now ≤ C + 21000 + 3 * lag) ∧
    (∀ T, w.stage = .dropped T → w.now ≤ T + 1000 + lag) := by
  constructor
  · intro C hC
    cases hs : w.stage with
    | sending =>
      cases hd : w.dog with
      | some due =>
        obtain ⟨h1, h2, h3⟩ := h.dog due hd
        have := h3 C hC
        omega
      | none =>
        obtain ⟨h1, h2, h3⟩ := h.dogEnd hd
        have := h2 C hC
        have := h3 hs
        omega
    | closing t =>
      obtain ⟨h1, h2⟩ := h.closing t hs
      have := h2 C hC
      omega
    | dropped T =>
      cases hd : w.dog with
      | some due =>
        obtain ⟨h1, h2, h3⟩ := h.dog due hd
        have := h3 C hC
        omega
      | none => exact absurd (h.gone hd T hs) hc
  · intro T hT
    cases hd : w.dog with
    | some due =>
      obtain ⟨h1, h2, h3⟩ := h.dog due hd
      obtain ⟨h4, h5⟩ := h.dropped T hT
      cases hC : w.closedAt with
      | none => rw [h.open_ hC] at hT; cases hT
      | some C =>
        have := h3 C hC
        have := (h5 C hC).1
        omega
    | none => exact absurd (h.gone hd T hT) hc

theorem inv_new (lag : Nat) (g : Bool) (W n : Nat) : Inv lag (World.new g W n) := by
  refine ⟨⟨?_, ?_, ?_, ?_, ?_, ?_, ?_⟩, ?_, ?_⟩
  · intro due h
    cases h
    exact ⟨Nat.zero_le _, by simp [World.new, dogPeriod], (by intro C h; cases h)⟩
  · intro h; cases h
  · intro C h; cases h
  · intro _; rfl
  · intro t h; cases h
  · intro t h; cases h
  · intro h; cases h
  · intro m hm
    cases hm
    exact ⟨MInv.new g W n, (by intro sid s h; cases h)⟩
  · intro k hk; cases hk

/-- Time passes. -/
theorem inv_pass {lag w} (h : Inv lag w) (d : Nat) (hp : w.mayPass lag (w.now + d)) :
    Inv lag { w with now := w.now + d } := by
  obtain ⟨p1, p2, p3, p4, p5, p6⟩ := hp
  obtain ⟨hc, hm, ht⟩ := h
  refine ⟨⟨?_, ?_, ?_, hc.open_, ?_, ?_, hc.gone⟩, ?_, ?_⟩
  · intro due hd
    obtain ⟨h1, h2, h3⟩ := hc.dog due hd
    exact ⟨p1 due hd, by dsimp only; omega, h3⟩
  · intro hd
    obtain ⟨h1, h2, h3⟩ := hc.dogEnd hd
    exact ⟨by dsimp only; omega, h2, fun hs => p2 hs hd⟩
  · intro C hC
    have := hc.closed C hC
    dsimp only; omega
  · intro t hs
    exact ⟨p3 t hs, (hc.closing t hs).2⟩
  · intro T hT
    obtain ⟨h1, h2⟩ := hc.dropped T hT
    exact ⟨by dsimp only; omega, h2⟩
  · intro m hm'
    obtain ⟨h1, h2⟩ := hm m hm'
    refine ⟨h1, fun sid s hs => ?_⟩
    obtain ⟨k1, k2, k3⟩ := h2 sid s hs
    exact ⟨by dsimp only; omega, fun hph => p4 m hm' (sid, s) (AMap.get_mem hs) hph, k3⟩
  · intro k hk
    obtain ⟨k1, k2, k3, k4, k5, k6, k7, k8⟩ := ht k hk
    exact ⟨k1, k2, by dsimp only; omega, by dsimp only; omega, fun hph => p6 k hk hph k2,
      fun hph => p5 k hk hph, k7, k8⟩

/-- The session manager is used. -/
theorem inv_mgr {lag w} (h : Inv lag w) (m : Mgr) (op : MOp) (hm : w.ctx = some m)
    (hs : needsClient op = true → w.stage = .sending ∧ w.closedAt = none) :
    Inv lag (w.manage m op).1 := by
  have hb := h.clock.ctx (by rw [hm]; simp)
  obtain ⟨h1, h2⟩ := h.mgr m hm
  refine ⟨⟨h.clock.dog, h.clock.dogEnd, h.clock.closed, h.clock.open_, h.clock.closing, h.clock.dropped, ?_⟩,
    ?_, ?_⟩
  · intro hd T hT
    rw [h.clock.gone hd T hT] at hm; cases hm
  · intro m' hm'
    cases hm'
    refine ⟨step_minv h1 op, ?_⟩
    intro sid s' hs'
    by_cases ho : sid ∈ openings (m.step op).2.1
    · obtain ⟨v, t, a, b, he⟩ := mem_openings ho
      have hn := ((step_events m op _ he).2.2 sid v t a b rfl).1
      refine ⟨?_, ?_, ?_⟩
      · simp [World.manage, ho]
      · intro _; simp only [World.manage, ho, if_true]; omega
      · intro C hC
        rw [World.manage, (hs hn).2] at hC; cases hC
    · rcases step_sessions m op sid s' hs' with hx | ⟨s, hx, hph⟩
      · exact absurd hx ho
      · obtain ⟨k1, k2, k3⟩ := h2 sid s hx
        refine ⟨?_, ?_, ?_⟩
        · simpa [World.manage, ho] using k1
        · intro hp; simpa [World.manage, ho] using k2 (hph hp)
        · intro C hC; simpa [World.manage, ho] using k3 C hC
  · intro k hk
    simp only [World.manage, List.mem_append, List.mem_map, List.mem_flatMap] at hk
    rcases hk with hk | ⟨p, ⟨e, he, hp⟩, rfl⟩
    · obtain ⟨k1, k2, k3, k4, k5, k6, k7, k8⟩ := h.tasks k hk
      exact ⟨k1, k2, k3, k4, k5, k6, k7, k8⟩
    · obtain ⟨q1, q2, s, q3, q4⟩ := leaving_closed h1 he hp
      obtain ⟨k1, k2, k3⟩ := h2 _ s q3
      refine ⟨q1, q2, k1, Nat.le_refl _, fun _ => Nat.le_add_right _ _, ?_, ?_, hb.2⟩
      · intro hph; exact k2 (q4 ▸ hph)
      · intro C hC; exact ⟨k3 C hC, hb.1 C hC⟩

/-- The task of a removed session runs. -/
theorem inv_task {lag w} (h : Inv lag w) (pre post : List Task) (t : Task) (o : Io)
    (ht : w.tasks = pre ++ t :: post) : Inv lag { w with tasks := pre ++ (t.run o).1 :: post } := by
  refine ⟨⟨h.clock.dog, h.clock.dogEnd, h.clock.closed, h.clock.open_, h.clock.closing, h.clock.dropped,
    h.clock.gone⟩, ?_, ?_⟩
  · intro m hm
    obtain ⟨h1, h2⟩ := h.mgr m hm
    refine ⟨h1, fun sid s hs => ?_⟩
    obtain ⟨k1, k2, k3⟩ := h2 sid s hs
    exact ⟨k1, k2, k3⟩
  · intro k hk
    have hmem : k ∈ w.tasks ∨ k = (t.run o).1 := by
      rw [ht]
      simp only [List.mem_append, List.mem_cons] at hk ⊢
      rcases hk with hk | hk | hk
      · exact .inl (.inl hk)
      · exact .inr hk
      · exact .inl (.inr (.inr hk))
    rcases hmem with hk | rfl
    · obtain ⟨k1, k2, k3, k4, k5, k6, k7, k8⟩ := h.tasks k hk
      exact ⟨k1, k2, k3, k4, k5, k6, k7, k8⟩
    · obtain ⟨k1, k2, k3, k4, k5, k6, k7, k8⟩ := h.tasks t (by rw [ht]; simp)
      obtain ⟨q1, q2, q3, q4, -, q6, q7⟩ := task_run t o k1 k2
      refine ⟨q1, q2, by rw [q3]; exact k3, by rw [q4]; exact k4, fun hp => by rw [q4]; exact k5 (q6 hp),
        fun hp => by rw [q3]; exact k6 (q7 hp), fun C hC => by rw [q3, q4]; exact k7 C hC,
        fun T hT => by rw [q4]; exact k8 T hT⟩

/-- The last holder of the context goes away. -/
theorem inv_dropCtx {lag} {w : World} {T : Nat}
    (hs : w.stage = .dropped T) (hnow : w.now ≤ T + 1000 + lag)
    (hC : ∀ C, w.closedAt = some C → w.now ≤ C + 21000 + 3 * lag)
    (hclock : w.ctx = none → Clock lag w)
    (hclock' : w.ctx ≠ none → Clock lag { w with ctx := none })
    (hm : ∀ m, w.ctx = some m → MInv m ∧ ∀ sid s, m.sessions.get sid = some s → OpenOk lag w sid s)
    (ht : ∀ k ∈ w.tasks, TaskOk lag w k) : Inv lag w.dropCtx := by
  unfold World.dropCtx
  cases hx : w.ctx with
  | none =>
    exact ⟨hclock hx, fun m hm' => (by rw [hx] at hm'; cases hm'), ht⟩
  | some m =>
    obtain ⟨h1, h2⟩ := hm m hx
    have hc := hclock' (by rw [hx]; simp)
    refine ⟨⟨hc.dog, hc.dogEnd, hc.closed, hc.open_, hc.closing, hc.dropped, fun _ _ _ => rfl⟩,
      fun m' hm' => (by cases hm'), ?_⟩
    intro k hk
    simp only [List.mem_append, List.mem_map] at hk
    rcases hk with hk | ⟨p, hp, rfl⟩
    · obtain ⟨k1, k2, k3, k4, k5, k6, k7, k8⟩ := ht k hk
      exact ⟨k1, k2, k3, k4, k5, k6, k7, k8⟩
    · have hg := AMap.get_of_mem (k := p.1) (v := p.2) h1.nodup hp
      obtain ⟨k1, k2, k3⟩ := h2 _ _ hg
      refine ⟨close_closed _, reachable_awake (h1.reach _ _ hg) _ (close_closed _), k1, Nat.le_refl _,
        fun _ => Nat.le_add_right _ _, k2, ?_, ?_⟩
      · intro C hC'; exact ⟨k3 C hC', hC C hC'⟩
      · intro T' hT'
        change w.stage = _ at hT'
        rw [hs] at hT'
        cases hT'
        exact hnow

theorem getD_some {a : Option Nat} {n C : Nat} (h : some (a.getD n) = some C) :
    a = some C ∨ a = none ∧ C = n := by
  cases a with
  | none => exact .inr ⟨rfl, by simpa using h.symm⟩
  | some x => left; simpa using h

/-- Marking the context as closed. -/
theorem inv_mark {lag w} (h : Inv lag w) : Inv lag { w with closedAt := some (w.closedAt.getD w.now) } := by
  obtain ⟨hc, hm, ht⟩ := h
  refine ⟨⟨?_, ?_, ?_, (by intro h; cases h), ?_, ?_, hc.gone⟩, ?_, ?_⟩
  · intro due hd
    obtain ⟨h1, h2, h3⟩ := hc.dog due hd
    refine ⟨h1, h2, fun C hC => ?_⟩
    rcases getD_some hC with hC | ⟨-, rfl⟩
    · exact h3 C hC
    · exact h2
  · intro hd
    obtain ⟨h1, h2, h3⟩ := hc.dogEnd hd
    refine ⟨h1, fun C hC => ?_, h3⟩
    rcases getD_some hC with hC | ⟨-, rfl⟩
    · exact h2 C hC
    · dsimp only at h1 ⊢; omega
  · intro C hC
    rcases getD_some hC with hC | ⟨-, rfl⟩
    · exact hc.closed C hC
    · exact Nat.le_refl _
  · intro t hs
    obtain ⟨h1, h2⟩ := hc.closing t hs
    refine ⟨h1, fun C hC => ?_⟩
    rcases getD_some hC with hC | ⟨hn, rfl⟩
    · exact h2 C hC
    · rw [hc.open_ hn] at hs; cases hs
  · intro T hT
    obtain ⟨h1, h2⟩ := hc.dropped T hT
    refine ⟨h1, fun C hC => ?_⟩
    rcases getD_some hC with hC | ⟨hn, rfl⟩
    · exact h2 C hC
    · rw [hc.open_ hn] at hT; cases hT
  · intro m hm'
    obtain ⟨h1, h2⟩ := hm m hm'
    refine ⟨h1, fun sid s hs => ?_⟩
    obtain ⟨k1, k2, k3⟩ := h2 sid s hs
    refine ⟨k1, k2, fun C hC => ?_⟩
    rcases getD_some hC with hC | ⟨hn, rfl⟩
    · exact k3 C hC
    · exact k1
  · intro k hk
    obtain ⟨k1, k2, k3, k4, k5, k6, k7, k8⟩ := ht k hk
    refine ⟨k1, k2, k3, k4, k5, k6, fun C hC => ?_, k8⟩
    rcases getD_some hC with hC | ⟨hn, rfl⟩
    · exact k7 C hC
    · exact ⟨k3, by omega⟩

/-- A change of the watchdog or of the stage keeps the sessions as they are. -/
theorem inv_change {lag} {w : World} (h : Inv lag w) (dog : Option Nat) (dogEnd : Nat) (stage : Stage)
    (hs : ∀ T, stage = .dropped T → w.now ≤ T + 1000 + lag ∨ w.stage = .dropped T)
    (hc : Clock lag { w with dog := dog, dogEnd := dogEnd, stage := stage }) :
    Inv lag { w with dog := dog, dogEnd := dogEnd, stage := stage } := by
  refine ⟨hc, ?_, ?_⟩
  · intro m hm
    obtain ⟨h1, h2⟩ := h.mgr m hm
    refine ⟨h1, fun sid s hs => ?_⟩
    obtain ⟨k1, k2, k3⟩ := h2 sid s hs
    exact ⟨k1, k2, k3⟩
  · intro k hk
    obtain ⟨k1, k2, k3, k4, k5, k6, k7, k8⟩ := h.tasks k hk
    refine ⟨k1, k2, k3, k4, k5, k6, k7, fun T hT => ?_⟩
    rcases hs T hT with hs | hs
    · exact Nat.le_trans k4 hs
    · exact k8 T hs

/-- The watchdog wakes up. -/
theorem inv_tick {lag w} (h : Inv lag w) (due : Nat) (hd : w.dog = some due) (_ht : due ≤ w.now) :
    Inv lag w.tick := by
  have hc := h.clock
  obtain ⟨h1, h2, h3⟩ := hc.dog due hd
  unfold World.tick
  cases hC : w.closedAt with
  | none =>
    have hsend := hc.open_ hC
    dsimp only
    have := inv_change h (some (w.now + dogPeriod)) w.dogEnd w.stage (fun T hT => .inr hT)
      ⟨(by
        intro d hd'
        cases hd'
        refine ⟨by simp only [dogPeriod]; omega, by simp [dogPeriod], fun C hC' => ?_⟩
        change w.closedAt = _ at hC'
        rw [hC] at hC'; cases hC'), (by intro h; cases h), hc.closed, hc.open_, hc.closing, hc.dropped,
        (by intro h; cases h)⟩
    rw [hC] at this
    exact this
  | some C =>
    dsimp only
    have hdue := h3 C hC
    have hclock : ∀ c : Option Mgr, (c = none ∨ ∀ T, w.stage ≠ .dropped T) →
        Clock lag { w with dog := none, dogEnd := w.now, ctx := c } := by
      intro c hcc
      refine ⟨(by intro d h; cases h), fun _ => ⟨Nat.le_refl _, ?_, fun _ => Nat.le_add_right _ _⟩, hc.closed,
        hc.open_, hc.closing, hc.dropped, ?_⟩
      · intro C' hC'
        change w.closedAt = _ at hC'
        rw [hC] at hC'; cases hC'
        dsimp only; omega
      · intro _ T hT
        rcases hcc with hcc | hcc
        · exact hcc
        · exact absurd hT (hcc T)
    cases hs : w.stage with
    | sending =>
      dsimp only
      have := inv_change h none w.now w.stage (fun T hT => .inr hT) (hclock w.ctx (.inr (by rw [hs]; simp)))
      rw [hs] at this
      simpa [hC, hs] using this
    | closing t =>
      dsimp only
      have := inv_change h none w.now w.stage (fun T hT => .inr hT) (hclock w.ctx (.inr (by rw [hs]; simp)))
      rw [hs] at this
      simpa [hC, hs] using this
    | dropped T =>
      dsimp only
      obtain ⟨g1, g2⟩ := hc.dropped T hs
      have g3 := (g2 C hC).1
      have := inv_dropCtx (lag := lag) (w := { w with dog := none, dogEnd := w.now }) (T := T) hs
        (by dsimp only; omega)
        (by
          intro C' hC'
          change w.closedAt = _ at hC'
          rw [hC] at hC'; cases hC'
          dsimp only; omega)
        (fun hx => hclock w.ctx (.inl hx)) (fun _ => hclock none (.inl rfl))
        (by
          intro m hm
          obtain ⟨q1, q2⟩ := h.mgr m hm
          exact ⟨q1, fun sid s hs' => let ⟨k1, k2, k3⟩ := q2 sid s hs'; ⟨k1, k2, k3⟩⟩)
        (by
          intro k hk
          obtain ⟨k1, k2, k3, k4, k5, k6, k7, k8⟩ := h.tasks k hk
          exact ⟨k1, k2, k3, k4, k5, k6, k7, k8⟩)
      simpa [hC, hs] using this

/-- The future of `connect` goes away. -/
theorem inv_drop {lag w} (h0 : Inv lag w) (hs : ∀ t, w.stage ≠ .dropped t) : Inv lag w.drop := by
  have h := inv_mark h0
  have hctx : w.ctx ≠ none ∨ w.ctx = none := by cases w.ctx <;> simp
  generalize hC0 : w.closedAt.getD w.now = C0 at h
  have hb : w.now ≤ C0 + 21000 + 3 * lag ∧ C0 ≤ w.now := by
    have hcl := h.clock.closed C0 rfl
    refine ⟨?_, hcl⟩
    cases hst : w.stage with
    | sending =>
      cases hd : w.dog with
      | some due =>
        obtain ⟨h1, h2, h3⟩ := h.clock.dog due hd
        have := h3 C0 rfl
        dsimp only at h1
        omega
      | none =>
        obtain ⟨h1, h2, h3⟩ := h.clock.dogEnd hd
        have := h2 C0 rfl
        have := h3 hst
        dsimp only at *
        omega
    | closing t =>
      obtain ⟨h1, h2⟩ := h.clock.closing t hst
      have := h2 C0 rfl
      dsimp only at *
      omega
    | dropped t => exact absurd hst (hs t)
  have hclock : ∀ c : Option Mgr, (c = none ∨ w.dog ≠ none) →
      Clock lag { w with closedAt := some C0, stage := .dropped w.now, ctx := c } := by
    intro c hcc
    have hc := h.clock
    refine ⟨hc.dog, ?_, hc.closed, (by intro h; cases h), (by intro t h; cases h), ?_, ?_⟩
    · intro hd
      obtain ⟨h1, h2, h3⟩ := hc.dogEnd hd
      exact ⟨h1, h2, (by intro h; cases h)⟩
    · intro T hT
      cases hT
      refine ⟨Nat.le_refl _, ?_⟩
      intro C hC
      cases hC
      exact ⟨hb.2, hb.1⟩
    · intro hd T hT
      rcases hcc with hcc | hcc
      · exact hcc
      · exact absurd hd hcc
  unfold World.drop
  rw [hC0]
  dsimp only
  have hopen : ∀ m, w.ctx = some m → MInv m ∧ ∀ sid s, m.sessions.get sid = some s →
      OpenOk lag { w with closedAt := some C0, stage := .dropped w.now } sid s := by
    intro m hm
    obtain ⟨q1, q2⟩ := h.mgr m hm
    exact ⟨q1, fun sid s hs' => let ⟨k1, k2, k3⟩ := q2 sid s hs'; ⟨k1, k2, k3⟩⟩
  have htasks : ∀ k ∈ w.tasks, TaskOk lag { w with closedAt := some C0, stage := .dropped w.now } k := by
    intro k hk
    obtain ⟨k1, k2, k3, k4, k5, k6, k7, -⟩ := h.tasks k hk
    refine ⟨k1, k2, k3, k4, k5, k6, k7, fun T hT => ?_⟩
    cases hT
    dsimp only at k4
    omega
  split
  · rename_i hd
    refine inv_dropCtx (T := w.now) rfl (by dsimp only; omega) ?_
      (fun hx => hclock w.ctx (.inl hx)) (fun _ => hclock none (.inl rfl)) hopen htasks
    intro C hC
    cases hC
    exact hb.1
  · rename_i hd
    exact ⟨hclock w.ctx (.inr (by intro hn; simp [hn] at hd)), hopen, htasks⟩

theorem inv_step {lag w a w'} (h : Inv lag w) (hst : Step lag w a w') : Inv lag w' := by
  cases hst with
  | pass d hp => exact inv_pass h d hp
  | mgr m op hm hs => exact inv_mgr h m op hm hs
  | task pre post t o ht => exact inv_task h pre post t o ht
  | markClosed hs => exact inv_mark h
  | tick due hd ht => exact inv_tick h due hd ht
  | tickFails due hd ht hc =>
    have hk := h.clock
    refine inv_change h none w.now w.stage (fun T hT => .inr hT) ?_
    refine ⟨(by intro d h; cases h), fun _ => ⟨Nat.le_refl _, ?_, fun _ => Nat.le_add_right _ _⟩, hk.closed,
      hk.open_, hk.closing, hk.dropped, ?_⟩
    · intro C hC
      change w.closedAt = _ at hC
      rw [hc] at hC; cases hC
    · intro _ T hT
      change w.stage = _ at hT
      rw [hk.open_ hc] at hT; cases hT
  | over hs hc =>
    have hk := h.clock
    refine inv_change h w.dog w.dogEnd (.closing w.now) (by intro T hT; cases hT) ?_
    refine ⟨hk.dog, ?_, hk.closed, ?_, ?_, (by intro T hT; cases hT), (by intro _ T hT; cases hT)⟩
    · intro hd
      obtain ⟨h1, h2, h3⟩ := hk.dogEnd hd
      exact ⟨h1, h2, (by intro h; cases h)⟩
    · intro hn
      change w.closedAt = none at hn
      rw [hn] at hc; cases hc
    · intro t ht
      cases ht
      refine ⟨by dsimp only; omega, ?_⟩
      intro C hC
      cases hd : w.dog with
      | some due =>
        obtain ⟨h1, h2, h3⟩ := hk.dog due hd
        have := h3 C hC
        omega
      | none =>
        obtain ⟨h1, h2, h3⟩ := hk.dogEnd hd
        have := h2 C hC
        have := h3 hs
        omega
  | drop hs => exact inv_drop h hs

theorem inv_steps {lag w r w'} (h : Inv lag w) (hst : Steps lag w r w') : Inv lag w' := by
  induction hst with
  | refl => exact h
  | step _ hs ih => exact inv_step ih hs

theorem inv_reach {lag r w} (h : Reach lag r w) : Inv lag w := by
  obtain ⟨g, W, n, hst⟩ := h
  exact inv_steps (inv_new lag g W n) hst

/-! ### What the outside sees -/

theorem dropCtx_same (w : World) :
    w.dropCtx.now = w.now ∧ w.dropCtx.closedAt = w.closedAt ∧ w.dropCtx.stage = w.stage ∧
      w.dropCtx.dog = w.dog ∧ w.dropCtx.ctx = none := by
  unfold World.dropCtx
  split
  · rename_i h; exact ⟨rfl, rfl, rfl, rfl, h⟩
  · exact ⟨rfl, rfl, rfl, rfl, rfl⟩

/-- A step keeps the times of the close and of the end of the connection, or sets them to the current time. -/
theorem step_times {lag w a w'} (hst : Step lag w a w') :
    w.now ≤ w'.now ∧ (∀ C, w'.closedAt = some C → w.closedAt = some C ∨ C = w.now) ∧
      (∀ T, w'.stage = .dropped T → w.stage = .dropped T ∨ T = w.now) := by
  cases hst with
  | pass d hp => exact ⟨Nat.le_add_right _ _, fun C h => .inl h, fun T h => .inl h⟩
  | mgr m op hm hs => exact ⟨Nat.le_refl _, fun C h => .inl h, fun T h => .inl h⟩
  | task pre post t o ht => exact ⟨Nat.le_refl _, fun C h => .inl h, fun T h => .inl h⟩
  | markClosed hs =>
    refine ⟨Nat.le_refl _, fun C h => ?_, fun T h => .inl h⟩
    rcases getD_some h with h | ⟨-, h⟩
    · exact .inl h
    · exact .inr h
  | tick due hd ht =>
    unfold World.tick
    split
    · exact ⟨Nat.le_refl _, fun C h => .inl h, fun T h => .inl h⟩
    · dsimp only
      split
      · obtain ⟨h1, h2, h3, -, -⟩ := dropCtx_same { w with dog := none, dogEnd := w.now }
        rw [h1, h2, h3]
        exact ⟨Nat.le_refl _, fun C h => .inl h, fun T h => .inl h⟩
      · exact ⟨Nat.le_refl _, fun C h => .inl h, fun T h => .inl h⟩
  | tickFails due hd ht hc => exact ⟨Nat.le_refl _, fun C h => .inl h, fun T h => .inl h⟩
  | over hs hc => exact ⟨Nat.le_refl _, fun C h => .inl h, by intro T h; cases h⟩
  | drop hs =>
    unfold World.drop
    dsimp only
    have key : ∀ v : World, v.now = w.now → v.closedAt = some (w.closedAt.getD w.now) →
        v.stage = .dropped w.now → w.now ≤ v.now ∧
        (∀ C, v.closedAt = some C → w.closedAt = some C ∨ C = w.now) ∧
        (∀ T, v.stage = .dropped T → w.stage = .dropped T ∨ T = w.now) := by
      intro v h1 h2 h3
      refine ⟨by omega, fun C h => ?_, fun T h => ?_⟩
      · rw [h2] at h
        rcases getD_some h with h | ⟨-, h⟩
        · exact .inl h
        · exact .inr h
      · rw [h3] at h; cases h; exact .inr rfl
    split
    · obtain ⟨h1, h2, h3, -, -⟩ := dropCtx_same
        { w with closedAt := some (w.closedAt.getD w.now), stage := .dropped w.now }
      exact key _ h1 h2 h3
    · exact key _ rfl rfl rfl

/-- What a step shows: new connections only before the close, traffic only while the context exists. -/
theorem step_acts {lag w a w'} (h : Inv lag w) (hst : Step lag w a w') (x : Act) (hx : x ∈ a) :
    ((∃ sid, x = .opened sid) ∧ w.closedAt = none) ∨ (isTraffic x = true ∧ w.ctx ≠ none) := by
  cases hst with
  | pass d hp => cases hx
  | mgr m op hm hs =>
    simp only [World.manage, List.mem_append, List.mem_map] at hx
    rcases hx with ⟨sid, hsid, rfl⟩ | hx
    · obtain ⟨v, t, a, b, he⟩ := mem_openings hsid
      exact .inl ⟨⟨sid, rfl⟩, (hs ((step_events m op _ he).2.2 sid v t a b rfl).1).2⟩
    · right
      refine ⟨?_, by rw [hm]; simp⟩
      have : ∀ os : List Obs, x ∈ traffic os → isTraffic x = true := by
        intro os h
        simp only [traffic, List.mem_filterMap] at h
        obtain ⟨o, -, ho⟩ := h
        cases o <;> simp at ho <;> subst ho <;> rfl
      unfold mgrTraffic at hx
      split at hx
      · split at hx
        · exact this _ hx
        · cases hx
      · cases hx
  | task pre post t o ht =>
    have hk := h.tasks t (by rw [ht]; simp)
    rw [(task_run t o hk.closed hk.awake).2.2.2.2.1] at hx
    cases hx
  | markClosed hs => cases hx
  | tick due hd ht => cases hx
  | tickFails due hd ht hc => cases hx
  | over hs hc => cases hx
  | drop hs => cases hx

/-- The invariant of the record. -/
def RecOk (lag : Nat) (r : List (Nat × Act)) (w : World) : Prop :=
  ∀ e ∈ r, e.1 ≤ w.now ∧
    (∀ C, w.closedAt = some C → ((∃ sid, e.2 = .opened sid) → e.1 ≤ C) ∧
      (isTraffic e.2 = true → e.1 ≤ C + 21000 + 3 * lag)) ∧
    (∀ T, w.stage = .dropped T → isTraffic e.2 = true → e.1 ≤ T + 1000 + lag)

theorem rec_steps {lag w r w'} (h : Inv lag w) (hst : Steps lag w r w') : RecOk lag r w' := by
  induction hst with
  | refl => intro e he; cases he
  | @step a w2 b w3 hst hs ih =>
    have hi := inv_steps h hst
    obtain ⟨ht, hC, hT⟩ := step_times hs
    intro e he
    have hold : e.1 ≤ w2.now ∧
        (∀ C, w2.closedAt = some C → ((∃ sid, e.2 = .opened sid) → e.1 ≤ C) ∧
          (isTraffic e.2 = true → e.1 ≤ C + 21000 + 3 * lag)) ∧
        (∀ T, w2.stage = .dropped T → isTraffic e.2 = true → e.1 ≤ T + 1000 + lag) := by
      rcases List.mem_append.1 he with he | he
      · exact ih e he
      · obtain ⟨x, hx, rfl⟩ := List.mem_map.1 he
        refine ⟨Nat.le_refl _, fun C hC => ?_, fun T hT htr => ?_⟩
        · rcases step_acts hi hs x hx with ⟨-, hn⟩ | ⟨htr, hc⟩
          · rw [hn] at hC; cases hC
          · refine ⟨?_, fun _ => (hi.clock.ctx hc).1 C hC⟩
            rintro ⟨sid, rfl⟩
            cases htr
        · rcases step_acts hi hs x hx with ⟨⟨sid, rfl⟩, -⟩ | ⟨-, hc⟩
          · cases htr
          · exact (hi.clock.ctx hc).2 T hT
    obtain ⟨o1, o2, o3⟩ := hold
    refine ⟨by omega, fun C hC' => ?_, fun T hT' htr => ?_⟩
    · rcases hC C hC' with hC' | rfl
      · exact o2 C hC'
      · exact ⟨fun _ => o1, fun _ => by omega⟩
    · rcases hT T hT' with hT' | rfl
      · exact o3 T hT' htr
      · omega

/-! ### C134 -/

theorem sessions_cases {w : World} {s : Sess} (h : s ∈ sessions w) :
    (∃ m sid, w.ctx = some m ∧ (sid, s) ∈ m.sessions) ∨ ∃ k ∈ w.tasks, k.sess = s := by
  unfold sessions at h
  rcases List.mem_append.1 h with h | h
  · split at h
    · rename_i m hm
      obtain ⟨p, hp, rfl⟩ := List.mem_map.1 h
      exact .inl ⟨m, p.1, hm, hp⟩
    · cases h
  · obtain ⟨k, hk, rfl⟩ := List.mem_map.1 h
    exact .inr ⟨k, hk, rfl⟩

/-- C134: the attempt to use a server is over at time `T` (`connect` returned with a redirect or an error, or the
client was closed). From one second later on no session is open and no connection to a service is in use, and 20
seconds later none is left, not even one that was being established (up to the latency of the runtime). -/
theorem C134_after_return (lag : Nat) (r : List (Nat × Act)) (w : World) (h : Reach lag r w) (T : Nat)
    (hT : w.stage = .dropped T) :
    (T + 1000 + lag < w.now → w.ctx = none) ∧
    (T + 1000 + 2 * lag < w.now → NoneInUse w) ∧
    (T + 20000 + 2 * lag < w.now → NoneLeft w) := by
  have hi := inv_reach h
  have hctx : T + 1000 + lag < w.now → w.ctx = none := by
    intro hlt
    cases hc : w.ctx with
    | none => rfl
    | some m =>
      have := (hi.clock.ctx (by rw [hc]; simp)).2 T hT
      omega
  have huse : T + 1000 + 2 * lag < w.now → NoneInUse w := by
    intro hlt s hs hp
    rcases sessions_cases hs with ⟨m, sid, hm, -⟩ | ⟨k, hk, rfl⟩
    · rw [hctx (by omega)] at hm; cases hm
    · have hk := hi.tasks k hk
      have h1 := hk.running hp
      have h2 := hk.ofDropped T hT
      omega
  refine ⟨hctx, huse, fun hlt s hs => ?_⟩
  have h1 := huse (by omega) s hs
  cases hp : s.phase with
  | done => rfl
  | running => exact absurd hp h1
  | connecting =>
    rcases sessions_cases hs with ⟨m, sid, hm, -⟩ | ⟨k, hk, rfl⟩
    · rw [hctx (by omega)] at hm; cases hm
    · have hk := hi.tasks k hk
      have h2 := hk.connecting hp
      obtain ⟨h3, h4⟩ := hi.clock.dropped T hT
      cases hC : w.closedAt with
      | none => rw [hi.clock.open_ hC] at hT; cases hT
      | some C =>
        have := (hk.ofClosed C hC).1
        have := (h4 C hC).1
        omega

/-- C134: the connection to the server is closed at time `C` (the server closed it or redirected the client, or the
client was closed). Within 21 seconds (up to the latency of the runtime) the attempt is over and nothing is left of
the connections to services, even if the server never completes the shutdown. -/
theorem C134_after_close (lag : Nat) (r : List (Nat × Act)) (w : World) (h : Reach lag r w) (C : Nat)
    (hC : w.closedAt = some C) (hlt : C + 21000 + 4 * lag < w.now) :
    (∃ T, w.stage = .dropped T ∧ T ≤ C + 21000 + 3 * lag) ∧ w.ctx = none ∧ NoneLeft w := by
  have hi := inv_reach h
  have hctx : w.ctx = none := by
    cases hc : w.ctx with
    | none => rfl
    | some m =>
      have := (hi.clock.ctx (by rw [hc]; simp)).1 C hC
      omega
  refine ⟨?_, hctx, fun s hs => ?_⟩
  · cases hs : w.stage with
    | dropped T => exact ⟨T, rfl, ((hi.clock.dropped T hs).2 C hC).2⟩
    | closing t =>
      obtain ⟨h1, h2⟩ := hi.clock.closing t hs
      have := h2 C hC
      omega
    | sending =>
      cases hd : w.dog with
      | some due =>
        obtain ⟨h1, h2, h3⟩ := hi.clock.dog due hd
        have := h3 C hC
        omega
      | none =>
        obtain ⟨h1, h2, h3⟩ := hi.clock.dogEnd hd
        have := h2 C hC
        have := h3 hs
        omega
  · rcases sessions_cases hs with ⟨m, sid, hm, -⟩ | ⟨k, hk, rfl⟩
    · rw [hctx] at hm; cases hm
    · have hk := hi.tasks k hk
      obtain ⟨h3, h4⟩ := hk.ofClosed C hC
      cases hp : k.sess.phase with
      | done => rfl
      | running => have := hk.running hp; omega
      | connecting => have := hk.connecting hp; omega

/-- C134: nothing is asked of a service after that: no connection to a service is requested once the connection to
the server is closed; bytes are exchanged with services for at most 21 seconds after the close, and for at most one
second after `connect` returned. -/
theorem C134_record (lag : Nat) (r : List (Nat × Act)) (w : World) (h : Reach lag r w) (t : Nat) (a : Act)
    (ha : (t, a) ∈ r) :
    (∀ C, w.closedAt = some C → ((∃ sid, a = .opened sid) → t ≤ C) ∧
      (isTraffic a = true → t ≤ C + 21000 + 3 * lag)) ∧
    (∀ T, w.stage = .dropped T → isTraffic a = true → t ≤ T + 1000 + lag) := by
  obtain ⟨g, W, n, hst⟩ := h
  exact (rec_steps (inv_new lag g W n) hst (t, a) ha).2

/-- C134: a session that left the session manager, because the server hung up, because it ended, or because the
connection to the server ended, exchanges nothing any more whatever its task is told; the task is over right after
it left, or, if the connection to the service was still being established, 20 seconds after the request. -/
theorem C134_removed (lag : Nat) (r : List (Nat × Act)) (w : World) (h : Reach lag r w) (k : Task)
    (hk : k ∈ w.tasks) :
    (∀ o, (k.run o).2 = []) ∧ (k.since + lag < w.now → k.sess.phase ≠ .running) ∧
    (k.start + 20000 + lag < w.now → k.sess.phase ≠ .connecting) ∧
    (k.sess.phase = .running → ∀ rd wr, (k.run (.transport rd wr)).1.sess.phase = .done) := by
  have hk := (inv_reach h).tasks k hk
  refine ⟨fun o => (task_run k o hk.closed hk.awake).2.2.2.2.1, ?_, ?_, ?_⟩
  · intro hlt hp; have := hk.running hp; omega
  · intro hlt hp; have := hk.connecting hp; omega
  · intro hp rd wr; exact transport_done _ _ _ hk.closed hp

/-- C134: the server's HUP for an open session removes it and leaves exactly its task behind. -/
theorem C134_hup (lag : Nat) (r : List (Nat × Act)) (w : World) (h : Reach lag r w) (m : Mgr) (hm : w.ctx = some m)
    (sid : UInt32) (s : Sess) (hs : m.sessions.get sid = some s) :
    ∃ m' t, (w.manage m (.close sid)).1.ctx = some m' ∧ m'.sessions.get sid = none ∧
      (w.manage m (.close sid)).1.tasks = w.tasks ++ [⟨t, w.starts sid, w.now⟩] ∧
      t.phase = s.phase ∧ t.ctx.closed = true ∧ t.ghost.transIdle = false := by
  obtain ⟨h1, -⟩ := (inv_reach h).mgr m hm
  refine ⟨(m.step (.close sid)).1, (s.step .close).1, rfl, ?_, ?_, rfl, rfl,
    reachable_awake (h1.reach _ _ hs) _ rfl⟩
  · simp [Mgr.step, Mgr.close, hs]
  · simp [World.manage, Mgr.step, Mgr.close, hs, leaving]

/-! ### The assumption about the runtime can always be met -/

theorem steps_one {lag w a w'} (h : Step lag w a w') : Steps lag w (a.map (w.now, ·)) w' := by
  have := Steps.step (Steps.refl (lag := lag) w) h
  simpa using this

theorem steps_trans {lag w a w1 b w2} (h1 : Steps lag w a w1) (h2 : Steps lag w1 b w2) :
    Steps lag w (a ++ b) w2 := by
  induction h2 with
  | refl => simpa using h1
  | step _ hs ih => rw [← List.append_assoc]; exact .step ih hs

/-- All tasks of removed sessions can end now. -/
theorem settle_tasks {lag : Nat} (post : List Task) : ∀ (w : World) (pre : List Task), Inv lag w →
    w.tasks = pre ++ post → (∀ k ∈ pre, k.sess.phase = .done) →
    ∃ r w', Steps lag w r w' ∧ w'.now = w.now ∧ w'.ctx = w.ctx ∧ w'.dog = w.dog ∧ w'.stage = w.stage ∧
      w'.closedAt = w.closedAt ∧ w'.starts = w.starts ∧ ∀ k ∈ w'.tasks, k.sess.phase = .done := by
  induction post with
  | nil =>
    intro w pre _ ht hd
    refine ⟨[], w, .refl w, rfl, rfl, rfl, rfl, rfl, rfl, ?_⟩
    rw [ht, List.append_nil]; exact hd
  | cons k post ih =>
    intro w pre hi ht hd
    have hk := hi.tasks k (by rw [ht]; simp)
    have hend : ∃ o, (k.run o).1.sess.phase = .done := by
      cases hp : k.sess.phase with
      | done =>
        refine ⟨.connectFailed 0, ?_⟩
        simp [Task.run, Io.op, Sess.step, hp]
      | running => exact ⟨.transport .pending .pending, transport_done _ _ _ hk.closed hp⟩
      | connecting =>
        refine ⟨.connectFailed 0, ?_⟩
        simp [Task.run, Io.op, Sess.step, hp]
    obtain ⟨o, ho⟩ := hend
    have hst : Step lag w _ _ := .task w pre post k o ht
    obtain ⟨r, w', h1, h2, h3, h4, h5, h6, h7, h8⟩ :=
      ih { w with tasks := pre ++ (k.run o).1 :: post } (pre ++ [(k.run o).1]) (inv_step hi hst)
        (by simp) (by
          intro j hj
          rcases List.mem_append.1 hj with hj | hj
          · exact hd j hj
          · simp only [List.mem_singleton] at hj; rw [hj]; exact ho)
    exact ⟨_, w', steps_trans (steps_one hst) h1, h2, h3, h4, h5, h6, h7, h8⟩

/-- All connections that are being established can fail now. -/
theorem settle_open {lag : Nat} (ks : List UInt32) : ∀ (w : World) (m : Mgr), Inv lag w → w.ctx = some m →
    ∃ r w' m', Steps lag w r w' ∧ w'.ctx = some m' ∧ w'.now = w.now ∧ w'.dog = w.dog ∧ w'.stage = w.stage ∧
      w'.closedAt = w.closedAt ∧
      (∀ sid s, m'.sessions.get sid = some s → s.phase = .connecting →
        sid ∉ ks ∧ ∃ t, m.sessions.get sid = some t ∧ t.phase = .connecting) := by
  induction ks with
  | nil =>
    intro w m hi hm
    exact ⟨[], w, m, .refl w, hm, rfl, rfl, rfl, rfl, fun sid s hs hp => ⟨by simp, s, hs, hp⟩⟩
  | cons x ks ih =>
    intro w m hi hm
    have hst : Step lag w _ _ := .mgr w m (.io x (.connectFailed 0)) hm (by intro h; cases h)
    obtain ⟨r, w', m', h1, h2, h3, h4, h5, h6, h7⟩ :=
      ih (w.manage m (.io x (.connectFailed 0))).1 _ (inv_step hi hst) rfl
    refine ⟨_, w', m', steps_trans (steps_one hst) h1, h2, h3, h4, h5, h6, ?_⟩
    intro sid s hs hp
    obtain ⟨q1, t, q2, q3⟩ := h7 sid s hs hp
    simp only [Mgr.step] at q2
    split at q2
    · rename_i u hu
      rcases get_insert_cases q2 with ⟨rfl, rfl⟩ | ⟨hne, hg⟩
      · have hu' := step_connecting _ _ q3
        simp [Io.op, Sess.step, hu'] at q3
      · exact ⟨by simp [hne, q1], t, hg, q3⟩
    · rename_i hn
      refine ⟨?_, t, q2, q3⟩
      have hne : sid ≠ x := by
        rintro rfl
        change m.sessions.get sid = some t at q2
        rw [hn] at q2; cases q2
      simp [hne, q1]

/-- Once the context is gone, time can pass without limit. -/
theorem free {lag : Nat} (w : World) (hi : Inv lag w) (T : Nat) (hs : w.stage = .dropped T) (hd : w.dog = none)
    (d : Nat) : ∃ r w', Steps lag w r w' ∧ w.now + d ≤ w'.now := by
  have hc := hi.clock.gone hd T hs
  obtain ⟨r, w', h1, h2, h3, h4, h5, h6, h7, h8⟩ := settle_tasks w.tasks w [] hi rfl (by simp)
  refine ⟨_, _, .step h1 (.pass w' d ⟨?_, ?_, ?_, ?_, ?_, ?_⟩), by dsimp only; omega⟩
  · intro due h; rw [h4, hd] at h; cases h
  · intro h; rw [h5, hs] at h; cases h
  · intro t h; rw [h5, hs] at h; cases h
  · intro m h; rw [h3, hc] at h; cases h
  · intro k hk hp; rw [h8 k hk] at hp; cases hp
  · intro k hk hp; rw [h8 k hk] at hp; cases hp

theorem free_dropped {lag : Nat} (w : World) (hi : Inv lag w) (T : Nat) (hs : w.stage = .dropped T) (d : Nat) :
    ∃ r w', Steps lag w r w' ∧ w.now + d ≤ w'.now := by
  cases hd : w.dog with
  | none => exact free w hi T hs hd d
  | some due =>
    -- nobody is connecting any more
    have hopen : ∃ r w1, Steps lag w r w1 ∧ w1.now = w.now ∧ w1.dog = w.dog ∧ w1.stage = w.stage ∧
        ∀ m, w1.ctx = some m → ∀ p ∈ m.sessions, p.2.phase ≠ .connecting := by
      cases hc : w.ctx with
      | none => exact ⟨[], w, .refl w, rfl, rfl, rfl, fun m h => by rw [hc] at h; cases h⟩
      | some m =>
        obtain ⟨r, w1, m', h1, h2, h3, h4, h5, -, h7⟩ := settle_open m.sessions.keys w m hi hc
        refine ⟨r, w1, h1, h3, h4, h5, ?_⟩
        intro m1 hm1 p hp hph
        rw [h2] at hm1; cases hm1
        have hn := ((inv_steps hi h1).mgr m' h2).1.nodup
        obtain ⟨q1, t, q2, -⟩ := h7 p.1 p.2 (AMap.get_of_mem hn hp) hph
        exact q1 ((AMap.get_isSome_iff _ _).1 (by rw [q2]; rfl))
    obtain ⟨r1, w1, a1, a2, a3, a4, a5⟩ := hopen
    have hi1 := inv_steps hi a1
    obtain ⟨r2, w2, b1, b2, b3, b4, b5, -, -, b8⟩ := settle_tasks w1.tasks w1 [] hi1 rfl (by simp)
    have hi2 := inv_steps hi1 b1
    have hdog : w2.dog = some due := by rw [b4, a3, hd]
    have hst : w2.stage = .dropped T := by rw [b5, a4, hs]
    obtain ⟨c1, c2, -⟩ := hi2.clock.dog due hdog
    have hpass : Step lag w2 [] { w2 with now := w2.now + (due - w2.now) } := by
      refine .pass w2 _ ⟨?_, ?_, ?_, ?_, ?_, ?_⟩
      · intro d' h; rw [hdog] at h; cases h; omega
      · intro h; rw [hst] at h; cases h
      · intro t h; rw [hst] at h; cases h
      · intro m hm p hp hph
        rw [b3] at hm
        exact absurd hph (a5 m hm p hp)
      · intro k hk hp; rw [b8 k hk] at hp; cases hp
      · intro k hk hp; rw [b8 k hk] at hp; cases hp
    have htick : Step lag { w2 with now := w2.now + (due - w2.now) } []
        { w2 with now := w2.now + (due - w2.now) }.tick := .tick _ due hdog (by dsimp only; omega)
    have hi3 := inv_step (inv_step hi2 hpass) htick
    have hcl : ∃ C, w2.closedAt = some C := by
      cases hC : w2.closedAt with
      | none => rw [hi2.clock.open_ hC] at hst; cases hst
      | some C => exact ⟨C, rfl⟩
    obtain ⟨C, hC⟩ := hcl
    have hshape : { w2 with now := w2.now + (due - w2.now) }.tick =
        { w2 with now := w2.now + (due - w2.now), dog := none, dogEnd := w2.now + (due - w2.now) }.dropCtx := by
      simp [World.tick, hC, hst]
    obtain ⟨e1, e2, e3, e4, -⟩ := dropCtx_same
      { w2 with now := w2.now + (due - w2.now), dog := none, dogEnd := w2.now + (due - w2.now) }
    obtain ⟨r3, w3, f1, f2⟩ := free _ hi3 T (by rw [hshape, e3]; exact hst) (by rw [hshape, e4]) d
    refine ⟨_, w3, steps_trans (steps_trans (steps_trans (steps_trans a1 b1) (steps_one hpass)) (steps_one htick)) f1,
      ?_⟩
    rw [hshape, e1] at f2
    dsimp only at f2
    omega

/-- C134: the assumption about the runtime is never impossible to meet: whatever happened, time can go on for as long
as one likes. -/
theorem C134_time_goes_on (lag : Nat) (r : List (Nat × Act)) (w : World) (h : Reach lag r w) (d : Nat) :
    ∃ r' w', Reach lag (r ++ r') w' ∧ w.now + d ≤ w'.now := by
  have hi := inv_reach h
  obtain ⟨g, W, n, hst⟩ := h
  by_cases hs : ∃ T, w.stage = .dropped T
  · obtain ⟨T, hs⟩ := hs
    obtain ⟨r', w', h1, h2⟩ := free_dropped w hi T hs d
    exact ⟨r', w', ⟨g, W, n, steps_trans hst h1⟩, h2⟩
  · have hdrop : Step lag w [] w.drop := .drop w (fun t ht => hs ⟨t, ht⟩)
    have hnow : w.drop.now = w.now ∧ w.drop.stage = .dropped w.now := by
      unfold World.drop
      dsimp only
      split
      · obtain ⟨h1, h2, h3, -, -⟩ := dropCtx_same
          { w with closedAt := some (w.closedAt.getD w.now), stage := .dropped w.now }
        exact ⟨h1, h3⟩
      · exact ⟨rfl, rfl⟩
    obtain ⟨r', w', h1, h2⟩ := free_dropped w.drop (inv_step hi hdrop) w.now hnow.2 d
    exact ⟨_, w', ⟨g, W, n, steps_trans hst (steps_trans (steps_one hdrop) h1)⟩, by omega⟩

/-! ### Concrete runs -/

/-- Commands of a concrete run. -/
inductive Cmd where
  | pass (d : Nat)
  | mgr (op : MOp)
  | task (i : Nat) (o : Io)
  | markClosed
  | tick
  | tickFails
  | over
  | drop

def canPass (lag : Nat) (w : World) (t : Nat) : Bool :=
  (match w.dog with | some due => decide (t ≤ due + lag) | none => true) &&
  (match w.stage, w.dog with | .sending, none => decide (t ≤ w.dogEnd + lag) | _, _ => true) &&
  (match w.stage with | .closing t0 => decide (t ≤ t0 + shutdownLimit + lag) | _ => true) &&
  (match w.ctx with
    | some m => m.sessions.all fun p => p.2.phase ≠ .connecting || decide (t ≤ w.starts p.1 + connectLimit + lag)
    | none => true) &&
  (w.tasks.all fun k => k.sess.phase ≠ .connecting || decide (t ≤ k.start + connectLimit + lag)) &&
  (w.tasks.all fun k => k.sess.phase ≠ .running || k.sess.ghost.transIdle || decide (t ≤ k.since + lag))

theorem canPass_sound {lag w t} (h : canPass lag w t = true) : w.mayPass lag t := by
  simp only [canPass, Bool.and_eq_true] at h
  obtain ⟨⟨⟨⟨⟨h1, h2⟩, h3⟩, h4⟩, h5⟩, h6⟩ := h
  refine ⟨?_, ?_, ?_, ?_, ?_, ?_⟩
  · intro due hd; rw [hd] at h1; simpa using h1
  · intro hs hd; rw [hs, hd] at h2; simpa using h2
  · intro t0 hs; rw [hs] at h3; simpa using h3
  · intro m hm p hp hph
    rw [hm] at h4
    have := List.all_eq_true.1 h4 p hp
    simpa [hph] using this
  · intro k hk hph
    have := List.all_eq_true.1 h5 k hk
    simpa [hph] using this
  · intro k hk hph hi
    have := List.all_eq_true.1 h6 k hk
    simpa [hph, hi] using this

def exec1 (lag : Nat) (w : World) : Cmd → Option (World × List Act)
  | .pass d => if canPass lag w (w.now + d) then some ({ w with now := w.now + d }, []) else none
  | .mgr op =>
    match w.ctx with
    | some m =>
      if needsClient op = false ∨ w.stage = .sending ∧ w.closedAt = none then some (w.manage m op) else none
    | none => none
  | .task i o =>
    match w.tasks[i]? with
    | some t => some ({ w with tasks := w.tasks.take i ++ (t.run o).1 :: w.tasks.drop (i + 1) }, (t.run o).2)
    | none => none
  | .markClosed =>
    if w.stage = .sending then some ({ w with closedAt := some (w.closedAt.getD w.now) }, []) else none
  | .tick =>
    match w.dog with
    | some due => if due ≤ w.now then some (w.tick, []) else none
    | none => none
  | .tickFails =>
    match w.dog with
    | some due =>
      if due ≤ w.now ∧ w.closedAt = none then some ({ w with dog := none, dogEnd := w.now }, []) else none
    | none => none
  | .over =>
    if w.stage = .sending ∧ w.closedAt.isSome = true then some ({ w with stage := .closing w.now }, []) else none
  | .drop => match w.stage with | .dropped _ => none | _ => some (w.drop, [])

theorem exec1_sound {lag w c w' a} (h : exec1 lag w c = some (w', a)) : Step lag w a w' := by
  cases c with
  | pass d =>
    simp only [exec1] at h
    split at h
    · rename_i hp
      cases h
      exact .pass w d (canPass_sound hp)
    · cases h
  | mgr op =>
    simp only [exec1] at h
    split at h
    · rename_i m hm
      split at h
      · rename_i hp
        injection h with h
        have h1 := congrArg Prod.fst h
        have h2 := congrArg Prod.snd h
        dsimp only at h1 h2
        subst h1; subst h2
        refine .mgr w m op hm (fun hn => ?_)
        rcases hp with hp | hp
        · rw [hn] at hp; cases hp
        · exact hp
      · cases h
    · cases h
  | task i o =>
    simp only [exec1] at h
    split at h
    · rename_i t ht
      cases h
      refine .task w _ _ t o ?_
      obtain ⟨hi, rfl⟩ := List.getElem?_eq_some_iff.1 ht
      rw [← List.drop_eq_getElem_cons hi, List.take_append_drop]
    · cases h
  | markClosed =>
    simp only [exec1] at h
    split at h
    · rename_i hs; cases h; exact .markClosed w hs
    · cases h
  | tick =>
    simp only [exec1] at h
    split at h
    · rename_i due hd
      split at h
      · rename_i ht; cases h; exact .tick w due hd ht
      · cases h
    · cases h
  | tickFails =>
    simp only [exec1] at h
    split at h
    · rename_i due hd
      split at h
      · rename_i ht; cases h; exact .tickFails w due hd ht.1 ht.2
      · cases h
    · cases h
  | over =>
    simp only [exec1] at h
    split at h
    · rename_i hs; cases h; exact .over w hs.1 hs.2
    · cases h
  | drop =>
    simp only [exec1] at h
    split at h
    · cases h
    · rename_i hs; cases h; exact .drop w (fun t ht => hs t ht)

def exec (lag : Nat) (w : World) : List Cmd → Option (World × List (Nat × Act))
  | [] => some (w, [])
  | c :: cs =>
    match exec1 lag w c with
    | none => none
    | some (w1, a) =>
      match exec lag w1 cs with
      | none => none
      | some (w2, b) => some (w2, a.map (w.now, ·) ++ b)

theorem exec_sound {lag : Nat} (cs : List Cmd) : ∀ {w w' : World} {r : List (Nat × Act)},
    exec lag w cs = some (w', r) → Steps lag w r w' := by
  induction cs with
  | nil => intro w w' r h; cases h; exact .refl w
  | cons c cs ih =>
    intro w w' r h
    simp only [exec] at h
    split at h
    · cases h
    · rename_i w1 a h1
      split at h
      · cases h
      · rename_i w2 b h2
        cases h
        exact steps_trans (steps_one (exec1_sound h1)) (ih h2)

theorem exec_reach {lag : Nat} {cs : List Cmd} {g : Bool} {W n : Nat} {p : World × List (Nat × Act)}
    (h : exec lag (World.new g W n) cs = some p) : Reach lag p.2 p.1 := ⟨g, W, n, exec_sound cs h⟩

theorem exec_witness (lag : Nat) (g : Bool) (W n : Nat) (cs : List Cmd) (f : World → Bool)
    (h : ((exec lag (World.new g W n) cs).any fun p => f p.1) = true) :
    ∃ r w, Reach lag r w ∧ f w = true := by
  cases hx : exec lag (World.new g W n) cs with
  | none => rw [hx] at h; cases h
  | some p =>
    rw [hx] at h
    exact ⟨p.2, p.1, exec_reach hx, h⟩

/-- Two sessions, one in use (three bytes were read), one being established; the server closes the connection at
500 ms; the shutdown takes 4.5 s; the watchdog ends at 1 s. -/
def demoCmds : List Cmd :=
  [.mgr (.connect demoTable 1 7), .mgr (.io 7 .connected), .pass 400,
   .mgr (.connect demoTable 1 8), .mgr (.io 7 (.transport (.ok [1, 2, 3]) .pending)), .pass 100,
   .markClosed, .over, .pass 500, .tick, .pass 4000,
   .mgr (.io 7 (.transport (.ok [4]) .pending)), .drop]

/-- The client is closed at 300 ms: the watchdog still holds the context for a while. -/
def abortCmds : List Cmd :=
  [.mgr (.connect demoTable 1 7), .mgr (.io 7 .connected), .mgr (.connect demoTable 1 8), .pass 300, .drop,
   .pass 600, .mgr (.io 7 (.transport (.ok [1, 2]) .pending)), .pass 100, .tick]

/-- The phases of all sessions. -/
def phases (w : World) : List Phase := (sessions w).map (·.phase)

/-- Non-vacuity of C134: runs in which a connection ends with sessions, one in use and one being established; bytes
are still read after the close, before the context is dropped; then both sessions end and 25 more seconds pass. -/
example :
    (exec 10 (World.new true 65536 0) demoCmds).map (fun p => ((p.1.now, p.1.closedAt, p.1.stage), phases p.1, p.2)) =
      some ((5000, some 500, .dropped 5000), [.connecting, .running],
        [(0, .opened 7), (400, .opened 8), (400, .read [1, 2, 3]), (5000, .read [4])]) ∧
    (exec 10 (World.new true 65536 0) (demoCmds ++ [.task 1 (.transport .pending .pending), .pass 15000,
        .task 0 .connected, .pass 10000])).map (fun p => (p.1.now, p.1.ctx.isNone, phases p.1)) =
      some (30000, true, [.done, .done]) ∧
    (exec 10 (World.new true 65536 0) abortCmds).map (fun p => ((p.1.now, p.1.stage, p.1.ctx.isNone), phases p.1, p.2)) =
      some ((1000, .dropped 300, true), [.connecting, .running],
        [(0, .opened 7), (0, .opened 8), (900, .read [1, 2])]) := by
  refine ⟨?_, ?_, ?_⟩ <;> decide +kernel

/-- The runtime may not keep a woken task from running: in the state above, time cannot pass by more than the
latency before the task of the closed session ran, and a HUP of the server leaves a task that ends. -/
example :
    (exec 10 (World.new true 65536 0) (abortCmds ++ [.pass 11])).isNone = true ∧
    (exec 10 (World.new true 65536 0) (abortCmds ++ [.pass 10])).isSome = true ∧
    (exec 10 (World.new true 65536 0) [.mgr (.connect demoTable 1 7), .mgr (.io 7 .connected), .mgr (.close 7),
      .task 0 (.transport (.ok [1]) .pending)]).map (fun p => (phases p.1, p.2)) =
      some ([.done], [(0, .opened 7)]) := by
  decide +kernel

/-- C134 (finding): closing does not stop a connection that is being established. There is a run in which `connect`
returned at time 0 and the connection to the service is still being established 20 seconds later; another in which the
server hung up the session at time 0. -/
theorem C134_connecting_goes_on : ∃ r1 w1 r2 w2,
    Reach 0 r1 w1 ∧ w1.stage = .dropped 0 ∧ w1.now = 20000 ∧ (∃ s ∈ sessions w1, s.phase = .connecting) ∧
    Reach 0 r2 w2 ∧ w2.stage = .sending ∧ w2.now = 20000 ∧ w2.ctx.map (·.len) = some 0 ∧
    (∃ s ∈ sessions w2, s.phase = .connecting) := by
  obtain ⟨r1, w1, hr1, h1⟩ := exec_witness 0 true 65536 0
    [.mgr (.connect demoTable 1 7), .drop, .pass 1000, .tick, .pass 19000]
    (fun w => w.stage = .dropped 0 && w.now = 20000 && (sessions w).any (fun s => s.phase = .connecting))
    (by decide +kernel)
  obtain ⟨r2, w2, hr2, h2⟩ := exec_witness 0 true 65536 0
    ([.mgr (.connect demoTable 1 7), .mgr (.close 7)] ++ (List.replicate 20 [Cmd.pass 1000, .tick]).flatten)
    (fun w => w.stage = .sending && w.now = 20000 && w.ctx.map (·.len) = some 0 &&
      (sessions w).any (fun s => s.phase = .connecting))
    (by decide +kernel)
  simp only [Bool.and_eq_true, decide_eq_true_eq, List.any_eq_true] at h1 h2
  exact ⟨r1, w1, r2, w2, hr1, h1.1.1, h1.1.2, h1.2, hr2, h2.1.1.1, h2.1.1.2, h2.1.2, h2.2⟩

end Verif.Props.Teardown
