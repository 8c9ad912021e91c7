import Verif.Spec.Count
import Verif.Props.Teardown
/-!
# The number of connections to services: C135
-/
namespace Verif.Props.Count
open Verif Verif.Session Verif.Teardown Verif.Spec.Teardown Verif.Spec.SessionManager Verif.Spec.Count
open Verif.Props.SessionManager (demoTable after_step)
open Verif.Props.Teardown

/-- A step of the manager reports at most one event. -/
theorem step_short (m : Mgr) (op : MOp) : (m.step op).2.1 = [] ∨ ∃ e, (m.step op).2.1 = [e] := by
  cases op with
  | connect get svc sid =>
    simp only [Mgr.step, Mgr.connect]
    split
    · exact .inr ⟨_, rfl⟩
    · exact .inr ⟨_, rfl⟩
  | send msg =>
    simp only [Mgr.step, Mgr.send]
    split
    · exact .inl rfl
    · exact .inr ⟨_, rfl⟩
  | close sid =>
    simp only [Mgr.step, Mgr.close]
    split
    · exact .inr ⟨_, rfl⟩
    · exact .inl rfl
  | dataAck sid len =>
    simp only [Mgr.step, Mgr.dataAck]
    split <;> exact .inl rfl
  | io sid o =>
    simp only [Mgr.step]
    split <;> exact .inl rfl
  | newId => exact .inl rfl
  | poll =>
    simp only [Mgr.step, Mgr.poll]
    split
    · exact .inl rfl
    · refine pollLoop_cases (fun _ _ => True) (fun r => r.2.2 = [] ∨ ∃ e, r.2.2 = [e])
        ?_ ?_ ?_ ?_ ?_ ?_ ?_ _ m trivial
      · intro _ _; exact .inl rfl
      · intros; trivial
      · intros; trivial
      · intros; trivial
      all_goals intros; exact .inr ⟨_, rfl⟩

theorem keys_mem {m : Mgr} {sid : UInt32} : sid ∈ m.sessions.keys ↔ (m.sessions.get sid).isSome = true :=
  (AMap.get_isSome_iff _ _).symm

/-- The ids of the sessions that leave the manager. -/
def left (m : Mgr) (op : MOp) : List UInt32 := ((m.step op).2.1.flatMap (leaving m)).map (·.1)

theorem gone_perm {m m' : Mgr} (hm : m.sessions.keys.Nodup) (hn : m'.sessions.keys.Nodup) (s : UInt32)
    (ha : ∀ x, (if s = x then (if (m.sessions.get x).isSome = true then some false else none)
      else some (m.sessions.get x).isSome) = some (m'.sessions.get x).isSome) :
    (∃ u, m.sessions.get s = some u) ∧ (m'.sessions.keys ++ [s]).Perm m.sessions.keys := by
  have h0 := ha s
  rw [if_pos rfl] at h0
  have hs : (m.sessions.get s).isSome = true ∧ (m'.sessions.get s).isSome = false := by
    split at h0
    · rename_i h; exact ⟨h, by simpa using h0.symm⟩
    · cases h0
  refine ⟨Option.isSome_iff_exists.1 hs.1, ?_⟩
  have hnd : (m'.sessions.keys ++ [s]).Nodup := by
    rw [List.nodup_append]
    refine ⟨hn, by simp, ?_⟩
    intro a ha' b hb hab
    simp only [List.mem_singleton] at hb
    subst hb; subst hab
    rw [keys_mem, hs.2] at ha'; cases ha'
  refine (List.perm_ext_iff_of_nodup hnd hm).2 fun x => ?_
  rw [keys_mem, List.mem_append, keys_mem, List.mem_singleton]
  by_cases hx : s = x
  · subst hx; simp [hs.1]
  · have := ha x
    simp only [hx, if_false, Option.some.injEq] at this
    rw [← this]
    simp [Ne.symm hx]

/-- The open sessions after a step and those that left are the open sessions before it and those that were opened. -/
theorem keys_perm {m : Mgr} (hm : MInv m) (op : MOp) :
    ((m.step op).1.sessions.keys ++ left m op).Perm (m.sessions.keys ++ openings (m.step op).2.1) := by
  have hn := (step_minv hm op).nodup
  have ha := after_step m op
  unfold left
  rcases step_short m op with he | ⟨e, he⟩
  · rw [he] at ha ⊢
    simp only [openings, List.flatMap_nil, List.map_nil, List.filterMap_nil, List.append_nil]
    refine (List.perm_ext_iff_of_nodup hn hm.nodup).2 fun x => ?_
    have := ha x
    simp only [after, Option.some.injEq] at this
    rw [keys_mem, keys_mem, this]
  · rw [he] at ha ⊢
    cases e with
    | opened s v t a b =>
      have hno : m.sessions.get s = none :=
        ((step_events m op (.opened s v t a b) (by rw [he]; simp)).2.2 s v t a b rfl).2
      simp only [openings, leaving, List.flatMap_cons, List.flatMap_nil, List.append_nil, List.map_nil,
        List.filterMap_cons, List.filterMap_nil]
      have hnd : (m.sessions.keys ++ [s]).Nodup := by
        rw [List.nodup_append]
        refine ⟨hm.nodup, by simp, ?_⟩
        intro a ha' b hb hab
        simp only [List.mem_singleton] at hb
        subst hb; subst hab
        rw [keys_mem, hno] at ha'; cases ha'
      refine (List.perm_ext_iff_of_nodup hn hnd).2 fun x => ?_
      have := ha x
      simp only [after, next] at this
      rw [keys_mem, List.mem_append, keys_mem, List.mem_singleton]
      by_cases hx : s = x
      · subst hx
        rw [hno] at this
        simp at this
        simp [← this]
      · simp only [hx, if_false, Option.some.injEq] at this
        rw [← this]
        simp [Ne.symm hx]
    | refused s =>
      simp only [openings, leaving, List.flatMap_cons, List.flatMap_nil, List.append_nil, List.map_nil,
        List.filterMap_cons, List.filterMap_nil]
      refine (List.perm_ext_iff_of_nodup hn hm.nodup).2 fun x => ?_
      have := ha x
      simp only [after, next, Option.some.injEq] at this
      rw [keys_mem, keys_mem, this]
    | sent s i =>
      simp only [openings, leaving, List.flatMap_cons, List.flatMap_nil, List.append_nil, List.map_nil,
        List.filterMap_cons, List.filterMap_nil]
      refine (List.perm_ext_iff_of_nodup hn hm.nodup).2 fun x => ?_
      have := ha x
      simp only [after, next] at this
      rw [keys_mem, keys_mem]
      by_cases hx : s = x
      · subst hx
        cases ho : (m.sessions.get s).isSome <;> simp [ho] at this <;> simp [← this]
      · simp only [hx, if_false, Option.some.injEq] at this
        rw [this]
    | hungUp s =>
      obtain ⟨⟨u, hu⟩, hp⟩ := gone_perm (m' := (m.step op).1) hm.nodup hn s (fun x => by
        rw [← ha x]; simp only [after, next]; repeat' split
        all_goals simp_all)
      simpa [openings, leaving, hu] using hp
    | ended s c =>
      obtain ⟨⟨u, hu⟩, hp⟩ := gone_perm (m' := (m.step op).1) hm.nodup hn s (fun x => by
        rw [← ha x]; simp only [after, next]; repeat' split
        all_goals simp_all)
      simpa [openings, leaving, hu] using hp

/-- The times at which the sessions, open and removed, were requested. -/
def startTimes (w : World) : List Nat :=
  (match w.ctx with | some m => m.sessions.map fun p => w.starts p.1 | none => []) ++ w.tasks.map (·.start)

theorem requests_append (a b : List (Nat × Act)) : requests (a ++ b) = requests a ++ requests b := by
  simp [requests]

theorem startTimes_dropCtx (w : World) : (startTimes w.dropCtx).Perm (startTimes w) := by
  unfold World.dropCtx
  split
  · exact List.Perm.refl _
  · rename_i m hm
    simp only [startTimes, hm, List.nil_append, List.map_append, List.map_map]
    exact List.perm_append_comm

theorem startTimes_manage {lag w} (hi : Inv lag w) (m : Mgr) (hm : w.ctx = some m) (op : MOp) :
    (startTimes (w.manage m op).1).Perm
      (startTimes w ++ requests ((w.manage m op).2.map (w.now, ·))) := by
  obtain ⟨h1, -⟩ := hi.mgr m hm
  have hreq : requests ((w.manage m op).2.map (w.now, ·)) = (openings (m.step op).2.1).map fun _ => w.now := by
    have ht : ∀ l : List Act, (∀ a ∈ l, isTraffic a = true) → requests (l.map (w.now, ·)) = [] := by
      intro l hl
      simp only [requests, List.filterMap_eq_nil_iff, List.mem_map]
      rintro e ⟨a, ha, rfl⟩
      have := hl a ha
      cases a <;> simp_all [isTraffic]
    have htr : ∀ a ∈ mgrTraffic m op, isTraffic a = true := by
      intro a ha
      unfold mgrTraffic at ha
      split at ha
      · split at ha
        · simp only [traffic, List.mem_filterMap] at ha
          obtain ⟨o, -, ho⟩ := ha
          cases o <;> simp at ho <;> subst ho <;> rfl
        · cases ha
      · cases ha
    simp only [World.manage, List.map_append, requests_append, ht _ htr, List.append_nil]
    simp only [requests, List.map_map]
    induction openings (m.step op).2.1 with
    | nil => rfl
    | cons x xs ih => simp only [List.map_cons, List.filterMap_cons]; rw [ih]; rfl
  rw [hreq]
  have hk := keys_perm h1 op
  -- the times of the sessions before the step, with those of the new ones
  have hnew : ∀ x ∈ openings (m.step op).2.1, m.sessions.get x = none := by
    intro x hx
    obtain ⟨v, t, a, b, he⟩ := mem_openings hx
    exact ((step_events m op _ he).2.2 x v t a b rfl).2
  have hold : ∀ x ∈ m.sessions.keys, x ∉ openings (m.step op).2.1 := by
    intro x hx ho
    rw [keys_mem, hnew x ho] at hx; cases hx
  have hleft : ∀ p ∈ (m.step op).2.1.flatMap (leaving m), p.1 ∈ m.sessions.keys := by
    intro p hp
    obtain ⟨e, he, hp⟩ := List.mem_flatMap.1 hp
    obtain ⟨-, -, s, hs, -⟩ := leaving_closed h1 he hp
    rw [keys_mem, hs]; rfl
  let f : UInt32 → Nat := fun sid => if sid ∈ openings (m.step op).2.1 then w.now else w.starts sid
  have hf := hk.map f
  rw [List.map_append, List.map_append] at hf
  have e1 : m.sessions.keys.map f = m.sessions.map fun p => w.starts p.1 := by
    simp only [AMap.keys, List.map_map]
    refine List.map_congr_left fun p hp => ?_
    have := hold p.1 (List.mem_map_of_mem hp)
    simp [f, this]
  have e2 : (openings (m.step op).2.1).map f = (openings (m.step op).2.1).map fun _ => w.now :=
    List.map_congr_left fun x hx => by simp [f, hx]
  have e3 : (left m op).map f = ((m.step op).2.1.flatMap (leaving m)).map fun p => w.starts p.1 := by
    simp only [left, List.map_map]
    refine List.map_congr_left fun p hp => ?_
    have := hold p.1 (hleft p hp)
    simp [f, this]
  rw [e1, e2, e3] at hf
  simp only [startTimes, hm, World.manage, List.map_append, List.map_map]
  have e4 : ((m.step op).1.sessions.map fun p => f p.1) = (m.step op).1.sessions.keys.map f := by
    simp [AMap.keys]
  show (((m.step op).1.sessions.map fun p => f p.1) ++ (w.tasks.map (·.start) ++
    ((m.step op).2.1.flatMap (leaving m)).map fun p => w.starts p.1)).Perm _
  rw [e4]
  refine (List.perm_append_comm_assoc _ _ _).trans ?_
  refine (List.Perm.append_left _ hf).trans ?_
  rw [List.append_assoc]
  exact List.perm_append_comm_assoc _ _ _

/-- Every session, open or removed, belongs to one request. -/
theorem times_step {lag w a w'} (hi : Inv lag w) (hst : Step lag w a w') :
    (startTimes w').Perm (startTimes w ++ requests (a.map (w.now, ·))) := by
  cases hst with
  | pass d hp => simp [requests]; exact List.Perm.refl _
  | mgr m op hm hs => exact startTimes_manage hi m hm op
  | task pre post t o ht =>
    have hk := hi.tasks t (by rw [ht]; simp)
    obtain ⟨-, -, h3, -, h5, -, -⟩ := task_run t o hk.closed hk.awake
    rw [h5]
    simp [requests, startTimes, ht, h3]
  | markClosed hs => simp [requests]; exact List.Perm.refl _
  | tick due hd ht =>
    simp only [requests, List.map_nil, List.filterMap_nil, List.append_nil]
    unfold World.tick
    split
    · exact List.Perm.refl _
    · dsimp only
      split
      · exact startTimes_dropCtx _
      · exact List.Perm.refl _
  | tickFails due hd ht hc => simp [requests]; exact List.Perm.refl _
  | over hs hc => simp [requests]; exact List.Perm.refl _
  | drop hs =>
    simp only [requests, List.map_nil, List.filterMap_nil, List.append_nil]
    unfold World.drop
    dsimp only
    split
    · exact startTimes_dropCtx _
    · exact List.Perm.refl _

theorem times_reach {lag r w} (h : Reach lag r w) : (startTimes w).Perm (requests r) := by
  obtain ⟨g, W, n, hst⟩ := h
  have : ∀ {r w}, Steps lag (World.new g W n) r w → (startTimes w).Perm (requests r) := by
    intro r w hst
    induction hst with
    | refl => exact List.Perm.refl _
    | step hs h1 ih =>
      rw [requests_append]
      exact (times_step (inv_steps (inv_new lag g W n) hs) h1).trans (ih.append_right _)
  exact this hst

/-- The step of a session's task is `SessionTransport::poll`: the task is over when `poll` says so, and the context is
the one `poll` leaves behind. -/
theorem transport_is_poll (s : Sess) (rd : ReadRes) (wr : WriteRes) (h : s.phase = .running) :
    (s.step (.transport rd wr)).1.ctx = (s.ctx.pollTransport rd wr).2.1 ∧
      ((s.step (.transport rd wr)).1.phase = .done ↔ (s.ctx.pollTransport rd wr).1 = .done) := by
  by_cases hc : s.ctx.closed = true
  · simp [Sess.step, h, Ctx.pollTransport, hc]
  · simp only [Sess.step, h, if_true, hc, Bool.false_eq_true, if_false, Ctx.pollTransport, true_and]
    constructor
    · intro hp; cases hp
    · intro hp; split at hp <;> cases hp

/-! ### C135 -/

theorem sessions_length (w : World) : (sessions w).length = (startTimes w).length := by
  unfold sessions startTimes
  cases w.ctx <;> simp

/-- C135: there are as many connections to services, including those that are over, as were requested by the server and
granted: no session is lost or made up when it leaves the session manager. -/
theorem C135_one_per_request (lag : Nat) (r : List (Nat × Act)) (w : World) (h : Reach lag r w) :
    (sessions w).length = (requests r).length := by
  rw [sessions_length]; exact (times_reach h).length_eq

/-- C135: the connections that are being established are at most those requested in the last 20 seconds (and the
latency of the runtime), whatever became of their sessions. -/
theorem C135_being_established (lag : Nat) (r : List (Nat × Act)) (w : World) (h : Reach lag r w) :
    (sessions w).countP (fun s => s.phase = .connecting) ≤
      (requests r).countP (fun t => w.now ≤ t + 20000 + lag) := by
  have hi := inv_reach h
  rw [← (times_reach h).countP_eq]
  unfold sessions startTimes
  rw [List.countP_append, List.countP_append]
  refine Nat.add_le_add ?_ ?_
  · cases hm : w.ctx with
    | none => simp
    | some m =>
      obtain ⟨h1, h2⟩ := hi.mgr m hm
      dsimp only
      rw [List.countP_map, List.countP_map]
      refine List.countP_mono_left fun p hp hc => ?_
      have hg := AMap.get_of_mem (k := p.1) (v := p.2) h1.nodup hp
      have := (h2 _ _ hg).connecting (by simpa using hc)
      simpa using this
  · rw [List.countP_map, List.countP_map]
    refine List.countP_mono_left fun k hk hc => ?_
    have := (hi.tasks k hk).connecting (by simpa using hc)
    simpa using this

/-- C135: the connections in use are at most one for each open session, and those of the sessions that left a moment ago
(within the latency of the runtime). -/
theorem C135_in_use (lag : Nat) (r : List (Nat × Act)) (w : World) (h : Reach lag r w) :
    (sessions w).countP (fun s => s.phase = .running) ≤
      openCount w + w.tasks.countP (fun k => w.now ≤ k.since + lag) := by
  have hi := inv_reach h
  unfold sessions openCount
  rw [List.countP_append]
  refine Nat.add_le_add ?_ ?_
  · cases hm : w.ctx with
    | none => simp
    | some m =>
      dsimp only
      refine Nat.le_trans List.countP_le_length ?_
      simp [Mgr.len]
  · rw [List.countP_map]
    refine List.countP_mono_left fun k hk hc => ?_
    have := (hi.tasks k hk).running (by simpa using hc)
    simpa using this

theorem close_known (m : Mgr) (s : Sess) (h : m.sessions.get 7 = some s) :
    (m.step (.close 7)).1.sessions = (m.sessions.insert 7 (s.step .close).1).remove 7 ∧
      (m.step (.close 7)).2.1 = [.hungUp 7] := by
  simp [Mgr.step, Mgr.close, h, Mgr.onSession]

/-- CONNECT followed by HUP leaves the connection being established behind. -/
theorem connect_hup (w : World) (m : Mgr) (hm : w.ctx = some m) (hg : m.gateway = true) (he : m.sessions = [])
    (hs : w.stage = .sending) (hc : w.closedAt = none) :
    ∃ r w' m' k, Steps 0 w r w' ∧ w'.ctx = some m' ∧ m'.gateway = true ∧ m'.sessions = [] ∧ w'.stage = .sending ∧
      w'.closedAt = none ∧ w'.now = w.now ∧ w'.tasks = w.tasks ++ [k] ∧ k.sess.phase = .connecting := by
  have ht : m.connectTarget demoTable 1 7 =
      some (.http .zero ⟨.v4 127 0 0 1, 80⟩, ⟨.v4 127 0 0 1, 80⟩) := by
    simp only [Mgr.connectTarget, he, hg]
    decide +kernel
  have h1 : Step 0 w _ _ := .mgr w m (.connect demoTable 1 7) hm (fun _ => ⟨hs, hc⟩)
  have hm1 : (w.manage m (.connect demoTable 1 7)).1.ctx = some (m.step (.connect demoTable 1 7)).1 := rfl
  have h2 : Step 0 (w.manage m (.connect demoTable 1 7)).1 _ _ :=
    .mgr _ _ (.close 7) hm1 (fun _ => ⟨hs, hc⟩)
  have hse : (m.step (.connect demoTable 1 7)).1.sessions = [(7, Sess.new 1 7 m.window)] := by
    simp [Mgr.step, Mgr.connect, ht, Mgr.wake, he, AMap.insert, AMap.remove]
  have hget : (m.step (.connect demoTable 1 7)).1.sessions.get 7 = some (Sess.new 1 7 m.window) := by
    rw [hse]; rfl
  have hev : (m.step (.connect demoTable 1 7)).2.1 = [.opened 7 1 (Service.http .zero ⟨.v4 127 0 0 1, 80⟩).svcType
      ((Service.http .zero ⟨.v4 127 0 0 1, 80⟩).mac.getD .zero) ⟨.v4 127 0 0 1, 80⟩] := by
    simp [Mgr.step, Mgr.connect, ht]
  refine ⟨_, _, _, ⟨((Sess.new 1 7 m.window).step .close).1,
    (w.manage m (.connect demoTable 1 7)).1.starts 7, w.now⟩,
    steps_trans (steps_one h1) (steps_one h2), rfl, ?_, ?_, hs, hc, rfl, ?_, rfl⟩
  · rw [(step_const _ _).1, (step_const _ _).1, hg]
  · rw [(close_known _ _ hget).1]
    rw [hse]
    simp [AMap.insert, AMap.remove]
  · show (w.tasks ++ _) ++ _ = _
    rw [hev, (close_known _ _ hget).2]
    simp only [List.flatMap_cons, List.flatMap_nil, leaving, hget]
    simp [World.manage]

/-- C135 (finding): there is no limit. A server can make the client establish any number of connections to services at
the same time although it has no session open. -/
theorem C135_no_limit (N : Nat) : ∃ r w, Reach 0 r w ∧ w.now = 0 ∧ openCount w = 0 ∧
    (sessions w).countP (fun s => s.phase = .connecting) = N := by
  have : ∃ r w m, Steps 0 (World.new true 65536 0) r w ∧ w.ctx = some m ∧ m.gateway = true ∧ m.sessions = [] ∧
      w.stage = .sending ∧ w.closedAt = none ∧ w.now = 0 ∧
      w.tasks.countP (fun k => k.sess.phase = .connecting) = N := by
    induction N with
    | zero => exact ⟨[], _, _, .refl _, rfl, rfl, rfl, rfl, rfl, rfl, rfl⟩
    | succ N ih =>
      obtain ⟨r, w, m, h1, h2, h3, h4, h5, h6, h7, h8⟩ := ih
      obtain ⟨r', w', m', k, q1, q2, q3, q4, q5, q6, q7, q8, q9⟩ := connect_hup w m h2 h3 h4 h5 h6
      refine ⟨_, w', m', steps_trans h1 q1, q2, q3, q4, q5, q6, q7.trans h7, ?_⟩
      rw [q8, List.countP_append, h8]
      simp [q9]
  obtain ⟨r, w, m, h1, h2, h3, h4, h5, h6, h7, h8⟩ := this
  refine ⟨r, w, ⟨true, 65536, 0, h1⟩, h7, by simp [openCount, h2, Mgr.len, h4], ?_⟩
  rw [sessions, h2]
  simp only [h4, List.map_nil, List.nil_append, List.countP_map]
  exact h8

/-- The numbers compared by C135: sessions and requests; connections being established and requests of the last
20 seconds; connections in use, open sessions and sessions that left a moment ago. -/
def numbers (lag : Nat) (p : World × List (Nat × Act)) : (Nat × Nat) × (Nat × Nat) × Nat × Nat × Nat :=
  (((sessions p.1).length, (requests p.2).length),
   ((sessions p.1).countP (fun s => s.phase = .connecting),
    (requests p.2).countP (fun t => p.1.now ≤ t + 20000 + lag)),
   (sessions p.1).countP (fun s => s.phase = .running), openCount p.1,
   p.1.tasks.countP (fun k => p.1.now ≤ k.since + lag))

/-- Non-vacuity of C135: a run with three requests for two session ids, where all bounds are attained; and later, when
the first connection has ended, the other two are in use and the server hung one of them up. -/
example :
    (exec 10 (World.new true 65536 0) [.mgr (.connect demoTable 1 7), .mgr (.close 7), .pass 400,
      .mgr (.connect demoTable 1 7), .pass 100, .mgr (.connect demoTable 1 8)]).map (numbers 10) =
      some ((3, 3), (3, 3), 0, 2, 0) ∧
    (exec 10 (World.new true 65536 0) [.mgr (.connect demoTable 1 7), .mgr (.close 7), .pass 400,
      .mgr (.connect demoTable 1 7), .pass 100, .mgr (.connect demoTable 1 8), .task 0 .connected,
      .mgr (.io 7 .connected), .mgr (.io 8 .connected), .mgr (.close 8)]).map (numbers 10) =
      some ((3, 3), (0, 3), 2, 1, 1) ∧
    (exec 10 (World.new true 65536 0) ([.mgr (.connect demoTable 1 7), .mgr (.io 7 .connected)] ++
      (List.replicate 21 [Cmd.pass 1000, .tick]).flatten ++ [.mgr (.connect demoTable 1 8)])).map (numbers 10) =
      some ((2, 2), (1, 1), 1, 2, 0) := by
  refine ⟨?_, ?_, ?_⟩ <;> decide +kernel

end Verif.Props.Count
