import Verif.Spec.SessionManager
import Verif.Lemmas.Session
import Verif.Lemmas.Map
namespace Verif.Session
open Verif.Spec.SessionManager

/-! ## When a session has output -/

theorem take_pending_iff (s : Sess) (n : Nat) : (s.ctx.take n).1 = .pending ↔ ¬ HasOutput s := by
  obtain ⟨h1, h2⟩ := take_cases n s.ctx
  unfold HasOutput
  rcases Nat.eq_zero_or_pos s.ctx.written with hz | hp
  · obtain ⟨-, -, ha, hb, hd, he⟩ := h2 hz
    have key : s.ctx.input.take s.ctx.inCap = [] ↔ ¬ (s.ctx.input ≠ [] ∧ s.ctx.inCap ≠ 0) := by
      rw [List.take_eq_nil_iff]
      constructor
      · rintro (h | h) ⟨h3, h4⟩
        · exact h4 h
        · exact h3 h
      · intro h
        by_cases hc : s.ctx.inCap = 0
        · exact .inl hc
        · right
          apply Classical.byContradiction
          intro hn; exact h ⟨hn, hc⟩
    by_cases hi : s.ctx.input.take s.ctx.inCap = []
    · have hi' := key.mp hi
      cases hc : s.ctx.closed
      · rw [(hb hi hc).1]; simp only [hz, true_iff]
        rintro (h | h | h)
        · exact h rfl
        · exact hi' h
        · cases h
      · cases her : s.ctx.error with
        | none => rw [(hd hi hc her).1]; simp
        | some e => rw [(he e hi hc her).1]; simp
    · rw [(ha hi).1]
      constructor
      · intro h; cases h
      · intro h
        exact absurd (key.mpr (fun h' => h (.inr (.inl h')))) hi
  · rw [(h1 hp).1]
    constructor
    · intro h; cases h
    · intro h; exact absurd (.inl (by omega)) h

theorem step_take_mgrIdle (s : Sess) (n : Nat) :
    (s.step (.take n)).1.ghost.mgrIdle = decide ((s.ctx.take n).1 = .pending) := rfl

/-- A session keeps its output until it is taken. -/
theorem hasOutput_step (s : Sess) (op : Op) (hop : ∀ n, op ≠ .take n) (h : HasOutput s) :
    HasOutput (s.step op).1 := by
  have hset : ∀ (c : Ctx) (e : ConnErr) (p g), HasOutput ⟨c, p, g⟩ → ∀ p' g',
      HasOutput ⟨(c.setError e).1, p', g'⟩ := by
    intro c e p g h p' g'
    rw [setError_eq]; split
    · exact h
    · exact .inr (.inr rfl)
  cases op with
  | push data =>
    simp only [Sess.step, Ctx.push]
    split
    · exact h
    · split
      · exact hset s.ctx _ s.phase s.ghost h _ _
      · split <;> exact h
  | dataAck len =>
    simp only [Sess.step, Ctx.processDataAck, Ctx.wakeMgr]
    rcases h with h | h | h
    · exact .inl h
    · exact .inr (.inl ⟨h.1, by have := h.2; show s.ctx.inCap + len ≠ 0; omega⟩)
    · exact .inr (.inr h)
  | take n => exact absurd rfl (hop n)
  | close => exact .inr (.inr rfl)
  | connected => simp only [Sess.step]; split <;> exact h
  | connectFailed n =>
    simp only [Sess.step]
    split
    · exact hset s.ctx _ s.phase s.ghost h _ _
    · exact h
  | transport rd wr =>
    simp only [Sess.step]
    split
    · split
      · exact h
      · rename_i hc
        simp only [Bool.not_eq_true] at hc
        simp only [Ctx.pollTransport, hc, Bool.false_eq_true, if_false]
        have h1 : ∀ p g, HasOutput ⟨(s.ctx.pollRead rd).1, p, g⟩ := by
          intro p g
          unfold Ctx.pollRead
          rw [if_neg (by simp [hc])]
          split
          · exact h
          · cases rd with
            | pending => exact h
            | err n =>
              dsimp only
              simp only [setError_eq, hc, Bool.false_eq_true, if_false]
              split <;> exact .inr (.inr rfl)
            | ok bs =>
              by_cases hb : bs = []
              · simp only [hb, if_true]; split <;> exact .inr (.inr rfl)
              · simp only [hb, if_false]
                rcases h with h | h | h
                · split <;> exact .inl h
                · split
                  · exact .inr (.inl ⟨by simp [Ctx.wakeMgr, hb], h.2⟩)
                  · exact .inr (.inl ⟨by simp [hb], h.2⟩)
                · rw [hc] at h; cases h
        unfold Ctx.pollWrite
        split
        · split
          · exact h1 _ _
          · exact h1 s.phase s.ghost
        · cases wr with
          | pending => exact h1 s.phase s.ghost
          | err n => exact hset _ _ s.phase s.ghost (h1 _ _) _ _
          | ok k =>
            rcases h1 s.phase s.ghost with h | h | h
            · left
              have : (s.ctx.pollRead rd).1.written ≠ 0 := h
              simp only [Ctx.wakeMgr]; omega
            · exact .inr (.inl h)
            · exact .inr (.inr h)
    · exact h

/-! ## The polling loop -/

/-- Induction principle for the polling loop: `P k m` is kept by the silent rounds. -/
theorem pollLoop_cases (P : Nat → Mgr → Prop) (Q : PollRes × Mgr × List Ev → Prop)
    (hend : ∀ m, P 0 m → Q (.pending, { m with task := true, idle := true }, []))
    (hnil : ∀ k m, m.order = [] → P (k + 1) m → P k m)
    (hstale : ∀ k m sid rest, m.order = sid :: rest → m.sessions.get sid = none → P (k + 1) m →
      P k { m with order := rest })
    (hpend : ∀ k m sid rest s, m.order = sid :: rest → m.sessions.get sid = some s →
      ¬ HasOutput s → P (k + 1) m →
      P k { m with
        sessions := m.sessions.insert sid (s.step (.take m.counter)).1, order := rest ++ [sid],
        counter := (s.ctx.take m.counter).2.2.1 })
    (hfin : ∀ k m sid rest s, m.order = sid :: rest → m.sessions.get sid = some s →
      (s.ctx.take m.counter).1 = .finished → P (k + 1) m →
      Q (.ready (Control.mkHup (UInt16.ofNat (s.ctx.take m.counter).2.2.1) sid 0).toArrow,
        { m with
          sessions := m.sessions.remove sid, order := rest,
          counter := (s.ctx.take m.counter).2.2.1 + 1, idle := false }, [.ended sid 0]))
    (hitem : ∀ k m sid rest s i, m.order = sid :: rest → m.sessions.get sid = some s →
      (s.ctx.take m.counter).1 = .item i → P (k + 1) m →
      Q (.ready i.toArrow,
        { m with
          sessions := m.sessions.insert sid (s.step (.take m.counter)).1, order := rest ++ [sid],
          counter := (s.ctx.take m.counter).2.2.1, idle := false }, [.sent sid i]))
    (herr : ∀ k m sid rest s e, m.order = sid :: rest → m.sessions.get sid = some s →
      (s.ctx.take m.counter).1 = .err e → P (k + 1) m →
      Q (.ready (Control.mkHup (UInt16.ofNat (s.ctx.take m.counter).2.2.1) sid 3).toArrow,
        { m with
          sessions := m.sessions.remove sid, order := rest,
          counter := (s.ctx.take m.counter).2.2.1 + 1, idle := false }, [.ended sid 3]))
    (k : Nat) (m : Mgr) (h : P k m) : Q (m.pollLoop k) := by
  induction k generalizing m with
  | zero => exact hend m h
  | succ k ih =>
    rw [Mgr.pollLoop]
    split
    · rename_i ho; exact ih m (hnil k m ho h)
    · rename_i sid rest ho
      split
      · rename_i hg; exact ih _ (hstale k m sid rest ho hg h)
      · rename_i s hg
        dsimp only
        split
        · rename_i hp
          exact ih _ (hpend k m sid rest s ho hg ((take_pending_iff s _).mp hp) h)
        · rename_i hp; exact hfin k m sid rest s ho hg hp h
        · rename_i i hp; exact hitem k m sid rest s i ho hg hp h
        · rename_i e hp; exact herr k m sid rest s e ho hg hp h

/-! ## The manager invariant -/

/-- A session is reachable if it is the result of some history since it was opened. -/
def Reachable (W : Nat) (sid : UInt32) (s : Sess) : Prop :=
  ∃ svc ops, s = ((Sess.new svc sid W).run ops).1 ∧
    Spec.Session.ends ((Sess.new svc sid W).run ops).2 = []

theorem Reachable.new (W : Nat) (svc : UInt16) (sid : UInt32) :
    Reachable W sid (Sess.new svc sid W) := ⟨svc, [], rfl, rfl⟩

theorem Reachable.step {W sid s} (h : Reachable W sid s) (op : Op)
    (he : Spec.Session.ends (s.step op).2 = []) : Reachable W sid (s.step op).1 := by
  obtain ⟨svc, ops, rfl, h2⟩ := h
  refine ⟨svc, ops ++ [op], by rw [run_append]; rfl, ?_⟩
  rw [run_append]
  simp [h2, Sess.run, he]

theorem step_no_end (s : Sess) (op : Op) (hop : ∀ n, op ≠ .take n) :
    Spec.Session.ends (s.step op).2 = [] := by
  cases op with
  | take n => exact absurd rfl (hop n)
  | push data => simp only [Sess.step]; split <;> rfl
  | dataAck len => rfl
  | close => rfl
  | connected => simp only [Sess.step]; split <;> rfl
  | connectFailed n => simp only [Sess.step]; split <;> rfl
  | transport rd wr =>
    simp only [Sess.step]
    split
    · split
      · rfl
      · rw [ends_append]
        have h1 : Spec.Session.ends (readObs s.ctx rd) = [] := by
          unfold readObs; split
          · rfl
          · cases rd <;> dsimp only
            · rfl
            · split <;> rfl
            · rfl
        have h2 : ∀ c, Spec.Session.ends (writeObs c wr) = [] := by
          intro c; unfold writeObs; split
          · rfl
          · cases wr <;> rfl
        rw [h1, h2]; rfl
    · rfl

theorem take_no_end (s : Sess) (n : Nat)
    (h : (s.ctx.take n).1 = .pending ∨ ∃ i, (s.ctx.take n).1 = .item i) :
    Spec.Session.ends (s.step (.take n)).2 = [] := by
  simp only [Sess.step]
  rcases h with h | ⟨i, h⟩ <;> rw [h] <;> rfl

structure MInv (m : Mgr) : Prop where
  nodup : m.sessions.keys.Nodup
  reach : ∀ sid s, m.sessions.get sid = some s → Reachable m.window sid s
  covered : ∀ sid s, m.sessions.get sid = some s → sid ∈ m.order
  idle : m.idle = true → m.queue = [] ∧ m.task = true ∧
    ∀ sid s, m.sessions.get sid = some s → s.ghost.mgrIdle = true

theorem MInv.new (g : Bool) (W n : Nat) : MInv (Mgr.new g W n) :=
  ⟨by simp [Mgr.new, AMap.keys], by simp [Mgr.new], by simp [Mgr.new], by simp [Mgr.new]⟩

theorem get_insert_cases {m : AMap UInt32 Sess} {sid x : UInt32} {s s' : Sess}
    (h : (m.insert sid s').get x = some s) : (x = sid ∧ s = s') ∨ (x ≠ sid ∧ m.get x = some s) := by
  rw [AMap.get_insert] at h
  split at h
  · left; exact ⟨‹_›, by simpa using h.symm⟩
  · right; exact ⟨‹_›, h⟩

theorem get_remove_cases {m : AMap UInt32 Sess} {sid x : UInt32} {s : Sess}
    (h : (m.remove sid).get x = some s) : x ≠ sid ∧ m.get x = some s := by
  rw [AMap.get_remove] at h
  split at h
  · cases h
  · exact ⟨‹_›, h⟩

theorem MInv.onSession {m : Mgr} (h : MInv m) {sid s} (hs : m.sessions.get sid = some s) (op : Op)
    (hop : ∀ n, op ≠ .take n) : MInv (m.onSession sid s op) := by
  refine ⟨AMap.nodup_insert h.nodup _ _, ?_, ?_, ?_⟩
  · intro x t ht
    rcases get_insert_cases ht with ⟨rfl, rfl⟩ | ⟨-, ht⟩
    · exact (h.reach _ _ hs).step op (step_no_end s op hop)
    · exact h.reach _ _ ht
  · intro x t ht
    rcases get_insert_cases ht with ⟨rfl, rfl⟩ | ⟨-, ht⟩
    · exact h.covered _ _ hs
    · exact h.covered _ _ ht
  · intro hi
    simp only [Mgr.onSession, Bool.and_eq_true, Bool.not_eq_true', Bool.and_eq_false_iff] at hi
    obtain ⟨h1, h2, h3⟩ := h.idle hi.1
    refine ⟨h1, h2, ?_⟩
    intro x t ht
    rcases get_insert_cases ht with ⟨rfl, rfl⟩ | ⟨-, ht⟩
    · rcases hi.2 with h4 | h4
      · rw [h3 _ _ hs] at h4; cases h4
      · simpa using h4
    · exact h3 _ _ ht

theorem MInv.remove {m : Mgr} (h : MInv m) (sid : UInt32) :
    MInv { m with sessions := m.sessions.remove sid } := by
  refine ⟨AMap.nodup_remove h.nodup _, ?_, ?_, ?_⟩
  · intro x t ht; exact h.reach _ _ (get_remove_cases ht).2
  · intro x t ht; exact h.covered _ _ (get_remove_cases ht).2
  · intro hi
    obtain ⟨h1, h2, h3⟩ := h.idle hi
    exact ⟨h1, h2, fun x t ht => h3 _ _ (get_remove_cases ht).2⟩

theorem MInv.refuse {m : Mgr} (h : MInv m) (sid : UInt32) :
    MInv { (m.createHup sid Control.ecConnectionError).2 with
      queue := (m.createHup sid Control.ecConnectionError).2.queue ++
        [(m.createHup sid Control.ecConnectionError).1] }.wake := by
  refine ⟨h.nodup, h.reach, h.covered, ?_⟩
  intro hi
  simp only [Mgr.wake, Mgr.createHup, Bool.and_eq_true, Bool.not_eq_true'] at hi
  rw [(h.idle hi.1).2.1] at hi
  cases hi.2

/-- Invariant of the polling loop: the sessions at the end of the rotation, all but the first `k`
entries, were asked and had nothing. -/
structure LoopInv (k : Nat) (m : Mgr) : Prop where
  nodup : m.sessions.keys.Nodup
  reach : ∀ sid s, m.sessions.get sid = some s → Reachable m.window sid s
  covered : ∀ sid s, m.sessions.get sid = some s → sid ∈ m.order
  queue : m.queue = []
  asked : ∀ sid s, m.sessions.get sid = some s → sid ∈ m.order.drop k → s.ghost.mgrIdle = true

theorem poll_inv {m : Mgr} (h : MInv m) : MInv m.poll.2.1 := by
  unfold Mgr.poll
  split
  · exact ⟨h.nodup, h.reach, h.covered, by simp⟩
  · rename_i hq
    refine pollLoop_cases LoopInv (fun r => MInv r.2.1) ?_ ?_ ?_ ?_ ?_ ?_ ?_ _ m ?_
    · intro m h
      exact ⟨h.nodup, h.reach, h.covered, fun _ => ⟨h.queue, rfl, fun sid s hs =>
        h.asked sid s hs (by simpa using h.covered sid s hs)⟩⟩
    · intro k m ho h
      exact ⟨h.nodup, h.reach, h.covered, h.queue, fun sid s hs hm => by simp [ho] at hm⟩
    · intro k m sid rest ho hg h
      refine ⟨h.nodup, h.reach, ?_, h.queue, ?_⟩
      · intro x s hs
        have := h.covered x s hs
        rw [ho, List.mem_cons] at this
        rcases this with rfl | this
        · rw [hg] at hs; cases hs
        · exact this
      · intro x s hs hm
        exact h.asked x s hs (by rw [ho, List.drop_succ_cons]; exact hm)
    · intro k m sid rest s ho hg hno h
      refine ⟨AMap.nodup_insert h.nodup _ _, ?_, ?_, h.queue, ?_⟩
      · intro x t ht
        rcases get_insert_cases ht with ⟨rfl, rfl⟩ | ⟨-, ht⟩
        · exact (h.reach _ _ hg).step _ (take_no_end _ _ (.inl ((take_pending_iff s _).mpr hno)))
        · exact h.reach _ _ ht
      · intro x t ht
        rcases get_insert_cases ht with ⟨rfl, rfl⟩ | ⟨hx, ht⟩
        · simp
        · have := h.covered x t ht
          rw [ho, List.mem_cons] at this
          simp [this.resolve_left hx]
      · intro x t ht hm
        rcases get_insert_cases ht with ⟨rfl, rfl⟩ | ⟨hx, ht⟩
        · rw [step_take_mgrIdle, decide_eq_true_eq, take_pending_iff]; exact hno
        · refine h.asked x t ht ?_
          rw [ho, List.drop_succ_cons]
          rw [List.drop_append] at hm
          rcases List.mem_append.mp hm with hm | hm
          · exact hm
          · have := List.mem_of_mem_drop hm
            simp only [List.mem_singleton] at this
            exact absurd this hx
    · intro k m sid rest s ho hg _ h
      refine ⟨AMap.nodup_remove h.nodup _, ?_, ?_, by simp⟩
      · intro x t ht; exact h.reach _ _ (get_remove_cases ht).2
      · intro x t ht
        have := h.covered _ _ (get_remove_cases ht).2
        rw [ho, List.mem_cons] at this
        exact this.resolve_left (get_remove_cases ht).1
    · intro k m sid rest s i ho hg hi h
      refine ⟨AMap.nodup_insert h.nodup _ _, ?_, ?_, by simp⟩
      · intro x t ht
        rcases get_insert_cases ht with ⟨rfl, rfl⟩ | ⟨-, ht⟩
        · exact (h.reach _ _ hg).step _ (take_no_end _ _ (.inr ⟨i, hi⟩))
        · exact h.reach _ _ ht
      · intro x t ht
        rcases get_insert_cases ht with ⟨rfl, rfl⟩ | ⟨hx, ht⟩
        · simp
        · have := h.covered x t ht
          rw [ho, List.mem_cons] at this
          simp [this.resolve_left hx]
    · intro k m sid rest s e ho hg _ h
      refine ⟨AMap.nodup_remove h.nodup _, ?_, ?_, by simp⟩
      · intro x t ht; exact h.reach _ _ (get_remove_cases ht).2
      · intro x t ht
        have := h.covered _ _ (get_remove_cases ht).2
        rw [ho, List.mem_cons] at this
        exact this.resolve_left (get_remove_cases ht).1
    · exact ⟨h.nodup, h.reach, h.covered, hq, fun sid s hs hm => by simp at hm⟩

theorem step_minv {m : Mgr} (h : MInv m) (op : MOp) : MInv (m.step op).1 := by
  cases op with
  | connect get svc sid =>
    simp only [Mgr.step, Mgr.connect]
    split
    · rename_i t a ht
      have hn : m.sessions.get sid = none := by
        unfold Mgr.connectTarget at ht
        split at ht
        · cases ht
        · rename_i hh; simpa using hh
      refine ⟨AMap.nodup_insert h.nodup _ _, ?_, ?_, ?_⟩
      · intro x t ht
        rcases get_insert_cases ht with ⟨rfl, rfl⟩ | ⟨-, ht⟩
        · exact Reachable.new _ _ _
        · exact h.reach _ _ ht
      · intro x t ht
        rcases get_insert_cases ht with ⟨rfl, rfl⟩ | ⟨-, ht⟩
        · simp [Mgr.wake]
        · exact List.mem_append_left _ (h.covered _ _ ht)
      · intro hi
        simp only [Mgr.wake, Bool.and_eq_true, Bool.not_eq_true'] at hi
        rw [(h.idle hi.1).2.1] at hi
        cases hi.2
    · exact h.refuse sid
  | send msg =>
    simp only [Mgr.step, Mgr.send]
    split
    · exact h.onSession ‹_› _ (by intro n h; first | cases h | (cases o <;> cases h))
    · exact h.refuse _
  | close sid =>
    simp only [Mgr.step, Mgr.close]
    split
    · exact (h.onSession ‹_› _ (by intro n; exact nofun)).remove sid
    · exact h
  | dataAck sid len =>
    simp only [Mgr.step, Mgr.dataAck]
    split
    · exact h.onSession ‹_› _ (by intro n h; first | cases h | (cases o <;> cases h))
    · exact h
  | io sid o =>
    simp only [Mgr.step]
    split
    · exact h.onSession ‹_› _ (by intro n h; first | cases h | (cases o <;> cases h))
    · exact h
  | poll => exact poll_inv h
  | newId => exact ⟨h.nodup, h.reach, h.covered, h.idle⟩

theorem mrun_append (m : Mgr) (a b : List MOp) :
    m.run (a ++ b) = (((m.run a).1.run b).1, (m.run a).2.1 ++ ((m.run a).1.run b).2.1,
      (m.run a).2.2 ++ ((m.run a).1.run b).2.2) := by
  induction a generalizing m with
  | nil => rfl
  | cons o a ih => simp [Mgr.run, ih]

theorem run_minv {m : Mgr} (h : MInv m) (ops : List MOp) : MInv (m.run ops).1 := by
  induction ops generalizing m with
  | nil => exact h
  | cons o ops ih => exact ih (step_minv h o)

/-! ## What never changes -/

theorem pollLoop_const (k : Nat) (m : Mgr) :
    (m.pollLoop k).2.1.gateway = m.gateway ∧ (m.pollLoop k).2.1.window = m.window := by
  refine pollLoop_cases (fun _ m' => m'.gateway = m.gateway ∧ m'.window = m.window)
    (fun r => r.2.1.gateway = m.gateway ∧ r.2.1.window = m.window) ?_ ?_ ?_ ?_ ?_ ?_ ?_ k m ⟨rfl, rfl⟩
  all_goals intros; assumption

theorem step_const (m : Mgr) (op : MOp) :
    (m.step op).1.gateway = m.gateway ∧ (m.step op).1.window = m.window := by
  cases op with
  | connect get svc sid => simp only [Mgr.step, Mgr.connect]; split <;> exact ⟨rfl, rfl⟩
  | send msg => simp only [Mgr.step, Mgr.send]; split <;> exact ⟨rfl, rfl⟩
  | close sid => simp only [Mgr.step, Mgr.close]; split <;> exact ⟨rfl, rfl⟩
  | dataAck sid len => simp only [Mgr.step, Mgr.dataAck]; split <;> exact ⟨rfl, rfl⟩
  | io sid o => simp only [Mgr.step]; split <;> exact ⟨rfl, rfl⟩
  | poll =>
    simp only [Mgr.step, Mgr.poll]
    split
    · exact ⟨rfl, rfl⟩
    · exact pollLoop_const _ _
  | newId => exact ⟨rfl, rfl⟩

theorem run_const (m : Mgr) (ops : List MOp) :
    (m.run ops).1.gateway = m.gateway ∧ (m.run ops).1.window = m.window := by
  induction ops generalizing m with
  | nil => exact ⟨rfl, rfl⟩
  | cons o ops ih =>
    have h1 := ih (m.step o).1
    have h2 := step_const m o
    exact ⟨h1.1.trans h2.1, h1.2.trans h2.2⟩

end Verif.Session
