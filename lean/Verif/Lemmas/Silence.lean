import Verif.Spec.Silence
import Verif.Props.Client
/-!
# Lemmas: without an acknowledgement a connection ends
-/
namespace Verif.Silence
open Verif Verif.Client Verif.Control Verif.Spec.Client Verif.Spec.Silence Verif.Props.Client

theorem acked_append (a b : List NEv) : acked (a ++ b) = acked a ++ acked b := List.filterMap_append

/-- Without an accepted acknowledgement, what is expected remains. -/
def Kept (c c' : Cli) (es : List NEv) : Prop :=
  acked es = [] → c'.acks = c.acks ∧ c'.lastPing = c.lastPing ∧ c'.established = c.established

theorem Kept.refl (c : Cli) (es : List NEv) : Kept c c es := fun _ => ⟨rfl, rfl, rfl⟩

theorem Kept.trans {a b c : Cli} {x y : List NEv} (h1 : Kept a b x) (h2 : Kept b c y) : Kept a c (x ++ y) := by
  intro h
  rw [acked_append, List.append_eq_nil_iff] at h
  have i1 := h1 h.1
  have i2 := h2 h.2
  exact ⟨i2.1.trans i1.1, i2.2.1.trans i1.2.1, i2.2.2.trans i1.2.2⟩

theorem kept_handle (c : Cli) (env : Env) (m : Wire.Message) (h : (c.handle env m).1 = .ok) :
    Kept c (c.handle env m).2.1 (.ev (.got m .ok) :: (c.handle env m).2.2.map .ev) := by
  have H := handle_handled c env m
  generalize c.handle env m = r at H h
  obtain ⟨o, c', evs⟩ := r
  dsimp only at h H ⊢
  subst h
  intro hn
  cases H with
  | hsOk id a l h1 =>
    exfalso
    have : acked (NEv.ev (.got m .ok) :: ([] : List CEv).map .ev) = [id] := by
      show ([NEv.ev (.got m .ok)].filterMap _) = _
      simp [h1]
    rw [this] at hn
    cases hn
  | ackOk id a l h1 =>
    exfalso
    have : acked (NEv.ev (.got m .ok) :: ([] : List CEv).map .ev) = [id] := by
      show ([NEv.ev (.got m .ok)].filterMap _) = _
      simp [h1]
    rw [this] at hn
    cases hn
  | mgr => exact ⟨rfl, rfl, rfl⟩
  | reply => exact ⟨rfl, rfl, rfl⟩
  | replyId => exact ⟨rfl, rfl, rfl⟩
  | redirect => exact ⟨rfl, rfl, rfl⟩
  | command => exact ⟨rfl, rfl, rfl⟩

theorem kept_recv (c : Cli) (env : Env) (m : Wire.Message) (h : (c.recv env m).1 = .ok) :
    Kept c (c.recv env m).2.1 ((c.recv env m).2.2.map .ev) := by
  unfold Cli.recv at h ⊢
  by_cases hc : c.isClosed = true
  · rw [if_pos hc]
    exact Kept.refl c _
  · rw [if_neg hc] at h ⊢
    have h : (c.handle env m).1 = .ok := h
    dsimp only
    rw [List.map_cons, h]
    exact kept_handle c env m h

theorem ctxPoll_same (c : Cli) : c.ctxPoll.2.1.acks = c.acks ∧ c.ctxPoll.2.1.lastPing = c.lastPing ∧
    c.ctxPoll.2.1.established = c.established := by
  cases hr : c.ctxPoll.1 with
  | ready m => rcases ctxPoll_ready hr with ⟨ms, _, h⟩ | ⟨_, _, h⟩ <;> rw [h] <;> exact ⟨rfl, rfl, rfl⟩
  | pending => rw [(ctxPoll_pending hr).2.2]; exact ⟨rfl, rfl, rfl⟩
  | done => rw [(ctxPoll_done hr).2]; exact ⟨rfl, rfl, rfl⟩

theorem kept_ctxPoll (c : Cli) (es : List NEv) : Kept c c.ctxPoll.2.1 es := fun _ => ctxPoll_same c

/-- A poll that goes on. -/
def Goes (p : Polled) : Prop := (∃ m, p = .send m) ∨ p = .pending ∨ p = .done

theorem kept_pollLoop (ins : List Incoming) : ∀ c : Cli, Goes (c.pollLoop ins).1 →
    Kept c (c.pollLoop ins).2.1 ((c.pollLoop ins).2.2.map .ev) := by
  induction ins with
  | nil =>
    intro c _
    unfold Cli.pollLoop
    dsimp only
    split <;> exact kept_ctxPoll c _
  | cons i ins ih =>
    intro c h
    unfold Cli.pollLoop at h ⊢
    dsimp only at h ⊢
    cases hr : c.ctxPoll.1 with
    | ready m => exact kept_ctxPoll c _
    | done => exact kept_ctxPoll c _
    | pending =>
      rw [hr] at h
      dsimp only at h ⊢
      cases i with
      | msg env m =>
        dsimp only at h ⊢
        have h1 := kept_recv c.ctxPoll.2.1 env m
        cases ho : (c.ctxPoll.2.1.recv env m).1 with
        | ok =>
          rw [ho] at h
          dsimp only at h ⊢
          have h2 := ih (c.ctxPoll.2.1.recv env m).2.1 h
          have := ((kept_ctxPoll c (c.ctxPoll.2.2.map .ev)).trans (h1 ho)).trans h2
          rw [← List.map_append, ← List.map_append] at this
          exact this
        | err e =>
          rw [ho] at h
          rcases h with ⟨m, h⟩ | h | h <;> cases h
        | panic =>
          rw [ho] at h
          rcases h with ⟨m, h⟩ | h | h <;> cases h
      | error e => rcases h with ⟨m, h⟩ | h | h <;> cases h
      | eof =>
        dsimp only at h ⊢
        have h2 := ih { c.ctxPoll.2.1 with closed := true } h
        have h0 : Kept c { c.ctxPoll.2.1 with closed := true } (c.ctxPoll.2.2.map .ev) := kept_ctxPoll c _
        have := h0.trans h2
        rw [← List.map_append] at this
        exact this
      | pending => exact kept_ctxPoll c _

theorem kept_poll (c : Cli) (first : Incoming) (ins : List Incoming) (h : Goes (c.poll first ins).1) :
    Kept c (c.poll first ins).2.1 ((c.poll first ins).2.2.map .ev) := by
  unfold Cli.poll at h ⊢
  dsimp only at h ⊢
  cases first with
  | msg env m =>
    dsimp only at h ⊢
    have h1 := kept_recv { c with idle := false } env m
    cases ho : ({ c with idle := false }.recv env m).1 with
    | ok =>
      rw [ho] at h
      dsimp only at h ⊢
      have h2 := kept_pollLoop ins _ h
      have := (h1 ho).trans h2
      rw [← List.map_append] at this
      exact this
    | err e =>
      rw [ho] at h
      rcases h with ⟨m, h⟩ | h | h <;> cases h
    | panic =>
      rw [ho] at h
      rcases h with ⟨m, h⟩ | h | h <;> cases h
  | error e => rcases h with ⟨m, h⟩ | h | h <;> cases h
  | eof => exact kept_pollLoop ins { c with idle := false, closed := true } h
  | pending => exact kept_pollLoop ins { c with idle := false } h

/-! ## The time of the oldest request -/

/-- Nothing was acknowledged since `t0`, the last timer event was at `t`: something is expected since `d` at the latest, or a
PING will be sent in time. -/
def Waits (t0 d t : Nat) (c : Cli) : Prop :=
  (∃ a l, c.acks = a :: l ∧ a.1 ≤ d) ∨ (c.acks = [] ∧ c.established = true ∧ c.lastPing ≤ t0 ∧ t ≤ t0 + pingPeriod)

/-- A step that is not a timer event. -/
theorem waits_step {t0 d t : Nat} {c c' : Cli} {es : List NEv} (h : Waits t0 d t c) (hk : Kept c c' es) (hn : acked es = []) :
    Waits t0 d t c' := by
  obtain ⟨h1, h2, h3⟩ := hk hn
  unfold Waits
  rw [h1, h2, h3]
  exact h

/-- A timer event. -/
theorem waits_tick {t0 gap t : Nat} {c c' : Cli} {env : Env} {es : List NEv} (h : Waits t0 (t0 + pingPeriod + gap) t c)
    (ht : env.now ≤ t + gap) (hs : c.step (.tick env) = (.live c', es)) :
    Waits t0 (t0 + pingPeriod + gap) env.now c' ∧ env.now < t0 + pingPeriod + gap + ackTimeout := by
  have hap : 0 < ackTimeout := by decide
  unfold Cli.step at hs
  dsimp only at hs
  by_cases hc : c.isClosed = true
  · rw [if_pos hc] at hs; cases hs
  rw [if_neg hc] at hs
  have hout : (c.timeEvent env).1 = if (c.timeEvent env).2.1.ackTimedOut env.now then .err .connection else .ok := rfl
  by_cases hto : (c.timeEvent env).2.1.ackTimedOut env.now = true
  · rw [if_pos hto] at hout
    rw [hout] at hs
    cases hs
  · rw [if_neg hto] at hout
    rw [hout] at hs
    injection hs with hs _
    injection hs with hs
    rw [hs] at hto
    have key : ∀ a l, c'.acks = a :: l → env.now < a.1 + ackTimeout := by
      intro a l ha
      unfold Cli.ackTimedOut at hto
      rw [ha] at hto
      have : ¬ ackTimeout ≤ env.now - a.1 := by simpa using hto
      omega
    cases he : c.established with
    | false =>
      rw [timeEvent_handshake c env he] at hs
      have hs : c = c' := hs
      subst hs
      rcases h with ⟨a, l, h1, h2⟩ | ⟨_, h2, _⟩
      · have := key a l h1
        exact ⟨.inl ⟨a, l, h1, h2⟩, by omega⟩
      · rw [h2] at he; cases he
    | true =>
      have hacks := (timeEvent_eq c env he).2.1
      rw [hs] at hacks
      rcases h with ⟨a, l, h1, h2⟩ | ⟨h1, h2, h3, h4⟩
      · rw [h1, List.cons_append] at hacks
        have := key a _ hacks
        exact ⟨.inl ⟨a, _, hacks, h2⟩, by omega⟩
      · rw [h1, List.nil_append] at hacks
        by_cases hp : pingPeriod ≤ env.now - c.lastPing
        · rw [if_pos hp] at hacks
          exact ⟨.inl ⟨_, _, hacks, by show env.now ≤ _; omega⟩, by omega⟩
        · rw [if_neg hp] at hacks
          have hkeep : c'.established = true ∧ c'.lastPing = c.lastPing := by
            rw [← hs]
            have h1 : (if c.established && decide (pingPeriod ≤ env.now - c.lastPing) then c.sendPing env.now else (c, [])) = (c, []) :=
              if_neg (by simp [hp])
            unfold Cli.timeEvent
            rw [h1]
            dsimp only
            split
            · rw [check_eq]
              split <;> exact ⟨he, rfl⟩
            · exact ⟨he, rfl⟩
          exact ⟨.inr ⟨hacks, hkeep.1, by rw [hkeep.2]; exact h3, by omega⟩, by omega⟩

/-- Once a connection is not live any more it stays so. -/
theorem live_before {s : Conn} {ops : List COp} {c : Cli} (h : (s.run ops).1 = .live c) : ∃ c0, s = .live c0 := by
  cases s with
  | live c0 => exact ⟨c0, rfl⟩
  | closing r =>
    exfalso
    have key : ∀ (ops : List COp) (r : Result), (∀ c, ((Conn.over r).run ops).1 ≠ .live c) ∧ ∀ c, ((Conn.closing r).run ops).1 ≠ .live c := by
      intro ops
      induction ops with
      | nil => exact fun r => ⟨nofun, nofun⟩
      | cons op ops ih =>
        intro r
        refine ⟨fun c h => (ih r).1 c h, fun c h => ?_⟩
        cases op with
        | flushed => exact (ih r).1 c h
        | tick e => exact (ih r).1 c h
        | sinkError e => exact (ih (.error e)).1 c h
        | poll f i => exact (ih r).2 c h
        | io s o => exact (ih r).2 c h
    exact (key ops r).2 c h
  | over r =>
    exfalso
    induction ops with
    | nil => cases h
    | cons op ops ih => exact ih h

theorem waits_run {t0 gap : Nat} (ops : List COp) (e : Env) : ∀ (t : Nat) (c c' : Cli), Waits t0 (t0 + pingPeriod + gap) t c →
    Ticking gap t (ops ++ [.tick e]) → ((Conn.live c).run (ops ++ [.tick e])).1 = .live c' →
    acked ((Conn.live c).run (ops ++ [.tick e])).2 = [] → e.now < t0 + pingPeriod + gap + ackTimeout := by
  induction ops with
  | nil =>
    intro t c c' h ht hl hn
    have hl : (c.step (.tick e)).1 = .live c' := hl
    exact (waits_tick (c' := c') (es := (c.step (.tick e)).2) h ht.1 (by rw [← hl])).2
  | cons op ops ih =>
    intro t c c' h ht hl hn
    replace hl : ((c.step op).1.run (ops ++ [.tick e])).1 = .live c' := hl
    replace hn : acked ((c.step op).2 ++ ((c.step op).1.run (ops ++ [.tick e])).2) = [] := hn
    rw [acked_append, List.append_eq_nil_iff] at hn
    obtain ⟨c1, h1⟩ := live_before hl
    rw [h1] at hl hn
    cases op with
    | tick env =>
      have hw := waits_tick (c' := c1) (es := (c.step (.tick env)).2) h ht.1 (by rw [← h1])
      exact ih env.now c1 c' hw.1 ht.2 hl hn.2
    | poll f ins =>
      refine ih t c1 c' ?_ ht hl hn.2
      have hk := kept_poll c f ins
      unfold Cli.step at h1 hn
      dsimp only at h1 hn
      cases hp : (c.poll f ins).1 with
      | send m =>
        rw [hp] at h1 hn
        injection h1 with h1
        have hn1 := hn.1
        dsimp only at hn1
        rw [acked_append, List.append_eq_nil_iff] at hn1
        rw [← h1]
        exact waits_step h (hk (.inl ⟨m, hp⟩)) hn1.1
      | error e => rw [hp] at h1; cases h1
      | done => rw [hp] at h1; cases h1
      | pending =>
        rw [hp] at h1 hn
        injection h1 with h1
        rw [← h1]
        exact waits_step h (hk (.inr (.inl hp))) hn.1
      | panic => rw [hp] at h1; cases h1
    | io sid o =>
      refine ih t c1 c' ?_ ht hl hn.2
      injection h1 with h1
      rw [← h1]
      exact h
    | sinkError x => cases h1
    | flushed =>
      injection h1 with h1
      rw [← h1] at hl hn
      exact ih t c c' h ht hl hn.2

/-! ## The start -/

structure Past (c : Cli) (t : Nat) : Prop where
  acks : ∀ p ∈ c.acks, p.1 ≤ t
  ping : c.lastPing ≤ t
  hs : c.established = false → c.acks ≠ []

theorem Past.same {c c' : Cli} {t : Nat} (h : Past c t) (h1 : c'.acks = c.acks) (h2 : c'.lastPing = c.lastPing)
    (h3 : c'.established = c.established) : Past c' t :=
  ⟨by rw [h1]; exact h.acks, by rw [h2]; exact h.ping, by rw [h1, h3]; exact h.hs⟩

theorem past_steps : Steps (· ≤ ·) (fun _ => True) (fun c _ t => Past c t) (fun _ _ => True) where
  time c es t t' h hr := ⟨fun p hp => Nat.le_trans (h.acks p hp) hr, Nat.le_trans h.ping hr, h.hs⟩
  idle _ _ _ h := h.same rfl rfl rfl
  close _ _ _ h := h.same rfl rfl rfl
  timeout _ _ _ _ _ _ := trivial
  refused _ _ _ _ _ _ _ _ := trivial
  ping c es t h _ he _ := by
    have h1 : (c.sendPing t).1.acks = c.acks ++ [(t, UInt16.ofNat c.mgr.counter)] := rfl
    refine ⟨?_, Nat.le_refl _, fun h => ?_⟩
    · rw [h1]
      intro p hp
      rcases List.mem_append.mp hp with hp | hp
      · exact h.acks p hp
      · rw [List.mem_singleton.mp hp]; exact Nat.le_refl _
    · rw [h1]; simp
  check c es env _ h _ _ _ := by
    rw [check_eq]
    split <;> exact h.same rfl rfl rfl
  ready c es t m h _ hr := h.same (ctxPoll_same c).1 (ctxPoll_same c).2.1 (ctxPoll_same c).2.2
  pending c es t h _ hr := h.same (ctxPoll_same c).1 (ctxPoll_same c).2.1 (ctxPoll_same c).2.2
  io c es t sid o h _ := h.same rfl rfl rfl
  recv c es env m _ h _ hok := by
    have H := handle_handled c env m
    generalize c.handle env m = r at H hok
    obtain ⟨o, c', evs⟩ := r
    dsimp only at hok H ⊢
    subst hok
    cases H with
    | hsOk id a l h1 h2 => exact ⟨fun p hp => h.acks p (by rw [h2]; exact List.mem_cons_of_mem _ hp), h.ping, nofun⟩
    | ackOk id a l h1 h2 h3 h4 =>
      exact ⟨fun p hp => h.acks p (by rw [h2]; exact List.mem_cons_of_mem _ hp), h.ping, fun e => by
        have e : c.established = false := e
        rw [h4] at e; cases e⟩
    | mgr => exact h.same rfl rfl rfl
    | reply => exact h.same rfl rfl rfl
    | replyId => exact h.same rfl rfl rfl
    | redirect => exact h.same rfl rfl rfl
    | command => exact h.same rfl rfl rfl

/-- What holds of a live connection. -/
theorem past_live {cfg : Cfg} {env : Env} {ops : List COp} {c : Cli} {t0 : Nat} (hm : Monotone env.now ops)
    (ht : ∀ x ∈ env.now :: times ops, x ≤ t0) (hl : (hist cfg env ops).1 = .live c) : Past c t0 := by
  have S : Steps (fun a b => a ≤ b ∧ b ≤ t0) (fun _ => True) (fun c _ t => Past c t ∧ t ≤ t0) (fun _ _ => True) := by
    have S := past_steps
    exact { time := fun _ _ _ _ h r => ⟨S.time _ [] _ _ h.1 r.1, r.2⟩
            recv := fun _ es _ _ a h b d => ⟨S.recv _ es _ _ a h.1 b d, h.2⟩
            refused := fun _ _ _ _ _ _ _ _ => trivial
            ping := fun _ es _ h a b d => ⟨S.ping _ es _ h.1 a b d, h.2⟩
            check := fun _ es _ x h a b d => ⟨S.check _ es _ x h.1 a b d, h.2⟩
            timeout := fun _ _ _ _ _ _ => trivial
            ready := fun _ es _ _ h a b => ⟨S.ready _ es _ _ h.1 a b, h.2⟩
            pending := fun _ es _ h a b => ⟨S.pending _ es _ h.1 a b, h.2⟩
            idle := fun _ es _ h => ⟨S.idle _ es _ h.1, h.2⟩
            close := fun _ es _ h => ⟨S.close _ es _ h.1, h.2⟩
            io := fun _ es _ _ _ h a => ⟨S.io _ es _ _ _ h.1 a, h.2⟩ }
  have h0 : Past (Cli.new cfg env).1 env.now := by
    rw [new_eq]
    exact ⟨fun p hp => by rw [List.mem_singleton.mp hp]; exact Nat.le_refl _, Nat.le_refl _, fun _ => nofun⟩
  have hR : (env.now :: times ops).Pairwise (fun a b => a ≤ b ∧ b ≤ t0) := by
    unfold Monotone at hm
    refine List.pairwise_iff_forall_sublist.mpr fun {a b} hab => ?_
    exact ⟨List.pairwise_iff_forall_sublist.mp hm hab, ht b (hab.subset (by simp))⟩
  rcases hist_inv S cfg env ops (fun _ _ => trivial) hR ⟨h0, ht _ List.mem_cons_self⟩ with ⟨c', t, h, hf⟩ | ⟨x, hx, _⟩
  · rw [hl] at hf
    obtain ⟨rfl, _⟩ := hf
    exact past_steps.time _ [] _ _ h.1 h.2
  · rw [hl] at hx; cases hx

/-- As long as the server has not answered, REGISTER is what is expected. -/
theorem register_waits (cfg : Cfg) (env : Env) (ops : List COp) (c : Cli) (hl : (hist cfg env ops).1 = .live c)
    (he : c.established = false) : c.acks = [(env.now, 0)] := by
  have S : Steps (fun _ _ => True) (fun _ => True) (fun c _ _ => c.established = false → c.acks = [(env.now, 0)])
      (fun _ _ => True) :=
    { time := fun _ _ _ _ h _ => h
      idle := fun _ _ _ h => h
      close := fun _ _ _ h => h
      timeout := fun _ _ _ _ _ _ => trivial
      refused := fun _ _ _ _ _ _ _ _ => trivial
      ping := fun c es t h _ he _ h' => by
        have h' : c.established = false := h'
        rw [he] at h'; cases h'
      check := fun c es env _ h _ he _ h' => by
        rw [check_eq] at h'
        split at h'
        · have h' : c.established = false := h'
          rw [he] at h'; cases h'
        · have h' : c.established = false := h'
          rw [he] at h'; cases h'
      ready := fun c es t m h _ hr h' => by
        rw [(ctxPoll_same c).2.2] at h'
        rw [(ctxPoll_same c).1]
        exact h h'
      pending := fun c es t h _ hr h' => by
        rw [(ctxPoll_same c).2.2] at h'
        rw [(ctxPoll_same c).1]
        exact h h'
      io := fun c es t sid o h _ => h
      recv := fun c es env m _ h _ hok h' => by
        have H := handle_handled c env m
        generalize c.handle env m = r at H hok h'
        obtain ⟨o, c', evs⟩ := r
        dsimp only at hok H h' ⊢
        subst hok
        cases H with
        | hsOk => cases h'
        | ackOk id a l h1 h2 h3 h4 =>
          have h' : c.established = false := h'
          rw [h4] at h'; cases h'
        | mgr => exact h h'
        | reply => exact h h'
        | replyId => exact h h'
        | redirect => exact h h'
        | command => exact h h' }
  rcases hist_inv' S cfg env ops (by rw [new_eq]; exact fun _ => rfl) with ⟨c', t, h, hf⟩ | ⟨x, hx, _⟩
  · rw [hl] at hf
    obtain ⟨rfl, _⟩ := hf
    exact h he
  · rw [hl] at hx; cases hx

end Verif.Silence
