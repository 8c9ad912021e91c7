import Verif.Lemmas.Silence
/-!
# Properties of a connection over time: C129
-/
namespace Verif.Props.Silence
open Verif Verif.Silence Verif.Client Verif.Control Verif.Spec.Client Verif.Spec.Silence Verif.Props.Client

/-- C129: a connection on which the server acknowledges nothing does not outlive 80 seconds and the distance of two timer
events. `t0` is any time not before the operations `ops`, after which no acknowledgement is accepted. Whatever else the server
sends, and whatever sessions do, does not matter. -/
theorem C129_silent_server (cfg : Cfg) (env : Env) (ops rest : List COp) (e : Env) (c : Cli) (t0 gap : Nat)
    (hm : Monotone env.now ops) (ht : ∀ x ∈ env.now :: times ops, x ≤ t0) (hg : Ticking gap t0 (rest ++ [.tick e]))
    (hn : acked ((hist cfg env ops).1.run (rest ++ [.tick e])).2 = [])
    (hl : (hist cfg env (ops ++ (rest ++ [.tick e]))).1 = .live c) :
    e.now < t0 + 80000000000 + gap := by
  rw [hist_append] at hl
  replace hl : ((hist cfg env ops).1.run (rest ++ [.tick e])).1 = .live c := hl
  obtain ⟨c0, h0⟩ := live_before hl
  rw [h0] at hl hn
  have hp := past_live hm ht h0
  have hw : Waits t0 (t0 + pingPeriod + gap) t0 c0 := by
    cases ha : c0.acks with
    | nil =>
      refine .inr ⟨ha, ?_, hp.ping, by omega⟩
      cases he : c0.established with
      | true => rfl
      | false => exact absurd ha (hp.hs he)
    | cons a l =>
      have := hp.acks a (by rw [ha]; exact List.mem_cons_self)
      exact .inl ⟨a, l, ha, by omega⟩
  have h1 := waits_run rest e t0 c0 c hw hg hl hn
  have h2 : pingPeriod = 60000000000 := rfl
  have h3 : ackTimeout = 20000000000 := rfl
  omega

/-- Timer events with nothing but a PING of the server in between, which is not an acknowledgement. -/
def demoRest : List COp :=
  [.tick (demoEnv 30 0), .poll (.msg (demoEnv 40 0) (demoMsg 7 1 [])) [], .poll .pending [], .tick (demoEnv 60 0), .poll .pending []]

/-- The hypotheses are met: 79 seconds after the start the connection still lives, a second later it does not. -/
example : (demoLive (demoStart ++ (demoRest ++ [.tick (demoEnv 79 0)]))).isSome = true ∧
    (demoLive (demoStart ++ (demoRest ++ [.tick (demoEnv 79 0), .tick (demoEnv 80 0)]))).isSome = false ∧
    acked ((hist demoCfg (demoEnv 0 0) demoStart).1.run (demoRest ++ [.tick (demoEnv 79 0)])).2 = [] ∧
    acked (hist demoCfg (demoEnv 0 0) demoStart).2 = [0] ∧
    ((hist demoCfg (demoEnv 0 0) (demoStart ++ (demoRest ++ [.tick (demoEnv 79 0)]))).2.filterMap
      (fun e => match e with | .sent m => some (Spec.field m.payload 2 2) | _ => none)) = [2, 0, 1] := by
  decide +kernel
example : Ticking 30000000000 1000000000 (demoRest ++ [.tick (demoEnv 79 0)]) ∧ Monotone 0 demoStart ∧
    ∀ x ∈ 0 :: times demoStart, x ≤ 1000000000 := by
  refine ⟨?_, ?_, ?_⟩
  · simp [demoRest, Ticking, demoEnv]
  · simp [Monotone, demoStart, times, Spec.Client.Incoming.times, demoEnv]
  · simp [demoStart, times, Spec.Client.Incoming.times, demoEnv]

/-- C129: while it is not established, a connection does not outlive 20 seconds: the server has that long to answer REGISTER. -/
theorem C129_no_handshake (cfg : Cfg) (env : Env) (ops : List COp) (e : Env) (c : Cli)
    (hh : hsRun (register cfg env) (hist cfg env ops).2 ≠ .established)
    (hl : (hist cfg env (ops ++ [.tick e])).1 = .live c) : e.now < env.now + 20000000000 := by
  have hl' := hl
  rw [hist_append] at hl'
  obtain ⟨c0, h0⟩ := live_before hl'
  have he : c0.established = false := by
    cases he : c0.established with
    | false => rfl
    | true => exact absurd ((live_established cfg env ops c0 h0).mp he) hh
  have hstep : c0.step (.tick e) = (.live c, (c0.step (.tick e)).2) := by
    rw [h0] at hl'
    have hl' : (c0.step (.tick e)).1 = .live c := hl'
    rw [← hl']
  have h1 := register_waits cfg env ops c0 h0 he
  unfold Cli.step at hstep
  dsimp only at hstep
  by_cases hc : c0.isClosed = true
  · rw [if_pos hc] at hstep; cases hstep
  rw [if_neg hc, timeEvent_handshake c0 e he] at hstep
  by_cases hto : c0.ackTimedOut e.now = true
  · rw [if_pos hto] at hstep; cases hstep
  · unfold Cli.ackTimedOut at hto
    rw [h1] at hto
    have h3 : ackTimeout = 20000000000 := rfl
    have : ¬ ackTimeout ≤ e.now - env.now := by simpa using hto
    omega

example : (demoLive [.poll .pending [], .tick (demoEnv 19 0)]).isSome = true ∧
    (demoLive [.poll .pending [], .tick (demoEnv 19 0), .tick (demoEnv 20 0)]).isSome = false := by decide +kernel

/-- C129: after a timer event of an established connection the last PING is less than a minute old, the last look at the service
table less than five seconds. -/
theorem C129_fresh (cfg : Cfg) (env : Env) (ops : List COp) (e : Env) (c : Cli)
    (hm : Monotone env.now (ops ++ [.tick e])) (hl : (hist cfg env ops).1 = .live c)
    (hh : hsRun (register cfg env) (hist cfg env ops).2 = .established) :
    e.now < lastPing env.now (hist cfg env (ops ++ [.tick e])).2 + 60000000000 ∧
    e.now < lastCheck env.now (hist cfg env (ops ++ [.tick e])).2 + 5000000000 := by
  obtain ⟨id, id', h⟩ := C33_schedule cfg env ops e c hm hl hh
  rw [h, lastPing_append, lastPing_append, lastCheck_append, lastCheck_append]
  generalize lastPing env.now (hist cfg env ops).2 = p
  generalize lastCheck env.now (hist cfg env ops).2 = k
  constructor
  · have h1 : ∀ p, lastPing p (if 5000000000 ≤ e.now - k then
        NEv.ev (.checked e.now e.version) ::
          (if c.lastVer ≠ e.version then
            [NEv.ev (.queued e.now ⟨id', 4, .update (SimpleTable.ofServices e.visible)⟩)] else [])
       else []) = p := by
      intro p
      split
      · split <;> rfl
      · rfl
    rw [h1]
    by_cases hp : 60000000000 ≤ e.now - p
    · rw [if_pos hp]
      show e.now < e.now + _
      omega
    · rw [if_neg hp]
      show e.now < p + _
      omega
  · have h1 : lastCheck k (if 60000000000 ≤ e.now - p then [NEv.ev (.queued e.now ⟨id, 1, .empty⟩)] else []) = k := by
      split <;> rfl
    rw [h1]
    by_cases hk : 5000000000 ≤ e.now - k
    · rw [if_pos hk]
      have : ∀ l : List NEv, l = [] ∨ (∃ m, l = [NEv.ev (.queued e.now m)]) →
          lastCheck k (NEv.ev (.checked e.now e.version) :: l) = e.now := by
        rintro l (rfl | ⟨m, rfl⟩) <;> rfl
      rw [this]
      · omega
      · split
        · exact .inr ⟨_, rfl⟩
        · exact .inl rfl
    · rw [if_neg hk]
      show e.now < k + _
      omega

/-- C129: assume that the service table does not change between the two reads made for one message (C76 shows that nothing can
be promised otherwise) and that its version determines the visible services. Then after a timer event of an established
connection the server has been told about exactly the services that were visible at a time less than five seconds ago. -/
theorem C129_server_knows (V : UInt32 → List (UInt16 × Service)) (cfg : Cfg) (env : Env) (ops : List COp) (e : Env) (c c' : Cli)
    (hE : ∀ x ∈ env :: envs (ops ++ [.tick e]), x.versionAfter = x.version ∧ x.visible = V x.version)
    (hm : Monotone env.now (ops ++ [.tick e])) (hl : (hist cfg env ops).1 = .live c)
    (hl' : (hist cfg env (ops ++ [.tick e])).1 = .live c')
    (hh : hsRun (register cfg env) (hist cfg env ops).2 = .established) :
    e.now < lastCheck env.now (hist cfg env (ops ++ [.tick e])).2 + 5000000000 ∧
    announced (hist cfg env (ops ++ [.tick e])).2 =
      some (SimpleTable.ofServices (V (lastSeen env.version (hist cfg env (ops ++ [.tick e])).2))) := by
  refine ⟨(C129_fresh cfg env ops e c hm hl hh).2, ?_⟩
  obtain ⟨l, h1, h2⟩ := announced_live (fun v l => l = V v) cfg env (ops ++ [.tick e]) c' (by
    intro x hx
    rw [(hE x hx).1]
    exact (hE x hx).2) hl'
  rw [h2, h1, C33_announced_version cfg env (ops ++ [.tick e]) c' (fun x hx => (hE x hx).1) hl']

/-- A service becomes visible (version 1) after 6 seconds; the server is told when the table is looked at. -/
example :
    let ops := demoStart ++ [.tick (demoEnv 5 0), .tick (demoEnv 8 1), .poll .pending []]
    (demoLive ops).isSome = true ∧ (demoLive (ops ++ [.tick (demoEnv 10 1)])).isSome = true ∧
    hsRun (register demoCfg (demoEnv 0 0)) (hist demoCfg (demoEnv 0 0) ops).2 = .established ∧
    announced (hist demoCfg (demoEnv 0 0) ops).2 = some (SimpleTable.ofServices []) ∧
    announced (hist demoCfg (demoEnv 0 0) (ops ++ [.tick (demoEnv 10 1)])).2 =
      some (SimpleTable.ofServices [(1, .http .zero ⟨.v4 127 0 0 1, 80⟩)]) ∧
    lastCheck 0 (hist demoCfg (demoEnv 0 0) (ops ++ [.tick (demoEnv 10 1)])).2 = 10000000000 ∧
    lastSeen 0 (hist demoCfg (demoEnv 0 0) (ops ++ [.tick (demoEnv 10 1)])).2 = 1 := by decide +kernel

/-- The readings of the table used here are consistent. -/
example : ∀ t v, (demoEnv t v).versionAfter = (demoEnv t v).version ∧
    (demoEnv t v).visible = (fun v : UInt32 => if v = 0 then [] else [(1, .http .zero ⟨.v4 127 0 0 1, 80⟩)]) (demoEnv t v).version :=
  fun _ _ => ⟨rfl, rfl⟩

end Verif.Props.Silence
