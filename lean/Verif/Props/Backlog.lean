import Verif.Lemmas.Backlog
/-!
# Property C125: back-pressure

`hist cfg env ops` is a connection under the operations `ops`: its state and its events. Messages the client makes for
the server wait until they are handed to the transport, one per poll; the client is polled only when the transport takes
messages. `Waiting` (Spec/Backlog.lean) counts those that wait, on the events alone.
-/
namespace Verif.Props.Backlog
open Verif Verif.Control Verif.Session Verif.Client Verif.Spec.Backlog
open Verif.Props.Client (hist hist_append demoCfg demoEnv demoMsg demoStart demoLive)

theorem waiting_iff (cfg : Cfg) (env : Env) (ops : List COp) (c : Cli) (hl : (hist cfg env ops).1 = .live c) :
    Waiting (hist cfg env ops).2 (bk c) ∧ bk c ≤ 1 + (hist cfg env ops).2.countP isPeriodic := by
  refine live_induct (fun c es => Waiting es (bk c) ∧ bk c ≤ 1 + es.countP isPeriodic) cfg env ops ?_ ?_ c hl
  · exact ⟨rfl, Nat.le_refl 1⟩
  · rintro c c' es op - ⟨h1, h2⟩ hs
    obtain ⟨h3, h4, -⟩ := step_account c c' op hs
    unfold Waiting at h1 ⊢
    simp only [List.countP_append]
    omega

/-- C125: on a live connection, at most one message (the REGISTER of the start) waits besides as many as the client has
made PINGs and UPDATEs by its clock: however many messages the server sends and whatever they are, the answers to them
do not pile up. -/
theorem C125_waiting_bound (cfg : Cfg) (env : Env) (ops : List COp) (c : Cli)
    (hl : (hist cfg env ops).1 = .live c) :
    ∃ n, Waiting (hist cfg env ops).2 n ∧ n ≤ 1 + (hist cfg env ops).2.countP isPeriodic :=
  ⟨_, waiting_iff cfg env ops c hl⟩

/-- C125: a poll, with any messages of the server, leaves at most as many messages waiting as there were; one that
finds no message of the server leaves one less. -/
theorem C125_poll_adds_nothing (cfg : Cfg) (env : Env) (ops : List COp) (first : Incoming) (ins : List Incoming)
    (n n' : Nat) (c c' : Cli) (hl : (hist cfg env ops).1 = .live c)
    (hl' : (hist cfg env (ops ++ [.poll first ins])).1 = .live c')
    (hn : Waiting (hist cfg env ops).2 n) (hn' : Waiting (hist cfg env (ops ++ [.poll first ins])).2 n') :
    n' ≤ n ∧ ((∀ e m, first ≠ .msg e m) → n' ≤ n - 1) := by
  have h1 := (waiting_iff cfg env ops c hl).1
  have h2 := (waiting_iff cfg env _ c' hl').1
  have hs : (c.step (.poll first ins)).1 = .live c' := by
    rw [hist_append, hl] at hl'
    exact hl'
  obtain ⟨-, -, h3⟩ := step_account c c' _ hs
  have h4 := h3 first ins rfl
  unfold Waiting at *
  have e1 : n = bk c := by omega
  have e2 : n' = bk c' := by omega
  rw [e1, e2]
  exact h4

/-- C125: as long as messages wait, a poll handles at most one message of the server, the first it finds; whatever else
the transport could deliver (`ins`) stays there. -/
theorem C125_reads_one_while_waiting (cfg : Cfg) (env : Env) (ops : List COp) (first : Incoming)
    (ins : List Incoming) (n : Nat) (c : Cli) (hl : (hist cfg env ops).1 = .live c)
    (hn : Waiting (hist cfg env ops).2 n) (hpos : 0 < n) :
    (hist cfg env (ops ++ [.poll first ins])).2.countP isHandled ≤ (hist cfg env ops).2.countP isHandled + 1 ∧
    ((∀ e m, first ≠ .msg e m) →
      (hist cfg env (ops ++ [.poll first ins])).2.countP isHandled = (hist cfg env ops).2.countP isHandled) := by
  have h1 := (waiting_iff cfg env ops c hl).1
  have e1 : n = bk c := by unfold Waiting at *; omega
  have hev : (c.step (.poll first ins)).2 = pollEvents (c.poll first ins) := by
    simp only [Cli.step, pollEvents]
    cases (c.poll first ins).1 <;> rfl
  have e2 : (hist cfg env (ops ++ [.poll first ins])).2 = (hist cfg env ops).2 ++ pollEvents (c.poll first ins) := by
    rw [hist_append, hl, ← hev]
    simp [Conn.run, Conn.step]
  have P := (poll_polls c first ins).one (by omega)
  rw [e2, List.countP_append]
  cases first with
  | msg e m =>
    rw [if_neg (by dsimp only; omega)] at P
    exact ⟨by omega, fun h => absurd rfl (h e m)⟩
  | _ =>
    rw [if_pos (by dsimp only; omega)] at P
    exact ⟨by omega, fun _ => by omega⟩

/-- C125: for every open session, a live connection holds at most 64 KiB for the service and at most 8191 bytes and one
read for the server, whatever the server and the services send. -/
theorem C125_bytes_held (cfg : Cfg) (env : Env) (ops : List COp) (m : Nat) (hm : ReadsAtMost m ops) (c : Cli)
    (hl : (hist cfg env ops).1 = .live c) :
    (∀ p ∈ c.mgr.sessions, p.2.ctx.output.length ≤ 65536 ∧ p.2.ctx.input.length ≤ 8191 + m) ∧
    held c ≤ c.mgr.sessions.length * (65536 + 8191 + m) := by
  have h : AllLived m c.mgr := by
    refine live_induct (fun c _ => AllLived m c.mgr) cfg env ops ⟨rfl, by intro p hp; cases hp⟩ ?_ c hl
    intro c c' _ op hop h hs
    refine step_kept (lived_kept m) c c' op ?_ h hs
    rintro sid o g rfl hg
    refine lived_io hg sid o ?_
    rintro bs wr rfl
    exact hm sid bs wr hop
  have hb : ∀ p ∈ c.mgr.sessions, p.2.ctx.output.length ≤ 65536 ∧ p.2.ctx.input.length ≤ 8191 + m :=
    fun p hp => ⟨(h.lived p hp).bound.2, (h.lived p hp).bound.1⟩
  refine ⟨hb, sum_le fun p hp => ?_⟩
  have := hb p hp
  omega

/-! ### Concrete cases -/

/-- A PING of the server. -/
def ping (t : Nat) : Incoming := .msg (demoEnv t 0) (demoMsg 9 1 [])

/-- The clock has made the client send a PING; the server floods it with PINGs. -/
def flood : List COp := demoStart ++ [.tick (demoEnv 100 0), .poll (ping 100) [ping 100, ping 100]]

/-- Non-vacuity of C125: one message waits before the flood and one after it; only one of the three messages has been
handled. -/
example : (demoLive flood).isSome ∧
    Waiting (hist demoCfg (demoEnv 0 0) (flood.take 3)).2 1 ∧
    Waiting (hist demoCfg (demoEnv 0 0) flood).2 1 ∧
    (hist demoCfg (demoEnv 0 0) flood).2.countP isHandled =
      (hist demoCfg (demoEnv 0 0) (flood.take 3)).2.countP isHandled + 1 ∧
    (hist demoCfg (demoEnv 0 0) flood).2.countP isPeriodic = 1 := by
  unfold Waiting
  decide +kernel

/-- The bound of C125 is met: at the start REGISTER waits and nothing was made by the clock. -/
example : Waiting (hist demoCfg (demoEnv 0 0) []).2 1 ∧
    (hist demoCfg (demoEnv 0 0) []).2.countP isPeriodic = 0 := by
  unfold Waiting
  decide +kernel

/-- Non-vacuity of C125_bytes_held: an open session holds data for the service and data of the service. -/
example : (demoLive (demoStart ++
      [.poll (.msg (demoEnv 2 0) (demoMsg 5 13 (be16 1 ++ be32 7))) [], .io 7 .connected,
       .io 7 (.transport (.ok [1, 2, 3]) .pending),
       .tick (demoEnv 100 0),
       .poll (.msg (demoEnv 100 0) (Wire.Message.new 1 7 [4, 5])) []])).map
    (fun c => (held c, c.mgr.sessions.length)) = some (5, 1) := by
  decide +kernel

end Verif.Props.Backlog
