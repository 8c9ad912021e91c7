import Verif.Spec.Progress
import Verif.Props.Tunnel
/-!
# C107: a tunnel never stalls

When nothing happens any more, everything has arrived, except for what the outside holds up: a service that does
not take its data, or a server that does not acknowledge.
-/
namespace Verif.Props.Progress
open Verif Verif.Control Verif.Session Verif.Client Verif.Tunnel Verif.Spec Verif.Spec.Tunnel Verif.Spec.Progress
open Verif.Spec.Session (accepted wrote reads sentData gotAcks sentAcks)
open Verif.Spec.SessionLog (notTake payloadOf sentItems dataOf ackedOf)
open Verif.Props.Session (life life_snoc wake_inv)
open Verif.Props.Client (hist demoCfg demoEnv demoMsg demoStart)

/-! ### Lemmas -/

theorem life_induct (svc : UInt16) (sid : UInt32) (W : Nat) (P : List Op → Sess → List Obs → Prop)
    (h0 : P [] (Sess.new svc sid W) [])
    (hs : ∀ sops op s os, P sops s os → P (sops ++ [op]) (s.step op).1 (os ++ (s.step op).2)) (sops : List Op) :
    P sops (life svc sid W sops).1 (life svc sid W sops).2 := by
  have hrev : ∀ n (sops : List Op), sops.length = n → P sops (life svc sid W sops).1 (life svc sid W sops).2 := by
    intro n
    induction n with
    | zero => intro sops h; cases List.eq_nil_of_length_eq_zero h; exact h0
    | succ n ih =>
      intro sops h
      rcases List.eq_nil_or_concat sops with rfl | ⟨sops, op, rfl⟩
      · cases h
      · rw [List.concat_eq_append] at h ⊢
        rw [life_snoc]
        exact hs sops op _ _ (ih sops (by simpa using h))
  exact hrev _ sops rfl

/-- Acknowledgements given to a session. -/
def ackOps (ops : List Op) : Nat := (ops.map fun | .dataAck len => len | _ => 0).sum

theorem gotAcks_append (a b : List Obs) : gotAcks (a ++ b) = gotAcks a + gotAcks b := by simp [gotAcks]
theorem ackOps_append (a b : List Op) : ackOps (a ++ b) = ackOps a + ackOps b := by simp [ackOps]

theorem gotAcks_step (s : Sess) (op : Op) : gotAcks (s.step op).2 = ackOps ([op].filter notTake) := by
  cases op with
  | push d => simp only [Sess.step]; split <;> rfl
  | take n => simp only [Sess.step]; split <;> rfl
  | dataAck len => rfl
  | close => rfl
  | connected => simp only [Sess.step]; split <;> rfl
  | connectFailed n => simp only [Sess.step]; split <;> rfl
  | transport rd wr =>
    simp only [Sess.step]
    split
    · split
      · rfl
      · rw [gotAcks_append]
        have h1 : gotAcks (readObs s.ctx rd) = 0 := by
          unfold readObs; split
          · rfl
          · cases rd <;> dsimp only
            · rfl
            · split <;> rfl
            · rfl
        have h2 : ∀ c, gotAcks (writeObs c wr) = 0 := by
          intro c; unfold writeObs; split
          · rfl
          · cases wr <;> rfl
        rw [h1, h2]; rfl
    · rfl

theorem gotAcks_life (svc : UInt16) (sid : UInt32) (W : Nat) (sops : List Op) :
    gotAcks (life svc sid W sops).2 = ackOps (sops.filter notTake) := by
  refine life_induct svc sid W (fun sops _ os => gotAcks os = ackOps (sops.filter notTake)) rfl ?_ sops
  intro sops op s os h
  rw [gotAcks_append, List.filter_append, ackOps_append, h, gotAcks_step]

theorem ackOps_inbox (x : UInt32) (r : List Seen) : ackOps (inbox x r) = acknowledged x (gotMessages r) := by
  induction r with
  | nil => rfl
  | cons v r ih =>
    have e0 : ackOps (inbox x (v :: r)) = ackOps (inboxOf x v) + ackOps (inbox x r) := by
      simp [inbox, ackOps]
    have q0 : acknowledged x (gotMessages (v :: r)) =
        acknowledged x (gotMessages [v]) + acknowledged x (gotMessages r) := by
      rw [← acknowledged_append, gotMessages, gotMessages, gotMessages, ← List.filterMap_append,
        List.singleton_append]
    rw [e0, q0, ih]
    clear e0 q0
    congr 1
    cases v with
    | io s o =>
      simp only [inboxOf]
      split
      · cases o <;> rfl
      · rfl
    | ev e =>
      cases e with
      | sent m => rfl
      | ev e =>
        cases e with
        | got m o =>
          cases o with
          | ok =>
            simp only [inboxOf]
            by_cases h : Carries x m
            · have h1 : Spec.Tunnel.dataAck m = none := by
                unfold Spec.Tunnel.dataAck
                exact if_neg fun e => h.1 e.1
              simp [h, ackOps, gotMessages, acknowledged, h1]
            · simp only [if_neg h]
              cases hd : Spec.Tunnel.dataAck m with
              | none => simp [hd, ackOps, gotMessages, acknowledged]
              | some q =>
                obtain ⟨a, b⟩ := q
                by_cases ha : a = x.toNat <;> simp [hd, ha, ackOps, gotMessages, acknowledged]
          | err e => rfl
          | panic => rfl
        | _ => rfl

/-- The latest answers in a list of session operations. -/
def answerOp : Op → Option (ReadRes × WriteRes)
  | .transport rd wr => some (rd, wr)
  | _ => none

def lastOps (ops : List Op) : Option (ReadRes × WriteRes) := (ops.filterMap answerOp).getLast?

theorem lastOps_snoc (ops : List Op) (op : Op) :
    lastOps (ops ++ [op]) = match op with | .transport rd wr => some (rd, wr) | _ => lastOps ops := by
  unfold lastOps
  cases op <;> simp [List.filterMap_append, answerOp]

theorem lastOps_filter (ops : List Op) : lastOps (ops.filter notTake) = lastOps ops := by
  unfold lastOps
  rw [List.filterMap_filter]
  congr 1
  congr 1
  funext op
  cases op <;> rfl

theorem lastOps_inbox (x : UInt32) (r : List Seen) : lastOps (inbox x r) = lastAnswers x r := by
  have h : (inbox x r).filterMap answerOp = r.filterMap (answers x) := by
    induction r with
    | nil => rfl
    | cons v r ih =>
      have e : inbox x (v :: r) = inboxOf x v ++ inbox x r := by simp [inbox]
      rw [e, List.filterMap_append, ih]
      cases v with
      | io s o =>
        simp only [inboxOf]
        by_cases hs : s = x
        · rw [if_pos hs]
          cases o <;> first | rfl | simp [hs, Io.op, answers, answerOp]
        · cases o <;> simp [hs] <;> first | rfl | simp [answers, hs]
      | ev w =>
        have h0 : (inboxOf x (.ev w)).filterMap answerOp = [] := by
          unfold inboxOf
          repeat' split
          all_goals simp_all [answerOp]
        rw [h0]
        rfl
  unfold lastOps lastAnswers
  rw [h]

theorem closed_step (s : Sess) (op : Op) (h : s.ctx.closed = true) : (s.step op).1.ctx.closed = true := by
  cases op with
  | push d => simp [Sess.step, Ctx.push, h]
  | dataAck len => simp [Sess.step, Ctx.processDataAck, Ctx.wakeMgr, h]
  | close => rfl
  | connected => simp only [Sess.step]; split <;> exact h
  | connectFailed n => simp only [Sess.step]; split <;> simp [setError_eq, h]
  | transport rd wr =>
    simp only [Sess.step, h, if_true]
    split <;> exact h
  | take n =>
    simp only [Sess.step, Ctx.take, Ctx.takeDataAck]
    by_cases hw : s.ctx.written > 0
    · simp [hw, h]
    · simp only [hw, if_false]
      repeat' split
      all_goals simp_all [Ctx.wakeTrans]

/-- What the flags of a running session say about the latest answers. -/
def Told (sops : List Op) (s : Sess) : Prop :=
  (s.phase = .connecting → Op.connected ∉ sops ∧ s.ghost.rdBlocked = false ∧ s.ghost.wrBlocked = false) ∧
  (s.phase = .running →
    (s.ghost.rdBlocked = true → ∃ wr, lastOps sops = some (.pending, wr)) ∧
    (s.ghost.wrBlocked = true → ∃ rd, lastOps sops = some (rd, .pending))) ∧
  (s.phase = .done → s.ctx.closed = true)

theorem Told.same {sops : List Op} {s s' : Sess} {op : Op} (h : Told sops s) (h1 : s'.phase = s.phase)
    (h2 : s'.ghost.rdBlocked = s.ghost.rdBlocked) (h3 : s'.ghost.wrBlocked = s.ghost.wrBlocked)
    (h4 : s.ctx.closed = true → s'.ctx.closed = true) (h5 : s.phase = .connecting → op ≠ .connected)
    (h6 : s.phase = .running → ∀ rd wr, op ≠ .transport rd wr) : Told (sops ++ [op]) s' := by
  unfold Told
  rw [h1, h2, h3]
  refine ⟨fun hp => ⟨?_, (h.1 hp).2⟩, fun hp => ?_, fun hp => h4 (h.2.2 hp)⟩
  · intro hm
    rcases List.mem_append.1 hm with hm | hm
    · exact (h.1 hp).1 hm
    · exact h5 hp (List.mem_singleton.1 hm).symm
  · have : lastOps (sops ++ [op]) = lastOps sops := by
      rw [lastOps_snoc]
      cases op with
      | transport rd wr => exact absurd rfl (h6 hp rd wr)
      | _ => rfl
    rw [this]
    exact h.2.1 hp

theorem told_life (svc : UInt16) (sid : UInt32) (W : Nat) (sops : List Op) :
    Told sops (life svc sid W sops).1 := by
  refine life_induct svc sid W (fun sops s _ => Told sops s) ?_ ?_ sops
  · exact ⟨fun _ => ⟨List.not_mem_nil, rfl, rfl⟩, nofun, nofun⟩
  · intro sops op s os h
    have hc := closed_step s op
    cases op with
    | push d => exact h.same rfl rfl rfl hc (fun _ => nofun) (fun _ _ _ => nofun)
    | dataAck len => exact h.same rfl rfl rfl hc (fun _ => nofun) (fun _ _ _ => nofun)
    | close => exact h.same rfl rfl rfl hc (fun _ => nofun) (fun _ _ _ => nofun)
    | take n => exact h.same rfl rfl rfl hc (fun _ => nofun) (fun _ _ _ => nofun)
    | connected =>
      by_cases hp : s.phase = .connecting
      · simp only [Sess.step, if_pos hp]
        refine ⟨nofun, fun _ => ⟨fun hb => ?_, fun hb => ?_⟩, nofun⟩
        · rw [(h.1 hp).2.1] at hb; cases hb
        · rw [(h.1 hp).2.2] at hb; cases hb
      · refine h.same ?_ ?_ ?_ hc (fun hq => absurd hq hp) (fun _ _ _ => nofun) <;> simp [Sess.step, hp]
    | connectFailed n =>
      by_cases hp : s.phase = .connecting
      · simp only [Sess.step, if_pos hp]
        refine ⟨nofun, nofun, fun _ => ?_⟩
        dsimp only
        rw [setError_eq]
        split
        · assumption
        · rfl
      · refine h.same ?_ ?_ ?_ hc (fun hq => absurd hq hp) (fun _ _ _ => nofun) <;> simp [Sess.step, hp]
    | transport rd wr =>
      by_cases hp : s.phase = .running
      · by_cases hcl : s.ctx.closed = true
        · simp only [Sess.step, if_pos hp, if_pos hcl]
          exact ⟨nofun, nofun, fun _ => hcl⟩
        · simp only [Sess.step, if_pos hp, if_neg hcl]
          refine ⟨fun hq => ?_, fun _ => ⟨fun hb => ?_, fun hb => ?_⟩, fun hq => ?_⟩
          · dsimp only at hq; rw [hp] at hq; cases hq
          · simp only [Bool.and_eq_true, decide_eq_true_eq] at hb
            rw [lastOps_snoc, hb.2]
            exact ⟨wr, rfl⟩
          · simp only [Bool.and_eq_true, decide_eq_true_eq] at hb
            rw [lastOps_snoc, hb.2]
            exact ⟨rd, rfl⟩
          · dsimp only at hq; rw [hp] at hq; cases hq
      · refine h.same ?_ ?_ ?_ hc (fun _ => nofun) (fun hq => absurd hq hp) <;> simp [Sess.step, hp]

theorem sentAcks_items (os : List Obs) : sentAcks os = ackedOf (sentItems os) := by
  induction os with
  | nil => rfl
  | cons o os ih =>
    have e1 : sentAcks (o :: os) = sentAcks [o] + sentAcks os := by simp [sentAcks]
    have e2 : sentItems (o :: os) = sentItems [o] ++ sentItems os := by
      simp only [sentItems, ← List.filterMap_append, List.singleton_append]
    rw [e1, e2, ackedOf_append, ih]
    congr 1
    cases o with
    | sent i => cases i <;> rfl
    | _ => rfl

theorem mem_connected (x : UInt32) (r : List Seen) (h : Seen.io x .connected ∈ r) : Op.connected ∈ inbox x r := by
  refine List.mem_flatMap.2 ⟨_, h, ?_⟩
  simp [inboxOf, Io.op]

/-! ### C103, flow control -/

/-- C103: the two windows, from end to end: the payload sent to the server since the session was opened exceeds what
the server acknowledged by at most 65536 bytes. What was acknowledged to the server was written to the service; and
as long as the session was not given a reason to end, the payload received exceeds it by at most 65536 bytes. -/
theorem C103_flow_control (cfg : Cfg) (env : Env) (ops : List COp) (c : Cli) (hl : (hist cfg env ops).1 = .live c)
    (hu : Usable (record cfg env ops)) (sid : UInt32) (s : Sess) (hs : c.mgr.sessions.get sid = some s) :
    let t := since sid (record cfg env ops)
    (payloads sid (sentMessages t.2)).length ≤ 65536 + acknowledged sid (gotMessages t.2) ∧
    (∃ sops, sops.filter notTake = inbox sid t.2 ∧ (life t.1 sid 65536 sops).1 = s ∧
      acknowledged sid (sentMessages t.2) ≤ (wrote (life t.1 sid 65536 sops).2).length ∧
      wrote (life t.1 sid 65536 sops).2 <+: payloads sid (gotMessages t.2)) ∧
    (s.ctx.closed = false →
      (payloads sid (gotMessages t.2)).length ≤ 65536 + acknowledged sid (sentMessages t.2)) := by
  intro t
  have h := record_fits cfg env ops c hl hu
  obtain ⟨sops, h1, h2, h3, -⟩ := h.kept sid s hs
  rw [h.window] at h1 h3
  have e1 : (life t.1 sid 65536 sops).1 = s := h1
  have e2 : sops.filter notTake = inbox sid t.2 := h2
  have e3 : sentItems (life t.1 sid 65536 sops).2 = (acc (record cfg env ops) sid).outbox := h3
  have hi := Props.Session.inv t.1 sid 65536 (by decide) sops
  have hg := gotAcks_life t.1 sid 65536 sops
  rw [e2, ackOps_inbox] at hg
  have hsd : sentData (life t.1 sid 65536 sops).2 = payloads sid (sentMessages t.2) := by
    rw [SessionLog.sentData_items, e3, (h.data sid s hs).1]; rfl
  have hsa : sentAcks (life t.1 sid 65536 sops).2 = acknowledged sid (sentMessages t.2) := by
    rw [sentAcks_items, e3, (h.data sid s hs).2]; rfl
  have k1 := hi.inCap
  have k2 := hi.outCap
  have k3 := hi.acks
  obtain ⟨rest, h5, h6⟩ := Props.Tunnel.accepted_prefix t.1 sid 65536 sops
  rw [e2, Props.Tunnel.payloadOf_inbox, Props.Session.C14_accepted_eq_wrote_append_buffer t.1 sid 65536 (by decide) sops] at h5
  have h5' := congrArg List.length h5
  simp only [List.length_append] at h5'
  rw [hsd, hg] at k1
  rw [hsa] at k3
  refine ⟨by omega, ⟨sops, e2, e1, by omega, _, (by rw [← List.append_assoc]; exact h5.symm)⟩, fun hcl => ?_⟩
  rw [e1] at h6
  rw [h6 hcl, List.length_nil] at h5'
  omega

/-! ### C107 -/

/-- C107: when every task waits, nothing is left to be sent to the server by the client protocol or the session
manager, and for every open session: it was not given a reason to end; everything its service sent so far has been
sent to the server, or the server's window is used up, which only an acknowledgement by the server can change;
everything written to the service has been acknowledged to the server; and once the connection with the service
exists, everything the server sent has been written to the service, or the service did not take more when it was
last asked; and the service had nothing more to read when it was last asked, or the server's window is used up. -/
theorem C107_nothing_left_behind (cfg : Cfg) (env : Env) (ops : List COp) (c : Cli)
    (hl : (hist cfg env ops).1 = .live c) (hu : Usable (record cfg env ops)) (hw : Waiting c) :
    c.messages = [] ∧ c.mgr.queue = [] ∧
    ∀ sid s, c.mgr.sessions.get sid = some s →
      let t := since sid (record cfg env ops)
      let used := (payloads sid (sentMessages t.2)).length = 65536 + acknowledged sid (gotMessages t.2)
      s.ctx.closed = false ∧
      ∃ sops, sops.filter notTake = inbox sid t.2 ∧ (life t.1 sid 65536 sops).1 = s ∧
        let os := (life t.1 sid 65536 sops).2
        (payloads sid (sentMessages t.2) = reads os ∨ used) ∧
        acknowledged sid (sentMessages t.2) = (wrote os).length ∧
        (Seen.io sid .connected ∈ t.2 →
          (payloads sid (gotMessages t.2) = wrote os ∨ ∃ rd, lastAnswers sid t.2 = some (rd, .pending)) ∧
          ((∃ wr, lastAnswers sid t.2 = some (.pending, wr)) ∨ used)) := by
  obtain ⟨w1, w2, w3⟩ := hw
  have hmsg : c.messages = [] := by
    rcases Props.Client.hist_inv' Props.Client.idle_steps cfg env ops nofun with ⟨c', t, h3, h4⟩ | ⟨x, h3, _⟩
    · rw [hl] at h4
      obtain ⟨rfl, h4⟩ := h4
      exact (h3 w1).2
    · rw [hl] at h3; cases h3
  have hm : c.mgr.queue = [] ∧ ∀ sid s, c.mgr.sessions.get sid = some s → s.ghost.mgrIdle = true := by
    rcases Props.Client.hist_inv' (Props.Client.emb_steps cfg.gateway) cfg env ops (Props.Client.emb_start cfg env) with
      ⟨c', t, ⟨mops, h3, _⟩, h4⟩ | ⟨x, h3, _⟩
    · rw [hl] at h4
      obtain ⟨rfl, h4⟩ := h4
      have := (SessionManager.hist_inv cfg.gateway 65536 0 mops).idle (by rw [← h3]; exact w2)
      rw [← h3] at this
      exact ⟨this.1, this.2.2⟩
    · rw [hl] at h3; cases h3
  refine ⟨hmsg, hm.1, ?_⟩
  intro sid s hs t used
  have h := record_fits cfg env ops c hl hu
  obtain ⟨sops, h1, h2, h3, -⟩ := h.kept sid s hs
  rw [h.window] at h1 h3
  have e1 : (life t.1 sid 65536 sops).1 = s := h1
  have e2 : sops.filter notTake = inbox sid t.2 := h2
  have e3 : sentItems (life t.1 sid 65536 sops).2 = (acc (record cfg env ops) sid).outbox := h3
  have hi := Props.Session.inv t.1 sid 65536 (by decide) sops
  have hwk := wake_inv t.1 sid 65536 sops
  have htl := told_life t.1 sid 65536 sops
  have hg := gotAcks_life t.1 sid 65536 sops
  rw [e2, ackOps_inbox] at hg
  have hsd : sentData (life t.1 sid 65536 sops).2 = payloads sid (sentMessages t.2) := by
    rw [SessionLog.sentData_items, e3, (h.data sid s hs).1]; rfl
  have hsa : sentAcks (life t.1 sid 65536 sops).2 = acknowledged sid (sentMessages t.2) := by
    rw [sentAcks_items, e3, (h.data sid s hs).2]; rfl
  obtain ⟨rest, h5, h6⟩ := Props.Tunnel.accepted_prefix t.1 sid 65536 sops
  rw [e2, Props.Tunnel.payloadOf_inbox, Props.Session.C14_accepted_eq_wrote_append_buffer t.1 sid 65536 (by decide) sops] at h5
  have k1 := hi.inCap
  have k2 := hi.acks
  have k3 := hi.reads
  rw [hsd, hg] at k1
  rw [hsa] at k2
  rw [hsd] at k3
  rw [e1] at h5 h6 hwk htl k1 k2 k3
  obtain ⟨-, g2, g3, g4⟩ := hwk.1 (hm.2 sid s hs)
  have hused : s.ctx.input ≠ [] → used := by
    intro hne
    have : s.ctx.inCap = 0 := by
      rcases Nat.eq_zero_or_pos s.ctx.inCap with h0 | h0
      · exact h0
      · cases hin : s.ctx.input with
        | nil => exact absurd hin hne
        | cons b bs =>
          rw [hin] at g3
          obtain ⟨k, hk⟩ : ∃ k, s.ctx.inCap = k + 1 := ⟨s.ctx.inCap - 1, by omega⟩
          rw [hk] at g3
          cases g3
    show _ = _
    omega
  refine ⟨g4, sops, e2, e1, ?_, ?_, ?_⟩
  · by_cases hin : s.ctx.input = []
    · rw [hin, List.append_nil] at k3
      exact .inl k3.symm
    · exact .inr (hused hin)
  · show _ = _
    omega
  · intro hcon
    have hop : Op.connected ∈ sops := by
      have := mem_connected _ _ hcon
      rw [← e2] at this
      exact (List.mem_filter.1 this).1
    have hrun : s.phase = .running := by
      cases hp : s.phase with
      | running => rfl
      | connecting => exact absurd hop (htl.1 hp).1
      | done => have := htl.2.2 hp; rw [g4] at this; cases this
    have hti : s.ghost.transIdle = true := by
      rcases w3 sid s hs with hq | hq
      · rw [hrun] at hq; cases hq
      · exact hq
    obtain ⟨-, -, j1, j2⟩ := hwk.2 hti
    have hla : lastOps sops = lastAnswers sid t.2 := by
      rw [← lastOps_filter, e2, lastOps_inbox]
    have hto := htl.2.1 hrun
    rw [hla] at hto
    constructor
    · rcases j2 with j2 | j2
      · rw [j2, h6 g4, List.append_nil, List.append_nil] at h5
        exact .inl h5
      · exact .inr (hto.2 j2)
    · rcases j1 with j1 | j1
      · refine .inr (hused fun e => ?_)
        rw [e] at j1
        exact absurd j1 (by decide)
      · exact .inl (hto.1 j1)

/-- The connection of `Tunnel.demoOps` until every task waits: the service takes what is left for it, the server gets
what the service sent. -/
def doneOps : List COp :=
  Props.Tunnel.demoOps ++ [.poll .pending [], .io 7 (.transport .pending (.ok 5)), .poll .pending [],
    .poll .pending [], .io 7 (.transport .pending .pending)]

/-- The same, but the service does not take the last byte. -/
def stuckOps : List COp :=
  Props.Tunnel.demoOps ++ [.poll .pending [], .io 7 (.transport .pending .pending), .poll .pending [],
    .poll .pending [], .io 7 (.transport .pending .pending)]

def summary (c : Cli) : Bool × Bool × List (UInt32 × List UInt8 × List UInt8 × Bool) :=
  (c.idle, c.mgr.idle, c.mgr.sessions.map fun p => (p.1, p.2.ctx.input, p.2.ctx.output, p.2.ghost.transIdle))

theorem waiting_of {ops : List COp} {b : List UInt8}
    (h : (Props.Client.demoLive ops).map summary = some (true, true, [(7, [], b, true)])) :
    ∃ c, (hist demoCfg (demoEnv 0 0) ops).1 = .live c ∧ Waiting c ∧ (c.mgr.sessions.get 7).isSome := by
  unfold Props.Client.demoLive at h
  split at h
  · rename_i c hc
    injection h with h
    injection h with h1 h
    injection h with h2 h3
    refine ⟨c, hc, ⟨h1, h2, fun sid s hs => .inr ?_⟩, ?_⟩
    · have := List.mem_map_of_mem (f := fun p => (p.1, p.2.ctx.input, p.2.ctx.output, p.2.ghost.transIdle))
        (AMap.get_mem hs)
      rw [h3, List.mem_singleton] at this
      injection this with _ this
      injection this with _ this
      injection this
    · rw [AMap.get_isSome_iff]
      have := congrArg (List.map (·.1)) h3
      rw [List.map_map] at this
      have e : c.mgr.sessions.keys = [7] := this
      rw [e]
      exact List.mem_singleton.2 rfl
  · cases h

set_option synthInstance.maxSize 1000 in
/-- Non-vacuity of C107: a connection with an open session in which every task waits and everything has arrived. -/
example :
    let r := record demoCfg (demoEnv 0 0) doneOps
    Usable r ∧ (∃ c, (hist demoCfg (demoEnv 0 0) doneOps).1 = .live c ∧ Waiting c ∧ (c.mgr.sessions.get 7).isSome) ∧
    payloads 7 (sentMessages (since 7 r).2) = [1, 2, 3, 4] ∧ payloads 7 (gotMessages (since 7 r).2) = [8, 9] ∧
    acknowledged 7 (sentMessages (since 7 r).2) = 2 ∧ acknowledged 7 (gotMessages (since 7 r).2) = 2 ∧
    lastAnswers 7 (since 7 r).2 = some (.pending, .pending) ∧ (inbox 7 (since 7 r).2).head? = some .connected :=
  ⟨Props.Tunnel.usable_of (by decide +kernel), waiting_of (b := []) (by decide +kernel), by decide +kernel,
    by decide +kernel, by decide +kernel, by decide +kernel, by decide +kernel, by decide +kernel⟩

set_option synthInstance.maxSize 1000 in
/-- The same with a byte that waits for the service. -/
example :
    let r := record demoCfg (demoEnv 0 0) stuckOps
    Usable r ∧ (∃ c, (hist demoCfg (demoEnv 0 0) stuckOps).1 = .live c ∧ Waiting c ∧ (c.mgr.sessions.get 7).isSome) ∧
    payloads 7 (gotMessages (since 7 r).2) = [8, 9] ∧ acknowledged 7 (sentMessages (since 7 r).2) = 1 ∧
    lastAnswers 7 (since 7 r).2 = some (.pending, .pending) :=
  ⟨Props.Tunnel.usable_of (by decide +kernel), waiting_of (b := [9]) (by decide +kernel), by decide +kernel,
    by decide +kernel, by decide +kernel⟩

end Verif.Props.Progress
