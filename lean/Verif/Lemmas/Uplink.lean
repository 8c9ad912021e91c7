import Verif.Model.Uplink
import Verif.Spec.Uplink
import Verif.Props.Client
import Verif.Props.Reconnect
import Verif.Lemmas.Wire
import Verif.Props.Wire
/-!
# Lemmas about the link to the service
-/
namespace Verif.Lemmas.Uplink
open Verif Verif.Client Verif.Spec.Client Verif.Uplink Verif.Spec.Uplink
open Verif.Spec (slice field)
open Verif.Props.Client (hist AllOk)

theorem transport_other {e : ErrKind} (h : transport e) : e = .other := by
  rcases h with h | h <;> exact h

/-! ### Where the error of a connection comes from -/

/-- An error was reported by the transport, or a message of the server was refused with it. -/
def Origin (ops : List COp) (evs : List NEv) (e : ErrKind) : Prop :=
  e = .connection ∨ e = .other ∨ .sinkError e ∈ ops ∨ (∃ op ∈ ops, .error e ∈ answers op) ∨
    ∃ m, .ev (.got m (.err e)) ∈ evs

theorem recv_err {c : Cli} {env : Env} {m : Wire.Message} {e : ErrKind} (h : (c.recv env m).1 = .err e) :
    .got m (.err e) ∈ (c.recv env m).2.2 := by
  unfold Cli.recv at h ⊢
  split
  · rename_i hc
    rw [if_pos hc] at h
    cases h
  · rename_i hc
    rw [if_neg hc] at h
    dsimp only at h ⊢
    rw [h]
    exact List.mem_cons_self

theorem loop_err (ins : List Incoming) : ∀ (c : Cli) (e : ErrKind), (c.pollLoop ins).1 = .error e →
    .error e ∈ ins ∨ ∃ m, .got m (.err e) ∈ (c.pollLoop ins).2.2 := by
  induction ins with
  | nil =>
    intro c e h
    unfold Cli.pollLoop at h
    dsimp only at h
    split at h <;> cases h
  | cons i ins ih =>
    intro c e h
    unfold Cli.pollLoop at h ⊢
    dsimp only at h ⊢
    split at h
    · cases h
    · cases h
    · cases i with
      | msg env m =>
        dsimp only at h ⊢
        cases hs : (c.ctxPoll.2.1.recv env m).1 with
        | ok =>
          rw [hs] at h
          dsimp only at h ⊢
          rcases ih _ e h with h | ⟨m', h⟩
          · exact .inl (List.mem_cons_of_mem _ h)
          · exact .inr ⟨m', List.mem_append_right _ h⟩
        | err e' =>
          rw [hs] at h
          dsimp only at h ⊢
          cases h
          exact .inr ⟨m, List.mem_append_right _ (recv_err hs)⟩
        | panic =>
          rw [hs] at h
          cases h
      | error e' =>
        dsimp only at h
        cases h
        exact .inl List.mem_cons_self
      | eof =>
        dsimp only at h ⊢
        rcases ih _ e h with h | ⟨m', h⟩
        · exact .inl (List.mem_cons_of_mem _ h)
        · exact .inr ⟨m', List.mem_append_right _ h⟩
      | pending => cases h

theorem poll_err (c : Cli) (first : Incoming) (ins : List Incoming) (e : ErrKind)
    (h : (c.poll first ins).1 = .error e) :
    .error e ∈ first :: ins ∨ ∃ m, .got m (.err e) ∈ (c.poll first ins).2.2 := by
  unfold Cli.poll at h ⊢
  dsimp only at h ⊢
  cases first with
  | msg env m =>
    dsimp only at h ⊢
    cases hs : (({ c with idle := false } : Cli).recv env m).1 with
    | ok =>
      rw [hs] at h
      dsimp only at h ⊢
      rcases loop_err ins _ e h with h | ⟨m', h⟩
      · exact .inl (List.mem_cons_of_mem _ h)
      · exact .inr ⟨m', List.mem_append_right _ h⟩
    | err e' =>
      rw [hs] at h
      dsimp only at h ⊢
      cases h
      exact .inr ⟨m, recv_err hs⟩
    | panic =>
      rw [hs] at h
      cases h
  | error e' =>
    dsimp only at h
    cases h
    exact .inl List.mem_cons_self
  | eof =>
    dsimp only at h ⊢
    rcases loop_err ins _ e h with h | ⟨m', h⟩
    · exact .inl (List.mem_cons_of_mem _ h)
    · exact .inr ⟨m', h⟩
  | pending =>
    dsimp only at h ⊢
    rcases loop_err ins _ e h with h | ⟨m', h⟩
    · exact .inl (List.mem_cons_of_mem _ h)
    · exact .inr ⟨m', h⟩

theorem result_err {c : Cli} {e : ErrKind} (h : c.result = .error e) : e = .connection := by
  unfold Cli.result at h
  split at h
  · cases h
  · cases h; rfl

theorem timeEvent_err {c : Cli} {env : Env} {e : ErrKind} (h : (c.timeEvent env).1 = .err e) : e = .connection := by
  unfold Cli.timeEvent at h
  dsimp only at h
  generalize (Cli.ackTimedOut _ _) = b at h
  cases b <;> cases h
  rfl

theorem Origin.cons {ops : List COp} {evs : List NEv} {e : ErrKind} (op : COp) (x : List NEv) (h : Origin ops evs e) :
    Origin (op :: ops) (x ++ evs) e := by
  rcases h with h | h | h | ⟨o, h1, h2⟩ | ⟨m, h⟩
  · exact .inl h
  · exact .inr (.inl h)
  · exact .inr (.inr (.inl (List.mem_cons_of_mem _ h)))
  · exact .inr (.inr (.inr (.inl ⟨o, List.mem_cons_of_mem _ h1, h2⟩)))
  · exact .inr (.inr (.inr (.inr ⟨m, List.mem_append_right _ h⟩)))

theorem run_over (r : Result) (ops : List COp) : (Conn.over r).run ops = (.over r, []) :=
  (Props.Client.C34_closed_is_final r ops).2

/-- What a state promises about the error it may end with. -/
def Told : Conn → Prop
  | .closing (.error e) => e = .connection
  | _ => True

theorem run_origin (ops : List COp) : ∀ (s : Conn) (e : ErrKind), Told s → (∀ r, s ≠ .over r) →
    (s.run ops).1 = .over (.error e) → Origin ops (s.run ops).2 e := by
  induction ops with
  | nil =>
    intro s e _ hn h
    exact absurd h (hn _)
  | cons op ops ih =>
    intro s e ht hn h
    rw [Conn.run] at h ⊢
    dsimp only at h ⊢
    -- the step itself ends the connection, or it does not
    by_cases ho : ∃ r, (s.step op).1 = .over r
    · obtain ⟨r, ho⟩ := ho
      rw [ho, run_over] at h ⊢
      dsimp only at h ⊢
      rw [List.append_nil]
      have hr : r = .error e := by injection h
      subst hr
      cases s with
      | over r => exact absurd rfl (hn r)
      | closing r =>
        cases op <;> simp only [Conn.step] at ho <;> first | cases ho | skip
        · exact .inl ht
        · exact .inr (.inr (.inl List.mem_cons_self))
        · exact .inl ht
      | live c =>
        simp only [Conn.step] at ho ⊢
        cases op with
        | poll first ins =>
          simp only [Cli.step] at ho ⊢
          cases hp : (c.poll first ins).1 with
          | send m => rw [hp] at ho; cases ho
          | done => rw [hp] at ho; cases ho
          | pending => rw [hp] at ho; cases ho
          | panic => rw [hp] at ho; cases ho
          | error e' =>
            rw [hp] at ho
            cases ho
            dsimp only
            rcases poll_err c first ins e hp with h | ⟨m, h⟩
            · exact .inr (.inr (.inr (.inl ⟨_, List.mem_cons_self, h⟩)))
            · exact .inr (.inr (.inr (.inr ⟨m, List.mem_map_of_mem h⟩)))
        | tick env =>
          simp only [Cli.step] at ho
          split at ho
          · injection ho with ho
            exact .inl (result_err ho)
          · cases hp : (c.timeEvent env).1 with
            | ok => rw [hp] at ho; cases ho
            | err e' => rw [hp] at ho; cases ho; exact .inl (timeEvent_err hp)
            | panic => rw [hp] at ho; cases ho; exact .inr (.inl rfl)
        | io sid o => simp only [Cli.step] at ho; cases ho
        | sinkError e' =>
          simp only [Cli.step] at ho
          cases ho
          exact .inr (.inr (.inl List.mem_cons_self))
        | flushed => simp only [Cli.step] at ho; cases ho
    · refine (ih _ e ?_ (fun r hr => ho ⟨r, hr⟩) h).cons op _
      cases s with
      | over r => exact absurd rfl (hn r)
      | closing r =>
        cases op <;> simp only [Conn.step] at ho ⊢ <;> first | exact ht | exact absurd ⟨_, rfl⟩ ho
      | live c =>
        simp only [Conn.step] at ho ⊢
        cases op with
        | poll first ins =>
          simp only [Cli.step] at ho ⊢
          cases hp : (c.poll first ins).1 with
          | done =>
            dsimp only
            generalize hr : (c.poll first ins).2.1.result = r
            cases r with
            | error e' => exact result_err hr
            | redirect a => trivial
            | panic => trivial
          | send m => trivial
          | pending => trivial
          | error e' => trivial
          | panic => trivial
        | tick env =>
          simp only [Cli.step] at ho ⊢
          split
          · trivial
          · cases hp : (c.timeEvent env).1 <;> trivial
        | io sid o => trivial
        | sinkError e' => trivial
        | flushed => trivial

theorem hist_origin (cfg : Cfg) (env : Env) (ops : List COp) (e : ErrKind) (h : (hist cfg env ops).1 = .over (.error e)) :
    Origin ops (hist cfg env ops).2 e := by
  have := run_origin ops (Conn.start cfg env).1 e trivial (fun r hr => by cases hr) h
  rcases this with h | h | h | h | ⟨m, h⟩
  · exact .inl h
  · exact .inr (.inl h)
  · exact .inr (.inr (.inl h))
  · exact .inr (.inr (.inr (.inl h)))
  · exact .inr (.inr (.inr (.inr ⟨m, List.mem_append_right _ h⟩)))

/-! ### Only the first message can be a refusal of another kind than `other` -/

theorem received_append (a b : List NEv) : received (a ++ b) = received a ++ received b := List.filterMap_append

theorem received_mgr (l : List Session.Ev) : received ((l.map CEv.mgr).map NEv.ev) = [] := by
  induction l with
  | nil => rfl
  | cons x l ih => exact ih

theorem received_queued (l : List CEv) (h : ∀ x ∈ l, ∀ m o, x ≠ .got m o) : received (l.map NEv.ev) = [] := by
  unfold received
  rw [List.filterMap_eq_nil_iff]
  intro x hx
  obtain ⟨y, hy, rfl⟩ := List.mem_map.1 hx
  cases y with
  | got m o => exact absurd rfl (h _ hy m o)
  | _ => rfl

open Verif.Props.Client in
theorem first_steps : Steps (fun _ _ => True) (fun _ => True)
    (fun c es _ => (c.established = true ∨ (c.established = false ∧ received es = [])) ∧ AllOk es)
    (fun es r => ∀ e, r = .error e → e = .connection ∨ e = .other ∨
      ∃ pre m, es = pre ++ [.ev (.got m (.err e))] ∧ received pre = []) where
  time _ _ _ _ h _ := h
  idle _ _ _ h := h
  close _ _ _ h := h
  timeout c es t h _ _ e he := by cases he; exact .inl rfl
  ping c es t h ho he hp := ⟨.inl he, ok_steps.ping c es t h.2 ho he hp⟩
  check c es env hE h ho he hp := by
    refine ⟨.inl ?_, ok_steps.check c es env hE h.2 ho he hp⟩
    rw [check_eq]
    split <;> exact he
  ready c es t m h ho hr := by
    refine ⟨?_, ok_steps.ready c es t m h.2 ho hr⟩
    rcases h.1 with h | ⟨h, hn⟩
    · refine .inl ?_
      rcases ctxPoll_ready hr with ⟨ms, _, h1⟩ | ⟨_, _, h1⟩ <;> rw [h1] <;> exact h
    · rcases ctxPoll_ready hr with ⟨ms, _, h2⟩ | ⟨_, _, h2⟩
      · refine .inr ⟨by rw [h2]; exact h, ?_⟩
        rw [h2, received_append, received_append, hn]; rfl
      · refine .inr ⟨by rw [h2]; exact h, ?_⟩
        rw [h2, received_append, received_append, hn, received_mgr]; rfl
  pending c es t h ho hr := by
    refine ⟨?_, ok_steps.pending c es t h.2 ho hr⟩
    rcases h.1 with h | ⟨h, hn⟩
    · refine .inl ?_
      rw [(ctxPoll_pending hr).2.2]; exact h
    · refine .inr ⟨by rw [(ctxPoll_pending hr).2.2]; exact h, ?_⟩
      rw [(ctxPoll_pending hr).2.2, received_append, hn, received_mgr]; rfl
  io c es t sid o h ho := by
    refine ⟨?_, ok_steps.io c es t sid o h.2 ho⟩
    rcases h.1 with h | ⟨h, hn⟩
    · exact .inl h
    · refine .inr ⟨h, ?_⟩
      rw [received_append, hn]
      exact received_mgr _
  recv c es env m hE h ho hok := by
    refine ⟨?_, ok_steps.recv c es env m hE h.2 ho hok⟩
    have H := handle_handled c env m
    generalize c.handle env m = r at H hok ⊢
    obtain ⟨o, c', evs⟩ := r
    dsimp only at hok ⊢
    subst hok
    left
    cases H <;> first | rfl | assumption
  refused c es env m _ h ho hok := by
    have H := handle_handled c env m
    generalize c.handle env m = r at H hok ⊢
    obtain ⟨o, c', evs⟩ := r
    dsimp only at hok ⊢
    obtain ⟨h1, e, h2⟩ := H.notOk hok
    subst h1 h2
    intro e' he
    cases he
    rcases h.1 with h | ⟨h, hn⟩
    · right; left
      cases H with
      | refused => rfl
      | noAck => rfl
      | wrongAck => rfl
      | hsRefused _ _ _ _ _ _ _ h4 => rw [h] at h4; cases h4
    · exact .inr (.inr ⟨es, m, rfl, hn⟩)

/-- If a connection ends with another error than `connection` and `other`, which the transport did not report, then the only
message of the server was refused with it, and it is the outcome of the handshake. -/
theorem hist_refused (cfg : Cfg) (env : Env) (ops : List COp) (e : ErrKind) (h : (hist cfg env ops).1 = .over (.error e))
    (h1 : e ≠ .connection) (h2 : e ≠ .other) (h3 : .sinkError e ∉ ops) (h4 : ∀ op ∈ ops, .error e ∉ answers op) :
    ∃ m, received (hist cfg env ops).2 = [m] ∧ handshakeOutcome m = .err e := by
  have hg : ∃ m, .ev (.got m (.err e)) ∈ (hist cfg env ops).2 := by
    rcases hist_origin cfg env ops e h with h | h | h | ⟨op, h, h'⟩ | h
    · exact absurd h h1
    · exact absurd h h2
    · exact absurd h h3
    · exact absurd h' (h4 op h)
    · exact h
  obtain ⟨m, hm⟩ := hg
  have key : ∃ pre m, (hist cfg env ops).2 = pre ++ [.ev (.got m (.err e))] ∧ received pre = [] := by
    rcases Props.Client.hist_inv' first_steps cfg env ops ⟨.inr ⟨rfl, rfl⟩, by intro m o h; simp at h⟩ with
      ⟨c, t, hi, _⟩ | ⟨x, hx, hj⟩
    · exact absurd (hi.2 m _ hm) (by nofun)
    · rw [h] at hx
      cases hx
      rcases hj e rfl with h | h | h
      · exact absurd h h1
      · exact absurd h h2
      · exact h
  obtain ⟨pre, m, hh, hp⟩ := key
  refine ⟨m, by rw [hh, received_append, hp]; rfl, ?_⟩
  have := (Props.Client.C30_first_answer cfg env ops pre [] m _ hh ?_).1
  · exact this.symm
  · intro m' o' hin
    have : m' ∈ received pre := List.mem_filterMap.2 ⟨_, hin, rfl⟩
    rw [hp] at this
    cases this

/-! ### The first message in the bytes -/

open Verif.Wire in
theorem first_decoded (cs : List Bytes) (m : Message) (rest : List Message)
    (h : (feedAll Reader.init cs).1 = m :: rest) : ∃ r, decode 64 cs.flatten = (.ok (some m), r) := by
  have h0 : drain ⟨[], false⟩ = ([], ⟨[], false⟩) := drain_none (decode_short (by simp))
  have h1 := (feedAll_flatten cs [] h0).1
  rw [show (⟨[], false⟩ : Reader) = Reader.init from rfl, h] at h1
  simp only [feed, Reader.init, Bool.false_eq_true, if_false, List.nil_append] at h1
  rcases hd : decode 64 cs.flatten with ⟨_ | _ | _, r⟩
  · rename_i o
    cases o with
    | none => rw [drain_none hd] at h1; cases h1
    | some m' =>
      rw [drain_some hd] at h1
      injection h1 with h1
      exact ⟨r, by rw [h1]⟩
  · rw [drain_err hd] at h1; cases h1
  · exact absurd hd (decode_not_panic _ _)

theorem slice_slice (bs : Bytes) (a n i k : Nat) (h : i + k ≤ n) : slice (slice bs a n) i k = slice bs (a + i) k := by
  unfold slice
  rw [List.drop_take, List.drop_drop, List.take_take, Nat.min_eq_left (by omega)]

theorem field_slice (bs : Bytes) (a n i k : Nat) (h : i + k ≤ n) : field (slice bs a n) i k = field bs (a + i) k := by
  unfold field
  rw [slice_slice bs a n i k h]

/-- The first message is an ACK of REGISTER with this code exactly if the bytes begin with one. -/
theorem first_answers {bs r : Bytes} {m : Wire.Message} (h : Wire.decode 64 bs = (.ok (some m), r)) (code : Nat) :
    (ackId m = some 0 ∧ field m.payload 4 4 = code) ↔ Answers code bs := by
  obtain ⟨c1, c2, c3, c4⟩ := Props.Wire.C03_decode_exact bs
  by_cases hl : bs.length < 11
  · rw [c1 hl] at h; cases h
  · have hl : 11 ≤ bs.length := by omega
    by_cases hv : bs[0]? = some 2
    · by_cases hs : bs.length < 11 + field bs 7 4
      · rw [c3 hl hv hs] at h; cases h
      · obtain ⟨m', h1, h2, -, h4⟩ := c4 hl hv (by omega)
        rw [h1] at h
        cases h
        have hlen : (slice bs 11 (field bs 7 4)).length = field bs 7 4 := by
          unfold slice
          rw [List.length_take, List.length_drop]
          omega
        unfold ackId
        have hz : m.header.service = 0 ↔ field bs 1 2 = 0 := by
          rw [← h2, ← UInt16.toNat_inj]; rfl
        rw [h4, hlen]
        constructor
        · rintro ⟨ha, hc⟩
          split at ha
          · rename_i hh
            obtain ⟨e1, e2, e3⟩ := hh
            rw [e2] at ha e3 hc
            rw [field_slice _ _ _ _ _ (by omega)] at e3 hc
            rw [field_slice _ _ _ _ _ (by omega)] at ha
            exact ⟨by omega, hv, hz.1 e1, e2, by injection ha, e3, hc⟩
          · cases ha
        · intro R
          have e2 := R.size
          rw [e2, field_slice _ _ _ _ _ (by omega), field_slice _ _ _ _ _ (by omega), field_slice _ _ _ _ _ (by omega)]
          refine ⟨?_, R.code⟩
          rw [if_pos ⟨hz.2 R.service, rfl, R.ack⟩, R.id]
    · rw [c2 hl hv] at h; cases h

theorem outcome_unauthorized (m : Wire.Message) :
    handshakeOutcome m = .err .unauthorized ↔ ackId m = some 0 ∧ field m.payload 4 4 = 2 := by
  unfold handshakeOutcome
  constructor
  · intro h
    split at h
    · rename_i ha
      refine ⟨ha, ?_⟩
      dsimp only at h
      split at h
      · cases h
      · split at h
        · cases h
        · split at h
          · assumption
          · split at h <;> cases h
    · cases h
  · rintro ⟨h1, h2⟩
    rw [if_pos h1, h2]
    rfl

theorem outcome_version (m : Wire.Message) :
    handshakeOutcome m = .err .unsupportedVersion ↔ ackId m = some 0 ∧ field m.payload 4 4 = 1 := by
  unfold handshakeOutcome
  constructor
  · intro h
    split at h
    · rename_i ha
      refine ⟨ha, ?_⟩
      dsimp only at h
      split at h
      · cases h
      · split at h
        · assumption
        · split at h
          · cases h
          · split at h <;> cases h
    · cases h
  · rintro ⟨h1, h2⟩
    rw [if_pos h1, h2]
    rfl

/-! ### The rounds of the task -/

open Verif.Reconnect Verif.Spec.Reconnect Verif.Props.Reconnect in
theorem result_at (rs : List Round) : ∀ (t : Task) (now : Nat), t.diagnostic = false → ∀ (i : Nat) (r : Round) (s : Nat) (a : Bytes),
    rs[i]? = some r → (attempts (t.run now rs))[i]? = some (s, a) →
    (results (t.run now rs))[i]? = some (s + r.duration, r.result) := by
  induction rs with
  | nil => intro t now _ i r s a hr; cases hr
  | cons r0 rs ih =>
    intro t now hd i r s a hr h
    rw [attempts_cons] at h
    rw [results_cons]
    rw [after_eq t now r0 hd] at h ⊢
    cases i with
    | zero =>
      simp only [List.getElem?_cons_zero, Option.some.injEq, Prod.mk.injEq] at hr h ⊢
      obtain ⟨rfl, -⟩ := h
      subst hr
      exact ⟨rfl, rfl⟩
    | succ i =>
      simp only [List.getElem?_cons_succ] at hr h ⊢
      cases hdue : due t.pairingEnd (now + r0.slack) (now + r0.slack + r0.duration + r0.slack2) r0.result with
      | none => rw [hdue] at h; cases h
      | some d =>
        rw [hdue] at h
        simp only [Option.map_some] at h ⊢
        exact ih { t with lastAttempt := now + r0.slack, currentAddr := target t.defaultAddr r0.result } _ hd i r s a hr h

/-- The first message that was handled. -/
theorem split_got : ∀ l : List NEv, received l ≠ [] → ∃ pre m o rest, l = pre ++ .ev (.got m o) :: rest ∧
    (∀ m o, .ev (.got m o) ∉ pre) ∧ (received l).head? = some m := by
  intro l
  induction l with
  | nil => intro h; exact absurd rfl h
  | cons x l ih =>
    intro h
    by_cases hx : ∃ m o, x = .ev (.got m o)
    · obtain ⟨m, o, rfl⟩ := hx
      exact ⟨[], m, o, l, rfl, fun _ _ h => (nomatch h), rfl⟩
    · have hr : received (x :: l) = received l := by
        unfold received
        rw [List.filterMap_cons_none]
        split
        · rename_i m o; exact absurd ⟨m, o, rfl⟩ hx
        · rfl
      rw [hr] at h ⊢
      obtain ⟨pre, m, o, rest, e1, e2, e3⟩ := ih h
      refine ⟨x :: pre, m, o, rest, by rw [e1]; rfl, fun m o hin => ?_, e3⟩
      rcases List.mem_cons.1 hin with hin | hin
      · exact hx ⟨m, o, hin.symm⟩
      · exact e2 m o hin

theorem outcome_ok (m : Wire.Message) (h : handshakeOutcome m = .ok) : ackId m = some 0 ∧ field m.payload 4 4 = 0 := by
  unfold handshakeOutcome at h
  split at h
  · rename_i ha
    refine ⟨ha, ?_⟩
    dsimp only at h
    repeat' split at h
    all_goals first | (cases h; done) | assumption
  · cases h

end Verif.Lemmas.Uplink
