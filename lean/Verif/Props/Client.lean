import Verif.Spec.Client
import Verif.Lemmas.Client
import Verif.Props.SessionManager
/-!
# Properties of a connection to the Arrow Service: C29-C36, C76-C78
-/
namespace Verif.Props.Client
open Verif Verif.Control Verif.Session Verif.Client Verif.Spec.Client

/-- Every connection that can arise: configuration, what is read at the start, and everything that
happens afterwards; the final state and all events. -/
def hist (cfg : Cfg) (env : Env) (ops : List COp) : Conn × List NEv :=
  let r := (Conn.start cfg env).1.run ops
  (r.1, (Conn.start cfg env).2 ++ r.2)

/-! ### A concrete connection, for the examples beside the theorems -/

def demoCfg : Cfg :=
  { uuid := Vector.replicate 16 1, key := Vector.replicate 16 2, mac := .zero, gateway := false,
    diagnostic := false, info := [] }

/-- What is read `t` seconds after the start, with version `v` of the service table, which shows one
service if `v` is not 0. -/
def demoEnv (t : Nat) (v : UInt32) : Env :=
  { now := t * 1000000000, table := SessionManager.demoTable, version := v
    visible := if v = 0 then [] else [(1, .http .zero ⟨.v4 127 0 0 1, 80⟩)]
    versionAfter := v, scanning := true, hosts := [], services := [], getId := fun _ => none }

/-- A control message of the server: id, type, content. -/
def demoMsg (id ty : UInt16) (rest : Bytes) : Wire.Message :=
  Wire.Message.new 0 0 (be16 id ++ be16 ty ++ rest)

/-- The server's answer to REGISTER. -/
def demoAck (code : UInt32) : Wire.Message := demoMsg 0 0 (be32 code)

/-- The handshake: REGISTER is sent, the answer arrives after a second. -/
def demoStart : List COp := [.poll .pending [], .poll (.msg (demoEnv 1 0) (demoAck 0)) []]

/-- The running connection after the given operations. -/
def demoLive (ops : List COp) : Option Cli :=
  match (hist demoCfg (demoEnv 0 0) ops).1 with
  | .live c => some c
  | _ => none

theorem hist_inv {R E I J} (S : Steps R E I J) (cfg : Cfg) (env : Env) (ops : List COp)
    (hE : ∀ e ∈ envs ops, E e) (hR : (env.now :: times ops).Pairwise R)
    (h0 : I (Cli.new cfg env).1 [.ev (.queued env.now (register cfg env))] env.now) :
    (∃ c t, I c (hist cfg env ops).2 t ∧ Final ops (hist cfg env ops).1 c) ∨
    (∃ x, (hist cfg env ops).1 = .over x ∧ J (hist cfg env ops).2 x) :=
  run_inv S ops hE _ _ _ h0 rfl hR

theorem pairwise_true {α : Type} (l : List α) : l.Pairwise (fun _ _ => True) := by
  induction l with
  | nil => exact .nil
  | cons a l ih => exact .cons (fun _ _ => trivial) ih

/-- `hist_inv` for invariants that do not care about time. -/
theorem hist_inv' {I J} (S : Steps (fun _ _ => True) (fun _ => True) I J) (cfg : Cfg) (env : Env)
    (ops : List COp) (h0 : I (Cli.new cfg env).1 [.ev (.queued env.now (register cfg env))] env.now) :
    (∃ c t, I c (hist cfg env ops).2 t ∧ Final ops (hist cfg env ops).1 c) ∨
    (∃ x, (hist cfg env ops).1 = .over x ∧ J (hist cfg env ops).2 x) :=
  hist_inv S cfg env ops (fun _ _ => trivial) (pairwise_true _) h0

/-! ## C29, C30 -/

/-- The sessions and queues of a client that waits for the answer to REGISTER. -/
def Quiet (c : Cli) : Prop :=
  (∃ t, c.acks = [(t, 0)]) ∧ c.mgr.sessions = [] ∧ c.mgr.queue = [] ∧ c.mgr.order = []

def HsInv (reg : ControlMessage) (c : Cli) (es : List NEv) (_ : Nat) : Prop :=
  (c.established = true ∧ hsRun reg es = .established) ∨
  (c.established = false ∧ Quiet c ∧
    ((hsRun reg es = .registered ∧ c.messages = [reg.toArrow]) ∨
     (hsRun reg es = .sent ∧ c.messages = [])))

theorem hsRun_append (reg : ControlMessage) (a b : List NEv) :
    hsRun reg (a ++ b) = b.foldl (hsNext reg) (hsRun reg a) := List.foldl_append

theorem hs_established (reg : ControlMessage) (b : List NEv) :
    b.foldl (hsNext reg) .established = .established := by
  induction b with
  | nil => rfl
  | cons e b ih => cases e <;> exact ih

theorem hs_steps (reg : ControlMessage) : Steps (fun _ _ => True) (fun _ => True) (HsInv reg)
    (fun es _ => hsRun reg es ≠ .bad) where
  time _ _ _ _ h _ := h
  idle _ _ _ h := h
  close _ _ _ h := h
  timeout c es t h _ _ := by
    rcases h with ⟨_, h⟩ | ⟨_, _, ⟨h, _⟩ | ⟨h, _⟩⟩ <;> rw [h] <;> nofun
  ping c es t h _ he _ := by
    rcases h with ⟨_, h⟩ | ⟨h, _⟩
    · exact .inl ⟨he, by rw [hsRun_append, h, hs_established]⟩
    · rw [he] at h; cases h
  check c es env _ h _ he _ := by
    rcases h with ⟨_, h⟩ | ⟨h, _⟩
    · refine .inl ⟨?_, by rw [hsRun_append, h, hs_established]⟩
      rw [check_eq]; split <;> exact he
    · rw [he] at h; cases h
  ready c es t m h ho hr := by
    rcases h with ⟨he, h⟩ | ⟨he, hq, h⟩
    · refine .inl ⟨?_, by rw [hsRun_append, hsRun_append, h, hs_established, hs_established]⟩
      rcases ctxPoll_ready hr with ⟨ms, _, h2⟩ | ⟨_, _, h2⟩ <;> rw [h2] <;> exact he
    · rcases ctxPoll_ready hr with ⟨ms, hm, h2⟩ | ⟨hm, hp, h2⟩
      · rcases h with ⟨h, h3⟩ | ⟨h, h3⟩
        · rw [hm] at h3
          injection h3 with h4 h5
          subst h4; subst h5
          refine .inr ⟨?_, ?_, .inr ⟨?_, ?_⟩⟩
          · rw [h2]; exact he
          · rw [h2]; exact hq
          · rw [h2]; simp [hsRun_append, h, hsNext]
          · rw [h2]
        · rw [hm] at h3; cases h3
      · rw [poll_quiet _ hq.2.2.1 hq.2.2.2] at hp; cases hp
  pending c es t h ho hr := by
    rcases h with ⟨he, h⟩ | ⟨he, hq, h⟩
    · refine .inl ⟨?_, by rw [hsRun_append, h, hs_established]⟩
      rw [(ctxPoll_pending hr).2.2]; exact he
    · have h2 := (ctxPoll_pending hr).2.2
      rw [poll_quiet _ hq.2.2.1 hq.2.2.2] at h2
      rw [h2]
      exact .inr ⟨he, hq, by simpa using h⟩
  io c es t sid o h _ := by
    rcases h with ⟨he, h⟩ | ⟨he, hq, h⟩
    · exact .inl ⟨he, by rw [hsRun_append, h, hs_established]⟩
    · have : c.onMgr (.io sid o) = (c, []) := by
        simp [Cli.onMgr, Mgr.step, hq.2.1, AMap.get]
      rw [this]
      exact .inr ⟨he, hq, by simpa using h⟩
  recv c es env m _ h ho hok := by
    have H := handle_handled c env m
    generalize c.handle env m = r at H hok ⊢
    obtain ⟨o, c', evs⟩ := r
    subst hok
    rcases h with ⟨he, h⟩ | ⟨he, hq, h⟩
    · refine .inl ⟨?_, by rw [hsRun_append, h, hs_established]⟩
      cases H <;> first | exact he | rfl
    · cases H with
      | hsOk id a l h1 h2 h3 h4 h5 =>
        refine .inl ⟨rfl, ?_⟩
        obtain ⟨t, ht⟩ := hq.1
        rw [ht] at h2
        injection h2 with h6 h7
        subst h6
        have h8 : handshakeOutcome m = .ok := by
          simp only [handshakeOutcome, h1, h3, h5]; rfl
        rw [hsRun_append]
        rcases h with ⟨h, _⟩ | ⟨h, _⟩ <;> simp [h, hsNext, h8]
      | ackOk id a l h1 h2 h3 h4 => rw [he] at h4; cases h4
      | mgr op h1 h2 h4 => rw [he] at h4; cases h4
      | reply x h1 h2 h4 => rw [he] at h4; cases h4
      | replyId x h1 h2 h4 => rw [he] at h4; cases h4
      | redirect x h1 h2 h4 => rw [he] at h4; cases h4
      | command x h1 h2 h4 => rw [he] at h4; cases h4
  refused c es env m _ h ho hok := by
    have H := handle_handled c env m
    generalize c.handle env m = r at H hok ⊢
    obtain ⟨o, c', evs⟩ := r
    rcases h with ⟨he, h⟩ | ⟨he, hq, h⟩
    · rw [hsRun_append, h, hs_established]; nofun
    · have key : o = handshakeOutcome m ∧ evs = [] := by
        obtain ⟨t, ht⟩ := hq.1
        cases H with
        | refused h1 => simp [handshakeOutcome, h1]
        | noAck id h1 h2 => rw [ht] at h2; cases h2
        | wrongAck id a l h1 h2 h3 =>
          rw [ht] at h2
          injection h2 with h6 h7
          subst h6
          simp only [handshakeOutcome, h1, Option.some.injEq]
          have h3' : id ≠ 0 := h3
          rw [if_neg h3']
          exact ⟨rfl, trivial⟩
        | hsRefused id a l e h1 h2 h3 h4 h5 =>
          rw [ht] at h2
          injection h2 with h6 h7
          subst h6
          exact ⟨(h5 h3).symm, rfl⟩
        | hsOk => exact absurd rfl hok
        | ackOk => exact absurd rfl hok
        | mgr => exact absurd rfl hok
        | reply => exact absurd rfl hok
        | replyId => exact absurd rfl hok
        | redirect => exact absurd rfl hok
        | command => exact absurd rfl hok
      obtain ⟨k1, k2⟩ := key
      subst k2
      rw [hsRun_append]
      dsimp only at hok
      rcases h with ⟨h, _⟩ | ⟨h, _⟩ <;> simp only [h, List.map_nil, List.foldl_cons, List.foldl_nil,
        hsNext, ← k1, if_true, if_neg hok] <;> nofun

/-- C29: in every history the handshake comes first: REGISTER is created and sent, and until the server's
answer nothing else happens - no other message is created or sent, no session is touched, no command is
issued; the first message of the server is judged by `handshakeOutcome`. -/
theorem C29_handshake_first (cfg : Cfg) (env : Env) (ops : List COp) :
    hsRun (register cfg env) (hist cfg env ops).2 ≠ .bad := by
  rcases hist_inv' (hs_steps (register cfg env)) cfg env ops
    (.inr ⟨rfl, ⟨⟨_, rfl⟩, rfl, rfl, rfl⟩, .inl ⟨by simp [hsRun, hsNext], rfl⟩⟩) with ⟨c, t, h, _⟩ | ⟨x, _, h⟩
  · rcases h with ⟨_, h⟩ | ⟨_, _, ⟨h, _⟩ | ⟨h, _⟩⟩ <;> rw [h] <;> nofun
  · exact h

theorem hs_bad (reg : ControlMessage) (b : List NEv) : b.foldl (hsNext reg) .bad = .bad := by
  induction b with
  | nil => rfl
  | cons e b ih => cases e <;> exact ih

theorem hs_failed (reg : ControlMessage) (b : List NEv) (h : b.foldl (hsNext reg) .failed ≠ .bad) :
    b = [] := by
  cases b with
  | nil => rfl
  | cons e b => exact absurd (by cases e <;> exact hs_bad reg b) h

/-- Before the first message of the server: REGISTER created, then sent. -/
theorem hs_before (reg : ControlMessage) (pre : List NEv) (h : hsRun reg pre ≠ .bad)
    (hg : ∀ m o, .ev (.got m o) ∉ pre) :
    pre = [] ∨ (∃ t, pre = [.ev (.queued t reg)]) ∨
      (∃ t, pre = [.ev (.queued t reg), .sent reg.toArrow]) := by
  unfold hsRun at h
  match pre with
  | [] => exact .inl rfl
  | .sent m :: l => exact absurd (hs_bad reg l) h
  | .ev (.mgr e) :: l => exact absurd (hs_bad reg l) h
  | .ev (.command e) :: l => exact absurd (hs_bad reg l) h
  | .ev (.checked a b) :: l => exact absurd (hs_bad reg l) h
  | .ev (.got m o) :: l => exact absurd List.mem_cons_self (hg m o)
  | .ev (.queued t m) :: l =>
    simp only [List.foldl_cons, hsNext] at h
    split at h
    · rename_i hm
      subst hm
      match l with
      | [] => exact .inr (.inl ⟨t, rfl⟩)
      | .ev (.mgr e) :: l => exact absurd (hs_bad _ l) h
      | .ev (.command e) :: l => exact absurd (hs_bad _ l) h
      | .ev (.checked a b) :: l => exact absurd (hs_bad _ l) h
      | .ev (.queued a b) :: l => exact absurd (hs_bad _ l) h
      | .ev (.got m o) :: l => exact absurd (List.mem_cons_of_mem _ List.mem_cons_self) (hg m o)
      | .sent x :: l =>
        simp only [List.foldl_cons, hsNext] at h
        split at h
        · rename_i hx
          subst hx
          match l with
          | [] => exact .inr (.inr ⟨t, rfl⟩)
          | .ev (.mgr e) :: l => exact absurd (hs_bad _ l) h
          | .ev (.command e) :: l => exact absurd (hs_bad _ l) h
          | .ev (.checked a b) :: l => exact absurd (hs_bad _ l) h
          | .ev (.queued a b) :: l => exact absurd (hs_bad _ l) h
          | .sent x :: l => exact absurd (hs_bad _ l) h
          | .ev (.got m o) :: l =>
            exact absurd (List.mem_cons_of_mem _ (List.mem_cons_of_mem _ List.mem_cons_self)) (hg m o)
        · exact absurd (hs_bad _ l) h
    · exact absurd (hs_bad _ l) h

theorem hist_prefix (cfg : Cfg) (env : Env) (ops : List COp) (pre rest : List NEv)
    (h : (hist cfg env ops).2 = pre ++ rest) : hsRun (register cfg env) pre ≠ .bad := by
  intro hb
  apply C29_handshake_first cfg env ops
  rw [h, hsRun_append, hb, hs_bad]

/-- C29: as long as no message of the server was accepted, the client has done nothing but create its
REGISTER message and send it. -/
theorem C29_nothing_before_handshake (cfg : Cfg) (env : Env) (ops : List COp) (pre rest : List NEv)
    (h : (hist cfg env ops).2 = pre ++ rest) (hg : ∀ m o, .ev (.got m o) ∉ pre) :
    pre <+: [.ev (.queued env.now (register cfg env)), .sent (register cfg env).toArrow] := by
  have h1 := hist_prefix cfg env ops pre rest h
  have h2 : ∀ e l, pre = e :: l → e = .ev (.queued env.now (register cfg env)) := by
    intro e l hp
    rw [hp] at h
    have : (hist cfg env ops).2 = .ev (.queued env.now (register cfg env)) ::
      ((Conn.start cfg env).1.run ops).2 := rfl
    rw [this] at h
    injection h with h _
    exact h.symm
  rcases hs_before _ pre h1 hg with hp | ⟨t, hp⟩ | ⟨t, hp⟩
  · rw [hp]; exact List.nil_prefix
  · rw [h2 _ _ hp] at hp; rw [hp]; exact ⟨_, rfl⟩
  · rw [h2 _ _ hp] at hp; rw [hp]; exact List.prefix_refl _

/-- Non-vacuity of C29: the server may take its time; it may also answer before REGISTER was handed to the
transport. A ping before the handshake is refused. -/
example :
    (hist demoCfg (demoEnv 0 0) [.poll .pending [], .tick (demoEnv 15 3), .io 4 .connected]).2 =
      [.ev (.queued 0 (register demoCfg (demoEnv 0 0))), .sent (register demoCfg (demoEnv 0 0)).toArrow] ∧
    hsRun (register demoCfg (demoEnv 0 0)) (hist demoCfg (demoEnv 0 0) demoStart).2 = .established ∧
    hsRun (register demoCfg (demoEnv 0 0)) (hist demoCfg (demoEnv 0 0)
      [.poll (.msg (demoEnv 1 0) (demoMsg 0 1 [])) []]).2 = .failed ∧
    hsRun (register demoCfg (demoEnv 0 0)) [.sent (demoAck 0)] = .bad := by
  decide +kernel

/-- C30: the first message of the server decides the handshake: it has to be the ACK of REGISTER (id 0)
and its code is translated to the outcome; after any other outcome than success nothing happens. -/
theorem C30_first_answer (cfg : Cfg) (env : Env) (ops : List COp) (pre rest : List NEv)
    (m : Wire.Message) (o : Out) (h : (hist cfg env ops).2 = pre ++ .ev (.got m o) :: rest)
    (hg : ∀ m o, .ev (.got m o) ∉ pre) :
    o = handshakeOutcome m ∧ (o ≠ .ok → rest = []) := by
  have h1 := C29_handshake_first cfg env ops
  rw [h, hsRun_append, List.foldl_cons] at h1
  have h2 : hsNext (register cfg env) (hsRun (register cfg env) pre) (.ev (.got m o)) =
      .bad ∨ hsNext (register cfg env) (hsRun (register cfg env) pre) (.ev (.got m o)) =
      if o = handshakeOutcome m then (if o = .ok then .established else .failed) else .bad := by
    rcases hs_before _ pre (hist_prefix cfg env ops pre _ h) hg with hp | ⟨t, hp⟩ | ⟨t, hp⟩
    · left; rw [hp]; rfl
    · right; rw [hp]; simp [hsRun, hsNext]
    · right; rw [hp]; simp [hsRun, hsNext]
  rcases h2 with h2 | h2
  · rw [h2, hs_bad] at h1; exact absurd rfl h1
  · rw [h2] at h1
    by_cases ho : o = handshakeOutcome m
    · refine ⟨ho, fun hne => ?_⟩
      rw [if_pos ho, if_neg hne] at h1
      exact hs_failed _ _ h1
    · rw [if_neg ho, hs_bad] at h1; exact absurd rfl h1

/-- Non-vacuity of C30: the codes of the answer to REGISTER, an answer with another id, another message. -/
example :
    handshakeOutcome (demoAck 0) = .ok ∧ handshakeOutcome (demoAck 1) = .err .unsupportedVersion ∧
    handshakeOutcome (demoAck 2) = .err .unauthorized ∧
    handshakeOutcome (demoAck 0xffffffff) = .err .serverError ∧
    handshakeOutcome (demoAck 7) = .err .other ∧
    handshakeOutcome (demoMsg 1 0 (be32 0)) = .err .other ∧
    handshakeOutcome (demoMsg 0 1 []) = .err .other ∧
    (hist demoCfg (demoEnv 0 0) [.poll .pending [], .poll (.msg (demoEnv 1 0) (demoAck 2)) [],
      .tick (demoEnv 100 0)]).2 =
      [.ev (.queued 0 (register demoCfg (demoEnv 0 0))), .sent (register demoCfg (demoEnv 0 0)).toArrow,
       .ev (.got (demoAck 2) (.err .unauthorized))] := by
  decide +kernel

/-- All messages of the server were accepted. -/
def AllOk (es : List NEv) : Prop := ∀ m o, .ev (.got m o) ∈ es → o = .ok

theorem AllOk.append {a b : List NEv} (ha : AllOk a) (hb : AllOk b) : AllOk (a ++ b) := by
  intro m o h
  rcases List.mem_append.mp h with h | h
  · exact ha m o h
  · exact hb m o h

theorem AllOk.mgr (l : List Ev) : AllOk ((l.map CEv.mgr).map NEv.ev) := by
  intro m o h
  simp at h

/-- What `handle` adds besides `got`. -/
theorem _root_.Verif.Client.Handled.allOk {c env m o c' evs} (H : Handled c env m o c' evs) : AllOk (evs.map .ev) := by
  intro m' o' h
  cases H <;> simp [Cli.onMgr, Cli.sendControl] at h

theorem _root_.Verif.Client.Handled.notOk {c env m o c' evs} (H : Handled c env m o c' evs) (h : o ≠ .ok) :
    evs = [] ∧ ∃ e, o = .err e := by
  cases H <;> first | exact ⟨rfl, _, rfl⟩ | exact absurd rfl h

theorem ok_steps : Steps (fun _ _ => True) (fun _ => True) (fun _ es _ => AllOk es)
    (fun es r => (r = .error .connection ∧ AllOk es) ∨
      ∃ pre m e, es = pre ++ [.ev (.got m (.err e))] ∧ AllOk pre ∧ r = .error e) where
  time _ _ _ _ h _ := h
  idle _ _ _ h := h
  close _ _ _ h := h
  timeout c es t h _ _ := .inl ⟨rfl, h⟩
  ping c es t h _ _ _ := h.append (by intro m o h; simp [Cli.sendPing, Cli.sendUnconfirmed, Cli.sendControl] at h)
  check c es env _ h _ _ _ := by
    refine h.append ?_
    intro m o h
    rw [check_eq] at h
    split at h <;> simp at h
  ready c es t m h ho hr := by
    refine (h.append ?_).append (by intro m o h; simp at h)
    rcases ctxPoll_ready hr with ⟨ms, _, h2⟩ | ⟨_, _, h2⟩ <;> rw [h2]
    · intro m o h; simp at h
    · exact AllOk.mgr _
  pending c es t h ho hr := by
    rw [(ctxPoll_pending hr).2.2]
    exact h.append (AllOk.mgr _)
  io c es t sid o h _ := h.append (AllOk.mgr _)
  recv c es env m _ h ho hok := by
    have H := handle_handled c env m
    refine h.append ?_
    intro m' o' h'
    rcases List.mem_cons.mp h' with h' | h'
    · cases h'; rfl
    · exact H.allOk m' o' h'
  refused c es env m _ h ho hok := by
    have H := handle_handled c env m
    obtain ⟨h1, e, h2⟩ := H.notOk hok
    refine .inr ⟨es, m, e, ?_, h, ?_⟩
    · rw [h1, h2]; rfl
    · rw [h2]; rfl

/-- C30, C31: a message of the server that is refused is the last thing that happens, and `connect`
returns the error it was refused with. -/
theorem C30_refusal_ends (cfg : Cfg) (env : Env) (ops : List COp) (m : Wire.Message) (o : Out)
    (h : .ev (.got m o) ∈ (hist cfg env ops).2) (ho : o ≠ .ok) :
    ∃ pre e, o = .err e ∧ (hist cfg env ops).2 = pre ++ [.ev (.got m (.err e))] ∧
      (hist cfg env ops).1 = .over (.error e) := by
  rcases hist_inv' ok_steps cfg env ops (by intro m o h; simp at h) with ⟨c, t, h1, _⟩ | ⟨x, h1, h2⟩
  · exact absurd (h1 m o h) ho
  · rcases h2 with ⟨_, h2⟩ | ⟨pre, m', e, h2, h3, h4⟩
    · exact absurd (h2 m o h) ho
    · rw [h2] at h
      rcases List.mem_append.mp h with h | h
      · exact absurd (h3 m o h) ho
      · simp only [List.mem_singleton] at h
        cases h
        exact ⟨pre, e, rfl, h2, by rw [h1, h4]⟩

/-! ## C31 -/

/-- The outstanding acknowledgements in the state of the client. -/
def outstanding (c : Cli) : List (Nat × Nat) := c.acks.map (fun a => (a.1, a.2.toNat))

def AckInv (c : Cli) (es : List NEv) : Prop := ackRun es = .waiting (!c.established) (outstanding c)

theorem ackRun_append (a b : List NEv) : ackRun (a ++ b) = b.foldl ackNext (ackRun a) :=
  List.foldl_append

theorem ackRun_mgr {es hs l} (h : ackRun es = .waiting hs l) (x : List Ev) :
    ackRun (es ++ (x.map CEv.mgr).map NEv.ev) = .waiting hs l := by
  rw [ackRun_append, h]; exact foldl_mgr _ _ (fun _ => rfl) x

theorem AckInv.ping {c es} (h : AckInv c es) (t : Nat) :
    AckInv (c.sendPing t).1 (es ++ (c.sendPing t).2.map .ev) := by
  unfold AckInv at h ⊢
  rw [ackRun_append, h]
  simp [Cli.sendPing, Cli.sendUnconfirmed, Cli.sendControl, Cli.nextId, Cli.wake, mkPing, ackNext,
    needsAck, outstanding]

theorem AckInv.check {c es} (h : AckInv c es) (env : Env) :
    AckInv (c.checkForUpdates env).1 (es ++ (c.checkForUpdates env).2.map .ev) := by
  unfold AckInv at h ⊢
  rw [ackRun_append, h, check_eq]
  split
  · simp [Cli.sendUpdate, Cli.sendControl, Cli.nextId, Cli.wake, mkUpdate, ackNext,
      needsAck, outstanding]
  · simp [ackNext, outstanding]

theorem AckInv.ready {c es m} (h : AckInv c es) (hr : c.ctxPoll.1 = .ready m) :
    AckInv c.ctxPoll.2.1 (es ++ c.ctxPoll.2.2.map .ev ++ [.sent m]) := by
  unfold AckInv at h ⊢
  rw [ackRun_append]
  rcases ctxPoll_ready hr with ⟨ms, _, h2⟩ | ⟨_, _, h2⟩ <;> rw [h2] <;> dsimp only
  · simp only [List.map_nil, List.append_nil, h]; rfl
  · rw [ackRun_mgr h]; rfl

theorem AckInv.pending {c es} (h : AckInv c es) (hr : c.ctxPoll.1 = .pending) :
    AckInv c.ctxPoll.2.1 (es ++ c.ctxPoll.2.2.map .ev) := by
  unfold AckInv at h ⊢
  rw [(ctxPoll_pending hr).2.2]
  exact ackRun_mgr h _

theorem AckInv.recv {c es env m} (h : AckInv c es) (hok : (c.handle env m).1 = .ok) :
    AckInv (c.handle env m).2.1 (es ++ .ev (.got m .ok) :: (c.handle env m).2.2.map .ev) := by
  have H := handle_handled c env m
  generalize c.handle env m = r at H hok ⊢
  obtain ⟨o, c', evs⟩ := r
  subst hok
  unfold AckInv at h ⊢
  rw [ackRun_append, h]
  cases H with
  | hsOk id a l h1 h2 h3 h4 h5 => simp [ackNext, h1, h2, h3, h4, outstanding]
  | ackOk id a l h1 h2 h3 h4 => simp [ackNext, h1, h2, h3, h4, outstanding]
  | mgr op h1 h2 h4 =>
    simp only [List.foldl_cons, ackNext, h1, if_true]
    exact foldl_mgr _ _ (fun _ => rfl) _
  | reply x h1 h2 h4 hp =>
    simp [ackNext, h1, hp.1, outstanding]
  | replyId x h1 h2 h4 hp =>
    simp [ackNext, h1, hp.1, outstanding, Cli.nextId]
  | redirect x h1 h2 h4 => simp [ackNext, h1, outstanding]
  | command x h1 h2 h4 => simp [ackNext, h1]

theorem AckInv.refused {c es env m} (h : AckInv c es) (hok : (c.handle env m).1 ≠ .ok) :
    ackRun (es ++ .ev (.got m (c.handle env m).1) :: (c.handle env m).2.2.map .ev) = .failed := by
  have H := handle_handled c env m
  generalize c.handle env m = r at H hok ⊢
  obtain ⟨o, c', evs⟩ := r
  unfold AckInv at h
  rw [ackRun_append, h]
  cases H with
  | refused h1 => simp [ackNext, h1]
  | noAck id h1 h2 => dsimp only at h2; simp [ackNext, h1, h2, outstanding]
  | wrongAck id a l h1 h2 h3 => simp [ackNext, h1, h2, h3, outstanding]
  | hsRefused id a l e h1 h2 h3 h4 h5 => simp [ackNext, h1, h2, h3, h4, outstanding]
  | hsOk => exact absurd rfl hok
  | ackOk => exact absurd rfl hok
  | mgr => exact absurd rfl hok
  | reply => exact absurd rfl hok
  | replyId => exact absurd rfl hok
  | redirect => exact absurd rfl hok
  | command => exact absurd rfl hok

theorem ack_steps : Steps (fun _ _ => True) (fun _ => True) (fun c es _ => AckInv c es)
    (fun es _ => ackRun es ≠ .bad) where
  time _ _ _ _ h _ := h
  idle _ _ _ h := h
  close _ _ _ h := h
  timeout c es t h _ _ := by rw [h]; nofun
  ping c es t h _ _ _ := h.ping t
  check c es env _ h _ _ _ := h.check env
  ready c es t m h ho hr := h.ready hr
  pending c es t h ho hr := h.pending hr
  io c es t sid o h _ := ackRun_mgr h _
  recv c es env m _ h ho hok := h.recv hok
  refused c es env m _ h ho hok := by rw [h.refused hok]; nofun

theorem ack_start (cfg : Cfg) (env : Env) :
    AckInv (Cli.new cfg env).1 [.ev (.queued env.now (register cfg env))] := by
  unfold AckInv
  rw [new_eq]
  simp [ackRun, ackNext, needsAck, register, outstanding]

/-- C31: every history obeys the rules for acknowledgements (`ackNext`). -/
theorem C31_acks_match (cfg : Cfg) (env : Env) (ops : List COp) :
    ackRun (hist cfg env ops).2 ≠ .bad := by
  rcases hist_inv' ack_steps cfg env ops (ack_start cfg env) with ⟨c, t, h, _⟩ | ⟨x, _, h⟩
  · rw [h]; nofun
  · exact h

theorem ack_bad (b : List NEv) : b.foldl ackNext .bad = .bad := by
  induction b with
  | nil => rfl
  | cons e b ih => exact ih

theorem ack_prefix {a b : List NEv} (h : ackRun (a ++ b) ≠ .bad) : ackRun a ≠ .bad := by
  intro hb
  rw [ackRun_append, hb, ack_bad] at h
  exact h rfl

theorem requests_append (a b : List NEv) : requests (a ++ b) = requests a ++ requests b :=
  List.filterMap_append
theorem acked_append (a b : List NEv) : acked (a ++ b) = acked a ++ acked b := List.filterMap_append

theorem ack_order (n : Nat) : ∀ es : List NEv, es.length = n →
    (∀ hs l, ackRun es = .waiting hs l → requests es = acked es ++ l.map (·.2)) ∧
    (ackRun es ≠ .bad → acked es <+: requests es) := by
  induction n with
  | zero =>
    intro es h
    cases es with
    | cons _ _ => cases h
    | nil =>
      refine ⟨?_, fun _ => List.prefix_refl _⟩
      intro hs l h
      cases h; rfl
  | succ n ih =>
    intro es hlen
    have hne : es ≠ [] := by rintro rfl; cases hlen
    obtain ⟨pre, e, rfl⟩ : ∃ pre e, es = pre ++ [e] :=
      ⟨es.dropLast, es.getLast hne, (List.dropLast_concat_getLast hne).symm⟩
    have hl : pre.length = n := by simpa using hlen
    obtain ⟨ih1, ih2⟩ := ih pre hl
    have hw : ∀ hs l, ackRun pre = .waiting hs l →
        (∀ hs' l', ackNext (.waiting hs l) e = .waiting hs' l' →
          requests (pre ++ [e]) = acked (pre ++ [e]) ++ l'.map (·.2)) ∧
        (ackNext (.waiting hs l) e = .failed → acked [e] = []) := by
      intro hs l hpre
      have hp := ih1 hs l hpre
      rw [requests_append, acked_append, hp]
      match e with
      | .sent m => refine ⟨?_, nofun⟩; rintro _ _ ⟨⟩; simp [requests, acked]
      | .ev (.mgr x) => refine ⟨?_, nofun⟩; rintro _ _ ⟨⟩; simp [requests, acked]
      | .ev (.command x) => refine ⟨?_, nofun⟩; rintro _ _ ⟨⟩; simp [requests, acked]
      | .ev (.checked x y) => refine ⟨?_, nofun⟩; rintro _ _ ⟨⟩; simp [requests, acked]
      | .ev (.queued t m) =>
        cases hn : needsAck m <;> simp only [ackNext, hn, if_true, Bool.false_eq_true, if_false]
        · refine ⟨?_, nofun⟩; rintro _ _ ⟨⟩; simp [requests, acked, hn]
        · refine ⟨?_, nofun⟩; rintro _ _ ⟨⟩; simp [requests, acked, hn]
      | .ev (.got m o) =>
        cases ha : ackId m with
        | none =>
          simp only [ackNext, ha]
          split
          · rename_i ho
            subst ho
            refine ⟨?_, nofun⟩; rintro _ _ ⟨⟩; simp [requests, acked, ha]
          · rename_i ho
            refine ⟨nofun, fun _ => ?_⟩
            cases o <;> simp [acked] ; exact absurd rfl ho
        | some id =>
          simp only [ackNext, ha]
          cases l with
          | nil =>
            dsimp only
            split
            · rename_i ho
              subst ho
              exact ⟨nofun, fun _ => rfl⟩
            · exact ⟨nofun, nofun⟩
          | cons p l' =>
            dsimp only
            by_cases hid : id = p.2
            · simp only [hid, if_true]
              by_cases ho : o = .ok
              · subst ho
                simp only [if_true]
                refine ⟨?_, nofun⟩; rintro _ _ ⟨⟩; simp [requests, acked, ha, hid]
              · simp only [ho, if_false]
                split
                · refine ⟨nofun, fun _ => ?_⟩
                  cases o <;> simp [acked] ; exact absurd rfl ho
                · exact ⟨nofun, nofun⟩
            · simp only [hid, if_false]
              split
              · rename_i ho
                subst ho
                exact ⟨nofun, fun _ => rfl⟩
              · exact ⟨nofun, nofun⟩
    have hstep : ackRun (pre ++ [e]) = ackNext (ackRun pre) e := by rw [ackRun_append]; rfl
    rw [hstep]
    cases hpre : ackRun pre with
    | bad => exact ⟨nofun, fun h => absurd rfl h⟩
    | failed => exact ⟨nofun, fun h => absurd rfl h⟩
    | waiting hs l =>
      obtain ⟨h1, h2⟩ := hw hs l hpre
      refine ⟨h1, fun hb => ?_⟩
      cases hn : ackNext (.waiting hs l) e with
      | bad => exact absurd hn hb
      | waiting hs' l' => exact ⟨_, (h1 hs' l' hn).symm⟩
      | failed =>
        rw [acked_append, requests_append, h2 hn, List.append_nil]
        exact (ih2 (by rw [hpre]; nofun)).trans (List.prefix_append _ _)

/-- C31: the ACKs accepted from the server carry the ids of the requests (REGISTER and PINGs), in the order
in which these were created. -/
theorem C31_in_order (cfg : Cfg) (env : Env) (ops : List COp) :
    acked (hist cfg env ops).2 <+: requests (hist cfg env ops).2 :=
  (ack_order _ _ rfl).2 (C31_acks_match cfg env ops)

/-- C31: an ACK that is not the answer to the oldest outstanding request is refused (which, by
`C30_refusal_ends`, ends the connection). -/
theorem C31_mismatch_refused (cfg : Cfg) (env : Env) (ops : List COp) (pre rest : List NEv)
    (m : Wire.Message) (o : Out) (id : Nat)
    (h : (hist cfg env ops).2 = pre ++ .ev (.got m o) :: rest) (ha : ackId m = some id)
    (hid : (requests pre)[(acked pre).length]? ≠ some id) : o = .err .other := by
  have h1 := C31_acks_match cfg env ops
  have hsplit : pre ++ .ev (.got m o) :: rest = (pre ++ [.ev (.got m o)]) ++ rest := by simp
  rw [h, hsplit] at h1
  have h2 := ack_prefix h1
  rw [ackRun_append] at h2
  simp only [List.foldl_cons, List.foldl_nil] at h2
  cases hp : ackRun pre with
  | bad => rw [hp] at h2; exact absurd rfl h2
  | failed => rw [hp] at h2; exact absurd rfl h2
  | waiting hs l =>
    have h3 := (ack_order _ pre rfl).1 hs l hp
    rw [hp] at h2
    simp only [ackNext, ha] at h2
    cases l with
    | nil =>
      dsimp only at h2
      split at h2
      · assumption
      · exact absurd rfl h2
    | cons p l' =>
      rw [h3] at hid
      dsimp only at h2
      have : id ≠ p.2 := by
        rintro rfl
        simp at hid
      rw [if_neg this] at h2
      split at h2
      · assumption
      · exact absurd rfl h2

/-- Non-vacuity of C31: after 60 s a PING (id 1) is outstanding; its ACK is accepted, an ACK with
another id or a second ACK is refused. -/
example :
    let ping : List COp := demoStart ++ [.tick (demoEnv 60 0)]
    let ack (id : UInt16) : COp := .poll (.msg (demoEnv 61 0) (demoMsg id 0 (be32 0))) []
    requests (hist demoCfg (demoEnv 0 0) ping).2 = [0, 1] ∧
    acked (hist demoCfg (demoEnv 0 0) (ping ++ [.poll .pending [], ack 1])).2 = [0, 1] ∧
    ackRun (hist demoCfg (demoEnv 0 0) (ping ++ [.poll .pending [], ack 1])).2 = .waiting false [] ∧
    ackRun (hist demoCfg (demoEnv 0 0) (ping ++ [.poll .pending [], ack 2])).2 = .failed ∧
    ackRun (hist demoCfg (demoEnv 0 0) (ping ++ [.poll .pending [], ack 1, .poll .pending [], ack 1])).2 =
      .failed := by
  decide +kernel

/-! ## C36 -/

theorem fifoRun_append (a b : List NEv) : fifoRun (a ++ b) = b.foldl fifoNext (fifoRun a) :=
  List.foldl_append

theorem fifo_mgr (s : Option (List Wire.Message)) (x : List Ev) :
    ((x.map CEv.mgr).map NEv.ev).foldl fifoNext s = s :=
  foldl_mgr _ _ (fun e => by
    cases s with
    | none => rfl
    | some l => cases l <;> rfl) x

theorem fifo_queued (l : List Wire.Message) (t : Nat) (m : ControlMessage) :
    fifoNext (some l) (.ev (.queued t m)) = some (l ++ [m.toArrow]) := by cases l <;> rfl
theorem fifo_got (l : List Wire.Message) (m : Wire.Message) (o : Out) :
    fifoNext (some l) (.ev (.got m o)) = some l := by cases l <;> rfl
theorem fifo_checked (l : List Wire.Message) (t : Nat) (v : UInt32) :
    fifoNext (some l) (.ev (.checked t v)) = some l := by cases l <;> rfl
theorem fifo_command (l : List Wire.Message) (x : Cmd) :
    fifoNext (some l) (.ev (.command x)) = some l := by cases l <;> rfl

theorem fifo_steps : Steps (fun _ _ => True) (fun _ => True)
    (fun c es _ => fifoRun es = some c.messages) (fun es _ => fifoRun es ≠ none) where
  time _ _ _ _ h _ := h
  idle _ _ _ h := h
  close _ _ _ h := h
  timeout c es t h _ _ := by rw [h]; nofun
  ping c es t h _ _ _ := by
    rw [fifoRun_append, h]
    exact fifo_queued c.messages t _
  check c es env _ h _ _ _ := by
    rw [fifoRun_append, h, check_eq]
    split <;> simp only [List.map_cons, List.map_nil, List.foldl_cons, List.foldl_nil, fifo_checked,
      fifo_queued] <;> rfl
  ready c es t m h ho hr := by
    rw [fifoRun_append, fifoRun_append, h]
    rcases ctxPoll_ready hr with ⟨ms, hm, h2⟩ | ⟨hm, _, h2⟩ <;> rw [h2] <;> dsimp only
    · simp [fifoNext, hm]
    · rw [fifo_mgr]; simp [fifoNext, hm]
  pending c es t h ho hr := by
    rw [fifoRun_append, h, (ctxPoll_pending hr).2.2, fifo_mgr]
  io c es t sid o h _ := by
    rw [fifoRun_append, h]; exact fifo_mgr _ _
  recv c es env m _ h ho hok := by
    have H := handle_handled c env m
    generalize c.handle env m = r at H hok ⊢
    obtain ⟨o, c', evs⟩ := r
    subst hok
    rw [fifoRun_append, h, List.foldl_cons, fifo_got]
    cases H with
    | mgr op => exact fifo_mgr _ _
    | hsOk => rfl
    | ackOk => rfl
    | reply => exact fifo_queued c.messages env.now _
    | replyId => exact fifo_queued c.messages env.now _
    | redirect => rfl
    | command x => exact fifo_command _ x
  refused c es env m _ h ho hok := by
    obtain ⟨h1, e, h2⟩ := (handle_handled c env m).notOk hok
    rw [h1, h2, fifoRun_append, h]
    simp only [List.map_nil, List.foldl_cons, List.foldl_nil, fifo_got]
    nofun

/-- C36: the messages created by the client protocol are sent in the order of their creation, each once,
and whenever a message of a session is sent, none of them is waiting. -/
theorem C36_control_first (cfg : Cfg) (env : Env) (ops : List COp) :
    fifoRun (hist cfg env ops).2 ≠ none := by
  rcases hist_inv' fifo_steps cfg env ops rfl with ⟨c, t, h, _⟩ | ⟨x, _, h⟩
  · rw [h]; nofun
  · exact h

/-- Non-vacuity of C36: data of a session is waiting when a PING of the server arrives; the answer to the
PING is sent first. -/
example :
    let h := hist demoCfg (demoEnv 0 0) (demoStart ++
      [.poll (.msg (demoEnv 2 0) (demoMsg 5 13 (be16 1 ++ be32 7))) [],
       .io 7 .connected, .io 7 (.transport (.ok [5, 6]) .pending),
       .poll (.msg (demoEnv 3 0) (demoMsg 6 1 [])) [], .poll .pending []])
    h.2.filterMap (fun e => match e with | .sent m => some m | _ => none) =
      [(register demoCfg (demoEnv 0 0)).toArrow, (ControlMessage.mk 6 0 (.ack 0)).toArrow,
       Wire.Message.new 1 7 [5, 6]] ∧
    fifoRun h.2 = some [] := by
  decide +kernel

/-- A running connection is established exactly if the handshake is over. -/
theorem live_established (cfg : Cfg) (env : Env) (ops : List COp) (c : Cli)
    (hl : (hist cfg env ops).1 = .live c) :
    c.established = true ↔ hsRun (register cfg env) (hist cfg env ops).2 = .established := by
  rcases hist_inv' (hs_steps (register cfg env)) cfg env ops
    (.inr ⟨rfl, ⟨⟨_, rfl⟩, rfl, rfl, rfl⟩, .inl ⟨by simp [hsRun, hsNext], rfl⟩⟩) with
    ⟨c', t, h, h2⟩ | ⟨x, h, _⟩
  · rw [hl] at h2
    obtain ⟨rfl, -⟩ := h2
    rcases h with ⟨h1, h⟩ | ⟨h1, _, ⟨h, _⟩ | ⟨h, _⟩⟩ <;> simp [h, h1]
  · rw [hl] at h; cases h

/-! ## C32, C33 -/

/-- The watchdog's work, in terms of the conditions it checks. -/
theorem timeEvent_eq (c : Cli) (env : Env) (he : c.established = true) :
    (c.timeEvent env).2.2 =
      (if pingPeriod ≤ env.now - c.lastPing then
        [.queued env.now (mkPing (UInt16.ofNat c.mgr.counter))] else []) ++
      (if updateCheckPeriod ≤ env.now - c.lastCheck then
        .checked env.now env.version ::
          (if c.lastVer ≠ env.version then
            [.queued env.now (mkUpdate
              (UInt16.ofNat (c.mgr.counter + if pingPeriod ≤ env.now - c.lastPing then 1 else 0))
              (SimpleTable.ofServices env.visible))] else [])
       else []) ∧
    (c.timeEvent env).2.1.acks = c.acks ++
      (if pingPeriod ≤ env.now - c.lastPing then [(env.now, UInt16.ofNat c.mgr.counter)] else []) ∧
    (c.timeEvent env).1 =
      if (c.timeEvent env).2.1.ackTimedOut env.now then .err .connection else .ok := by
  refine ⟨?_, ?_, rfl⟩
  · unfold Cli.timeEvent
    dsimp only
    by_cases h1 : pingPeriod ≤ env.now - c.lastPing
    · simp only [he, h1, decide_true, Bool.and_true, if_true]
      have e1 : (c.sendPing env.now).1.established = true := he
      have e2 : (c.sendPing env.now).1.lastCheck = c.lastCheck := rfl
      have e3 : (c.sendPing env.now).1.lastVer = c.lastVer := rfl
      have e4 : (c.sendPing env.now).1.mgr.counter = c.mgr.counter + 1 := rfl
      simp only [e1, e2, Bool.true_and, decide_eq_true_eq]
      by_cases h2 : updateCheckPeriod ≤ env.now - c.lastCheck
      · simp only [if_pos h2, check_eq, e3, e4]
        by_cases h3 : c.lastVer ≠ env.version
        · simp only [if_pos h3]; rfl
        · simp only [if_neg h3]; rfl
      · simp only [if_neg h2]; rfl
    · simp only [he, h1, decide_false, Bool.and_false, Bool.false_eq_true, if_false, Bool.true_and,
        decide_eq_true_eq]
      by_cases h2 : updateCheckPeriod ≤ env.now - c.lastCheck
      · simp only [if_pos h2, check_eq]
        by_cases h3 : c.lastVer ≠ env.version
        · simp only [if_pos h3]; rfl
        · simp only [if_neg h3]
      · simp only [if_neg h2]
  · unfold Cli.timeEvent
    dsimp only
    by_cases h1 : pingPeriod ≤ env.now - c.lastPing
    · simp only [he, h1, decide_true, Bool.and_true, if_true]
      split
      · rw [check_eq]; split <;> rfl
      · rfl
    · simp only [he, h1, decide_false, Bool.and_false, Bool.false_eq_true, if_false, List.append_nil]
      split
      · rw [check_eq]; split <;> rfl
      · rfl

theorem timeEvent_handshake (c : Cli) (env : Env) (he : c.established = false) :
    c.timeEvent env = (if c.ackTimedOut env.now then .err .connection else .ok, c, []) := by
  simp [Cli.timeEvent, he]

structure TimeInv (t0 : Nat) (c : Cli) (es : List NEv) (t : Nat) : Prop where
  acks : AckInv c es
  sorted : (outstanding c).Pairwise (fun a b => a.1 ≤ b.1)
  past : ∀ p ∈ outstanding c, p.1 ≤ t
  ping : c.lastPing = lastPing t0 es
  check : c.lastCheck = lastCheck t0 es

theorem lastPing_append (t0 : Nat) (a b : List NEv) :
    lastPing t0 (a ++ b) = lastPing (lastPing t0 a) b := List.foldl_append
theorem lastCheck_append (t0 : Nat) (a b : List NEv) :
    lastCheck t0 (a ++ b) = lastCheck (lastCheck t0 a) b := List.foldl_append
theorem lastPing_mgr (t0 : Nat) (x : List Ev) : lastPing t0 ((x.map CEv.mgr).map NEv.ev) = t0 :=
  foldl_mgr _ _ (fun _ => rfl) x
theorem lastCheck_mgr (t0 : Nat) (x : List Ev) : lastCheck t0 ((x.map CEv.mgr).map NEv.ev) = t0 :=
  foldl_mgr _ _ (fun _ => rfl) x

/-- What handling a message does to the fields the watchdog looks at. -/
theorem handled_times {c env m c' evs} (H : Handled c env m .ok c' evs) (t0 : Nat) :
    c'.lastPing = c.lastPing ∧ c'.lastCheck = c.lastCheck ∧ c'.lastVer = c.lastVer ∧
    (∃ l, c.acks = l ++ c'.acks) ∧ lastPing t0 (.ev (.got m .ok) :: evs.map .ev) = t0 ∧
    lastCheck t0 (.ev (.got m .ok) :: evs.map .ev) = t0 := by
  cases H with
  | hsOk id a l h1 h2 h3 h4 h5 => exact ⟨rfl, rfl, rfl, ⟨[a], h2⟩, rfl, rfl⟩
  | ackOk id a l h1 h2 h3 h4 => exact ⟨rfl, rfl, rfl, ⟨[a], h2⟩, rfl, rfl⟩
  | mgr op => exact ⟨rfl, rfl, rfl, ⟨[], rfl⟩, lastPing_mgr t0 _, lastCheck_mgr t0 _⟩
  | reply x _ _ _ hp =>
    refine ⟨rfl, rfl, rfl, ⟨[], rfl⟩, ?_, rfl⟩
    simp [lastPing, Cli.sendControl, hp.2.1]
  | replyId x _ _ _ hp =>
    refine ⟨rfl, rfl, rfl, ⟨[], rfl⟩, ?_, rfl⟩
    simp [lastPing, Cli.sendControl, hp.2.1]
  | redirect => exact ⟨rfl, rfl, rfl, ⟨[], rfl⟩, rfl, rfl⟩
  | command => exact ⟨rfl, rfl, rfl, ⟨[], rfl⟩, rfl, rfl⟩

theorem time_steps (t0 : Nat) : Steps (· ≤ ·) (fun _ => True) (TimeInv t0) (fun _ _ => True) where
  time c es t t' h hr := { h with past := fun p hp => Nat.le_trans (h.past p hp) hr }
  idle _ _ _ h := { h with }
  close _ _ _ h := { h with }
  timeout c es t h _ _ := trivial
  refused _ _ _ _ _ _ _ _ := trivial
  ping c es t h _ _ _ :=
    { acks := h.acks.ping t
      sorted := by
        have : outstanding (c.sendPing t).1 = outstanding c ++ [(t, (UInt16.ofNat c.mgr.counter).toNat)] := by
          simp [Cli.sendPing, Cli.sendUnconfirmed, Cli.sendControl, Cli.nextId, Cli.wake, mkPing, outstanding]
        rw [this, List.pairwise_append]
        refine ⟨h.sorted, List.pairwise_singleton _ _, ?_⟩
        intro a ha b hb
        simp only [List.mem_singleton] at hb
        subst hb
        exact h.past a ha
      past := by
        have : outstanding (c.sendPing t).1 = outstanding c ++ [(t, (UInt16.ofNat c.mgr.counter).toNat)] := by
          simp [Cli.sendPing, Cli.sendUnconfirmed, Cli.sendControl, Cli.nextId, Cli.wake, mkPing, outstanding]
        rw [this]
        intro p hp
        rcases List.mem_append.mp hp with hp | hp
        · exact h.past p hp
        · simp only [List.mem_singleton] at hp
          subst hp
          exact Nat.le_refl _
      ping := by rw [lastPing_append]; rfl
      check := by rw [lastCheck_append]; exact h.check }
  check c es env _ h _ _ _ := by
    have ha := h.acks.check env
    rw [check_eq] at ha ⊢
    split
    · rename_i hv
      rw [if_pos hv] at ha
      exact { acks := ha, sorted := h.sorted, past := h.past,
              ping := by rw [lastPing_append]; exact h.ping
              check := by rw [lastCheck_append]; rfl }
    · rename_i hv
      rw [if_neg hv] at ha
      exact { acks := ha, sorted := h.sorted, past := h.past,
              ping := by rw [lastPing_append]; exact h.ping
              check := by rw [lastCheck_append]; rfl }
  ready c es t m h ho hr := by
    have ha := h.acks.ready hr
    rcases ctxPoll_ready hr with ⟨ms, _, h2⟩ | ⟨_, _, h2⟩ <;> rw [h2] at ha ⊢
    · exact { acks := ha, sorted := h.sorted, past := h.past,
              ping := by rw [lastPing_append, lastPing_append]; exact h.ping
              check := by rw [lastCheck_append, lastCheck_append]; exact h.check }
    · exact { acks := ha, sorted := h.sorted, past := h.past,
              ping := by rw [lastPing_append, lastPing_append, lastPing_mgr]; exact h.ping
              check := by rw [lastCheck_append, lastCheck_append, lastCheck_mgr]; exact h.check }
  pending c es t h ho hr := by
    have ha := h.acks.pending hr
    rw [(ctxPoll_pending hr).2.2] at ha ⊢
    exact { acks := ha, sorted := h.sorted, past := h.past,
            ping := by rw [lastPing_append, lastPing_mgr]; exact h.ping
            check := by rw [lastCheck_append, lastCheck_mgr]; exact h.check }
  io c es t sid o h _ :=
    { acks := ackRun_mgr h.acks _, sorted := h.sorted, past := h.past,
      ping := by
        rw [lastPing_append]
        exact h.ping.trans (lastPing_mgr _ _).symm
      check := by
        rw [lastCheck_append]
        exact h.check.trans (lastCheck_mgr _ _).symm }
  recv c es env m _ h ho hok := by
    have ha := h.acks.recv hok
    have H := handle_handled c env m
    generalize c.handle env m = r at H hok ha ⊢
    obtain ⟨o, c', evs⟩ := r
    subst hok
    obtain ⟨h1, h2, _, ⟨l, h3⟩, _⟩ := handled_times H t0
    have h4 := (handled_times H (lastPing t0 es)).2.2.2.2.1
    have h5 := (handled_times H (lastCheck t0 es)).2.2.2.2.2
    have h6 : outstanding c = l.map (fun a => (a.1, a.2.toNat)) ++ outstanding c' := by
      unfold outstanding
      dsimp only at h3
      rw [h3, List.map_append]
    have hs := h.sorted
    have hp := h.past
    rw [h6] at hs hp
    exact { acks := ha
            sorted := (List.pairwise_append.mp hs).2.1
            past := fun p hp' => hp p (List.mem_append_right _ hp')
            ping := by rw [lastPing_append]; exact (h1.trans h.ping).trans h4.symm
            check := by rw [lastCheck_append]; exact (h2.trans h.check).trans h5.symm }

theorem time_start (cfg : Cfg) (env : Env) :
    TimeInv env.now (Cli.new cfg env).1 [.ev (.queued env.now (register cfg env))] env.now :=
  { acks := ack_start cfg env
    sorted := List.pairwise_singleton _ _
    past := by
      intro p hp
      have : outstanding (Cli.new cfg env).1 = [(env.now, 0)] := rfl
      rw [this, List.mem_singleton] at hp
      subst hp
      exact Nat.le_refl _
    ping := rfl
    check := rfl }

theorem times_append (a b : List COp) : times (a ++ b) = times a ++ times b := by
  induction a with
  | nil => rfl
  | cons o a ih => cases o <;> simp [times, ih]

theorem hist_append (cfg : Cfg) (env : Env) (a b : List COp) :
    hist cfg env (a ++ b) =
      (((hist cfg env a).1.run b).1, (hist cfg env a).2 ++ ((hist cfg env a).1.run b).2) := by
  have : ∀ (a : List COp) (s : Conn), s.run (a ++ b) =
      (((s.run a).1.run b).1, (s.run a).2 ++ ((s.run a).1.run b).2) := by
    intro a
    induction a with
    | nil => intro s; rfl
    | cons o a ih => intro s; simp only [List.cons_append, Conn.run, ih, List.append_assoc]
  simp only [hist, this, List.append_assoc]

/-- A connection that is still running, at the next time event. -/
theorem live_inv (cfg : Cfg) (env : Env) (ops : List COp) (e : Env) (c : Cli)
    (hm : Monotone env.now (ops ++ [.tick e])) (hl : (hist cfg env ops).1 = .live c) :
    TimeInv env.now c (hist cfg env ops).2 e.now ∧ c.isClosed = false := by
  unfold Monotone at hm
  rw [times_append] at hm
  have S : Steps (fun a b => a ≤ b ∧ b ≤ e.now) (fun _ => True)
      (fun c es t => TimeInv env.now c es t ∧ t ≤ e.now) (fun _ _ => True) := by
    have S := time_steps env.now
    exact { time := fun _ _ _ _ h r => ⟨S.time _ _ _ _ h.1 r.1, r.2⟩
            recv := fun _ _ _ _ a h b d => ⟨S.recv _ _ _ _ a h.1 b d, h.2⟩
            refused := fun _ _ _ _ _ _ _ _ => trivial
            ping := fun _ _ _ h a b d => ⟨S.ping _ _ _ h.1 a b d, h.2⟩
            check := fun _ _ _ x h a b d => ⟨S.check _ _ _ x h.1 a b d, h.2⟩
            timeout := fun _ _ _ _ _ _ => trivial
            ready := fun _ _ _ _ h a b => ⟨S.ready _ _ _ _ h.1 a b, h.2⟩
            pending := fun _ _ _ h a b => ⟨S.pending _ _ _ h.1 a b, h.2⟩
            io := fun _ _ _ _ _ h a => ⟨S.io _ _ _ _ _ h.1 a, h.2⟩
            idle := fun _ _ _ h => ⟨S.idle _ _ _ h.1, h.2⟩
            close := fun _ _ _ h => ⟨S.close _ _ _ h.1, h.2⟩ }
  have hm' : ((env.now :: times ops) ++ [e.now]).Pairwise (· ≤ ·) := hm
  rw [List.pairwise_append] at hm'
  have hb : ∀ x ∈ env.now :: times ops, x ≤ e.now := fun x hx => hm'.2.2 x hx _ List.mem_cons_self
  have hR : (env.now :: times ops).Pairwise (fun a b => a ≤ b ∧ b ≤ e.now) :=
    hm'.1.imp_of_mem (fun _ hy hab => ⟨hab, hb _ hy⟩)
  rcases hist_inv S cfg env ops (fun _ _ => trivial) hR
    ⟨time_start cfg env, hb _ List.mem_cons_self⟩ with ⟨c', t, h1, h2⟩ | ⟨x, h1, _⟩
  · rw [hl] at h2
    obtain ⟨rfl, h3⟩ := h2
    exact ⟨(time_steps env.now).time _ _ _ _ h1.1 h1.2, h3⟩
  · rw [hl] at h1; cases h1

/-- C32: when the watchdog of a running connection fires, the connection ends with a connection error
exactly if some outstanding request was made 20 seconds ago or earlier; otherwise it goes on. -/
theorem C32_ack_timeout (cfg : Cfg) (env : Env) (ops : List COp) (e : Env) (c : Cli) (hs : Bool)
    (l : List (Nat × Nat)) (hm : Monotone env.now (ops ++ [.tick e]))
    (hl : (hist cfg env ops).1 = .live c) (ha : ackRun (hist cfg env ops).2 = .waiting hs l) :
    ((hist cfg env (ops ++ [.tick e])).1 = .over (.error .connection) ↔
      ∃ p ∈ l, p.1 + 20000000000 ≤ e.now) ∧
    ((¬ ∃ p ∈ l, p.1 + 20000000000 ≤ e.now) → ∃ c', (hist cfg env (ops ++ [.tick e])).1 = .live c') := by
  obtain ⟨h, hc⟩ := live_inv cfg env ops e c hm hl
  have h1 := h.acks
  unfold AckInv at h1
  rw [h1] at ha
  injection ha with _ ha
  subst ha
  have key : (c.timeEvent e).2.1.ackTimedOut e.now = true ↔
      ∃ p ∈ outstanding c, p.1 + 20000000000 ≤ e.now := by
    have hacks : ∃ k, (c.timeEvent e).2.1.acks = c.acks ++ k ∧ ∀ q ∈ k, q.1 = e.now := by
      rcases (Bool.eq_false_or_eq_true c.established).symm with he | he
      · rw [timeEvent_handshake c e he]; exact ⟨[], by simp, by simp⟩
      · refine ⟨_, (timeEvent_eq c e he).2.1, ?_⟩
        intro q hq
        split at hq
        · simp only [List.mem_singleton] at hq; subst hq; rfl
        · cases hq
    obtain ⟨k, hk, hk2⟩ := hacks
    have hs := h.sorted
    unfold outstanding at hs ⊢
    unfold Cli.ackTimedOut
    rw [hk]
    cases hca : c.acks with
    | nil =>
      simp only [List.nil_append, List.map_nil, List.not_mem_nil, false_and, exists_false, iff_false]
      cases k with
      | nil => simp
      | cons q k =>
        have := hk2 q List.mem_cons_self
        simp only [this, ackTimeout, sec, decide_eq_true_eq]
        omega
    | cons q r =>
      rw [hca] at hs
      change decide (ackTimeout ≤ e.now - q.1) = true ↔ _
      rw [decide_eq_true_eq]
      have hk : ackTimeout = 20000000000 := rfl
      rw [hk]
      rw [List.map_cons, List.pairwise_cons] at hs
      constructor
      · intro hq
        refine ⟨(q.1, q.2.toNat), List.mem_cons_self, ?_⟩
        dsimp only
        omega
      · rintro ⟨p, hp, hp2⟩
        rcases List.mem_cons.mp hp with rfl | hp
        · dsimp only at hp2; omega
        · have := hs.1 p hp
          dsimp only at this
          omega
  have hstep : (hist cfg env (ops ++ [.tick e])).1 =
      if (c.timeEvent e).2.1.ackTimedOut e.now then .over (.error .connection)
      else .live (c.timeEvent e).2.1 := by
    rw [hist_append, hl]
    simp only [Conn.run, Conn.step, Cli.step, hc, Bool.false_eq_true, if_false]
    have : (c.timeEvent e).1 = if (c.timeEvent e).2.1.ackTimedOut e.now then .err .connection else .ok := rfl
    rw [this]
    cases (c.timeEvent e).2.1.ackTimedOut e.now <;> rfl
  rw [hstep, ← key]
  cases (c.timeEvent e).2.1.ackTimedOut e.now
  · simp only [Bool.false_eq_true, if_false, iff_false]
    exact ⟨nofun, fun _ => ⟨_, rfl⟩⟩
  · simp

/-- Non-vacuity of C32: an unanswered REGISTER, and an unanswered PING, just before and at 20 s. -/
example :
    let over (ops : List COp) : Bool := match (hist demoCfg (demoEnv 0 0) ops).1 with
      | .over (.error .connection) => true
      | _ => false
    over [.poll .pending [], .tick (demoEnv 19 0)] = false ∧
    over [.poll .pending [], .tick (demoEnv 20 0)] = true ∧
    ackRun (hist demoCfg (demoEnv 0 0) [.poll .pending [], .tick (demoEnv 19 0)]).2 = .waiting true [(0, 0)] ∧
    over (demoStart ++ [.tick (demoEnv 60 0), .tick (demoEnv 79 0)]) = false ∧
    over (demoStart ++ [.tick (demoEnv 60 0), .tick (demoEnv 80 0)]) = true := by
  decide +kernel

/-- C33: what the watchdog of an established connection creates: a PING exactly if 60 s have passed since
the last one (or since the start), and, exactly if 5 s have passed since the service table was last looked
at, a look at its version, with an UPDATE exactly if that differs from the version last announced. -/
theorem C33_schedule (cfg : Cfg) (env : Env) (ops : List COp) (e : Env) (c : Cli)
    (hm : Monotone env.now (ops ++ [.tick e])) (hl : (hist cfg env ops).1 = .live c)
    (hh : hsRun (register cfg env) (hist cfg env ops).2 = .established) :
    ∃ id id', (hist cfg env (ops ++ [.tick e])).2 = (hist cfg env ops).2 ++
      (if 60000000000 ≤ e.now - lastPing env.now (hist cfg env ops).2 then
        [.ev (.queued e.now ⟨id, 1, .empty⟩)] else []) ++
      (if 5000000000 ≤ e.now - lastCheck env.now (hist cfg env ops).2 then
        .ev (.checked e.now e.version) ::
          (if c.lastVer ≠ e.version then
            [.ev (.queued e.now ⟨id', 4, .update (SimpleTable.ofServices e.visible)⟩)] else [])
       else []) := by
  have he := (live_established cfg env ops c hl).mpr hh
  obtain ⟨h, hc⟩ := live_inv cfg env ops e c hm hl
  have h1 := (timeEvent_eq c e he).1
  rw [h.ping, h.check] at h1
  generalize UInt16.ofNat (c.mgr.counter + if pingPeriod ≤ e.now - lastPing env.now (hist cfg env ops).2
    then 1 else 0) = id' at h1
  refine ⟨UInt16.ofNat c.mgr.counter, id', ?_⟩
  have h2 : (hist cfg env (ops ++ [.tick e])).2 = (hist cfg env ops).2 ++ (c.timeEvent e).2.2.map .ev := by
    rw [hist_append, hl]
    simp only [Conn.run, Conn.step, Cli.step, hc, Bool.false_eq_true, if_false]
    split <;> simp
  rw [h2, h1, List.map_append, ← List.append_assoc]
  have h3 : pingPeriod = 60000000000 := rfl
  have h4 : updateCheckPeriod = 5000000000 := rfl
  rw [h3, h4]
  congr 1
  · split <;> rfl
  · split
    · rw [List.map_cons]
      split <;> rfl
    · rfl

/-- C33: before the handshake the watchdog creates nothing. -/
theorem C33_nothing_before_handshake (cfg : Cfg) (env : Env) (ops : List COp) (e : Env) (c : Cli)
    (hl : (hist cfg env ops).1 = .live c)
    (hh : hsRun (register cfg env) (hist cfg env ops).2 ≠ .established) :
    (hist cfg env (ops ++ [.tick e])).2 = (hist cfg env ops).2 := by
  have he : c.established = false := by
    rcases (Bool.eq_false_or_eq_true c.established).symm with he | he
    · exact he
    · exact absurd ((live_established cfg env ops c hl).mp he) hh
  rw [hist_append, hl]
  simp only [Conn.run, Conn.step, Cli.step, timeEvent_handshake c e he]
  split
  · simp
  · split <;> simp

/-- C33: if the service table does not change between the two reads of its version made for one message,
the version last announced is the one seen at the last look (at the start: the one of REGISTER). -/
theorem C33_announced_version (cfg : Cfg) (env : Env) (ops : List COp) (c : Cli)
    (hE : ∀ x ∈ env :: envs ops, x.versionAfter = x.version) (hl : (hist cfg env ops).1 = .live c) :
    c.lastVer = lastSeen env.version (hist cfg env ops).2 := by
  have happ : ∀ a b, (∀ e ∈ b, ∀ t v, e ≠ .ev (.checked t v)) →
      lastSeen env.version (a ++ b) = lastSeen env.version a := by
    intro a b hb
    rw [lastSeen, List.foldl_append]
    change b.foldl _ (lastSeen env.version a) = _
    generalize lastSeen env.version a = v
    induction b with
    | nil => rfl
    | cons e b ih =>
      rw [List.foldl_cons]
      have h1 := ih (fun x hx => hb x (List.mem_cons_of_mem _ hx))
      have h2 := hb e List.mem_cons_self
      split
      · exact absurd rfl (h2 _ _)
      · exact h1
  have hmgr : ∀ (x : List Ev), ∀ e ∈ (x.map CEv.mgr).map NEv.ev, ∀ t v, e ≠ .ev (.checked t v) := by
    intro x e he
    simp only [List.map_map, List.mem_map, Function.comp_apply] at he
    obtain ⟨_, _, rfl⟩ := he
    nofun
  have S : Steps (fun _ _ => True) (fun x => x.versionAfter = x.version)
      (fun c es _ => c.lastVer = lastSeen env.version es) (fun _ _ => True) :=
    { time := fun _ _ _ _ h _ => h, idle := fun _ _ _ h => h, close := fun _ _ _ h => h
      timeout := fun _ _ _ _ _ _ => trivial, refused := fun _ _ _ _ _ _ _ _ => trivial
      ping := by
        intro c es t h _ _ _
        rw [happ]
        · exact h
        · intro e he
          simp only [Cli.sendPing, Cli.sendUnconfirmed, Cli.sendControl, List.map_cons, List.map_nil,
            List.mem_singleton] at he
          subst he; nofun
      check := by
        intro c es x hx h _ _ _
        rw [check_eq]
        split
        · simp only [List.map_cons, List.map_nil]
          rw [List.append_cons, happ _ [_] (by simp)]
          simp only [lastSeen, List.foldl_append, List.foldl_cons, List.foldl_nil]
          exact hx
        · rename_i hv
          simp only [List.map_cons, List.map_nil]
          have hv' : c.lastVer = x.version := by
            apply Classical.byContradiction; exact hv
          simp [lastSeen, hv']
      ready := by
        intro c es t m h ho hr
        rcases ctxPoll_ready hr with ⟨ms, _, h3⟩ | ⟨_, _, h3⟩ <;> rw [h3]
        · rw [happ _ [_] (by simp), happ _ _ (by simp)]
          exact h
        · rw [happ _ [_] (by simp), happ _ _ (hmgr _)]
          exact h
      pending := by
        intro c es t h ho hr
        rw [(ctxPoll_pending hr).2.2, happ _ _ (hmgr _)]
        exact h
      io := fun c es t sid o h _ => h.trans (happ _ _ (hmgr _)).symm
      recv := by
        intro c es x m _ h ho hok
        have H := handle_handled c x m
        generalize c.handle x m = r at H hok ⊢
        obtain ⟨o, c', evs⟩ := r
        subst hok
        have hl := (handled_times H 0).2.2.1
        dsimp only at hl ⊢
        rw [hl, happ]
        · exact h
        · intro e he
          rcases List.mem_cons.mp he with rfl | he
          · nofun
          · cases H with
            | mgr op => exact hmgr _ e he
            | reply x _ _ _ hp =>
              simp only [List.map_cons, List.map_nil, List.mem_singleton] at he
              subst he; nofun
            | replyId x _ _ _ hp =>
              simp only [List.map_cons, List.map_nil, List.mem_singleton] at he
              subst he; nofun
            | command x =>
              simp only [List.map_cons, List.map_nil, List.mem_singleton] at he
              subst he; nofun
            | hsOk => cases he
            | ackOk => cases he
            | redirect => cases he }
  rcases hist_inv S cfg env ops (fun x hx => hE x (List.mem_cons_of_mem _ hx)) (pairwise_true _)
    (hE env List.mem_cons_self) with ⟨c', t, h1, h2⟩ | ⟨x, h1, _⟩
  · rw [hl] at h2
    obtain ⟨rfl, -⟩ := h2
    exact h1
  · rw [hl] at h1; cases h1

/-- Non-vacuity of C33: the watchdog after 4, 5, 9 and 10 seconds, the table having changed after 7 s;
and after a minute. -/
example :
    let new (ops : List COp) (n : Nat) : List NEv := (hist demoCfg (demoEnv 0 0) ops).2.drop n
    (hist demoCfg (demoEnv 0 0) demoStart).2.length = 3 ∧
    new (demoStart ++ [.tick (demoEnv 4 0)]) 3 = [] ∧
    new (demoStart ++ [.tick (demoEnv 5 0)]) 3 = [.ev (.checked 5000000000 0)] ∧
    new (demoStart ++ [.tick (demoEnv 5 0), .tick (demoEnv 9 1)]) 4 = [] ∧
    new (demoStart ++ [.tick (demoEnv 5 0), .tick (demoEnv 10 1)]) 4 =
      [.ev (.checked 10000000000 1), .ev (.queued 10000000000
        ⟨1, 4, .update (SimpleTable.ofServices [(1, .http .zero ⟨.v4 127 0 0 1, 80⟩)])⟩)] ∧
    new (demoStart ++ [.tick (demoEnv 60 0)]) 3 =
      [.ev (.queued 60000000000 ⟨1, 1, .empty⟩), .ev (.checked 60000000000 0)] ∧
    lastSeen 0 (hist demoCfg (demoEnv 0 0) (demoStart ++ [.tick (demoEnv 5 4)])).2 = 4 ∧
    Monotone 0 (demoStart ++ [.tick (demoEnv 60 0)]) := by
  refine ⟨?_, ?_, ?_, ?_, ?_, ?_, ?_, ?_⟩
  case refine_8 => unfold Monotone; decide +kernel
  all_goals decide +kernel

/-! ## C34 -/

def EndInv (d : Bool) (c : Cli) (es : List NEv) : Prop :=
  c.cfg.diagnostic = d ∧
  ((c.redirect = none ∧ ∀ e ∈ es, endOf d e = none) ∨
   ∃ pre e t, es = pre ++ [e] ∧ endOf d e = some t ∧ (∀ e ∈ pre, endOf d e = none) ∧
     c.redirect = some t)

/-- Events other than handled messages do not end a connection. -/
theorem EndInv.open {d c es c' evs} (h : EndInv d c es) (hc : c.isClosed = false)
    (h1 : c'.cfg = c.cfg) (h2 : c'.redirect = c.redirect) (h3 : ∀ e ∈ evs, endOf d e = none) :
    EndInv d c' (es ++ evs) := by
  refine ⟨by rw [h1]; exact h.1, .inl ?_⟩
  rcases h.2 with ⟨h4, h5⟩ | ⟨pre, e, t, _, _, _, h4⟩
  · refine ⟨h2.trans h4, ?_⟩
    intro e he
    rcases List.mem_append.mp he with he | he
    · exact h5 e he
    · exact h3 e he
  · simp [Cli.isClosed, h4] at hc

theorem endOf_mgr (d : Bool) (x : List Ev) : ∀ e ∈ (x.map CEv.mgr).map NEv.ev, endOf d e = none := by
  intro e he
  simp only [List.map_map, List.mem_map, Function.comp_apply] at he
  obtain ⟨_, _, rfl⟩ := he
  rfl

theorem end_steps (d : Bool) : Steps (fun _ _ => True) (fun _ => True)
    (fun c es _ => EndInv d c es ∧ (c.established = false → ∃ t, c.acks = [(t, 0)]) ∧
      (c.established = true → d = false ∨ c.isClosed = true))
    (fun es r => (∀ e ∈ es, endOf d e = none) ∧ ∀ t, r ≠ .redirect t) where
  time _ _ _ _ h _ := h
  idle _ _ _ h := h
  close _ _ _ h := ⟨h.1, h.2.1, fun he => (h.2.2 he).imp id (fun _ => rfl)⟩
  timeout c es t h hc _ := by
    rcases h.1.2 with ⟨_, h5⟩ | ⟨pre, e, t, _, _, _, h4⟩
    · exact ⟨h5, nofun⟩
    · simp [Cli.isClosed, h4] at hc
  ping c es t h hc he _ := by
    refine ⟨h.1.open hc rfl rfl ?_, ?_, ?_⟩
    · simp [Cli.sendPing, Cli.sendUnconfirmed, Cli.sendControl, endOf]
    · intro h'; exact absurd (he.symm.trans h') (by simp)
    · exact h.2.2
  check c es env _ h hc he _ := by
    rw [check_eq]
    split
    · refine ⟨h.1.open hc rfl rfl (by simp [endOf]), ?_, h.2.2⟩
      intro h'; exact absurd (he.symm.trans h') (by simp)
    · refine ⟨h.1.open hc rfl rfl (by simp [endOf]), ?_, h.2.2⟩
      intro h'; exact absurd (he.symm.trans h') (by simp)
  ready c es t m h ho hr := by
    rw [List.append_assoc]
    rcases ctxPoll_ready hr with ⟨ms, _, h3⟩ | ⟨_, _, h3⟩ <;> rw [h3]
    · exact ⟨h.1.open ho rfl rfl (by simp [endOf]), h.2⟩
    · refine ⟨h.1.open ho rfl rfl ?_, h.2⟩
      intro e he
      rcases List.mem_append.mp he with he | he
      · exact endOf_mgr d _ e he
      · simp only [List.mem_singleton] at he; subst he; rfl
  pending c es t h ho hr := by
    rw [(ctxPoll_pending hr).2.2]
    exact ⟨h.1.open ho rfl rfl (endOf_mgr d _), h.2⟩
  io c es t sid o h hc := ⟨h.1.open hc rfl rfl (endOf_mgr d _), h.2⟩
  recv c es env m _ h ho hok := by
    have H := handle_handled c env m
    generalize c.handle env m = r at H hok ⊢
    obtain ⟨o, c', evs⟩ := r
    subst hok
    have hno : c.redirect = none ∧ ∀ e ∈ es, endOf d e = none := by
      rcases h.1.2 with h | ⟨pre, e, t, _, _, _, h4⟩
      · exact h
      · simp [Cli.isClosed, h4] at ho
    have hack : ∀ id, ackId m = some id → redirectTarget m = none := by
      intro id hid
      unfold ackId at hid
      split at hid
      · rename_i h'
        simp [redirectTarget, h'.2.2]
      · cases hid
    have hest : c.established = true → d = false := by
      intro he
      rcases h.2.2 he with h' | h'
      · exact h'
      · rw [ho] at h'; cases h'
    cases H with
    | hsOk id a l h1 h2 h3 h4 h5 =>
      obtain ⟨t, ht⟩ := h.2.1 h4
      rw [ht] at h2
      injection h2 with h6 h7
      subst h6
      have hid : ackId m = some 0 := by rw [h1, h3]; rfl
      refine ⟨⟨h.1.1, ?_⟩, nofun, ?_⟩
      · cases d with
        | false =>
          left
          refine ⟨?_, ?_⟩
          · simp [h.1.1, hno.1]
          · intro e he
            rcases List.mem_append.mp he with he | he
            · exact hno.2 e he
            · simp only [List.map_nil, List.mem_singleton] at he
              subst he
              simp [endOf, hack _ h1]
        | true =>
          right
          refine ⟨es, _, [], rfl, ?_, hno.2, ?_⟩
          · simp [endOf, hack _ h1, hid]
          · simp [h.1.1]
      · intro _
        cases d with
        | false => exact .inl rfl
        | true => right; simp [Cli.isClosed, h.1.1]
    | ackOk id a l h1 h2 h3 h4 =>
      refine ⟨h.1.open ho rfl rfl ?_, ?_, h.2.2⟩
      · intro e he
        simp only [List.map_nil, List.mem_singleton] at he
        subst he
        simp [endOf, hack _ h1, hest h4]
      · intro h'; exact absurd (h4.symm.trans h') (by simp)
    | mgr op h1 h2 h4 =>
      refine ⟨h.1.open ho rfl rfl ?_, h.2⟩
      intro e he
      rcases List.mem_cons.mp he with rfl | he
      · simp [endOf, h1, h2]
      · exact endOf_mgr d _ e he
    | reply x h1 h2 h4 =>
      refine ⟨h.1.open ho rfl rfl ?_, h.2⟩
      simp [endOf, h1, h2]
    | replyId x h1 h2 h4 =>
      refine ⟨h.1.open ho rfl rfl ?_, h.2⟩
      simp [endOf, h1, h2]
    | redirect t h1 h2 h4 =>
      refine ⟨⟨h.1.1, .inr ⟨es, _, t, rfl, ?_, hno.2, rfl⟩⟩, h.2.1, fun he => .inl (hest he)⟩
      simp [endOf, h2]
    | command x h1 h2 h4 =>
      refine ⟨h.1.open ho rfl rfl ?_, h.2⟩
      simp [endOf, h1, h2]
  refused c es env m _ h ho hok := by
    obtain ⟨h1, e, h2⟩ := (handle_handled c env m).notOk hok
    rw [h1, h2]
    rcases h.1.2 with ⟨_, h5⟩ | ⟨pre, e, t, _, _, _, h4⟩
    · refine ⟨?_, nofun⟩
      intro x hx
      rcases List.mem_append.mp hx with hx | hx
      · exact h5 x hx
      · simp only [List.map_nil, List.mem_singleton] at hx
        subst hx; rfl
    · simp [Cli.isClosed, h4] at ho

theorem end_hist (cfg : Cfg) (env : Env) (ops : List COp) :
    (∃ c, EndInv cfg.diagnostic c (hist cfg env ops).2 ∧ Final ops (hist cfg env ops).1 c) ∨
    (∃ x, (hist cfg env ops).1 = .over x ∧ (∀ e ∈ (hist cfg env ops).2, endOf cfg.diagnostic e = none) ∧
      ∀ t, x ≠ .redirect t) := by
  rcases hist_inv' (end_steps cfg.diagnostic) cfg env ops
    ⟨⟨rfl, .inl ⟨rfl, by simp [endOf]⟩⟩, fun _ => ⟨env.now, rfl⟩, nofun⟩ with ⟨c, t, h, hf⟩ | h
  · exact .inl ⟨c, h.1, hf⟩
  · exact .inr h

/-- C34: a REDIRECT (or, in diagnostic mode, the completed handshake) is the last thing that happens: no
message is sent, handled or created afterwards, and the result of `connect` is the target of this
redirect - unless the transport fails while it is flushed. -/
theorem C34_redirect_is_final (cfg : Cfg) (env : Env) (ops : List COp) (pre rest : List NEv) (e : NEv)
    (t : Bytes) (h : (hist cfg env ops).2 = pre ++ e :: rest) (he : endOf cfg.diagnostic e = some t) :
    rest = [] ∧
    ((hist cfg env ops).1 = .closing (.redirect t) ∨ (hist cfg env ops).1 = .over (.redirect t) ∨
      ∃ x, (hist cfg env ops).1 = .over (.error x) ∧ .sinkError x ∈ ops) := by
  rcases end_hist cfg env ops with ⟨c, ⟨_, h1⟩, hf⟩ | ⟨x, _, h1, _⟩
  · rcases h1 with ⟨_, h1⟩ | ⟨pre', e', t', h2, h3, h4, h5⟩
    · rw [h] at h1
      rw [h1 e (List.mem_append_right _ List.mem_cons_self)] at he
      cases he
    · rw [h] at h2
      have hrest : rest = [] := by
        rcases List.eq_nil_or_concat rest with hr | ⟨l, b, hr⟩
        · exact hr
        · rw [hr] at h2
          have h6 : pre ++ e :: l = pre' := by
            have : (pre ++ e :: l) ++ [b] = pre' ++ [e'] := by
              rw [← h2]; simp
            exact (List.append_inj' this rfl).1
          have := h4 e (by rw [← h6]; exact List.mem_append_right _ List.mem_cons_self)
          rw [this] at he; cases he
      subst hrest
      have h6 := List.append_inj' h2 rfl
      injection h6.2 with h7 _
      subst h7
      rw [he] at h3
      injection h3 with h3
      subst h3
      refine ⟨rfl, ?_⟩
      have hcl : c.isClosed = true := by simp [Cli.isClosed, h5]
      have hres : c.result = .redirect t := by simp [Cli.result, h5]
      revert hf
      cases (hist cfg env ops).1 with
      | live x => intro hf; rw [hf.2] at hcl; cases hcl
      | closing r => intro hf; left; rw [hf.2, hres]
      | over r =>
        rintro (⟨x, h8, h9⟩ | ⟨_, h8⟩)
        · right; right
          rcases h9 with h9 | h9
          · rw [h9] at hcl; cases hcl
          · exact ⟨x, by rw [h8], h9⟩
        · right; left; rw [h8, hres]
  · rw [h] at h1
    rw [h1 e (List.mem_append_right _ List.mem_cons_self)] at he
    cases he

/-- C34: conversely `connect` returns (or is about to return) a redirect only if the last message of the
server says so. -/
theorem C34_redirect_origin (cfg : Cfg) (env : Env) (ops : List COp) (t : Bytes)
    (h : (hist cfg env ops).1 = .closing (.redirect t) ∨ (hist cfg env ops).1 = .over (.redirect t)) :
    ∃ pre e, (hist cfg env ops).2 = pre ++ [e] ∧ endOf cfg.diagnostic e = some t := by
  rcases end_hist cfg env ops with ⟨c, ⟨_, h1⟩, hf⟩ | ⟨x, h1, _, h2⟩
  · have hr : c.redirect = some t := by
      have hr : c.result = .redirect t := by
        rcases h with h | h <;> rw [h] at hf
        · exact hf.2.symm
        · rcases hf with ⟨x, h8, _⟩ | ⟨_, h8⟩
          · cases h8
          · exact h8.symm
      unfold Cli.result at hr
      split at hr
      · cases hr; assumption
      · cases hr
    rcases h1 with ⟨h1, _⟩ | ⟨pre, e, t', h3, h4, _, h5⟩
    · rw [hr] at h1; cases h1
    · rw [hr] at h5
      injection h5 with h5
      subst h5
      exact ⟨pre, e, h3, h4⟩
  · rcases h with h | h <;> rw [h1] at h <;> cases h
    exact absurd rfl (h2 t)

/-- C34: once the connection is closed (a redirect, the end of the server's stream, an error), nothing
happens any more, whatever else arrives. -/
theorem C34_closed_is_final (r : Result) (ops : List COp) :
    ((Conn.closing r).run ops).2 = [] ∧ ((Conn.over r).run ops) = (.over r, []) := by
  refine ⟨?_, run_over r ops⟩
  induction ops with
  | nil => rfl
  | cons o ops ih =>
    cases o <;> simp only [Conn.run, Conn.step, run_over, List.nil_append] <;> exact ih

/-- C34: the end of the server's stream closes a running connection, which then returns a connection
error. -/
theorem C34_eof_closes (c : Cli) (hc : c.isClosed = false) (ins : List Incoming) :
    c.step (.poll .eof ins) = (.closing (.error .connection), []) := by
  have h1 : ({ c with idle := false, closed := true } : Cli).ctxPoll.1 = .done := rfl
  have h2 : c.redirect = none := by
    cases hr : c.redirect with
    | none => rfl
    | some t => simp [Cli.isClosed, hr] at hc
  simp only [Cli.step, Cli.poll]
  cases ins <;> simp [Cli.pollLoop, Cli.ctxPoll, Cli.isClosed, Cli.result, h2]

/-- Non-vacuity of C34: a redirect to "ab" (what arrives afterwards is ignored), the end of the stream,
and the handshake in diagnostic mode. -/
example :
    let redirect : COp := .poll (.msg (demoEnv 2 0) (demoMsg 9 3 [97, 98, 0])) [.msg (demoEnv 2 0) (demoMsg 10 1 [])]
    let isOver (s : Conn) (r : Result) : Bool := match s with
      | .over x => x = r
      | _ => false
    let h := hist demoCfg (demoEnv 0 0) (demoStart ++ [redirect, .poll .pending [], .flushed])
    isOver h.1 (.redirect [97, 98]) = true ∧
    endOf false (.ev (.got (demoMsg 9 3 [97, 98, 0]) .ok)) = some [97, 98] ∧
    h.2.drop 3 = [.ev (.got (demoMsg 9 3 [97, 98, 0]) .ok)] ∧
    isOver (hist demoCfg (demoEnv 0 0) (demoStart ++ [.poll .eof [], .flushed])).1
      (.error .connection) = true ∧
    isOver (hist { demoCfg with diagnostic := true } (demoEnv 0 0) (demoStart ++ [.flushed])).1
      (.redirect []) = true ∧
    isOver (hist demoCfg (demoEnv 0 0) (demoStart ++ [redirect, .sinkError .connection])).1
      (.error .connection) = true := by
  decide +kernel

/-! ## C35 -/

/-- What a server message does to a client that is not closed. -/
theorem recv_payload (c : Cli) (hc : c.isClosed = false) (env : Env) (h : Wire.Header)
    (hs : h.service = 0) (m : ControlMessage) (p : Bytes) (hp : ControlMessage.fromBytes p = .ok m) :
    c.recv env ⟨h, p⟩ = ((c.processControl env m).1, (c.processControl env m).2.1,
      .got ⟨h, p⟩ (c.processControl env m).1 :: (c.processControl env m).2.2) := by
  simp [recv_open hc, Cli.handle, hs, hp]

theorem fromBytes_plain (id ty : UInt16) (rest : Bytes) :
    ControlMessage.fromBytes (be16 id ++ be16 ty ++ rest) =
      match decodeBody (MsgType.ofCode ty) rest with
      | .ok b => .ok ⟨id, ty, b⟩
      | .err => .err
      | .panic => .panic := by
  simp only [be16, List.cons_append, List.nil_append, ControlMessage.fromBytes, rd16_be16]
  rfl

/-- C35: an established client answers PING with exactly one ACK with the same id and code 0. -/
theorem C35_ping (c : Cli) (hc : c.isClosed = false) (he : c.established = true) (env : Env)
    (h : Wire.Header) (hs : h.service = 0) (id : UInt16) :
    (c.recv env ⟨h, be16 id ++ be16 1⟩).1 = .ok ∧
    (c.recv env ⟨h, be16 id ++ be16 1⟩).2.2 =
      [.got ⟨h, be16 id ++ be16 1⟩ .ok, .queued env.now ⟨id, 0, .ack 0⟩] := by
  have := recv_payload c hc env h hs ⟨id, 1, .empty⟩ (be16 id ++ be16 1)
    (by have := fromBytes_plain id 1 []; rw [List.append_nil] at this; exact this)
  rw [this]
  have hp : c.processControl env ⟨id, 1, .empty⟩ =
      (.ok, (c.sendControl env.now (mkAck id 0)).1, (c.sendControl env.now (mkAck id 0)).2) := by
    have ht : MsgType.ofCode 1 = .ping := rfl
    simp only [Cli.processControl, ht, Cli.whenEstablished, if_pos he]
  rw [hp]
  exact ⟨rfl, rfl⟩

/-- C35: GET_STATUS is answered by exactly one STATUS with the id of the request, the scanning flag and
the number of open sessions. -/
theorem C35_get_status (c : Cli) (hc : c.isClosed = false) (he : c.established = true) (env : Env)
    (h : Wire.Header) (hs : h.service = 0) (id : UInt16) :
    (c.recv env ⟨h, be16 id ++ be16 8⟩).1 = .ok ∧
    ∃ new, (c.recv env ⟨h, be16 id ++ be16 8⟩).2.2 =
      [.got ⟨h, be16 id ++ be16 8⟩ .ok,
       .queued env.now ⟨new, 9, .status id (if env.scanning then 1 else 0)
         (UInt32.ofNat c.mgr.sessions.length)⟩] := by
  have := recv_payload c hc env h hs ⟨id, 8, .empty⟩ (be16 id ++ be16 8)
    (by have := fromBytes_plain id 8 []; rw [List.append_nil] at this; exact this)
  rw [this]
  have hp : c.processControl env ⟨id, 8, .empty⟩ =
      (.ok, c.nextId.2.sendControl env.now (mkStatus c.nextId.1 id (if env.scanning then 1 else 0)
        (UInt32.ofNat c.mgr.len))) := by
    have ht : MsgType.ofCode 8 = .getStatus := rfl
    simp only [Cli.processControl, ht, Cli.whenEstablished, if_pos he]
  rw [hp]
  exact ⟨rfl, _, rfl⟩

/-- C35: GET_SCAN_REPORT is answered by exactly one SCAN_REPORT with the id of the request, the hosts of
the last scan, and those of its services that have an id in the service table. -/
theorem C35_get_scan_report (c : Cli) (hc : c.isClosed = false) (he : c.established = true) (env : Env)
    (h : Wire.Header) (hs : h.service = 0) (id : UInt16) :
    (c.recv env ⟨h, be16 id ++ be16 10⟩).1 = .ok ∧
    ∃ new, (c.recv env ⟨h, be16 id ++ be16 10⟩).2.2 =
      [.got ⟨h, be16 id ++ be16 10⟩ .ok,
       .queued env.now (mkScanReport new id env.hosts env.services env.getId)] := by
  have := recv_payload c hc env h hs ⟨id, 10, .empty⟩ (be16 id ++ be16 10)
    (by have := fromBytes_plain id 10 []; rw [List.append_nil] at this; exact this)
  rw [this]
  have hp : c.processControl env ⟨id, 10, .empty⟩ =
      (.ok, c.nextId.2.sendControl env.now (mkScanReport c.nextId.1 id env.hosts env.services
        env.getId)) := by
    have ht : MsgType.ofCode 10 = .getScanReport := rfl
    simp only [Cli.processControl, ht, Cli.whenEstablished, if_pos he]
  rw [hp]
  exact ⟨rfl, _, rfl⟩

/-- C35: RESET_SVC_TABLE and SCAN_NETWORK issue exactly one command, and change nothing else. -/
theorem C35_commands (c : Cli) (hc : c.isClosed = false) (he : c.established = true) (env : Env)
    (h : Wire.Header) (hs : h.service = 0) (id : UInt16) :
    c.recv env ⟨h, be16 id ++ be16 6⟩ =
      (.ok, c, [.got ⟨h, be16 id ++ be16 6⟩ .ok, .command .resetServiceTable]) ∧
    c.recv env ⟨h, be16 id ++ be16 7⟩ =
      (.ok, c, [.got ⟨h, be16 id ++ be16 7⟩ .ok, .command .scanNetwork]) := by
  have h1 := recv_payload c hc env h hs ⟨id, 6, .empty⟩ (be16 id ++ be16 6)
    (by have := fromBytes_plain id 6 []; rw [List.append_nil] at this; exact this)
  have h2 := recv_payload c hc env h hs ⟨id, 7, .empty⟩ (be16 id ++ be16 7)
    (by have := fromBytes_plain id 7 []; rw [List.append_nil] at this; exact this)
  have hp : c.processControl env ⟨id, 6, .empty⟩ = (.ok, c, [.command .resetServiceTable]) := by
    have ht : MsgType.ofCode 6 = .resetSvcTable := rfl
    simp only [Cli.processControl, ht, Cli.whenEstablished, if_pos he]
  have hp2 : c.processControl env ⟨id, 7, .empty⟩ = (.ok, c, [.command .scanNetwork]) := by
    have ht : MsgType.ofCode 7 = .scanNetwork := rfl
    simp only [Cli.processControl, ht, Cli.whenEstablished, if_pos he]
  rw [h1, h2, hp, hp2]
  exact ⟨rfl, rfl⟩

/-- C35: CONNECT, HUP, DATA_ACK and data messages are passed to the session manager, with the session
they name; nothing else of the client changes. -/
theorem C35_sessions (c : Cli) (hc : c.isClosed = false) (he : c.established = true) (env : Env)
    (h : Wire.Header) (hs : h.service = 0) (id svc : UInt16) (sid x : UInt32) (d : Wire.Message)
    (hd : d.header.service ≠ 0) :
    let pass (m : Wire.Message) (op : MOp) : Prop := c.recv env m =
      (.ok, { c with mgr := (c.mgr.step op).1 }, .got m .ok :: (c.mgr.step op).2.1.map .mgr)
    pass ⟨h, be16 id ++ be16 13 ++ (be16 svc ++ be32 sid)⟩ (.connect env.table svc sid) ∧
    pass ⟨h, be16 id ++ be16 5 ++ (be32 sid ++ be32 x)⟩ (.close sid) ∧
    pass ⟨h, be16 id ++ be16 12 ++ (be32 sid ++ be32 x)⟩ (.dataAck sid x) ∧
    pass d (.send d) := by
  intro pass
  refine ⟨?_, ?_, ?_, ?_⟩
  · have hdec : decodeBody (MsgType.ofCode 13) (be16 svc ++ be32 sid) = .ok (.connect svc sid) := by
      change decodeConnect (be16 svc ++ be32 sid) = _
      simp only [be16, be32, List.cons_append, List.nil_append, decodeConnect, rd16_be16, rd32_be32]
    have h1 := recv_payload c hc env h hs ⟨id, 13, .connect svc sid⟩ _
      (by rw [fromBytes_plain, hdec])
    have hp : c.processControl env ⟨id, 13, .connect svc sid⟩ =
        (.ok, (c.onMgr (.connect env.table svc sid)).1, (c.onMgr (.connect env.table svc sid)).2) := by
      have ht : MsgType.ofCode 13 = .connect := rfl
      simp only [Cli.processControl, ht, Cli.whenEstablished, if_pos he]
    rw [hp] at h1
    exact h1
  · have hdec : decodeBody (MsgType.ofCode 5) (be32 sid ++ be32 x) = .ok (.hup sid x) := by
      change decodeHup (be32 sid ++ be32 x) = _
      simp only [be32, List.cons_append, List.nil_append, decodeHup, rd32_be32]
    have h1 := recv_payload c hc env h hs ⟨id, 5, .hup sid x⟩ _
      (by rw [fromBytes_plain, hdec])
    have hp : c.processControl env ⟨id, 5, .hup sid x⟩ =
        (.ok, (c.onMgr (.close sid)).1, (c.onMgr (.close sid)).2) := by
      have ht : MsgType.ofCode 5 = .hup := rfl
      simp only [Cli.processControl, ht, Cli.whenEstablished, if_pos he]
    rw [hp] at h1
    exact h1
  · have hdec : decodeBody (MsgType.ofCode 12) (be32 sid ++ be32 x) = .ok (.dataAck sid x) := by
      change decodeDataAck (be32 sid ++ be32 x) = _
      simp only [be32, List.cons_append, List.nil_append, decodeDataAck, rd32_be32]
    have h1 := recv_payload c hc env h hs ⟨id, 12, .dataAck sid x⟩ _
      (by rw [fromBytes_plain, hdec])
    have hp : c.processControl env ⟨id, 12, .dataAck sid x⟩ =
        (.ok, (c.onMgr (.dataAck sid x)).1, (c.onMgr (.dataAck sid x)).2) := by
      have ht : MsgType.ofCode 12 = .dataAck := rfl
      simp only [Cli.processControl, ht, Cli.whenEstablished, if_pos he]
    rw [hp] at h1
    exact h1
  · change c.recv env d = _
    simp only [recv_open hc, Cli.handle, if_neg hd, Cli.whenEstablished, if_pos he]
    rfl

/-- C35: a control message that is not well-formed (unknown type, a message only clients send, wrong
length, invalid text) is refused and has no effect. -/
theorem C35_malformed_refused (c : Cli) (hc : c.isClosed = false) (env : Env) (m : Wire.Message)
    (hs : m.header.service = 0) (hw : ¬ ∃ x, Spec.WellFormed m.payload x) :
    c.recv env m = (.err .other, c, [.got m (.err .other)]) := by
  simp [recv_open hc, Cli.handle, hs, Props.Control.C04_otherwise_error _ hw]

/-- Non-vacuity of C35: a running connection that is established and not closed exists. -/
example : ((demoLive demoStart).map (fun c => (c.established, c.isClosed))) = some (true, false) := by
  decide +kernel

/-! ## C76 -/

theorem announced_append (a b : List NEv) (h : ∀ e ∈ b, tableOf e = none) :
    announced (a ++ b) = announced a := by
  have : b.filterMap tableOf = [] := List.filterMap_eq_nil_iff.mpr h
  rw [announced, List.filterMap_append, this, List.append_nil, announced]

theorem announced_new (a : List NEv) (e : NEv) (t : SimpleTable) (h : tableOf e = some t) :
    announced (a ++ [e]) = some t := by
  simp [announced, h]

theorem tableOf_mgr (x : List Ev) : ∀ e ∈ (x.map CEv.mgr).map NEv.ev, tableOf e = none := by
  intro e he
  simp only [List.map_map, List.mem_map, Function.comp_apply] at he
  obtain ⟨_, _, rfl⟩ := he
  rfl

theorem tableOf_plain {m : ControlMessage} (h : Plain m) (t : Nat) :
    tableOf (.ev (.queued t m)) = none := by
  change (match m.body with
    | .register _ _ _ _ _ _ t => some t
    | .update t => some t
    | _ => none) = none
  split
  · exact absurd (by assumption) (h.2.2.1 _ _ _ _ _ _ _)
  · exact absurd (by assumption) (h.2.2.2 _)
  · rfl

/-- The table the server knows is the one of the version the client remembers. -/
theorem announce_steps (R : UInt32 → List (UInt16 × Service) → Prop) :
    Steps (fun _ _ => True) (fun env => R env.versionAfter env.visible)
      (fun c es _ => ∃ l, R c.lastVer l ∧ announced es = some (SimpleTable.ofServices l)) (fun _ _ => True) where
  time _ _ _ _ h _ := h
  idle _ _ _ h := h
  close _ _ _ h := h
  timeout _ _ _ _ _ _ := trivial
  refused _ _ _ _ _ _ _ _ := trivial
  ping c es t h _ _ _ := by
    rw [announced_append _ _ (by
      intro e he
      simp only [Cli.sendPing, Cli.sendUnconfirmed, Cli.sendControl, List.map_cons, List.map_nil,
        List.mem_singleton] at he
      subst he; rfl)]
    exact h
  check c es env hE h _ _ _ := by
    rw [check_eq]
    split
    · simp only [List.map_cons, List.map_nil]
      rw [List.append_cons, announced_new _ _ (SimpleTable.ofServices env.visible) rfl]
      exact ⟨_, hE, rfl⟩
    · rw [announced_append _ _ (by simp [tableOf])]
      exact h
  ready c es t m h ho hr := by
    rcases ctxPoll_ready hr with ⟨ms, _, h3⟩ | ⟨_, _, h3⟩ <;> rw [h3]
    · rw [announced_append _ _ (by simp [tableOf]), announced_append _ _ (by simp)]
      exact h
    · rw [announced_append _ _ (by simp [tableOf]), announced_append _ _ (tableOf_mgr _)]
      exact h
  pending c es t h ho hr := by
    rw [(ctxPoll_pending hr).2.2, announced_append _ _ (tableOf_mgr _)]
    exact h
  io c es t sid o h _ := by
    obtain ⟨l, h1, h2⟩ := h
    exact ⟨l, h1, (announced_append _ _ (tableOf_mgr _)).trans h2⟩
  recv c es env m _ h ho hok := by
    have H := handle_handled c env m
    generalize c.handle env m = r at H hok ⊢
    obtain ⟨o, c', evs⟩ := r
    subst hok
    have hl := (handled_times H 0).2.2.1
    dsimp only at hl ⊢
    rw [hl, announced_append]
    · exact h
    · intro e he
      rcases List.mem_cons.mp he with rfl | he
      · rfl
      · cases H with
        | mgr op => exact tableOf_mgr _ e he
        | reply x _ _ _ hp =>
          simp only [List.map_cons, List.map_nil, List.mem_singleton] at he
          subst he
          exact tableOf_plain hp _
        | replyId x _ _ _ hp =>
          simp only [List.map_cons, List.map_nil, List.mem_singleton] at he
          subst he
          exact tableOf_plain hp _
        | command x =>
          simp only [List.map_cons, List.map_nil, List.mem_singleton] at he
          subst he; rfl
        | hsOk => cases he
        | ackOk => cases he
        | redirect => cases he

theorem announced_live (R : UInt32 → List (UInt16 × Service) → Prop) (cfg : Cfg) (env : Env) (ops : List COp)
    (c : Cli) (hE : ∀ x ∈ env :: envs ops, R x.versionAfter x.visible) (hl : (hist cfg env ops).1 = .live c) :
    ∃ l, R c.lastVer l ∧ announced (hist cfg env ops).2 = some (SimpleTable.ofServices l) := by
  rcases hist_inv (announce_steps R) cfg env ops (fun x hx => hE x (List.mem_cons_of_mem _ hx))
    (pairwise_true _) ⟨env.visible, hE env List.mem_cons_self, rfl⟩ with ⟨c', t, h1, h2⟩ | ⟨x, h1, _⟩
  · rw [hl] at h2
    obtain ⟨rfl, -⟩ := h2
    exact h1
  · rw [hl] at h1; cases h1

/-- C76 (partial): assume that the version number determines the visible services (`V`), and that the
service table does not change between the two reads made for one UPDATE. Then after each check of the
table the server has been told about exactly the services visible at that time. -/
theorem C76_server_up_to_date_partial (V : UInt32 → List (UInt16 × Service)) (cfg : Cfg) (env : Env)
    (ops : List COp) (e : Env) (c : Cli) (hE : ∀ x ∈ env :: envs ops, x.visible = V x.versionAfter)
    (he : e.visible = V e.version)
    (hm : Monotone env.now (ops ++ [.tick e])) (hl : (hist cfg env ops).1 = .live c)
    (hh : hsRun (register cfg env) (hist cfg env ops).2 = .established)
    (ht : 5000000000 ≤ e.now - lastCheck env.now (hist cfg env ops).2) :
    announced (hist cfg env (ops ++ [.tick e])).2 = some (SimpleTable.ofServices e.visible) := by
  have h0 : announced (hist cfg env ops).2 = some (SimpleTable.ofServices (V c.lastVer)) := by
    obtain ⟨l, h1, h2⟩ := announced_live (fun v l => l = V v) cfg env ops c hE hl
    rw [h2, h1]
  obtain ⟨id, id', h1⟩ := C33_schedule cfg env ops e c hm hl hh
  rw [h1, if_pos ht]
  by_cases hv : c.lastVer ≠ e.version
  · rw [if_pos hv]
    generalize (hist cfg env ops).2 ++ _ = es
    rw [List.append_cons, announced_new _ _ (SimpleTable.ofServices e.visible) rfl]
  · rw [if_neg hv, announced_append _ _ (by simp [tableOf]), announced_append, h0]
    · have hv' : c.lastVer = e.version := by
        apply Classical.byContradiction; exact hv
      rw [hv', he]
    · intro x hx
      split at hx
      · simp only [List.mem_singleton] at hx; subst hx; rfl
      · cases hx

/-- Non-vacuity of C76: the table changes after 3 s and is announced after 5 s. -/
example :
    announced (hist demoCfg (demoEnv 0 0) (demoStart ++ [.tick (demoEnv 5 1)])).2 =
      some (SimpleTable.ofServices [(1, .http .zero ⟨.v4 127 0 0 1, 80⟩)]) ∧
    announced (hist demoCfg (demoEnv 0 0) demoStart).2 = some (SimpleTable.ofServices []) ∧
    (∀ x ∈ demoEnv 0 0 :: envs demoStart, x.visible = (demoEnv 0 x.versionAfter).visible) ∧
    5000000000 ≤ (demoEnv 5 1).now - lastCheck 0 (hist demoCfg (demoEnv 0 0) demoStart).2 := by
  refine ⟨by decide +kernel, by decide +kernel, ?_, by decide +kernel⟩
  intro x hx
  simp only [demoStart, envs, Incoming.envs, List.flatMap_nil, List.append_nil, List.nil_append,
    List.mem_cons, List.not_mem_nil, or_false] at hx
  rcases hx with rfl | rfl <;> rfl

/-- C76 is false without that assumption: a service becomes visible (version 1) between the reading of the
services for REGISTER and the reading of the version. The client remembers version 1 as announced, and
however often it looks at the table later, the server never learns about the service. -/
theorem C76_false_update_lost :
    let env0 : Env := { demoEnv 0 0 with versionAfter := 1 }
    announced (hist demoCfg env0 (demoStart ++ [.tick (demoEnv 5 1), .tick (demoEnv 10 1),
      .tick (demoEnv 15 1)])).2 = some (SimpleTable.ofServices []) ∧
    (demoEnv 15 1).visible = [(1, .http .zero ⟨.v4 127 0 0 1, 80⟩)] ∧
    lastCheck 0 (hist demoCfg env0 (demoStart ++ [.tick (demoEnv 5 1), .tick (demoEnv 10 1),
      .tick (demoEnv 15 1)])).2 = 15000000000 := by
  refine ⟨by decide +kernel, rfl, by decide +kernel⟩

/-! ## C77 -/

theorem idle_steps : Steps (fun _ _ => True) (fun _ => True)
    (fun c _ _ => c.idle = true → c.task = true ∧ c.messages = []) (fun _ _ => True) where
  time _ _ _ _ h _ := h
  idle _ _ _ _ := nofun
  close _ _ _ h := h
  timeout _ _ _ _ _ _ := trivial
  refused _ _ _ _ _ _ _ _ := trivial
  ping c es t h _ _ _ hi := by
    have hi' : (c.idle && !c.task) = true := hi
    simp only [Bool.and_eq_true] at hi'
    have := (h hi'.1).1
    rw [this] at hi'; simp at hi'
  check c es env _ h _ _ _ := by
    rw [check_eq]
    split
    · intro hi
      have hi' : (c.idle && !c.task) = true := hi
      simp only [Bool.and_eq_true] at hi'
      have := (h hi'.1).1
      rw [this] at hi'; simp at hi'
    · exact h
  ready c es t m h ho hr := by
    rcases ctxPoll_ready hr with ⟨ms, h2, h3⟩ | ⟨_, _, h3⟩ <;> rw [h3]
    · intro hi
      have := (h hi).2
      rw [h2] at this; cases this
    · exact h
  pending c es t h ho hr := by
    obtain ⟨h1, _, h3⟩ := ctxPoll_pending hr
    rw [h3]
    exact fun _ => ⟨rfl, h1⟩
  io c es t sid o h _ := h
  recv c es env m _ h ho hok := by
    have H := handle_handled c env m
    generalize c.handle env m = r at H hok ⊢
    obtain ⟨o, c', evs⟩ := r
    subst hok
    have hw : ∀ b : Bool, b = (c.idle && !c.task) → b = true → False := by
      intro b hb hi
      rw [hi] at hb
      have hb := hb.symm
      simp only [Bool.and_eq_true] at hb
      have := (h hb.1).1
      rw [this] at hb; simp at hb
    cases H with
    | hsOk => exact h
    | ackOk => exact h
    | mgr op => exact h
    | reply => exact fun hi => (hw _ rfl hi).elim
    | replyId => exact fun hi => (hw _ rfl hi).elim
    | redirect => exact fun hi => (hw _ rfl hi).elim
    | command => exact h

/-- The session manager of a connection went through a history of its own. -/
theorem emb_steps (gw : Bool) : Steps (fun _ _ => True) (fun _ => True)
    (fun c es _ => ∃ mops, c.mgr = (SessionManager.hist gw 65536 0 mops).1 ∧
      mgrEvents es = (SessionManager.hist gw 65536 0 mops).2.1)
    (fun es _ => ∃ mops, mgrEvents es = (SessionManager.hist gw 65536 0 mops).2.1) := by
  have hstep : ∀ (m : Mgr) (mops : List MOp) (op : MOp),
      m = (SessionManager.hist gw 65536 0 mops).1 →
      (m.step op).1 = (SessionManager.hist gw 65536 0 (mops ++ [op])).1 ∧
      (SessionManager.hist gw 65536 0 (mops ++ [op])).2.1 =
        (SessionManager.hist gw 65536 0 mops).2.1 ++ (m.step op).2.1 := by
    intro m mops op hm
    subst hm
    simp only [SessionManager.hist, mrun_append]
    simp [Mgr.run]
  have happ : ∀ a b, mgrEvents (a ++ b) = mgrEvents a ++ mgrEvents b :=
    fun a b => List.filterMap_append
  have hmgr : ∀ x : List Ev, mgrEvents ((x.map CEv.mgr).map NEv.ev) = x := by
    intro x
    induction x with
    | nil => rfl
    | cons a x ih =>
      change a :: mgrEvents ((x.map CEv.mgr).map NEv.ev) = _
      rw [ih]
  have hnew : ∀ (c : Cli) (es es' : List NEv) (c' : Cli), c'.mgr = (c.mgr.step .newId).1 →
      mgrEvents es' = [] →
      (∃ mops, c.mgr = (SessionManager.hist gw 65536 0 mops).1 ∧
        mgrEvents es = (SessionManager.hist gw 65536 0 mops).2.1) →
      ∃ mops, c'.mgr = (SessionManager.hist gw 65536 0 mops).1 ∧
        mgrEvents (es ++ es') = (SessionManager.hist gw 65536 0 mops).2.1 := by
    rintro c es es' c' h1 h2 ⟨mops, h3, h4⟩
    obtain ⟨h5, h6⟩ := hstep _ mops .newId h3
    refine ⟨mops ++ [.newId], h1.trans h5, ?_⟩
    rw [happ, h2, h4, h6]
    rfl
  have hsame : ∀ (c : Cli) (es es' : List NEv) (c' : Cli), c'.mgr = c.mgr →
      mgrEvents es' = [] →
      (∃ mops, c.mgr = (SessionManager.hist gw 65536 0 mops).1 ∧
        mgrEvents es = (SessionManager.hist gw 65536 0 mops).2.1) →
      ∃ mops, c'.mgr = (SessionManager.hist gw 65536 0 mops).1 ∧
        mgrEvents (es ++ es') = (SessionManager.hist gw 65536 0 mops).2.1 := by
    rintro c es es' c' h1 h2 ⟨mops, h3, h4⟩
    exact ⟨mops, h1.trans h3, by rw [happ, h2, h4, List.append_nil]⟩
  have hop : ∀ (c : Cli) (es es' : List NEv) (c' : Cli) (op : MOp), c'.mgr = (c.mgr.step op).1 →
      mgrEvents es' = (c.mgr.step op).2.1 →
      (∃ mops, c.mgr = (SessionManager.hist gw 65536 0 mops).1 ∧
        mgrEvents es = (SessionManager.hist gw 65536 0 mops).2.1) →
      ∃ mops, c'.mgr = (SessionManager.hist gw 65536 0 mops).1 ∧
        mgrEvents (es ++ es') = (SessionManager.hist gw 65536 0 mops).2.1 := by
    rintro c es es' c' op h1 h2 ⟨mops, h3, h4⟩
    obtain ⟨h5, h6⟩ := hstep _ mops op h3
    exact ⟨mops ++ [op], h1.trans h5, by rw [happ, h2, h4, h6]⟩
  exact
  { time := fun _ _ _ _ h _ => h
    idle := fun _ _ _ h => h
    close := fun _ _ _ h => h
    timeout := fun c es t ⟨mops, _, h⟩ _ _ => ⟨mops, h⟩
    refused := by
      rintro c es env m _ ⟨mops, _, h⟩ ho hok
      obtain ⟨h1, e, h2⟩ := (handle_handled c env m).notOk hok
      rw [h1, h2]
      exact ⟨mops, by rw [happ, h]; simp [mgrEvents]⟩
    ping := fun c es t h _ _ _ => hnew c es _ _ rfl rfl h
    check := by
      intro c es env _ h _ _ _
      rw [check_eq]
      split
      · exact hnew c es _ _ rfl rfl h
      · exact hsame c es _ _ rfl rfl h
    ready := by
      intro c es t m h ho hr
      rw [List.append_assoc]
      rcases ctxPoll_ready hr with ⟨ms, _, h3⟩ | ⟨_, _, h3⟩ <;> rw [h3]
      · exact hsame c es _ _ rfl rfl h
      · refine hop c es _ _ .poll rfl ?_ h
        rw [happ, hmgr]
        exact List.append_nil _
    pending := by
      intro c es t h ho hr
      rw [(ctxPoll_pending hr).2.2]
      exact hop c es _ _ .poll rfl (hmgr _) h
    io := fun c es t sid o h _ => hop c es _ _ (.io sid o) rfl (hmgr _) h
    recv := by
      intro c es env m _ h ho hok
      have H := handle_handled c env m
      generalize c.handle env m = r at H hok ⊢
      obtain ⟨o, c', evs⟩ := r
      subst hok
      cases H with
      | hsOk => exact hsame c es _ _ rfl rfl h
      | ackOk => exact hsame c es _ _ rfl rfl h
      | mgr op => exact hop c es _ _ op rfl (hmgr _) h
      | reply => exact hsame c es _ _ rfl rfl h
      | replyId => exact hnew c es _ _ rfl rfl h
      | redirect => exact hsame c es _ _ rfl rfl h
      | command => exact hsame _ es _ _ rfl rfl h }

theorem emb_start (cfg : Cfg) (env : Env) : ∃ mops,
    (Cli.new cfg env).1.mgr = (SessionManager.hist cfg.gateway 65536 0 mops).1 ∧
    mgrEvents [.ev (.queued env.now (register cfg env))] =
      (SessionManager.hist cfg.gateway 65536 0 mops).2.1 :=
  ⟨[.newId], rfl, rfl⟩

/-- C77: while the sending task of a running connection is told "pending" and is woken neither by the
client protocol nor by the session manager or a session, there is nothing to send: polling it would say
"pending" again. So nothing ever waits for a wake-up that does not come. -/
theorem C77_sender_not_forgotten (cfg : Cfg) (env : Env) (ops : List COp) (c : Cli)
    (hl : (hist cfg env ops).1 = .live c) (h1 : c.idle = true) (h2 : c.mgr.idle = true) :
    (c.poll .pending []).1 = .pending := by
  have hi : c.messages = [] ∧ c.isClosed = false := by
    rcases hist_inv' idle_steps cfg env ops nofun with ⟨c', t, h3, h4⟩ | ⟨x, h3, _⟩
    · rw [hl] at h4
      obtain ⟨rfl, h4⟩ := h4
      exact ⟨(h3 h1).2, h4⟩
    · rw [hl] at h3; cases h3
  have hp : c.mgr.poll.1 = .pending := by
    rcases hist_inv' (emb_steps cfg.gateway) cfg env ops (emb_start cfg env) with
      ⟨c', t, ⟨mops, h3, _⟩, h4⟩ | ⟨x, h3, _⟩
    · rw [hl] at h4
      obtain ⟨rfl, h4⟩ := h4
      have := SessionManager.C74_manager_not_forgotten cfg.gateway 65536 0 mops (by rw [← h3]; exact h2)
      rw [← h3] at this
      simpa [Mgr.step] using this
    · rw [hl] at h3; cases h3
  have hcl : ¬ ({ c with idle := false } : Cli).isClosed = true := by
    intro h
    exact Bool.false_ne_true (hi.2.symm.trans h)
  have hx : ({ c with idle := false } : Cli).ctxPoll.1 = .pending := by
    unfold Cli.ctxPoll
    rw [if_neg hcl]
    simp only [hi.1, hp]
  simp only [Cli.poll, Cli.pollLoop, hx]

/-- Non-vacuity of C77: after the handshake the sender waits; a message of the server is handled and its
answer sent in the same poll, a PING created by the watchdog wakes the sender. -/
example :
    (demoLive demoStart).map (fun c => c.idle && c.mgr.idle) = some true ∧
    (demoLive (demoStart ++ [.tick (demoEnv 60 0)])).map (fun c => c.idle && c.mgr.idle) = some false := by
  decide +kernel

/-- C22 for a whole connection: without gateway mode every connection to a service goes to a loopback
address, whatever the server sends. -/
theorem C22_connection_loopback_only (cfg : Cfg) (hg : cfg.gateway = false) (env : Env) (ops : List COp) :
    ∀ a ∈ Spec.SessionManager.openedAddrs (mgrEvents (hist cfg env ops).2),
      Spec.SessionManager.Loopback a.ip := by
  rcases hist_inv' (emb_steps cfg.gateway) cfg env ops (emb_start cfg env) with
    ⟨c', t, ⟨mops, _, h3⟩, _⟩ | ⟨x, _, ⟨mops, h3⟩⟩ <;> rw [h3, hg] <;>
    exact SessionManager.C22_loopback_only 65536 0 mops

/-- C25 for a whole connection: sessions are opened, send and end in the right order. -/
theorem C25_connection_lives (cfg : Cfg) (env : Env) (ops : List COp) (sid : UInt32) :
    Spec.SessionManager.after sid false (mgrEvents (hist cfg env ops).2) ≠ none := by
  rcases hist_inv' (emb_steps cfg.gateway) cfg env ops (emb_start cfg env) with
    ⟨c', t, ⟨mops, _, h3⟩, _⟩ | ⟨x, _, ⟨mops, h3⟩⟩ <;> rw [h3, SessionManager.C25_lives] <;> nofun

/-- Non-vacuity: the server asks for a loopback service and for another one. -/
example :
    mgrEvents (hist demoCfg (demoEnv 0 0) (demoStart ++
      [.poll (.msg (demoEnv 2 0) (demoMsg 5 13 (be16 1 ++ be32 7)))
        [.msg (demoEnv 2 0) (demoMsg 6 13 (be16 2 ++ be32 8))]])).2 =
      [.opened 7 1 .http .zero ⟨.v4 127 0 0 1, 80⟩, .refused 8] := by
  decide +kernel

/-! ## C78 -/

/-- C78: no message of the server, and nothing else that happens during a connection, makes the client
panic. -/
theorem C78_no_panic (cfg : Cfg) (env : Env) (ops : List COp) :
    (hist cfg env ops).1 ≠ .over .panic ∧ (hist cfg env ops).1 ≠ .closing .panic := by
  have S : Steps (fun _ _ => True) (fun _ => True) (fun _ _ _ => True) (fun _ r => r ≠ .panic) :=
    { time := fun _ _ _ _ h _ => h, idle := fun _ _ _ h => h, close := fun _ _ _ h => h
      timeout := fun _ _ _ _ _ _ => nofun
      refused := by
        intro c es env m _ h ho hok
        obtain ⟨h1, e, h2⟩ := (handle_handled c env m).notOk hok
        rw [h2]; nofun
      ping := fun _ _ _ _ _ _ _ => trivial, check := fun _ _ _ _ _ _ _ _ => trivial
      ready := fun _ _ _ _ _ _ _ => trivial, pending := fun _ _ _ _ _ _ => trivial
      io := fun _ _ _ _ _ _ _ => trivial, recv := fun _ _ _ _ _ _ _ _ => trivial }
  have hr : ∀ c : Cli, c.result ≠ .panic := by
    intro c; unfold Cli.result; split <;> nofun
  rcases hist_inv' S cfg env ops trivial with ⟨c, _, _, hf⟩ | ⟨x, h1, h2⟩
  · revert hf
    cases (hist cfg env ops).1 with
    | live c => exact fun _ => ⟨nofun, nofun⟩
    | closing r =>
      intro hf
      refine ⟨nofun, ?_⟩
      intro h
      injection h with h
      exact hr c (hf.2.symm.trans h)
    | over r =>
      intro hf
      refine ⟨?_, nofun⟩
      intro h
      injection h with h
      rcases hf with ⟨e, h3, _⟩ | ⟨_, h3⟩
      · rw [h] at h3; cases h3
      · exact hr c (h3.symm.trans h)
  · rw [h1]
    refine ⟨?_, nofun⟩
    intro h
    injection h with h
    exact h2 h

end Verif.Props.Client
