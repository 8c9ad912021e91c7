import Verif.Lemmas.Uplink
import Verif.Props.Tls
/-!
# What can stop the client: C119
-/
namespace Verif.Props.Uplink
open Verif Verif.Client Verif.Reconnect Verif.Uplink Verif.Spec.Client Verif.Spec.Reconnect Verif.Spec.Uplink Verif.Lemmas.Uplink
open Verif.Props.Reconnect (trace)

/-! ### One call of `connect` -/

/-- The result of a call that ends with an error which is neither a connection error nor `other`: the connection was made, and
the one message of the server that was handled is the answer to REGISTER that means this error. -/
theorem returned {cfg : Cfg} {k : Call} (hf : k.Fits cfg) {e : ErrKind} {d : Nat} (h : k.Returns cfg (.error e) d)
    (h1 : e ≠ .connection) (h2 : e ≠ .other) :
    ∃ i t m, Tls.connect k.net = (.connected i, t) ∧ received (k.hist cfg).2 = [m] ∧ handshakeOutcome m = .err e ∧
      ∃ r, Wire.decode 64 k.chunks.flatten = (.ok (some m), r) := by
  unfold Call.Returns at h
  split at h
  · rcases hc : Tls.connect k.net with ⟨o, t⟩
    rw [hc] at h
    cases o with
    | connected i =>
      dsimp only at h
      obtain ⟨-, h⟩ := h
      have ho : (k.hist cfg).1 = .over (.error e) := by
        split at h
        · cases h
        · rename_i hh; injection h with h; rw [hh, h]
        · cases h
      obtain ⟨m, hm, hm'⟩ := hist_refused cfg k.env k.ops e ho h1 h2
        (fun hs => h2 (transport_other (hf.sink e hs))) (fun op hop hs => h2 (transport_other (hf.incoming op hop e hs)))
      refine ⟨i, t, m, rfl, hm, hm', ?_⟩
      obtain ⟨l, hl⟩ := hf.messages
      have hm : received (k.hist cfg).2 = [m] := hm
      rw [hm] at hl
      exact first_decoded k.chunks m l hl.symm
    | _ =>
      injection h.2 with h
      exact absurd h h1
  · injection h with h
    exact absurd h h2

/-- C119: `connect` reports that the client is not authorized only if the connection was made and the first bytes of the server
are the refusal of REGISTER with the code 2. -/
theorem C119_unauthorized (cfg : Cfg) (k : Call) (hf : k.Fits cfg) (d : Nat) (h : k.Returns cfg (.error .unauthorized) d) :
    (∃ i t, Tls.connect k.net = (.connected i, t)) ∧ Answers notAuthorized k.chunks.flatten := by
  obtain ⟨i, t, m, h1, -, h3, r, h4⟩ := returned hf h (by decide) (by decide)
  exact ⟨⟨i, t, h1⟩, (first_answers h4 2).1 ((outcome_unauthorized m).1 h3)⟩

/-- C119: the same for the protocol version and the code 1. -/
theorem C119_unsupported (cfg : Cfg) (k : Call) (hf : k.Fits cfg) (d : Nat)
    (h : k.Returns cfg (.error .unsupportedVersion) d) :
    (∃ i t, Tls.connect k.net = (.connected i, t)) ∧ Answers badVersion k.chunks.flatten := by
  obtain ⟨i, t, m, h1, -, h3, r, h4⟩ := returned hf h (by decide) (by decide)
  exact ⟨⟨i, t, h1⟩, (first_answers h4 1).1 ((outcome_version m).1 h3)⟩

/-- C119: and if the bytes of the server begin with such a refusal and the client has handled a message, this is the result. -/
theorem C119_refused (cfg : Cfg) (k : Call) (hf : k.Fits cfg) (ht : k.tls = true) (i t : Nat)
    (hc : Tls.connect k.net = (.connected i, t)) (hm : received (k.hist cfg).2 ≠ []) (r : ConnRes) (d : Nat)
    (h : k.Returns cfg r d) :
    (Answers notAuthorized k.chunks.flatten → r = .error .unauthorized) ∧
    (Answers badVersion k.chunks.flatten → r = .error .unsupportedVersion) := by
  obtain ⟨pre, m, o, rest, e1, e2, e3⟩ := split_got _ hm
  have ho := (Client.C30_first_answer cfg k.env k.ops pre rest m o e1 e2).1
  have hd : ∃ x, Wire.decode 64 k.chunks.flatten = (.ok (some m), x) := by
    obtain ⟨l, hl⟩ := hf.messages
    cases hr : received (k.hist cfg).2 with
    | nil => exact absurd hr hm
    | cons m' l' =>
      rw [hr] at e3 hl
      cases e3
      exact first_decoded k.chunks m (l' ++ l) hl.symm
  obtain ⟨x, hd⟩ := hd
  have key : ∀ e, o = .err e → r = .error e := by
    intro e he
    have hin : .ev (.got m o) ∈ (Client.hist cfg k.env k.ops).2 := by
      rw [show (Client.hist cfg k.env k.ops).2 = _ from e1]
      exact List.mem_append_right _ List.mem_cons_self
    obtain ⟨pre', e', f1, -, f3⟩ := Client.C30_refusal_ends cfg k.env k.ops m o hin (by rw [he]; nofun)
    rw [he] at f1
    cases f1
    unfold Call.Returns at h
    rw [if_pos ht, hc] at h
    have f3 : (k.hist cfg).1 = .over (.error e) := f3
    rw [f3] at h
    exact h.2
  exact ⟨fun R => key _ (by rw [ho]; exact (outcome_unauthorized m).2 ((first_answers hd 2).2 R)),
    fun R => key _ (by rw [ho]; exact (outcome_version m).2 ((first_answers hd 1).2 R))⟩

/-! ### The task -/

/-- C119: the client gives up only when the server refuses REGISTER, because of the protocol version, or because the client is
not authorized and the pairing window of 20 minutes is over. -/
theorem C119_only_a_refusal_stops (cfg : Cfg) (calls : Nat → Call) (addr : Bytes) (now : Nat) (rounds : List Round)
    (hc : Calls cfg calls rounds) (i : Nat) (r r' : Round) (hr : rounds[i]? = some r) (hr' : rounds[i + 1]? = some r')
    (s : Nat) (a : Bytes) (h : (attempts (trace addr false now rounds))[i]? = some (s, a))
    (hstop : (attempts (trace addr false now rounds))[i + 1]? = none) :
    (∃ j t, Tls.connect (calls i).net = (.connected j, t)) ∧
    (Answers badVersion (calls i).chunks.flatten ∨
      (Answers notAuthorized (calls i).chunks.flatten ∧ now + 1200 * sec ≤ s + r.duration + r.slack2)) := by
  obtain ⟨hf, hret⟩ := hc i r hr
  have h2 := result_at rounds (Task.start addr false now) now rfl i r s a hr h
  have h3 := Reconnect.C45_retry_policy addr now rounds i r r' s _ a _ hr hr' h h2
  rw [hstop] at h3
  have hd : due (now + 1200 * sec) s (s + r.duration + r.slack2) r.result = none := by
    cases hx : due (now + 1200 * sec) s (s + r.duration + r.slack2) r.result with
    | none => rfl
    | some d => rw [hx] at h3; cases h3
  cases hres : r.result with
  | redirect t => rw [hres, Reconnect.due_redirect] at hd; cases hd
  | error e =>
    rw [hres] at hd hret
    by_cases h1 : e = .unsupportedVersion
    · subst h1
      obtain ⟨x, y⟩ := C119_unsupported cfg _ hf _ hret
      exact ⟨x, .inl y⟩
    · by_cases h2 : e = .unauthorized
      · subst h2
        obtain ⟨x, y⟩ := C119_unauthorized cfg _ hf _ hret
        refine ⟨x, .inr ⟨y, ?_⟩⟩
        rw [Reconnect.due_unauthorized] at hd
        split at hd
        · assumption
        · split at hd <;> cases hd
      · rw [Reconnect.due_other _ _ _ _ h1 h2] at hd
        split at hd <;> cases hd

/-- C119: if the server does not begin with a refusal, there is a next attempt: at the target of a redirect, or at the configured
address, at the latest a minute after the beginning of this one (or at once, if it lasted longer), but for the delays of the
scheduler. -/
theorem C119_next_attempt (cfg : Cfg) (calls : Nat → Call) (addr : Bytes) (now : Nat) (rounds : List Round)
    (hc : Calls cfg calls rounds) (i : Nat) (r r' : Round) (hr : rounds[i]? = some r) (hr' : rounds[i + 1]? = some r')
    (s : Nat) (a : Bytes) (h : (attempts (trace addr false now rounds))[i]? = some (s, a))
    (h1 : ¬ Answers badVersion (calls i).chunks.flatten) (h2 : ¬ Answers notAuthorized (calls i).chunks.flatten) :
    ∃ s' a', (attempts (trace addr false now rounds))[i + 1]? = some (s', a') ∧
      s' ≤ max (s + 60 * sec) (s + r.duration + r.slack2) + r'.slack ∧
      s + r.duration ≤ s' ∧ (a' = addr ∨ r.result = .redirect a') := by
  obtain ⟨hf, hret⟩ := hc i r hr
  have hres := result_at rounds (Task.start addr false now) now rfl i r s a hr h
  have h3 := Reconnect.C45_retry_policy addr now rounds i r r' s _ a _ hr hr' h hres
  have hp := Reconnect.sec_pos
  cases hx : r.result with
  | redirect t =>
    rw [hx, Reconnect.due_redirect] at h3
    exact ⟨_, _, h3, by omega, by omega, .inr rfl⟩
  | error e =>
    rw [hx] at h3 hret
    have e1 : e ≠ .unsupportedVersion := fun he => h1 (C119_unsupported cfg _ hf _ (he ▸ hret)).2
    have e2 : e ≠ .unauthorized := fun he => h2 (C119_unauthorized cfg _ hf _ (he ▸ hret)).2
    rw [Reconnect.due_other _ _ _ _ e1 e2] at h3
    split at h3
    · exact ⟨_, _, h3, by omega, by omega, .inl rfl⟩
    · exact ⟨_, _, h3, by omega, by omega, .inl rfl⟩

/-- C119: as long as no server begins with a refusal, whatever the network does, the client goes on for ever: there is an attempt
in every round. -/
theorem C119_goes_on (cfg : Cfg) (calls : Nat → Call) (addr : Bytes) (now : Nat) (rounds : List Round)
    (hc : Calls cfg calls rounds)
    (h : ∀ i, ¬ Answers badVersion (calls i).chunks.flatten ∧ ¬ Answers notAuthorized (calls i).chunks.flatten) :
    (attempts (trace addr false now rounds)).length = rounds.length := by
  have hle := (Reconnect.attempts_length rounds (Task.start addr false now) now).1
  have key : ∀ i, i < rounds.length → ∃ x, (attempts (trace addr false now rounds))[i]? = some x := by
    intro i
    induction i with
    | zero =>
      intro hi
      match rounds, hi with
      | r :: rs, _ => exact ⟨_, Reconnect.C46_first_attempt addr false now r rs⟩
    | succ i ih =>
      intro hi
      obtain ⟨⟨s, a⟩, hx⟩ := ih (by omega)
      obtain ⟨s', a', h3, -⟩ := C119_next_attempt cfg calls addr now rounds hc i rounds[i] rounds[i + 1]
        (List.getElem?_eq_getElem _) (List.getElem?_eq_getElem _) s a hx (h i).1 (h i).2
      exact ⟨_, h3⟩
  cases hn : rounds.length with
  | zero =>
    have : (attempts (trace addr false now rounds)).length ≤ rounds.length := hle
    omega
  | succ n =>
    obtain ⟨x, hx⟩ := key n (by omega)
    have := (List.getElem?_eq_some_iff.1 hx).1
    have : (attempts (trace addr false now rounds)).length ≤ rounds.length := hle
    omega

/-- Connecting takes at most 20 seconds. -/
theorem connect_limit (n : Tls.Net) : (Tls.connect n).2 ≤ 20000 := by
  have L := Tls.C97_lookup n
  cases hl : n.lookup with
  | none => rw [L.1 hl]; exact Nat.le_refl _
  | some x =>
    by_cases hx : 20000 < x
    · rw [L.2.1 x hl hx]; exact Nat.le_refl _
    · cases ha : n.addrs with
      | none => rw [L.2.2 x hl (by omega) ha]; exact Nat.le_of_not_lt hx
      | some l =>
        obtain ⟨S, G, T⟩ := Tls.C97_timing l
        exact (Tls.C97_connect n x l hl ha S G T).2.2

/-- C119: while no connection can be made, for whatever reason, the attempts begin exactly a minute apart (but for the delays of
the scheduler), and go to the configured address. -/
theorem C119_unreachable (cfg : Cfg) (calls : Nat → Call) (addr : Bytes) (now : Nat) (rounds : List Round)
    (hc : Calls cfg calls rounds) (i : Nat) (r r' : Round) (hr : rounds[i]? = some r) (hr' : rounds[i + 1]? = some r')
    (s : Nat) (a : Bytes) (h : (attempts (trace addr false now rounds))[i]? = some (s, a))
    (ht : (calls i).tls = true) (hn : ∀ j t, Tls.connect (calls i).net ≠ (.connected j, t)) (hs : r.slack2 ≤ 39 * sec) :
    (attempts (trace addr false now rounds))[i + 1]? = some (s + 60 * sec + r'.slack, addr) := by
  obtain ⟨-, hret⟩ := hc i r hr
  have hres := result_at rounds (Task.start addr false now) now rfl i r s a hr h
  have h3 := Reconnect.C45_retry_policy addr now rounds i r r' s _ a _ hr hr' h hres
  have key : r.duration = (Tls.connect (calls i).net).2 * ms ∧ r.result = .error .connection := by
    unfold Call.Returns at hret
    rw [if_pos ht] at hret
    rcases hx : Tls.connect (calls i).net with ⟨o, t⟩
    rw [hx] at hret
    cases o with
    | connected j => exact absurd hx (hn j t)
    | _ => exact hret
  have hlim := connect_limit (calls i).net
  rw [key.2, Reconnect.due_other _ _ _ _ (by decide) (by decide), key.1] at h3
  have hms : ms = 1000000 := by decide
  have hsec : sec = 1000000000 := by decide
  rw [if_pos (by rw [hms, hsec]; rw [hsec] at hs; omega)] at h3
  exact h3

/-! ### Examples -/

/-- A server that is reached at once. -/
def demoNet : Tls.Net := ⟨some 5, some [⟨some 40, true⟩], fun _ => ⟨some 100, true⟩⟩

theorem demo_connect : Tls.connect demoNet = (.connected 0, 145) := by
  rw [Tls.C97_refused demoNet 5 _ rfl rfl 0 ⟨⟨_, rfl, rfl⟩, fun i _ hi => absurd hi (Nat.not_lt_zero i)⟩
    (fun i a hi => absurd hi (Nat.not_lt_zero i)) _ rfl 40 100 rfl rfl]
  rfl

/-- The name of the server cannot be resolved. -/
def demoLost : Call := ⟨true, ⟨some 5, none, fun _ => ⟨none, false⟩⟩, Client.demoEnv 0 0, [], []⟩

/-- The server refuses REGISTER with the code 2, in two portions. -/
def demoRefusal : Call :=
  ⟨true, demoNet, Client.demoEnv 0 0,
    [.poll .pending [], .poll (.msg (Client.demoEnv 1 0) ⟨⟨2, 0, 0, 8⟩, [0, 0, 0, 0, 0, 0, 0, 2]⟩) []],
    [[2, 0, 0, 0, 0, 0, 0, 0, 0, 0, 8], [0, 0, 0, 0, 0, 0, 0, 2]]⟩

def demoCalls (i : Nat) : Call := if i = 0 then demoLost else demoRefusal

def demoRounds : List Round := [⟨0, 5 * ms, .error .connection, 0⟩, ⟨3, 2 * sec, .error .unauthorized, 0⟩,
  ⟨0, 1300 * sec, .error .unauthorized, 0⟩, ⟨0, sec, .error .unauthorized, 0⟩]

theorem demo_lost : demoLost.Fits Client.demoCfg ∧ demoLost.Returns Client.demoCfg (.error .connection) (5 * ms) := by
  refine ⟨⟨by decide +kernel, fun _ h => (nomatch h), fun _ h => (nomatch h)⟩, ?_⟩
  unfold Call.Returns
  rw [if_pos (show demoLost.tls = true from rfl), (Tls.C97_lookup demoLost.net).2.2 5 rfl (by decide) rfl]
  exact ⟨rfl, rfl⟩

theorem demo_refused (d : Nat) (hd : sec ≤ d) :
    demoRefusal.Fits Client.demoCfg ∧ demoRefusal.Returns Client.demoCfg (.error .unauthorized) d := by
  refine ⟨⟨by decide +kernel, fun op hop e he => ?_, fun e he => ?_⟩, ?_⟩
  · simp only [demoRefusal, List.mem_cons, List.not_mem_nil, or_false] at hop
    rcases hop with rfl | rfl <;> simp [answers] at he
  · simp [demoRefusal] at he
  · unfold Call.Returns
    rw [if_pos (show demoRefusal.tls = true from rfl), show demoRefusal.net = demoNet from rfl, demo_connect]
    dsimp only
    refine ⟨Nat.le_trans (by decide) hd, ?_⟩
    have : (demoRefusal.hist Client.demoCfg).1 = .over (.error .unauthorized) := rfl
    rw [this]

/-- The hypotheses of C119 are met: the first call fails, the second is refused in the pairing window, the third after it. The
last round does not take place. -/
example : Calls Client.demoCfg demoCalls demoRounds ∧
    attempts (trace (asc "a:1") false 7 demoRounds) =
      [(7, asc "a:1"), (7 + 60 * sec + 3, asc "a:1"), (7 + 72 * sec + 3, asc "a:1")] ∧
    Answers notAuthorized (demoCalls 2).chunks.flatten ∧ ¬ Answers badVersion (demoCalls 2).chunks.flatten ∧
    received ((demoCalls 2).hist Client.demoCfg).2 ≠ [] ∧
    ¬ Answers notAuthorized (demoCalls 0).chunks.flatten := by
  refine ⟨?_, by decide +kernel, ⟨by decide, rfl, rfl, rfl, rfl, rfl, rfl⟩, fun h => ?_, by decide +kernel,
    fun h => absurd h.whole (by decide)⟩
  · intro i r hr
    match i, hr with
    | 0, hr => cases hr; exact demo_lost
    | 1, hr => cases hr; exact demo_refused _ (by decide)
    | 2, hr => cases hr; exact demo_refused _ (by decide)
    | 3, hr => cases hr; exact demo_refused _ (by decide)
    | i + 4, hr => cases hr
  · exact absurd h.code (by decide)

end Verif.Props.Uplink
