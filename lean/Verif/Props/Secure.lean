import Verif.Lemmas.Secure
import Verif.Props.Uplink
/-!
# To whom the client identifies itself: C122
-/
namespace Verif.Props.Secure
open Verif Verif.Client Verif.Reconnect Verif.Secure Verif.Uplink Verif.Spec.Client Verif.Spec.Reconnect
open Verif.Spec.Uplink Verif.Spec.Secure Verif.Lemmas.Secure Verif.Lemmas.Uplink
open Verif.Props.Reconnect (trace)

/-- C122: for the address of every attempt the client has a reason: it is configured, or a genuine server of the address before
has redirected the client there, after it had accepted it. -/
theorem C122_vouched (cfg : Cfg) (hdiag : cfg.diagnostic = false) (trials : Nat → Trial) (addr : Bytes) (now : Nat)
    (rounds : List Round) (hc : Calls cfg (fun i => (trials i).call) rounds)
    (ha : ∀ i s a, (attempts (trace addr false now rounds))[i]? = some (s, a) → (trials i).At a)
    (i s : Nat) (a : Bytes) (h : (attempts (trace addr false now rounds))[i]? = some (s, a)) :
    Vouched addr trials i a := by
  have hle : (attempts (trace addr false now rounds)).length ≤ rounds.length :=
    (Reconnect.attempts_length rounds (Task.start addr false now) now).1
  induction i generalizing s a with
  | zero =>
    have hl := (List.getElem?_eq_some_iff.1 h).1
    match rounds, hle, h with
    | [], hle, h => simp only [List.length_nil] at hle; omega
    | r :: rs, _, h =>
      rw [Reconnect.C46_first_attempt] at h
      injection h with h
      cases h
      exact .configured 0
  | succ i ih =>
    have hl := (List.getElem?_eq_some_iff.1 h).1
    obtain ⟨r, hr⟩ : ∃ r, rounds[i]? = some r := ⟨_, List.getElem?_eq_getElem (by omega)⟩
    obtain ⟨r', hr'⟩ : ∃ r, rounds[i + 1]? = some r := ⟨_, List.getElem?_eq_getElem (by omega)⟩
    obtain ⟨⟨s0, a0⟩, h0⟩ : ∃ x, (attempts (trace addr false now rounds))[i]? = some x :=
      ⟨_, List.getElem?_eq_getElem (by omega)⟩
    have hv := ih s0 a0 h0
    have hat := ha i s0 a0 h0
    obtain ⟨hf, hret⟩ := hc i r hr
    have hres := result_at rounds (Task.start addr false now) now rfl i r s0 a0 hr h0
    have h3 := Reconnect.C45_retry_policy addr now rounds i r r' s0 _ a0 _ hr hr' h0 hres
    rw [h] at h3
    obtain ⟨d, -, h4⟩ := Option.map_eq_some_iff.1 h3.symm
    injection h4 with _ h4
    cases hx : r.result with
    | redirect a' =>
      rw [hx] at h4 hret
      have h4 : a' = a := h4
      subst h4
      obtain ⟨ht, ⟨j, t, hcon⟩, h5, h6⟩ := returned_redirect hdiag hf hret
      exact .redirected hv hcon (genuine hat ht hcon) h5 h6
    | error e =>
      rw [hx] at h4
      have h4 : addr = a := h4
      subst h4
      exact .configured _

/-- C122: whatever the client sends in an attempt, REGISTER with its identity and key first of all, it sends to a genuine server
for the address of the attempt. -/
theorem C122_sent_to_genuine (cfg : Cfg) (k : Trial) (a : Bytes) (ha : k.At a) (p : Peer) (m : Wire.Message)
    (h : (p, m) ∈ k.sent cfg) : Genuine k a p := by
  unfold Trial.sent at h
  split at h
  · rename_i ht
    split at h
    · rename_i j t hc
      obtain ⟨x, -, hx⟩ := List.mem_filterMap.1 h
      split at hx
      · cases hx; exact genuine ha ht hc
      · cases hx
    · cases h
  · cases h

/-- C122: a man in the middle who has no certificate for the host of the configured address, by an authority the client trusts,
learns nothing: if all servers the client meets are like that, it never sends a message, and it keeps trying the configured
address. -/
theorem C122_man_in_the_middle (cfg : Cfg) (hdiag : cfg.diagnostic = false) (trials : Nat → Trial) (addr : Bytes) (now : Nat)
    (rounds : List Round) (hc : Calls cfg (fun i => (trials i).call) rounds)
    (ha : ∀ i s a, (attempts (trace addr false now rounds))[i]? = some (s, a) → (trials i).At a)
    (hm : ∀ i j, ¬ Genuine (trials i) addr ((trials i).peers j)) (i s : Nat) (a : Bytes)
    (h : (attempts (trace addr false now rounds))[i]? = some (s, a)) : a = addr ∧ (trials i).sent cfg = [] := by
  have key : ∀ i a, Vouched addr trials i a → a = addr := by
    intro i a hv
    induction hv with
    | configured => rfl
    | redirected _ _ hg _ _ ih => subst ih; exact absurd hg (hm _ _)
  have he := key i a (C122_vouched cfg hdiag trials addr now rounds hc ha i s a h)
  refine ⟨he, ?_⟩
  subst he
  apply List.eq_nil_iff_forall_not_mem.2
  intro ⟨p, m⟩ hin
  have hg := C122_sent_to_genuine cfg (trials i) a (ha i s a h) p m hin
  unfold Trial.sent at hin
  split at hin
  · split at hin
    · obtain ⟨x, -, hx⟩ := List.mem_filterMap.1 hin
      split at hx
      · cases hx; exact hm _ _ hg
      · cases hx
    · cases hin
  · cases hin

/-! ### Examples -/

/-- The server accepts the client and redirects it to `b:2`. -/
def demoRedirect : Call :=
  ⟨true, Uplink.demoNet, Client.demoEnv 0 0,
    [.poll .pending [], .poll (.msg (Client.demoEnv 1 0) ⟨⟨2, 0, 0, 8⟩, [0, 0, 0, 0, 0, 0, 0, 0]⟩) [],
      .poll (.msg (Client.demoEnv 2 0) ⟨⟨2, 0, 0, 8⟩, [0, 9, 0, 3, 98, 58, 50, 0]⟩) [], .poll .pending [], .flushed],
    [[2, 0, 0, 0, 0, 0, 0, 0, 0, 0, 8, 0, 0, 0, 0, 0, 0, 0], [0, 2, 0, 0, 0, 0, 0, 0, 0, 0, 0, 8, 0, 9, 0, 3, 98, 58, 50, 0]]⟩

/-- An authority that is trusted by OpenSSL itself. -/
def demoBuilder : Trust.Builder := ⟨[], true, [], [7], []⟩

def demoPeer (name : Bytes) : Peer := ⟨⟨.tls13, 7⟩, [name]⟩

/-- First the server at `a:1` is met, then the name in `b:2` cannot be resolved. -/
def demoTrials (i : Nat) : Trial :=
  if i = 0 then ⟨demoRedirect, some demoBuilder, true, .custom none, fun _ => demoPeer (asc "a")⟩
  else ⟨Uplink.demoLost, some demoBuilder, true, .custom none, fun _ => demoPeer (asc "c")⟩

def demoRounds : List Round := [⟨0, 3 * sec, .redirect (asc "b:2"), 0⟩, ⟨0, 5 * ms, .error .connection, 0⟩,
  ⟨0, 5 * ms, .error .connection, 0⟩]

theorem demo_attempts : attempts (trace (asc "a:1") false 0 demoRounds) =
    [(0, asc "a:1"), (3 * sec, asc "b:2"), (63 * sec, asc "a:1")] := by decide +kernel

theorem demo_messages : (Wire.feedAll Wire.Reader.init demoRedirect.chunks).1 =
    [⟨⟨2, 0, 0, 8⟩, [0, 0, 0, 0, 0, 0, 0, 0]⟩, ⟨⟨2, 0, 0, 8⟩, [0, 9, 0, 3, 98, 58, 50, 0]⟩] := by
  have h0 : Wire.drain ⟨[], false⟩ = ([], ⟨[], false⟩) := Wire.drain_none (Wire.decode_short (by simp))
  have h1 := (Wire.feedAll_flatten demoRedirect.chunks [] h0).1
  rw [show (⟨[], false⟩ : Wire.Reader) = Wire.Reader.init from rfl] at h1
  rw [h1]
  have e1 : Wire.decode 64 demoRedirect.chunks.flatten = (.ok (some ⟨⟨2, 0, 0, 8⟩, [0, 0, 0, 0, 0, 0, 0, 0]⟩),
    [2, 0, 0, 0, 0, 0, 0, 0, 0, 0, 8, 0, 9, 0, 3, 98, 58, 50, 0]) := by decide +kernel
  have e2 : Wire.decode 64 [2, 0, 0, 0, 0, 0, 0, 0, 0, 0, 8, 0, 9, 0, 3, 98, 58, 50, 0] =
    (.ok (some ⟨⟨2, 0, 0, 8⟩, [0, 9, 0, 3, 98, 58, 50, 0]⟩), []) := by decide +kernel
  show (Wire.drain ⟨demoRedirect.chunks.flatten, false⟩).1 = _
  rw [Wire.drain_some e1, Wire.drain_some e2, h0]

theorem demo_redirected : demoRedirect.Fits Client.demoCfg ∧
    demoRedirect.Returns Client.demoCfg (.redirect (asc "b:2")) (3 * sec) := by
  refine ⟨⟨by rw [demo_messages]; decide +kernel, fun op hop e he => ?_, fun e he => ?_⟩, ?_⟩
  · simp only [demoRedirect, List.mem_cons, List.not_mem_nil, or_false] at hop
    rcases hop with rfl | rfl | rfl | rfl | rfl <;> simp [answers] at he
  · simp [demoRedirect] at he
  · unfold Call.Returns
    rw [if_pos (show demoRedirect.tls = true from rfl), show demoRedirect.net = Uplink.demoNet from rfl, Uplink.demo_connect]
    dsimp only
    refine ⟨by decide, ?_⟩
    have : (demoRedirect.hist Client.demoCfg).1 = .over (.redirect (asc "b:2")) := by rfl
    rw [this]

/-- The hypotheses of C122 are met: a genuine server redirects the client. -/
example : Client.demoCfg.diagnostic = false ∧ Calls Client.demoCfg (fun i => (demoTrials i).call) demoRounds ∧
    (∀ i s a, (attempts (trace (asc "a:1") false 0 demoRounds))[i]? = some (s, a) → (demoTrials i).At a) ∧
    ((demoTrials 0).sent Client.demoCfg).map (·.1.names) = [[asc "a"]] := by
  refine ⟨rfl, ?_, ?_, ?_⟩
  · intro i r hr
    match i, hr with
    | 0, hr => cases hr; exact demo_redirected
    | 1, hr => cases hr; exact Uplink.demo_lost
    | 2, hr => cases hr; exact Uplink.demo_lost
    | i + 3, hr => cases hr
  · intro i s a h
    rw [demo_attempts] at h
    match i, h with
    | 0, h =>
      cases h
      refine ⟨rfl, fun b hb i _ => ?_⟩
      cases hb
      show Shakes _ _ (demoPeer (asc "a"))
      exact ⟨⟨by unfold Spec.Trust.Allows; decide, fun _ => by decide⟩, fun _ => by decide⟩
    | 1, h => cases h; exact ⟨rfl, fun b hb i hi => by cases hi⟩
    | 2, h => cases h; exact ⟨rfl, fun b hb i hi => by cases hi⟩
    | i + 3, h => cases h
  · unfold Trial.sent
    rw [if_pos (show (demoTrials 0).call.tls = true from rfl),
      show (demoTrials 0).call.net = Uplink.demoNet from rfl, Uplink.demo_connect]
    decide +kernel

/-- A man in the middle: he answers at the address of `a:1` with a certificate for another name. -/
def demoMiddle : Trial :=
  ⟨⟨true, { Uplink.demoNet with handshake := fun _ => ⟨some 100, false⟩ }, Client.demoEnv 0 0, [], []⟩,
    some demoBuilder, true, .custom none, fun _ => demoPeer (asc "evil")⟩

theorem demo_middle_connect : Tls.connect demoMiddle.call.net = (.tlsFailed 0, 145) := by
  rw [Tls.C97_refused demoMiddle.call.net 5 _ rfl rfl 0 ⟨⟨_, rfl, rfl⟩, fun i _ hi => absurd hi (Nat.not_lt_zero i)⟩
    (fun i a hi => absurd hi (Nat.not_lt_zero i)) _ rfl 40 100 rfl rfl]
  rfl

example : Calls Client.demoCfg (fun _ => demoMiddle.call) [⟨0, 145 * ms, .error .connection, 0⟩] ∧
    (∀ j, ¬ Genuine demoMiddle (asc "a:1") (demoMiddle.peers j)) ∧ demoMiddle.At (asc "a:1") := by
  refine ⟨?_, ?_, rfl, fun b hb i hi => by cases hi⟩
  · intro i r hr
    match i, hr with
    | 0, hr =>
      cases hr
      refine ⟨⟨by decide +kernel, fun _ h => (nomatch h), fun _ h => (nomatch h)⟩, ?_⟩
      unfold Call.Returns
      rw [if_pos (show demoMiddle.call.tls = true from rfl), demo_middle_connect]
      exact ⟨rfl, rfl⟩
    | i + 1, hr => cases hr
  · intro j
    rintro ⟨-, -, h, ⟨h1, -⟩ | ⟨p, h1, h2⟩, h3⟩
    · revert h1; decide
    · have h3 : h = asc "evil" := by simpa [demoMiddle, demoPeer] using h3
      subst h3
      exact absurd (congrArg List.head? h2) (show some 97 ≠ some (101 : UInt8) by decide)

end Verif.Props.Secure
