import Verif.Spec.Reconnect
/-!
# Properties of the reconnecting task: C45-C47, C80
-/
namespace Verif.Props.Reconnect
open Verif Verif.Client Verif.Reconnect Verif.Spec.Reconnect

/-- Everything the task does from its start, given what happens to it. -/
def trace (addr : Bytes) (diagnostic : Bool) (now : Nat) (rounds : List Round) : List REv :=
  (Task.start addr diagnostic now).run now rounds

/-! ### One round -/

/-- What follows a round, if anything. -/
def after (t : Task) (now : Nat) (r : Round) : Option (Task × Nat) :=
  let p := { t with lastAttempt := now + r.slack }.processResult (now + r.slack + r.duration + r.slack2) r.result
  match p.2.2 with
  | .sleep d => some (p.1, now + r.slack + r.duration + r.slack2 + d)
  | _ => none

theorem wait_long (d : Nat) (h : sec / 2 < d) : waitForRetry (.timeout d) = .sleep d := by
  simp only [waitForRetry]
  exact if_pos h

theorem wait_short (d : Nat) (h : d ≤ sec / 2) : waitForRetry (.timeout d) = .sleep 0 := by
  simp only [waitForRetry]
  exact if_neg (by omega)

theorem sec_pos : 0 < sec := by decide

theorem due_redirect (w s e : Nat) (a : Bytes) : due w s e (.redirect a) = some e := by
  unfold due; dsimp only

theorem due_unsupported (w s e : Nat) : due w s e (.error .unsupportedVersion) = none := by
  unfold due; dsimp only

theorem due_unauthorized (w s e : Nat) : due w s e (.error .unauthorized) =
    if w ≤ e then none else if e + 600 * sec < w then some (e + 10 * sec) else some (e + 30 * sec) := by
  unfold due; dsimp only

theorem due_other (w s e : Nat) (k : ErrKind) (h1 : k ≠ .unsupportedVersion) (h2 : k ≠ .unauthorized) :
    due w s e (.error k) = if e + sec / 2 < s + 60 * sec then some (s + 60 * sec) else some e := by
  cases k with
  | unsupportedVersion => exact absurd rfl h1
  | unauthorized => exact absurd rfl h2
  | _ => unfold due; dsimp only

theorem perr_unsupported (s w e : Nat) : processError .unsupportedVersion s w e = .unsupportedVersion := by
  unfold processError; dsimp only

theorem perr_unauthorized (s w e : Nat) : processError .unauthorized s w e =
    if e + 600 * sec < w then .timeout (10 * sec) else if e < w then .timeout (30 * sec)
    else .notInPairingMode := by
  unfold processError; dsimp only

theorem perr_other (s w e : Nat) (k : ErrKind) (h1 : k ≠ .unsupportedVersion) (h2 : k ≠ .unauthorized) :
    processError k s w e =
      if s + retryTimeout > e then .timeout (s + retryTimeout - e) else .timeout 0 := by
  cases k with
  | unsupportedVersion => exact absurd rfl h1
  | unauthorized => exact absurd rfl h2
  | _ => unfold processError; dsimp only

/-- The specification `due`, as the code computes it. -/
theorem wait_due (w s e : Nat) (k : ErrKind) :
    (match waitForRetry (processError k s w e) with
      | .sleep d => some (e + d)
      | _ => none) = due w s e (.error k) := by
  have hp := sec_pos
  by_cases hk1 : k = .unsupportedVersion
  · subst hk1
    rw [perr_unsupported, due_unsupported]
    simp only [waitForRetry]
  · by_cases hk2 : k = .unauthorized
    · subst hk2
      rw [perr_unauthorized, due_unauthorized]
      by_cases h1 : w ≤ e
      · rw [if_neg (by omega), if_neg (by omega), if_pos h1]
        simp only [waitForRetry]
      · rw [if_neg h1]
        by_cases h2 : e + 600 * sec < w
        · rw [if_pos h2, if_pos h2, wait_long _ (by omega)]
        · rw [if_neg h2, if_pos (by omega), if_neg h2, wait_long _ (by omega)]
    · rw [perr_other _ _ _ _ hk1 hk2, due_other _ _ _ _ hk1 hk2]
      by_cases h1 : e + sec / 2 < s + 60 * sec
      · rw [if_pos (by simp only [retryTimeout]; omega), if_pos h1,
          wait_long _ (by simp only [retryTimeout]; omega)]
        simp only [Option.some.injEq, retryTimeout]
        omega
      · rw [if_neg h1]
        by_cases h2 : s + retryTimeout > e
        · rw [if_pos h2, wait_short _ (by simp only [retryTimeout] at *; omega)]
          simp only [Nat.add_zero]
        · rw [if_neg h2, wait_short _ (by omega)]
          simp only [Nat.add_zero]

theorem after_eq (t : Task) (now : Nat) (r : Round) (hd : t.diagnostic = false) :
    after t now r =
      (due t.pairingEnd (now + r.slack) (now + r.slack + r.duration + r.slack2) r.result).map
        (fun d => ({ t with lastAttempt := now + r.slack, currentAddr := target t.defaultAddr r.result }, d)) := by
  unfold after Task.processResult
  simp only [hd, Bool.false_eq_true, if_false]
  generalize now + r.slack + r.duration + r.slack2 = e
  generalize now + r.slack = s
  cases r.result with
  | redirect a => simp only [due_redirect, target, Option.map_some, Nat.add_zero]
  | error k =>
    rw [← wait_due]
    simp only [target]
    cases waitForRetry (processError k s t.pairingEnd e) <;> simp only [Option.map_some, Option.map_none]

theorem attempts_cons (t : Task) (now : Nat) (r : Round) (rs : List Round) :
    attempts (t.run now (r :: rs)) = (now + r.slack, t.currentAddr) ::
      (match after t now r with
        | some (t', n) => attempts (t'.run n rs)
        | none => []) := by
  simp only [Task.run, after]
  generalize Task.processResult _ _ _ = p
  obtain ⟨t', s, n⟩ := p
  cases s <;> cases n <;> simp [attempts]

theorem results_cons (t : Task) (now : Nat) (r : Round) (rs : List Round) :
    results (t.run now (r :: rs)) = (now + r.slack + r.duration, r.result) ::
      (match after t now r with
        | some (t', n) => results (t'.run n rs)
        | none => []) := by
  simp only [Task.run, after]
  generalize Task.processResult _ _ _ = p
  obtain ⟨t', s, n⟩ := p
  cases s <;> cases n <;> simp [results]

/-! ### C45, C46 -/

theorem run_retry (w : Nat) (default : Bytes) (rs : List Round) (t : Task) (now : Nat)
    (hd : t.diagnostic = false) (hw : t.pairingEnd = w) (ha : t.defaultAddr = default) (i : Nat)
    (r r' : Round) (s e : Nat) (a : Bytes) (res : ConnRes) (hr : rs[i]? = some r) (hr' : rs[i + 1]? = some r')
    (h1 : (attempts (t.run now rs))[i]? = some (s, a)) (h2 : (results (t.run now rs))[i]? = some (e, res)) :
    res = r.result ∧
    (attempts (t.run now rs))[i + 1]? = (due w s (e + r.slack2) res).map
      (fun d => (d + r'.slack, target default res)) := by
  induction rs generalizing t now i with
  | nil => cases hr
  | cons r0 rs ih =>
    rw [attempts_cons] at h1 ⊢
    rw [results_cons] at h2
    rw [after_eq t now r0 hd] at h1 h2 ⊢
    cases i with
    | zero =>
      simp only [List.getElem?_cons_zero, Option.some.injEq, Prod.mk.injEq] at h1 h2 hr
      obtain ⟨rfl, rfl⟩ := h1
      obtain ⟨rfl, rfl⟩ := h2
      subst hr hw ha
      refine ⟨rfl, ?_⟩
      simp only [Nat.zero_add, List.getElem?_cons_succ]
      cases due _ _ _ _ with
      | none => rfl
      | some d =>
        simp only [Option.map_some]
        cases rs with
        | nil => cases hr'
        | cons r1 rs =>
          rw [attempts_cons]
          simp only [List.getElem?_cons_succ, List.getElem?_cons_zero, Option.some.injEq] at hr' ⊢
          rw [hr']
    | succ i =>
      simp only [List.getElem?_cons_succ] at h1 h2 hr hr' ⊢
      cases hdue : due t.pairingEnd (now + r0.slack) (now + r0.slack + r0.duration + r0.slack2) r0.result with
      | none => rw [hdue] at h1; cases h1
      | some d =>
        rw [hdue] at h1 h2
        simp only [Option.map_some] at h1 h2 ⊢
        exact ih { t with lastAttempt := now + r0.slack, currentAddr := target t.defaultAddr r0.result } _
          hd hw ha i hr hr' h1 h2

/-- C45, C46: whether, when and to which address the next attempt is made. `w` is the end of the pairing
window, 20 minutes after the start. `s` is when an attempt started, `e` when its connection ended with the
result `res`. The delays of the scheduler, `slack2` and `slack`, are the only other influence. -/
theorem C45_retry_policy (addr : Bytes) (now : Nat) (rounds : List Round) (i : Nat) (r r' : Round)
    (s e : Nat) (a : Bytes) (res : ConnRes) (hr : rounds[i]? = some r) (hr' : rounds[i + 1]? = some r')
    (h1 : (attempts (trace addr false now rounds))[i]? = some (s, a))
    (h2 : (results (trace addr false now rounds))[i]? = some (e, res)) :
    (attempts (trace addr false now rounds))[i + 1]? =
      (due (now + 1200 * sec) s (e + r.slack2) res).map (fun d => (d + r'.slack, target addr res)) :=
  (run_retry (now + 1200 * sec) addr rounds _ now rfl rfl rfl i r r' s e a res hr hr' h1 h2).2

theorem attempts_length (rs : List Round) (t : Task) (now : Nat) :
    (attempts (t.run now rs)).length ≤ rs.length ∧
    (results (t.run now rs)).length = (attempts (t.run now rs)).length := by
  induction rs generalizing t now with
  | nil => exact ⟨Nat.le_refl _, rfl⟩
  | cons r rs ih =>
    rw [attempts_cons, results_cons]
    cases after t now r with
    | none => simp
    | some p =>
      have := ih p.1 p.2
      simp only [List.length_cons]
      omega

/-- C45: however the scheduler delays the task, attempts are never made too early or without being allowed:
after an error other than the two special ones at least 59.5 seconds lie between the starts; after
"unauthorized" at least 10 seconds lie between the end and the next start, 30 seconds in the last 10
minutes of the pairing window, and there is no attempt after the window; after "unsupported version" there
is no attempt at all. -/
theorem C45_not_too_early (addr : Bytes) (now : Nat) (rounds : List Round) (i s s' e : Nat) (a a' : Bytes)
    (k : ErrKind) (h1 : (attempts (trace addr false now rounds))[i]? = some (s, a))
    (h2 : (results (trace addr false now rounds))[i]? = some (e, .error k))
    (h3 : (attempts (trace addr false now rounds))[i + 1]? = some (s', a')) :
    k ≠ .unsupportedVersion ∧ a' = addr ∧
    (k = .unauthorized → e < now + 1200 * sec ∧ e + 10 * sec ≤ s' ∧
      (now + 1200 * sec ≤ e + 600 * sec → e + 30 * sec ≤ s')) ∧
    (k ≠ .unauthorized → s + 59 * sec + sec / 2 ≤ s' ∧ e ≤ s') := by
  have hlen := (attempts_length rounds (Task.start addr false now) now).1
  have hi : i + 1 < (attempts (trace addr false now rounds)).length := (List.getElem?_eq_some_iff.mp h3).1
  have hlt : i + 1 < rounds.length := Nat.lt_of_lt_of_le hi hlen
  have := C45_retry_policy addr now rounds i rounds[i] rounds[i + 1] s e a _
    (List.getElem?_eq_getElem _) (List.getElem?_eq_getElem _) h1 h2
  rw [h3] at this
  generalize rounds[i].slack2 = x at this
  generalize rounds[i + 1].slack = y at this
  clear h1 h2 h3 hlen hi
  by_cases hk1 : k = .unsupportedVersion
  · subst hk1
    rw [due_unsupported] at this
    cases this
  · refine ⟨hk1, ?_⟩
    by_cases hk2 : k = .unauthorized
    · subst hk2
      rw [due_unauthorized] at this
      split at this
      · cases this
      · split at this
        · simp only [Option.map_some, Option.some.injEq, Prod.mk.injEq] at this
          exact ⟨this.2, fun _ => by omega, fun hc => absurd rfl hc⟩
        · simp only [Option.map_some, Option.some.injEq, Prod.mk.injEq] at this
          exact ⟨this.2, fun _ => by omega, fun hc => absurd rfl hc⟩
    · rw [due_other _ _ _ _ hk1 hk2] at this
      split at this
      · simp only [Option.map_some, Option.some.injEq, Prod.mk.injEq] at this
        exact ⟨this.2, fun hc => absurd hc hk2, fun _ => by omega⟩
      · simp only [Option.map_some, Option.some.injEq, Prod.mk.injEq] at this
        exact ⟨this.2, fun hc => absurd hc hk2, fun _ => by omega⟩

/-- A history with every kind of result: an immediate failure, a redirect, a refusal, a failure after two
minutes, a refusal after the pairing window. -/
def demoRounds : List Round :=
  [⟨0, 1000, .error .connection, 5⟩, ⟨7, 1000, .redirect [66], 0⟩, ⟨0, 3000, .error .unauthorized, 0⟩,
   ⟨0, 120 * sec, .error .serverError, 0⟩, ⟨9, 1300 * sec, .error .unauthorized, 0⟩,
   ⟨0, 0, .error .other, 0⟩]

example : attempts (trace [65] false 1000 demoRounds) =
    [(1000, [65]), (60 * sec + 1007, [65]), (60 * sec + 2007, [66]), (70 * sec + 5007, [65]), (190 * sec + 5016, [65])] := by
  decide +kernel

/-- C46: the first attempt goes to the configured address at once. -/
theorem C46_first_attempt (addr : Bytes) (diagnostic : Bool) (now : Nat) (r : Round) (rs : List Round) :
    (attempts (trace addr diagnostic now (r :: rs)))[0]? = some (now + r.slack, addr) := by
  unfold trace
  rw [attempts_cons]
  rfl

/-- C46: after a redirect the next attempt goes to its target without any pause; after any error it goes to
the configured address. -/
theorem C46_redirect (addr : Bytes) (now : Nat) (rounds : List Round) (i : Nat) (r r' : Round)
    (s e : Nat) (a t : Bytes) (hr : rounds[i]? = some r) (hr' : rounds[i + 1]? = some r')
    (h1 : (attempts (trace addr false now rounds))[i]? = some (s, a))
    (h2 : (results (trace addr false now rounds))[i]? = some (e, .redirect t)) :
    (attempts (trace addr false now rounds))[i + 1]? = some (e + r.slack2 + r'.slack, t) := by
  rw [C45_retry_policy addr now rounds i r r' s e a _ hr hr' h1 h2, due_redirect]
  rfl

/-- C46: redirects are not limited: for every number there is a history in which the server makes the client
connect that often at one and the same time. -/
theorem C46_redirects_not_limited (addr t : Bytes) (now n : Nat) :
    ∃ rounds, attempts (trace addr false now rounds) = (now, addr) :: List.replicate n (now, t) := by
  refine ⟨List.replicate (n + 1) ⟨0, 0, .redirect t, 0⟩, ?_⟩
  have key : ∀ n (k : Task), k.diagnostic = false → k.currentAddr = t →
      attempts (k.run now (List.replicate n ⟨0, 0, .redirect t, 0⟩)) = List.replicate n (now, t) := by
    intro n
    induction n with
    | zero => intro _ _ _; rfl
    | succ n ih =>
      intro k hk ht
      rw [List.replicate_succ, attempts_cons, after_eq _ _ _ hk]
      simp only [due_redirect, target, Option.map_some, Nat.add_zero]
      rw [ih { k with lastAttempt := now, currentAddr := t } hk rfl, ht, List.replicate_succ]
  unfold trace
  rw [List.replicate_succ, attempts_cons, after_eq _ _ _ rfl]
  simp only [due_redirect, target, Option.map_some, Nat.add_zero]
  rw [key n _ rfl rfl]
  rfl

/-! ### C47 -/

/-- C47: in diagnostic mode there is one attempt, then the process exits, with code 0 if the result was a
redirect or "unauthorized", and 1 otherwise. -/
theorem C47_exit_code (addr : Bytes) (now : Nat) (r : Round) (rs : List Round) :
    (attempts (trace addr true now (r :: rs))).length = 1 ∧
    ((∃ a, r.result = .redirect a) ∨ r.result = .error .unauthorized →
      exits (trace addr true now (r :: rs)) = [0]) ∧
    (¬ ((∃ a, r.result = .redirect a) ∨ r.result = .error .unauthorized) →
      exits (trace addr true now (r :: rs)) = [1]) ∧
    states (trace addr true now (r :: rs)) = [.connected] := by
  have h : trace addr true now (r :: rs) = [.attempt (now + r.slack) addr, .state (now + r.slack) .connected,
      .result (now + r.slack + r.duration) r.result, .exit (diagnose r.result)] := rfl
  rw [h]
  have he : exits [.attempt (now + r.slack) addr, .state (now + r.slack) .connected,
      .result (now + r.slack + r.duration) r.result, .exit (diagnose r.result)] = [diagnose r.result] := rfl
  rw [he]
  refine ⟨rfl, ?_, ?_, rfl⟩
  · rintro (⟨a, h⟩ | h) <;> rw [h] <;> rfl
  · intro hn
    cases hr : r.result with
    | redirect a => exact absurd (.inl ⟨a, hr⟩) hn
    | error k =>
      cases k with
      | unauthorized => exact absurd (.inr hr) hn
      | _ => rfl

/-- C47: outside diagnostic mode the process never exits. -/
theorem C47_no_exit (addr : Bytes) (now : Nat) (rounds : List Round) :
    exits (trace addr false now rounds) = [] := by
  have key : ∀ (rs : List Round) (t : Task) (n : Nat), t.diagnostic = false → exits (t.run n rs) = [] := by
    intro rs
    induction rs with
    | nil => intro _ _ _; rfl
    | cons r rs ih =>
      intro t n hd
      have ha := after_eq t n r hd
      simp only [Task.run, after] at ha ⊢
      generalize hp : Task.processResult _ _ _ = p at ha ⊢
      have hdp : p.1.diagnostic = false := by
        rw [← hp]
        unfold Task.processResult
        simp only [hd, Bool.false_eq_true, if_false]
        cases r.result <;> simp only
      obtain ⟨t', s, nx⟩ := p
      cases nx with
      | sleep d =>
        have := ih t' (n + r.slack + r.duration + r.slack2 + d) hdp
        cases s <;> simpa [exits] using this
      | halt => cases s <;> simp [exits]
      | exit c =>
        exfalso
        unfold Task.processResult at hp
        simp only [hd, Bool.false_eq_true, if_false] at hp
        cases hres : r.result with
        | redirect a => rw [hres] at hp; cases hp
        | error k =>
          rw [hres] at hp
          simp only [Prod.mk.injEq] at hp
          have := hp.2.2
          unfold waitForRetry at this
          split at this
          · split at this <;> cases this
          · cases this
          · cases this
  exact key rounds _ now rfl

example : exits (trace [65] true 0 [⟨0, 5, .error .unauthorized, 0⟩]) = [0] ∧
    exits (trace [65] true 0 [⟨0, 5, .error .connection, 0⟩]) = [1] := by decide +kernel

/-! ### C80 -/

/-- C80: the connection state is set to "connected" when an attempt begins (before there is a connection),
and after a failure to "unauthorized" or "disconnected" depending on the error; nothing else sets it. -/
theorem C80_connection_state (addr : Bytes) (now : Nat) (rounds : List Round) :
    states (trace addr false now rounds) =
      (results (trace addr false now rounds)).flatMap (fun r => statesOf r.2) := by
  have key : ∀ (rs : List Round) (t : Task) (n : Nat), t.diagnostic = false →
      states (t.run n rs) = (results (t.run n rs)).flatMap (fun r => statesOf r.2) := by
    intro rs
    induction rs with
    | nil => intro _ _ _; rfl
    | cons r rs ih =>
      intro t n hd
      rw [results_cons, List.flatMap_cons]
      have hst : states (t.run n (r :: rs)) = statesOf r.result ++
          (match after t n r with
            | some (t', m) => states (t'.run m rs)
            | none => []) := by
        simp only [Task.run, after]
        generalize hp : Task.processResult _ _ _ = p
        have h2 : p.2.1.toList = (statesOf r.result).drop 1 ∧ statesOf r.result = .connected :: (statesOf r.result).drop 1 := by
          rw [← hp]
          unfold Task.processResult
          simp only [hd, Bool.false_eq_true, if_false]
          cases r.result with
          | redirect a => exact ⟨rfl, rfl⟩
          | error k => cases k <;> exact ⟨rfl, rfl⟩
        rw [h2.2, ← h2.1]
        obtain ⟨t', s, nx⟩ := p
        cases s <;> cases nx <;> simp [states]
      rw [hst]
      congr 1
      rw [after_eq t n r hd]
      cases due _ _ _ _ with
      | none => rfl
      | some d => exact ih _ _ hd
  exact key rounds _ now rfl

example : states (trace [65] false 1000 demoRounds) =
    [.connected, .disconnected, .connected, .connected, .unauthorized, .connected, .disconnected,
     .connected, .unauthorized] := by decide +kernel

end Verif.Props.Reconnect
