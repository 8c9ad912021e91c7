import Verif.Spec.Rate
import Verif.Props.Reconnect
/-!
# How often servers are contacted: C136
-/
namespace Verif.Props.Rate
open Verif Verif.Client Verif.Reconnect Verif.Spec.Reconnect Verif.Spec.Rate
open Verif.Props.Reconnect

theorem sec_eq : sec = 1000000000 := by decide

/-- After an error the next attempt is due ten seconds, and after an error other than a refusal 59.5 seconds, after the
start of the attempt that failed. -/
theorem due_error (w s e d : Nat) (k : ErrKind) (g : Nat) (hse : s ≤ e) (hg : g ≤ 59 * sec + sec / 2)
    (hu : k = .unauthorized → g ≤ 10 * sec) (h : due w s e (.error k) = some d) : s + g ≤ d := by
  have hs := sec_eq
  by_cases h1 : k = .unsupportedVersion
  · subst h1; rw [due_unsupported] at h; cases h
  · by_cases h2 : k = .unauthorized
    · have := hu h2
      subst h2
      rw [due_unauthorized] at h
      split at h
      · cases h
      · split at h <;> · cases h; omega
    · rw [due_other _ _ _ _ h1 h2] at h
      split at h <;> · cases h; omega

theorem due_redirect_eq (w s e d : Nat) (a : Bytes) (h : due w s e (.redirect a) = some d) : d = e := by
  rw [due_redirect] at h; cases h; rfl

theorem due_ge (w s e d : Nat) (r : ConnRes) (hse : s ≤ e) (h : due w s e r = some d) : s ≤ d := by
  cases r with
  | redirect a => have := due_redirect_eq _ _ _ _ _ h; omega
  | error k => exact due_error w s e d k 0 hse (Nat.zero_le _) (fun _ => Nat.zero_le _) h

/-- Nothing is attempted before the task goes on. -/
theorem attempts_from (rs : List Round) (t : Task) (now : Nat) (hd : t.diagnostic = false) :
    ∀ a ∈ attempts (t.run now rs), now ≤ a.1 := by
  induction rs generalizing t now with
  | nil => intro a ha; cases ha
  | cons r rs ih =>
    rw [attempts_cons, after_eq _ _ _ hd]
    intro a ha
    rcases List.mem_cons.mp ha with rfl | ha
    · exact Nat.le_add_right _ _
    · cases hdue : due t.pairingEnd (now + r.slack) (now + r.slack + r.duration + r.slack2) r.result with
      | none => rw [hdue] at ha; cases ha
      | some d =>
        rw [hdue] at ha
        have h1 := ih { t with lastAttempt := now + r.slack, currentAddr := target t.defaultAddr r.result } d hd a ha
        have h2 := due_ge _ _ _ _ _ (by omega) hdue
        omega

theorem late (rs : List Round) (t : Task) (now x len : Nat) (hd : t.diagnostic = false) (h : x + len ≤ now) :
    attemptsIn x len (t.run now rs) = 0 := by
  unfold attemptsIn
  rw [List.countP_eq_zero]
  intro a ha
  have := attempts_from rs t now hd a ha
  simp only [decide_eq_true_eq]
  omega

theorem rate (g : Nat) (hg : g ≤ 59 * sec + sec / 2) (x len : Nat) (rs : List Round) (t : Task) (now k : Nat)
    (hd : t.diagnostic = false) (hu : ∀ r ∈ rs, r.result = .error .unauthorized → g ≤ 10 * sec)
    (hk : x + len ≤ max now x + k * g) :
    attemptsIn x len (t.run now rs) ≤ k + redirectsIn x len (t.run now rs) := by
  induction rs generalizing t now k with
  | nil => exact Nat.zero_le _
  | cons r rs ih =>
    have hu' := fun r' h => hu r' (List.mem_cons_of_mem _ h)
    by_cases hlate : x + len ≤ now + r.slack
    · unfold attemptsIn
      rw [attempts_cons, after_eq _ _ _ hd, List.countP_cons_of_neg (by simp only [decide_eq_true_eq]; omega)]
      cases hdue : due t.pairingEnd (now + r.slack) (now + r.slack + r.duration + r.slack2) r.result with
      | none => exact Nat.zero_le _
      | some d =>
        have h2 := due_ge _ _ _ _ _ (by omega) hdue
        have h3 := late rs { t with lastAttempt := now + r.slack, currentAddr := target t.defaultAddr r.result } d x len
          hd (by omega)
        unfold attemptsIn at h3
        simp only [Option.map_some]
        rw [h3]
        exact Nat.zero_le _
    · unfold attemptsIn redirectsIn
      rw [attempts_cons, results_cons, after_eq _ _ _ hd, List.countP_cons, List.countP_cons]
      cases hdue : due t.pairingEnd (now + r.slack) (now + r.slack + r.duration + r.slack2) r.result with
      | none =>
        simp only [Option.map_none, List.countP_nil]
        by_cases hx : x ≤ now + r.slack
        · cases k with
          | zero => omega
          | succ k => split <;> omega
        · rw [if_neg (by simp only [decide_eq_true_eq]; omega)]; omega
      | some d =>
        simp only [Option.map_some]
        have hge := due_ge _ _ _ _ _ (by omega) hdue
        have ih' := fun k h => ih { t with lastAttempt := now + r.slack, currentAddr := target t.defaultAddr r.result }
          d k hd hu' h
        unfold attemptsIn redirectsIn at ih'
        by_cases hx : x ≤ now + r.slack
        · rw [if_pos (by simp only [decide_eq_true_eq]; omega)]
          cases k with
          | zero => omega
          | succ k =>
            rw [Nat.succ_mul] at hk
            cases hr : r.result with
            | redirect a =>
              rw [hr] at hdue
              have he := due_redirect_eq _ _ _ _ _ hdue
              by_cases hin : now + r.slack + r.duration < x + len
              · rw [if_pos (by simp only [isRedirect, and_true, decide_eq_true_eq]; omega)]
                have := ih' (k + 1) (by rw [Nat.succ_mul]; omega)
                rw [hr] at this
                omega
              · have := ih' 0 (by omega)
                rw [hr] at this
                omega
            | error e =>
              rw [hr] at hdue
              have he := due_error _ _ _ _ _ g (by omega) hg
                (fun h => hu r List.mem_cons_self (by rw [hr, h])) hdue
              have := ih' k (by omega)
              rw [hr] at this
              omega
        · rw [if_neg (by simp only [decide_eq_true_eq]; omega)]
          have := ih' k (by omega)
          omega

/-- C136: in any `n` times ten seconds, the client starts at most `n` connection attempts, plus one for each time that a
server redirected it meanwhile. -/
theorem C136_rate (addr : Bytes) (now : Nat) (rounds : List Round) (x n : Nat) :
    attemptsIn x (n * (10 * sec)) (trace addr false now rounds) ≤
      n + redirectsIn x (n * (10 * sec)) (trace addr false now rounds) :=
  rate (10 * sec) (by have := sec_eq; omega) x _ rounds _ now n rfl (fun _ _ _ => Nat.le_refl _) (by omega)

/-- C136: and if no server refuses the client as not authorized, at most one in 59.5 seconds. -/
theorem C136_rate_authorized (addr : Bytes) (now : Nat) (rounds : List Round)
    (h : ∀ r ∈ rounds, r.result ≠ .error .unauthorized) (x n : Nat) :
    attemptsIn x (n * (59 * sec + sec / 2)) (trace addr false now rounds) ≤
      n + redirectsIn x (n * (59 * sec + sec / 2)) (trace addr false now rounds) :=
  rate (59 * sec + sec / 2) (Nat.le_refl _) x _ rounds _ now n rfl (fun r hr hu => absurd hu (h r hr)) (by omega)

/-! ### A client that is not authorized -/

/-- At most `a` refusals fit into the first part of the pairing window that ends at `w`, at most `b` into the last ten
minutes of it, and one more ends all attempts. -/
theorem refusals_le (w : Nat) (rs : List Round) (t : Task) (now a b : Nat) (hd : t.diagnostic = false)
    (hw : t.pairingEnd = w) (h600 : 600 * sec ≤ w) (ha : w ≤ now + 600 * sec + a * (10 * sec))
    (hb : w ≤ now + b * (30 * sec) ∨ 600 * sec ≤ b * (30 * sec)) :
    refusals (t.run now rs) ≤ a + b + 1 := by
  have hs := sec_eq
  induction rs generalizing t now a b with
  | nil => exact Nat.zero_le _
  | cons r rs ih =>
    unfold refusals
    rw [results_cons, after_eq _ _ _ hd, List.countP_cons]
    subst hw
    cases hdue : due t.pairingEnd (now + r.slack) (now + r.slack + r.duration + r.slack2) r.result with
    | none =>
      simp only [Option.map_none, List.countP_nil]
      split <;> omega
    | some d =>
      simp only [Option.map_some]
      have hge := due_ge _ _ _ _ _ (by omega) hdue
      have ih' := fun a b => ih { t with lastAttempt := now + r.slack, currentAddr := target t.defaultAddr r.result }
        d a b hd rfl
      unfold refusals at ih'
      by_cases hr : r.result = .error .unauthorized
      · rw [if_pos (by simpa using hr)]
        rw [hr, due_unauthorized] at hdue
        split at hdue
        · cases hdue
        · split at hdue
          · cases hdue
            cases a with
            | zero => omega
            | succ a =>
              rw [Nat.succ_mul a] at ha
              have := ih' a b (by omega) (by omega)
              omega
          · cases hdue
            cases b with
            | zero => omega
            | succ b =>
              rw [Nat.succ_mul b] at hb
              have := ih' a b (by omega) (by omega)
              omega
      · rw [if_neg (by simpa using hr)]
        exact ih' a b (by omega) (by omega)

/-- C136: a client is refused as not authorized at most 81 times from its start on, whatever else happens meanwhile, and
however long it runs. -/
theorem C136_refusals (addr : Bytes) (now : Nat) (rounds : List Round) : refusals (trace addr false now rounds) ≤ 81 := by
  have hs := sec_eq
  exact refusals_le (now + pairingModeTimeout) rounds _ now 60 20 rfl rfl (by unfold pairingModeTimeout; omega)
    (by unfold pairingModeTimeout; omega) (by omega)

/-- C136: a client in diagnostic mode makes one attempt. -/
theorem C136_diagnostic (addr : Bytes) (now : Nat) (rounds : List Round) :
    (attempts (trace addr true now rounds)).length ≤ 1 := by
  cases rounds with
  | nil => exact Nat.zero_le _
  | cons r rs =>
    unfold trace
    rw [attempts_cons]
    simp [after, Task.processResult, Task.start]

/-- The bounds are attained: 81 refusals if the server answers at once, and no further attempt after them; attempts at
distances of 59.5 seconds; and a redirect that adds one. -/
example :
    refusals (trace [65] false 0 (List.replicate 100 ⟨0, 0, .error .unauthorized, 0⟩)) = 81 ∧
    (attempts (trace [65] false 0 (List.replicate 100 ⟨0, 0, .error .unauthorized, 0⟩))).length = 81 ∧
    attemptsIn 0 (6 * (10 * sec)) (trace [65] false 0 (List.replicate 100 ⟨0, 0, .error .unauthorized, 0⟩)) = 6 ∧
    attemptsIn 0 (3 * (59 * sec + sec / 2))
      (trace [65] false 0 (List.replicate 5 ⟨0, 59 * sec + sec / 2, .error .connection, 0⟩)) = 3 ∧
    attemptsIn 5 (1 * (10 * sec)) (trace [65] false 5 (⟨0, 7, .redirect [66], 0⟩ :: demoRounds)) = 2 ∧
    redirectsIn 5 (1 * (10 * sec)) (trace [65] false 5 (⟨0, 7, .redirect [66], 0⟩ :: demoRounds)) = 1 := by
  decide +kernel

end Verif.Props.Rate
