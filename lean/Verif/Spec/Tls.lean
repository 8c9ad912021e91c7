import Verif.Model.Tls
/-!
# Specification of connecting: when the addresses are tried

Times are `Option Nat`; `none` is never.
-/
namespace Verif.Spec.Tls
open Verif Verif.Tls

/-- The later of two times. -/
def later : Option Nat → Option Nat → Option Nat
  | some a, some b => some (max a b)
  | _, _ => none

/-- Some time after a time. -/
def after (x : Option Nat) (d : Option Nat) : Option Nat := x.bind fun a => d.map (a + ·)

/-- `S i` is when the address number `i` is tried, and `G i` is when it and all addresses before it have been answered. An address
is tried 1 s after the one before it, but not earlier than 1 s after the fourth one before it, and all before that, have been
answered. -/
structure Timing (l : List Attempt) (S G : Nat → Option Nat) : Prop where
  start_first : S 0 = some 0
  start_few : ∀ i, i + 1 < l.length → i < 3 → S (i + 1) = after (S i) (some 1000)
  start_more : ∀ i, i + 4 < l.length → S (i + 4) = after (later (S (i + 3)) (G i)) (some 1000)
  gone_first : ∀ a, l[0]? = some a → G 0 = after (S 0) a.delay
  gone_next : ∀ i a, l[i + 1]? = some a → G (i + 1) = later (G i) (after (S (i + 1)) a.delay)

/-- Up to the time `t`. -/
def By (x : Option Nat) (t : Nat) : Prop := ∃ s, x = some s ∧ s ≤ t

/-- Not before the time `t`. -/
def NotBefore (x : Option Nat) (t : Nat) : Prop := ∀ s, x = some s → t ≤ s

/-- The address number `k` is the first one that accepts. -/
def First (l : List Attempt) (k : Nat) : Prop :=
  (∃ a, l[k]? = some a ∧ a.ok = true) ∧ ∀ (j : Nat) (b : Attempt), j < k → l[j]? = some b → b.ok = false

end Verif.Spec.Tls
