import Verif.Model.Cadence
/-!
# Specification: network scans over time
-/
namespace Verif.Spec.Cadence
open Verif Verif.CmdHandler Verif.Client

/-- When scans were started. -/
def startTimes (evs : List (Nat × HEv)) : List Nat :=
  evs.filterMap fun e => match e.2 with
    | .started _ => some e.1
    | _ => none

/-- When scans were completed. -/
def doneTimes (evs : List (Nat × HEv)) : List Nat :=
  evs.filterMap fun e => match e.2 with
    | .completed _ => some e.1
    | _ => none

/-- When the services that a scan has found were put into the service table, and which report it was. -/
def reports (evs : List (Nat × HEv)) : List (Nat × Nat) :=
  evs.filterMap fun e => match e.2 with
    | .published _ n => some (e.1, n)
    | _ => none

/-- When a scan is due: at once, and then five minutes after the last one. -/
def due (evs : List (Nat × HEv)) : Nat :=
  match (doneTimes evs).getLast? with
  | none => 0
  | some t => t + 300 * sec

/-- When the service table was last told about a scan; the start of the client if it was not. -/
def lastReport (evs : List (Nat × HEv)) : Nat :=
  match (reports evs).getLast? with
  | none => 0
  | some r => r.1

/-- Until `last`, the wall clock is not slower than time: after `n` seconds it shows at least `n` seconds more. -/
def Keeps (clock : Nat → Int64) (last : Nat) : Prop :=
  ∀ a b n : Nat, a + n * sec ≤ b → b ≤ last → (clock a).toInt + n ≤ (clock b).toInt

end Verif.Spec.Cadence
