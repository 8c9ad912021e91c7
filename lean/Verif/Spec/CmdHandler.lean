import Verif.Model.CmdHandler
/-!
# Vocabulary for the properties of the command handler
-/
namespace Verif.Spec.CmdHandler
open Verif Verif.CmdHandler Verif.Client

/-- A scanner thread is at work. -/
def Running (h : H) (i : Nat) : Prop :=
  ∃ p, h.workers[i]? = some p ∧ p ≠ .signalled ∧ p ≠ .dead

/-- The life of a scan. -/
inductive Scan where
  | none
  | started (i : Nat)
  | running (i : Nat)
  | published (i n : Nat)
  | stored (i : Nat)
  | over (i : Nat)
deriving DecidableEq

/-- A scan is started when there is none; then the flag is set; then the services found, if any, are put into
the table and the result is stored; then the flag is cleared; then the completion is handled. `none` means
that this order is violated. -/
def Scan.next : Scan → HEv → Option Scan
  | s, .reset => some s
  | .none, .started i => some (.started i)
  | .started i, .scanning true => some (.running i)
  | .running i, .published j n => if i = j then some (.published i n) else Option.none
  | .published i n, .stored j m => if i = j ∧ n = m then some (.stored i) else Option.none
  | .running i, .scanning false => some (.over i)
  | .stored i, .scanning false => some (.over i)
  | .over _, .completed _ => some .none
  | _, _ => Option.none

/-- `Scan.next` over a list of events. -/
def Scan.after : Scan → List HEv → Option Scan
  | s, [] => some s
  | s, e :: es => match s.next e with
    | some s' => Scan.after s' es
    | .none => .none

/-- The scanning flag is on. -/
def Scan.on : Scan → Bool
  | .running _ => true
  | .published _ _ => true
  | .stored _ => true
  | _ => false

/-- The time of the latest completion. -/
def lastCompleted (es : List HEv) : Option Nat :=
  (es.filterMap fun | .completed t => some t | _ => none).getLast?

/-- The scans started. -/
def starts (es : List HEv) : List Nat :=
  es.filterMap fun | .started i => some i | _ => none

end Verif.Spec.CmdHandler
