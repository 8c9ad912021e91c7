import Verif.Spec.Cadence
import Verif.Spec.Client
/-!
# Specification: from a device on the network to the server
-/
namespace Verif.Spec.Appear
open Verif Verif.CmdHandler Verif.SvcTable Verif.Cadence

/-- The scans that were started: when, and the number of the scan. -/
def starts (evs : List (Nat × HEv)) : List (Nat × Nat) :=
  evs.filterMap fun e => match e.2 with
    | .started i => some (e.1, i)
    | _ => none

/-- The scans whose result was put into the service table: when, the number of the scan, its report. -/
def published (evs : List (Nat × HEv)) : List (Nat × Nat × Nat) :=
  evs.filterMap fun e => match e.2 with
    | .published i n => some (e.1, i, n)
    | _ => none

/-- The longest time from any moment until the next scan starts: a scan that runs, the handler, five minutes, a trigger and the
handler again. -/
def wait (T : Cadence.Timing) : Nat := T.scan + T.lag + 300 * Client.sec + T.tick + T.lag

/-- What a connection reads about the services (`x`) is what the table shows at some moment of the history `ops`: while an
operation happens, after some (`p`) of the changes that this operation makes to the table. A report, for instance, adds one
service after the other. The two reads that are made for one message see the same state of the table (C76). -/
def Reads (T : Timing) (ops : List Op) (farm : Bytes → UInt64) (start : Int64) (found : Nat → List Service)
    (clock : Nat → Int64) (pre : List TOp) (x : Client.Env) : Prop :=
  ∃ a op b p rest t, ops = a ++ op :: b ∧ x.now = ((Sys.new T true).run T (a ++ [op])).1.now ∧
    tableOps found clock ((Sys.new T true).run T (a ++ [op])).2 =
      tableOps found clock ((Sys.new T true).run T a).2 ++ (p ++ rest) ∧
    (Table.new start).run farm (pre ++ (tableOps found clock ((Sys.new T true).run T a).2 ++ p)) = some t ∧
    x.visible = t.visible ∧ x.version = t.visVersion ∧ x.versionAfter = t.visVersion

end Verif.Spec.Appear
