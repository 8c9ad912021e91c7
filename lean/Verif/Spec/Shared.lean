import Verif.Model.Shared
import Verif.Spec.SvcTable
/-!
# What it means that the functions of a shared object act one after another
-/
namespace Verif.Spec.Shared

open Verif.Shared Verif.SvcTable

/-- What the steps of a function amount to if nobody interferes. -/
def whole {D L R : Type} (b : Body D L R) (d : D) : D × R :=
  let x := b.steps.foldl (fun x f => f x) (d, b.init)
  (x.1, b.reply x.2)

/-- The data after calls one after another. -/
def after {C D L R : Type} (impl : C → Body D L R) (d : D) : List (Ret C R) → D
  | [] => d
  | x :: l => after impl (whole (impl x.call) d).1 l

/-- The replies a thread got in a list of calls. -/
def repliesTo {C R : Type} (i : Nat) (l : List (Ret C R)) : List R :=
  (l.filter fun x => x.thread = i).map (·.reply)

/-- The calls in the order of the list, made one after another by one thread, give the same replies. -/
def OneByOne {C D L R : Type} (impl : C → Body D L R) (d : D) (l : List (Ret C R)) : Prop :=
  ∀ a x b, l = a ++ x :: b → x.reply = (whole (impl x.call) (after impl d a)).2

/-- Every call is the one the program of its thread makes after the replies before it. -/
def Follows {C R : Type} (prog : Nat → List R → Option C) (l : List (Ret C R)) : Prop :=
  ∀ a x b, l = a ++ x :: b → prog x.thread (repliesTo x.thread a) = some x.call

/-- The calls that change a table. -/
def changes : List (Ret Call Reply) → List TOp
  | [] => []
  | x :: l =>
    match x.call with
    | .add now s => .add now s :: changes l
    | .addStatic now s => .addStatic now s :: changes l
    | .updateActive now => .updateActive now :: changes l
    | _ => changes l

/-- Some implementation of the functions of the table. -/
def Implements (farm : Bytes → UInt64) {L : Type} (impl : Call → Body (Option Table) L Reply) : Prop :=
  ∀ c d, whole (impl c) d = alone farm c d

/-- The service a call adds. -/
def addedBy : Call → Option Service
  | .add _ s => some s
  | .addStatic _ s => some s
  | _ => none

/-- What the functions that read say about a table. -/
def says (t : Table) : Call → Option Reply
  | .version => some (.num t.version)
  | .visVersion => some (.num t.visVersion)
  | .visible => some (.list t.visible)
  | .get id => some (.svc (t.get id))
  | .getId k => (t.getId k).map .found
  | _ => none

end Verif.Spec.Shared
