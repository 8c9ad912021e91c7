import Verif.Model.SvcTable
/-!
# Model of the sharing of a table of services between threads

Source: `SharedServiceTable` and `SharedServiceTableRef` of /repo/src/svc_table/mod.rs (536-693): a mutex around the data; every
function locks it, works on the data, and unlocks it.

The threads are arbitrary programs: what a thread calls next may depend on all replies it got. The work on the data takes
several steps, between which other threads run. A function that panics poisons the mutex, and every later call panics
(`lock().unwrap()`). Simplifications: the time that `update` and `update_active_services` read under the mutex is an input of
the call; the other functions of the table (`Display`, `to_json`, `clone`) only read the data, like `visible`, and are left out.
-/
namespace Verif.Shared

open Verif.SvcTable

/-- What a function does between `lock` and the end of the guard: steps on the data and on its local variables, and the reply
at the end (svc_table/mod.rs:548-693). -/
structure Body (D L R : Type) where
  init : L
  steps : List (D × L → D × L)
  reply : L → R

/-- A thread: the replies it got, oldest first, and, if it is inside a function, the call, the steps left and the local
variables (svc_table/mod.rs:548-693). -/
structure Thread (C D L R : Type) where
  got : List R
  inside : Option (C × List (D × L → D × L) × L)

/-- A call that returned: the thread, the call and its reply (svc_table/mod.rs:548-693). -/
structure Ret (C R : Type) where
  thread : Nat
  call : C
  reply : R

/-- The mutex with its data and the threads that share it (svc_table/mod.rs:536-539, 642-645). `log` records the calls that
returned, oldest first; it is not part of the program. -/
structure Sys (C D L R : Type) where
  data : D
  owner : Option Nat
  threads : List (Thread C D L R)
  log : List (Ret C R)

/-- Nobody has called anything (svc_table/mod.rs:541-546). -/
def start {C D L R : Type} (d : D) (n : Nat) : Sys C D L R :=
  ⟨d, none, List.replicate n ⟨[], none⟩, []⟩

/-- One step of the thread `i` (svc_table/mod.rs:548-693): it locks the mutex for its next call if nobody has it, makes one
step of the function, or unlocks the mutex and has the reply. `none`: it waits, or has nothing to do. -/
def step {C D L R : Type} (impl : C → Body D L R) (prog : Nat → List R → Option C) (s : Sys C D L R) (i : Nat) :
    Option (Sys C D L R) :=
  match s.threads[i]? with
  | none => none
  | some t =>
    match t.inside with
    | none =>
      match prog i t.got with
      | none => none
      | some c =>
        if s.owner.isNone then
          some { s with
            owner := some i
            threads := s.threads.set i { t with inside := some (c, (impl c).steps, (impl c).init) } }
        else none
    | some (c, f :: fs, l) =>
      let x := f (s.data, l)
      some { s with data := x.1, threads := s.threads.set i { t with inside := some (c, fs, x.2) } }
    | some (c, [], l) =>
      let r := (impl c).reply l
      some { s with
        owner := none
        threads := s.threads.set i { got := t.got ++ [r], inside := none }
        log := s.log ++ [⟨i, c, r⟩] }

/-- Any interleaving (svc_table/mod.rs:536-693). -/
def run {C D L R : Type} (impl : C → Body D L R) (prog : Nat → List R → Option C) (s : Sys C D L R) :
    List Nat → Option (Sys C D L R)
  | [] => some s
  | i :: is =>
    match step impl prog s i with
    | none => none
    | some s => run impl prog s is

/-- The functions of the shared table (svc_table/mod.rs:553-693). -/
inductive Call where
  | add (now : Int64) (s : Service)
  | addStatic (now : Int64) (s : Service)
  | updateActive (now : Int64)
  | version
  | visVersion
  | visible
  | get (id : UInt16)
  | getId (k : ServiceIdentifier)

/-- What they return (svc_table/mod.rs:553-693). -/
inductive Reply where
  | id (i : UInt16)
  | unit
  | num (v : UInt32)
  | list (l : List (UInt16 × Service))
  | svc (s : Option Service)
  | found (i : Option UInt16)
  | panic
deriving DecidableEq

/-- A function on the data of the table, alone; `none` is a panic (svc_table/mod.rs:321-445, 559-583, 652-676). -/
def effect (farm : Bytes → UInt64) (t : Table) : Call → Option (Table × Reply)
  | .add now s => (t.add farm now s).map fun r => (r.1, .id r.2)
  | .addStatic now s => (t.addStatic farm now s).map fun r => (r.1, .id r.2)
  | .updateActive now => some (t.updateActive now, .unit)
  | .version => some (t, .num t.version)
  | .visVersion => some (t, .num t.visVersion)
  | .visible => some (t, .list t.visible)
  | .get id => some (t, .svc (t.get id))
  | .getId k => (t.getId k).map fun r => (t, .found r)

/-- The same on the data in the mutex; `none` is a poisoned mutex, on which `lock().unwrap()` panics
(svc_table/mod.rs:559-583, 652-676). -/
def alone (farm : Bytes → UInt64) (c : Call) (d : Option Table) : Option Table × Reply :=
  match d with
  | none => (none, .panic)
  | some t =>
    match effect farm t c with
    | none => (none, .panic)
    | some r => (some r.1, r.2)

/-- The functions in two steps: the new data are computed from the data read, and later written (svc_table/mod.rs:559-583,
652-676). In the theorems the steps are arbitrary as long as they lead to the same end; these are the ones of the examples. -/
def twoSteps (farm : Bytes → UInt64) (c : Call) : Body (Option Table) (Option Table × Reply) Reply :=
  ⟨(none, .unit), [fun x => (x.1, alone farm c x.1), fun x => (x.2.1, x.2)], fun l => l.2⟩

end Verif.Shared
