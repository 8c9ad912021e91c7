import Verif.Model.CApi
/-!
# The rules of the C interface

Which pointers each function expects, which of them it takes over, and which it returns: what a user of the interface
has to know. The rules are those of /repo/include/arrow_client.h, except for
`ac__default_storage_builder__set_logger`, of which the header does not say that it takes over the logger.
-/
namespace Verif.Spec.CApi
open Verif.CApi

/-- A pointer passed to a function: what it has to point to, and whether the function takes it over (or releases it). -/
structure Arg where
  ptr : Nat
  kind : Kind
  taken : Bool
deriving DecidableEq

/-- The function uses the object. -/
def uses (p : Nat) (k : Kind) : Arg := ⟨p, k, false⟩
/-- The function takes over the object: the application must not use the pointer again. -/
def takes (p : Nat) (k : Kind) : Arg := ⟨p, k, true⟩

/-- The pointers passed by a call. -/
def args : Call → List Arg
  | .malloc => []
  | .free p => [takes p .block]
  | .loggerCustom => []
  | .loggerPlain => []
  | .loggerFile _ => []
  | .loggerClone p => [uses p .logger]
  | .loggerFree p => [takes p .logger]
  | .configNew => []
  | .configFree p => [takes p .config]
  | .configSetLogger p l => [takes l .logger, uses p .config]
  | .configSetDiscovery p _ => [uses p .config]
  | .configSet p => [uses p .config]
  | .defaultNew _ _ => []
  | .defaultFree p => [takes p .defaultBuilder]
  | .defaultSet p => [uses p .defaultBuilder]
  | .defaultSetLogger p l => [takes l .logger, uses p .defaultBuilder]
  | .defaultBuild p => [takes p .defaultBuilder]
  | .customNew => []
  | .customFree p => [takes p .customBuilder]
  | .customSet p => [uses p .customBuilder]
  | .customBuild p => [takes p .customBuilder]
  | .storageFree p => [takes p .storage]
  | .clientNew c s blocks _ => takes c .config :: takes s .storage :: blocks.map (takes · .block)
  | .clientFree p => [takes p .client]
  | .clientStart p => [uses p .client]
  | .clientStartBlocking p => [uses p .client]
  | .clientClose p => [uses p .client]
  | .clientAddCallback p => [uses p .client]
  | .clientGet p => [uses p .client]
  | .clientTable p _ => [uses p .client]
  | .clientScan p => [uses p .client]
  | .clientRescan p => [uses p .client]
  | .handleFree p => [takes p .handle]
  | .handleJoin p => [takes p .handle]
  | .tableFree p => [takes p .table]
  | .tableCount p => [uses p .table]
  | .tableService p _ => [uses p .table]
  | .serviceGet t _ => [uses t .table]

/-- What a pointer returned by the call points to, if it is not NULL. -/
def makes : Call → Kind
  | .malloc => .block
  | .loggerCustom | .loggerPlain | .loggerFile _ | .loggerClone _ => .logger
  | .configNew => .config
  | .defaultNew _ _ => .defaultBuilder
  | .customNew => .customBuilder
  | .defaultBuild _ | .customBuild _ => .storage
  | .clientNew _ _ _ _ => .client
  | .clientStart _ => .handle
  | _ => .table

/-- The pointers the application has: to objects that it owns, and into service tables (table, index). -/
structure Ledger where
  has : List (Nat × Kind)
  services : List (Nat × Nat)

/-- What the application still has after it has passed these pointers; `none` if it passes one that it has not got, or with
the wrong type. -/
def pass (has : List (Nat × Kind)) : List Arg → Option (List (Nat × Kind))
  | [] => some has
  | a :: as => if (a.ptr, a.kind) ∈ has then pass (if a.taken then has.erase (a.ptr, a.kind) else has) as else none

/-- The pointers the application gets from a call. -/
def gets (c : Call) : Ret → List (Nat × Kind)
  | .ptr p => if p = 0 then [] else [(p, makes c)]
  | _ => []

/-- The pointers after a call, by some rules. -/
def Ledger.by (rules : Call → List Arg) (l : Ledger) (c : Call) (r : Ret) : Ledger :=
  { has := (pass l.has (rules c)).getD l.has ++ gets c r
    services := match r with | .service t i => (t, i) :: l.services | _ => l.services }

/-- The pointers after what has happened, by some rules. -/
def ledgerBy (rules : Call → List Arg) : List Ev → Ledger :=
  List.foldl (fun l e => match e with | .returned c r => l.by rules c r | _ => l) ⟨[], []⟩

/-- The application may make this call: it has the pointers that it passes. A pointer to a service may be used until its table
is freed. -/
def AllowedBy (rules : Call → List Arg) (l : Ledger) (c : Call) : Prop :=
  pass l.has (rules c) ≠ none ∧ ∀ t i, c = .serviceGet t i → (t, i) ∈ l.services

/-- The application follows the rules in a history. -/
def FollowsBy (rules : Call → List Arg) (ops : List Op) : Prop :=
  ∀ pre c post, ops = pre ++ .call c :: post → AllowedBy rules (ledgerBy rules (State.init.run pre).2) c

/-- The rules above. -/
abbrev ledger : List Ev → Ledger := ledgerBy args
/-- The rules above. -/
abbrev Allowed : Ledger → Call → Prop := AllowedBy args
/-- The rules above. -/
abbrev Follows : List Op → Prop := FollowsBy args

/-- The rules as the header states them: it does not say that `ac__default_storage_builder__set_logger` takes over the logger. -/
def headerArgs : Call → List Arg
  | .defaultSetLogger p l => [uses l .logger, uses p .defaultBuilder]
  | c => args c

/-- The number of opaque pointers the application has given to the library. -/
def given (evs : List Ev) : Nat :=
  evs.countP fun e => match e with
    | .returned .loggerCustom _ | .returned .customNew _ | .returned (.clientAddCallback _) _ => true
    | _ => false

/-- The thread of the client, if it was started, is over. -/
def Stopped (x : Client) : Prop := x.life.started = true → x.ended = true

/-- No scanner thread of the client is at work. -/
def NotScanning (x : Client) : Prop := ∀ ph ∈ x.life.h.workers, holding ph = false

/-- Discovery is not turned on, and every thread that is started can be joined: no handle is freed, and
`ac__arrow_client__start_blocking` is not used. -/
def Plain (c : Call) : Prop :=
  (∀ p, c ≠ .configSetDiscovery p true) ∧ (∀ p, c ≠ .handleFree p) ∧ ∀ p, c ≠ .clientStartBlocking p

end Verif.Spec.CApi
