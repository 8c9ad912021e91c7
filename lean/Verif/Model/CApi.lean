import Verif.Model.Life
/-!
# Model of the C interface: objects, ownership and callbacks

Source: /repo/src/exports (all files), with the builders in /repo/src/config.rs (lines 117-320) and /repo/src/storage.rs (lines
72-230), over the life of a client (`Verif.Life`).

An address is a number, NULL is 0. The allocator never gives an address twice (a real one does, which can only hide an access
to a released object). Undefined behaviour is an outcome (`Out.ub`), after which nothing is said. Every call is one step; the
calls may come from several threads of the application, one at a time per object. The contents of the objects are left out,
except for what the application gave to them: loggers, callbacks with their opaque pointers, and the lock on a lock file. Each
opaque pointer is stood for by a number of its own, given when it is handed to the library. Where the library is when it calls
back is an input, as long as the code that runs there holds the object. A failure of the allocator is left out: `ac__malloc`
does not check for it, and `Box::new` aborts the process.
-/
namespace Verif.CApi
open Verif.Life (Life)
open Verif.CmdHandler (Phase)

/-- The types of objects that pointers are made for (exports/mod.rs:115-119, 153-169, exports/mem.rs:21-31,
exports/svc_table.rs:28-31, exports/storage/mod.rs:30-32). -/
inductive Kind where
  | block
  | logger
  | config
  | defaultBuilder
  | customBuilder
  | storage
  | client
  | handle
  | table
deriving DecidableEq, Repr

/-- What the application lends to the library: an opaque pointer with its callbacks (exports/logger.rs:43-48,
exports/mod.rs:71-111, exports/storage/custom.rs:58-67), or the lock on a file (storage.rs:72-82). -/
inductive Res where
  | opaque (n : Nat)
  | lock (file : Nat)
deriving DecidableEq, Repr

/-- The objects with what they hold (exports/logger.rs:83-89, config.rs:113-127, storage.rs:72-82,
exports/storage/custom.rs:58-67, exports/storage/mod.rs:30-32, exports/mod.rs:115-119, exports/svc_table.rs:28-31). -/
inductive Obj where
  | block
  /-- `BoxLogger`; clones of a callback logger share its context (exports/logger.rs:83-89) -/
  | logger (res : List Res)
  /-- `ConfigBuilder`: the logger and `discovery` -/
  | config (logger : List Res) (discovery : Bool)
  /-- `DefaultStorageBuilder`: the lock and the logger -/
  | defaultBuilder (lock logger : List Res)
  /-- `CustomStorage` -/
  | customBuilder (res : List Res)
  /-- `DynStorage` -/
  | storage (res : List Res)
  /-- `NativeArrowClient`: number of the client -/
  | client (c : Nat)
  /-- `JoinHandle` of the thread of a client -/
  | handle (c : Nat)
  /-- `NativeServiceTable` with a number of services -/
  | table (services : Nat)
deriving DecidableEq, Repr

/-- The type of an object (see `Obj`; exports/mod.rs:115-119). -/
def Obj.kind : Obj → Kind
  | .block => .block
  | .logger _ => .logger
  | .config _ _ => .config
  | .defaultBuilder _ _ => .defaultBuilder
  | .customBuilder _ => .customBuilder
  | .storage _ => .storage
  | .client _ => .client
  | .handle _ => .handle
  | .table _ => .table

/-- What is dropped with an object; what a client holds is in `Client` (see `Obj`; exports/mod.rs:115-119). -/
def Obj.res : Obj → List Res
  | .logger r | .config r _ | .customBuilder r | .storage r => r
  | .defaultBuilder l r => l ++ r
  | _ => []

/-- A client: its life, what its application context holds (context.rs:65-73: the configuration with logger and storage, the
listeners), and whether the thread that runs it is over (runtime.rs:17-43: the runtime is dropped, and with it all tasks). -/
structure Client where
  life : Life
  res : List Res
  ended : Bool

/-- A scanner thread that holds the application context (cmd_handler.rs:148-155, 221-261). -/
def holding : Phase → Bool
  | .cleared | .signalled | .dead => false
  | _ => true

/-- Does somebody hold the application context: the client object and its task (exports/mod.rs:115-119), the thread of the
client, or a scanner thread (cmd_handler.rs:148)? -/
def Client.held (c : Client) : Bool :=
  !c.life.freed || (c.life.started && !c.ended) || c.life.h.workers.any holding

/-- The heap, the clients, and the number of the next opaque pointer; `aborted` after a panic (exports/mod.rs, all lines;
bookkeeping of the model). -/
structure State where
  heap : Nat → Option Obj
  next : Nat
  clients : List Client
  nextOpaque : Nat
  aborted : Bool

/-- Before the first call (bookkeeping of the model; exports/mod.rs:115-119). -/
def State.init : State := { heap := fun _ => none, next := 1, clients := [], nextOpaque := 0, aborted := false }

/-- Is it held by some object or client (bookkeeping of the model; exports/mod.rs:115-119)? -/
def State.holds (s : State) (r : Res) : Bool :=
  (List.range s.next).any (fun p => match s.heap p with
    | some o => decide (r ∈ o.res)
    | none => false) || s.clients.any (fun c => c.held && decide (r ∈ c.res))

/-- `Box::into_raw(Box::new(o))` (exports/config.rs:28 and others). -/
def State.alloc (s : State) (o : Obj) : State × Nat :=
  ({ s with heap := fun p => if p = s.next then some o else s.heap p, next := s.next + 1 }, s.next)

/-- `Box::from_raw(p)`, dropped or moved (exports/config.rs:34 and others). -/
def State.drop (s : State) (p : Nat) : State := { s with heap := fun q => if q = p then none else s.heap q }

/-- A change of the object at `p` (exports/config.rs:45 and others). -/
def State.put (s : State) (p : Nat) (o : Obj) : State :=
  { s with heap := fun q => if q = p then some o else s.heap q }

/-- A change of a client (bookkeeping of the model; exports/mod.rs:115-119). -/
def State.setClient (s : State) (c : Nat) (x : Client) : State := { s with clients := s.clients.set c x }

/-- What a call returns (exports/mod.rs:121-272 and the other files). -/
inductive Ret where
  | unit
  /-- a pointer to a new object, or NULL -/
  | ptr (p : Nat)
  /-- a pointer into a service table -/
  | service (table index : Nat)
  /-- some value -/
  | value
deriving DecidableEq, Repr

/-- How a call ends (exports/mod.rs:121-272 and the other files). -/
inductive Out where
  /-- undefined behaviour: a pointer does not point to an object of the type -/
  | ub
  /-- a panic; the release build aborts the process -/
  | abort
  /-- the call does not return yet -/
  | blocked
  | ok (s : State) (r : Ret)

/-- The calls of the application. Arguments that are no pointers to objects of the library are left out, except where
the outcome depends on them (exports, all files). -/
inductive Call where
  /-- `ac__malloc` (exports/mem.rs:22-31) -/
  | malloc
  /-- `ac__free` (exports/mem.rs:34-42) -/
  | free (p : Nat)
  /-- `ac__logger__custom` (exports/logger.rs:118-127) -/
  | loggerCustom
  /-- `ac__logger__syslog`, `ac__logger__stderr` (exports/logger.rs:129-140) -/
  | loggerPlain
  /-- `ac__logger__file` (exports/logger.rs:142-157); can the file be opened? -/
  | loggerFile (ok : Bool)
  /-- `ac__logger__clone` (exports/logger.rs:159-165) -/
  | loggerClone (p : Nat)
  /-- `ac__logger__free` (exports/logger.rs:167-171) -/
  | loggerFree (p : Nat)
  /-- `ac__config__new` (exports/config.rs:27-29) -/
  | configNew
  /-- `ac__config__free` (exports/config.rs:33-35) -/
  | configFree (p : Nat)
  /-- `ac__config__set_logger` (exports/config.rs:39-46) -/
  | configSetLogger (p logger : Nat)
  /-- `ac__config__set_discovery` (exports/config.rs:77-79) -/
  | configSetDiscovery (p : Nat) (on : Bool)
  /-- `ac__config__set_mac_address`, `set_diagnostic_mode`, `set_verbose` (exports/config.rs:50-73, 83-85) -/
  | configSet (p : Nat)
  /-- `ac__default_storage_builder__new` (exports/storage/default.rs:34-46): the lock file, if any; can it be created, and
  is it not locked by another process? -/
  | defaultNew (lock : Option Nat) (ok : Bool)
  /-- `ac__default_storage_builder__free` (exports/storage/default.rs:50-52) -/
  | defaultFree (p : Nat)
  /-- `ac__default_storage_builder__set_*_file`, `add_ca_cerificate` (exports/storage/default.rs:56-106) -/
  | defaultSet (p : Nat)
  /-- `ac__default_storage_builder__set_logger` (exports/storage/default.rs:110-117) -/
  | defaultSetLogger (p logger : Nat)
  /-- `ac__default_storage_builder__build` (exports/storage/default.rs:121-128) -/
  | defaultBuild (p : Nat)
  /-- `ac__custom_storage_builder__new` (exports/storage/custom.rs:232-236) -/
  | customNew
  /-- `ac__custom_storage_builder__free` (exports/storage/custom.rs:240-242) -/
  | customFree (p : Nat)
  /-- `ac__custom_storage_builder__set_*_func` (exports/storage/custom.rs:246-299) -/
  | customSet (p : Nat)
  /-- `ac__custom_storage_builder__build` (exports/storage/custom.rs:303-310) -/
  | customBuild (p : Nat)
  /-- `ac__storage__free` (exports/storage/mod.rs:81-83) -/
  | storageFree (p : Nat)
  /-- `ac__arrow_client__new` (exports/mod.rs:121-145). The blocks are those that the callbacks of a custom storage return;
  can the client be configured? -/
  | clientNew (config storage : Nat) (blocks : List Nat) (ok : Bool)
  /-- `ac__arrow_client__free` (exports/mod.rs:149-151) -/
  | clientFree (p : Nat)
  /-- `ac__arrow_client__start` (exports/mod.rs:157-169) -/
  | clientStart (p : Nat)
  /-- `ac__arrow_client__start_blocking` (exports/mod.rs:174-180); it returns when the thread of the client is over -/
  | clientStartBlocking (p : Nat)
  /-- `ac__arrow_client__close` (exports/mod.rs:184-186) -/
  | clientClose (p : Nat)
  /-- `ac__arrow_client__add_*_callback` (exports/mod.rs:188-210) -/
  | clientAddCallback (p : Nat)
  /-- `ac__arrow_client__get_uuid`, `get_mac_address` (exports/mod.rs:212-236) -/
  | clientGet (p : Nat)
  /-- `ac__arrow_client__get_service_table` (exports/mod.rs:238-246); how many services are there? -/
  | clientTable (p services : Nat)
  /-- `ac__arrow_client__scan_network` (exports/mod.rs:248-252) -/
  | clientScan (p : Nat)
  /-- `ac__arrow_client__rescan_network` (exports/mod.rs:254-258) -/
  | clientRescan (p : Nat)
  /-- `ac__join_handle__free` (exports/mod.rs:260-264) -/
  | handleFree (p : Nat)
  /-- `ac__join_handle__join` (exports/mod.rs:266-272); it returns when the thread of the client is over -/
  | handleJoin (p : Nat)
  /-- `ac__service_table__free` (exports/svc_table.rs:82-86) -/
  | tableFree (p : Nat)
  /-- `ac__service_table__get_service_count` (exports/svc_table.rs:88-94) -/
  | tableCount (p : Nat)
  /-- `ac__service_table__get_service` (exports/svc_table.rs:96-105) -/
  | tableService (p index : Nat)
  /-- `ac__service__get_*`, with a pointer got from `tableService` (exports/svc_table.rs:107-178) -/
  | serviceGet (table index : Nat)
deriving DecidableEq, Repr

/-- A call that makes an object (exports/config.rs:28 and others). -/
def State.give (s : State) (o : Obj) : Out := let r := s.alloc o; .ok r.1 (.ptr r.2)

/-- A call that drops an object of some type (exports/config.rs:33-35 and the other `free` functions). -/
def State.release (s : State) (p : Nat) (k : Kind) : Out :=
  match s.heap p with
  | some o => if o.kind = k then .ok (s.drop p) .unit else .ub
  | none => .ub

/-- A call that reads an object of some type, or changes what is left out here (exports/config.rs:50-73 and others). -/
def State.touch (s : State) (p : Nat) (k : Kind) : Out :=
  match s.heap p with
  | some o => if o.kind = k then .ok s .unit else .ub
  | none => .ub

/-- The blocks are freed, one after the other (exports/storage/custom.rs:138, 214, 219). -/
def State.freeAll (s : State) : List Nat → Option State
  | [] => some s
  | p :: ps => match s.heap p with
    | some .block => (s.drop p).freeAll ps
    | _ => none

/-- A call of the client object, by `Verif.Life`; `k` makes the result (exports/mod.rs:147-258). -/
def State.lifeCall (s : State) (p : Nat) (op : Life.Op) (k : State → Nat → List Life.Ev → Out) : Out :=
  match s.heap p with
  | some (.client c) =>
    match s.clients[c]? with
    | some x =>
      let r := x.life.step op
      if r.1.aborted then .abort else k (s.setClient c { x with life := r.1 }) c r.2
    | none => .ub
  | _ => .ub

/-- `try_lock_exclusive` (storage.rs:202): it fails if somebody in this process has the lock (the others are in `ok`). -/
def State.lockFree (s : State) (file : Nat) : Bool := !s.holds (.lock file)

/-- The call (exports, all files; each case cites its lines in `Call`). -/
def State.call (s : State) : Call → Out
  | .malloc => s.give .block
  | .free p => s.release p .block
  | .loggerCustom => ({ s with nextOpaque := s.nextOpaque + 1 } : State).give (.logger [.opaque s.nextOpaque])
  | .loggerPlain => s.give (.logger [])
  | .loggerFile ok => if ok then s.give (.logger []) else .ok s (.ptr 0)
  | .loggerClone p => match s.heap p with
    | some (.logger r) => s.give (.logger r)
    | _ => .ub
  | .loggerFree p => s.release p .logger
  | .configNew => s.give (.config [] false)
  | .configFree p => s.release p .config
  | .configSetLogger p l => match s.heap l with
    | some (.logger r) => match (s.drop l).heap p with
      | some (.config _ d) => .ok ((s.drop l).put p (.config r d)) .unit
      | _ => .ub
    | _ => .ub
  | .configSetDiscovery p on => match s.heap p with
    | some (.config r _) => .ok (s.put p (.config r on)) .unit
    | _ => .ub
  | .configSet p => s.touch p .config
  | .defaultNew lock ok => match lock with
    | none => s.give (.defaultBuilder [] [])
    | some f => if ok && s.lockFree f then s.give (.defaultBuilder [.lock f] []) else .ok s (.ptr 0)
  | .defaultFree p => s.release p .defaultBuilder
  | .defaultSet p => s.touch p .defaultBuilder
  | .defaultSetLogger p l => match s.heap l with
    | some (.logger r) => match (s.drop l).heap p with
      | some (.defaultBuilder k _) => .ok ((s.drop l).put p (.defaultBuilder k r)) .unit
      | _ => .ub
    | _ => .ub
  | .defaultBuild p => match s.heap p with
    | some (.defaultBuilder k r) => (s.drop p).give (.storage (k ++ r))
    | _ => .ub
  | .customNew => ({ s with nextOpaque := s.nextOpaque + 1 } : State).give (.customBuilder [.opaque s.nextOpaque])
  | .customFree p => s.release p .customBuilder
  | .customSet p => s.touch p .customBuilder
  | .customBuild p => match s.heap p with
    | some (.customBuilder r) => (s.drop p).give (.storage r)
    | _ => .ub
  | .storageFree p => s.release p .storage
  | .clientNew b st blocks ok => match s.heap b with
    | some (.config r d) => match (s.drop b).heap st with
      | some (.storage r') => match ((s.drop b).drop st).freeAll blocks with
        | some s =>
          if ok then
            ({ s with clients := s.clients ++ [⟨Life.new d, r ++ r', false⟩] } : State).give (.client s.clients.length)
          else .ok s (.ptr 0)
        | none => .ub
      | _ => .ub
    | _ => .ub
  | .clientFree p => s.lifeCall p .free fun s _ _ => .ok (s.drop p) .unit
  | .clientStart p => s.lifeCall p .start fun s c evs =>
    if .startReturned true ∈ evs then s.give (.handle c) else .ok s (.ptr 0)
  | .clientStartBlocking p => s.lifeCall p .start fun s _ _ => .ok s .unit
  | .clientClose p => s.lifeCall p .close fun s _ _ => .ok s .unit
  | .clientAddCallback p => match s.heap p with
    | some (.client c) => match s.clients[c]? with
      | some x => .ok (({ s with nextOpaque := s.nextOpaque + 1 } : State).setClient c
          { x with res := x.res ++ [.opaque s.nextOpaque] }) .unit
      | none => .ub
    | _ => .ub
  | .clientGet p => s.touch p .client
  | .clientTable p n => match s.heap p with
    | some (.client _) => s.give (.table n)
    | _ => .ub
  | .clientScan p => s.lifeCall p .scan fun s _ _ => .ok s .unit
  | .clientRescan p => s.lifeCall p .rescan fun s _ _ => .ok s .unit
  | .handleFree p => s.release p .handle
  | .handleJoin p => match s.heap p with
    | some (.handle c) => if (s.clients[c]?.map (·.ended)).getD false then .ok (s.drop p) .unit else .blocked
    | _ => .ub
  | .tableFree p => s.release p .table
  | .tableCount p => match s.heap p with
    | some (.table _) => .ok s .value
    | _ => .ub
  | .tableService p i => match s.heap p with
    | some (.table n) => if i < n then .ok s (.service p i) else .abort
    | _ => .ub
  | .serviceGet p i => match s.heap p with
    | some (.table n) => if i < n then .ok s .value else .ub
    | _ => .ub

/-- Who calls back (exports/mod.rs:82-111, exports/logger.rs:60-78, exports/storage/custom.rs:84-191): a task of a client,
one of its scanner threads, or a function called by the application, with what the object it was called for holds. -/
inductive Who where
  | task (client : Nat)
  | scanner (client worker : Nat)
  | object (p : Nat)
deriving DecidableEq, Repr

/-- The steps: calls of the application; a step of a task or thread of a client, by `Verif.Life`; the end of the thread of a
client (runtime.rs:17-43, exports/mod.rs:163); a callback (context.rs:249-268, 317-336, exports/logger.rs:60-78). -/
inductive Op where
  | call (c : Call)
  | inner (client : Nat) (op : Life.Op)
  | threadEnds (client : Nat)
  | callback (who : Who) (n : Nat)

/-- What happens (exports, all files). -/
inductive Ev where
  | returned (c : Call) (r : Ret)
  | ub
  | abort
  /-- the thread of a client is over: `ac__join_handle__join` can return, `ac__arrow_client__start_blocking` returns -/
  | threadEnded (client : Nat)
  /-- a callback was called with the opaque pointer `n` -/
  | callback (n : Nat)
deriving DecidableEq

/-- What is held where the callback is called (context.rs:66-73, cmd_handler.rs:148, exports/mod.rs:115-119). -/
def State.heldBy (s : State) : Who → List Res
  | .task c => match s.clients[c]? with
    | some x => if x.life.began && !x.ended then x.res else []
    | none => []
  | .scanner c i => match s.clients[c]? with
    | some x => match x.life.h.workers[i]? with
      | some ph => if holding ph then x.res else []
      | none => []
    | none => []
  | .object p => match s.heap p with
    | some (.client c) => match s.clients[c]? with
      | some x => x.res
      | none => []
    | some o => o.res
    | none => []

/-- One step (exports, all files). Nothing happens after a panic, and nothing is said after undefined behaviour. -/
def State.step (s : State) (op : Op) : State × List Ev :=
  if s.aborted then (s, [])
  else match op with
  | .call c => match s.call c with
    | .ub => ({ s with aborted := true }, [.ub])
    | .abort => ({ s with aborted := true }, [.abort])
    | .blocked => (s, [])
    | .ok s' r => (s', [.returned c r])
  | .inner c op =>
    match s.clients[c]? with
    | some x =>
      if op.isCall then (s, [])
      else
        let r := x.life.step op
        ({ s.setClient c { x with life := r.1 } with aborted := r.1.aborted }, if r.1.aborted then [.abort] else [])
    | none => (s, [])
  | .threadEnds c =>
    match s.clients[c]? with
    | some x =>
      if x.life.over && !x.life.h.alive && decide (x.life.ticker = .gone) && !x.ended then
        (s.setClient c { x with ended := true }, [.threadEnded c])
      else (s, [])
    | none => (s, [])
  | .callback who n => if .opaque n ∈ s.heldBy who then (s, [.callback n]) else (s, [])

/-- A history (a sequence of steps; exports, all files). -/
def State.run (s : State) : List Op → State × List Ev
  | [] => (s, [])
  | op :: ops =>
    let r := s.step op
    let r2 := r.1.run ops
    (r2.1, r.2 ++ r2.2)

end Verif.CApi
