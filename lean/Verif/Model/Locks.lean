/-!
# Model of the mutexes of a process

Source: every use of `std::sync::Mutex` in /repo/src: the context of a connection (net/arrow/mod.rs:573-660), the context
of a session (net/arrow/session.rs:344-470), the application context (context.rs:158-355), the loggers
(utils/logger/file.rs:124-170, exports/logger.rs:86-115), the tables of services (svc_table/mod.rs:538-691) and the capture
devices (net/raw/pcap/mod.rs:62-162); and the code of the application that is called back (context.rs:248-336,
exports/storage/custom.rs:85-159, exports/logger.rs:61-79).

A thread runs code: it takes mutexes, gives them back, and works. The operations of the client are described by the mutexes
they take and by what they may call while they hold them, in any number and order (`Op`); so the model allows more than the
code does. Simplifications: only mutexes make a thread wait (the threads of scans are joined by threads that hold no mutex,
cmd_handler.rs:169-177 and net/raw/pcap/mod.rs; the lock of the two halves of a framed stream never blocks; waking a task
does not run it; `ac__join_handle__join` is not called by a callback); no panic poisons a mutex; everything between two uses of mutexes is one step `work`; the operations that
one thread runs are given in advance, for they are arbitrary.
-/
namespace Verif.Locks

/-- What a mutex guards. -/
inductive Kind where
  /-- `ArrowClient::context` (net/arrow/mod.rs:572-575) -/
  | client
  /-- `Session::context` (net/arrow/session.rs:342-345) -/
  | session
  /-- `ApplicationContext::data` (context.rs:163-166) -/
  | context
  /-- `FileLogger::shared`, `CallbackLogger::context` (utils/logger/file.rs:124-170, exports/logger.rs:86-89) -/
  | logger
  /-- `SharedServiceTable::data` (svc_table/mod.rs:536-539) -/
  | table
  /-- the mutex under which capture devices are opened (net/raw/pcap/mod.rs:62-65) -/
  | capture
deriving DecidableEq, Repr

/-- A mutex; there are many of each kind (net/arrow/mod.rs:572-575, net/arrow/session.rs:342-345, context.rs:163-166). -/
structure Lock where
  kind : Kind
  id : Nat
deriving DecidableEq, Repr

/-- One step of a thread: `Mutex::lock`, the end of the life of its guard, or anything else (for example context.rs:254-266). -/
inductive Instr where
  | acq (l : Lock)
  | rel (l : Lock)
  | work
deriving DecidableEq, Repr

/-- The life of a guard of the mutex `l` (for example context.rs:187: the guard lives to the end of the expression). -/
def crit (l : Lock) (body : List Instr) : List Instr :=
  .acq l :: (body ++ [.rel l])

/-- A function of the client that the application can call, except for writing a message to a log (exports/mod.rs:121-272). -/
inductive Call where
  /-- UUID, MAC address, state of the connection, is a scan running, add a listener (exports/mod.rs:189-237, client.rs:358-400) -/
  | get (c : Nat)
  /-- `ac__arrow_client__get_service_table` of the client `c` whose table is `t` (exports/mod.rs:240-247, client.rs:378-386) -/
  | services (c t : Nat)
  /-- scan, close, free: they only write to channels and flags (client.rs:402-436) -/
  | command
  /-- set or get the level of a logger (exports/logger.rs:104-115) -/
  | level (g : Nat)
deriving DecidableEq, Repr

/-- The mutexes a call takes: `get_service_table` of the application context gives the first mutex back before the table is
read (context.rs:285-288, svc_table/mod.rs:643-691). -/
def Call.code : Call → List Instr
  | .get c => crit ⟨.context, c⟩ [.work]
  | .services c t => crit ⟨.context, c⟩ [.work] ++ crit ⟨.table, t⟩ [.work]
  | .command => [.work]
  | .level g => crit ⟨.logger, g⟩ [.work]

/-- A message written to the logger `g`. The logger formats it while it holds its mutex, which reads the tables of services
among its arguments (cmd_handler.rs:251-256, exports/logger.rs:62-67), and then runs the application's callback, if it is
such a logger, whose calls are `cb` (exports/logger.rs:72-78, 98-102). -/
structure Log where
  g : Nat
  reads : List Nat
  cb : List Call
deriving DecidableEq, Repr

/-- `Logger::log` (exports/logger.rs:62-79, 98-102, utils/logger/file.rs:150-170). -/
def Log.code (m : Log) : List Instr :=
  crit ⟨.logger, m.g⟩ (m.reads.flatMap (fun t => crit ⟨.table, t⟩ [.work]) ++ .work :: m.cb.flatMap Call.code)

/-- What code of the application may do with the client (exports/mod.rs:121-272). -/
inductive Act where
  | call (f : Call)
  | log (m : Log)
deriving DecidableEq, Repr

/-- The code of `Act` (exports/mod.rs:121-272). -/
def Act.code : Act → List Instr
  | .call f => f.code
  | .log m => m.code

/-- What happens while the mutex of the application context is held (context.rs:176-355). -/
inductive CStep where
  /-- the tables of the configuration are read or changed (config.rs:1073-1112) -/
  | table (t : Nat)
  /-- a message is logged (config.rs:1085-1160, storage.rs:60-120) -/
  | log (m : Log)
  /-- the storage is used; if it is the application's, a callback runs that does `acts` (config.rs:1056, 1116-1160,
  exports/storage/custom.rs:85-159) -/
  | storage (acts : List Act)
deriving DecidableEq, Repr

/-- The code of `CStep` (config.rs:1056-1160). -/
def CStep.code : CStep → List Instr
  | .table t => crit ⟨.table, t⟩ [.work]
  | .log m => m.code
  | .storage acts => .work :: acts.flatMap Act.code

/-- What happens while the mutex of a connection is held (net/arrow/mod.rs:104-535). -/
inductive Sub where
  /-- a getter of the application context (net/arrow/mod.rs:112-122, 229-230, 353, 478, 505-506) -/
  | get (c : Nat)
  /-- a table of services is read (net/arrow/mod.rs:173-260, 494-516, session.rs:595-645) -/
  | table (t : Nat)
  /-- a session is fed, read, closed (session.rs:380-415, 527-720) -/
  | session (s : Nat)
  /-- a message is logged (net/arrow/mod.rs:150-535) -/
  | log (m : Log)
deriving DecidableEq, Repr

/-- The code of `Sub` (net/arrow/mod.rs:104-535, session.rs:380-720). -/
def Sub.code : Sub → List Instr
  | .get c => crit ⟨.context, c⟩ [.work]
  | .table t => crit ⟨.table, t⟩ [.work]
  | .session s => crit ⟨.session, s⟩ [.work]
  | .log m => m.code

/-- An operation of a thread of the process. -/
inductive Op where
  /-- the application, in a thread of its own, uses the client (exports/mod.rs:121-272) -/
  | app (a : Act)
  /-- the connection `p` is polled, its watchdog runs, its redirect is asked for, it is dropped (net/arrow/mod.rs:590-660) -/
  | client (p : Nat) (subs : List Sub)
  /-- code of the client that holds no mutex itself: making a connection, the loops of tasks, the command handler, a scan
  (net/arrow/mod.rs:111-152, client.rs:64-285, cmd_handler.rs:60-240) -/
  | plain (subs : List Sub)
  /-- the task of a session is polled (session.rs:426-490) -/
  | session (s : Nat)
  /-- an operation of the application context: a getter, saving, updating and resetting the table (context.rs:176-312) -/
  | context (c : Nat) (steps : List CStep)
  /-- `set_scanning`, `set_connection_state`, where the state changes: the listeners do `told` (context.rs:248-267, 317-336) -/
  | setState (c : Nat) (steps : List CStep) (told : List Act)
  /-- a capture device is opened (net/raw/pcap/mod.rs:151-162) -/
  | capture (d : Nat)
deriving DecidableEq, Repr

/-- The code of an operation. For `setState`: the listeners are taken, the mutex is given back, the listeners are told, and
they are put back under the mutex (context.rs:254-266, 323-335). -/
def Op.code : Op → List Instr
  | .app a => a.code
  | .client p subs => crit ⟨.client, p⟩ (.work :: subs.flatMap Sub.code)
  | .plain subs => .work :: subs.flatMap Sub.code
  | .session s => crit ⟨.session, s⟩ [.work]
  | .context c steps => crit ⟨.context, c⟩ (.work :: steps.flatMap CStep.code)
  | .setState c steps told =>
    crit ⟨.context, c⟩ (.work :: steps.flatMap CStep.code) ++
      (told.flatMap Act.code ++ crit ⟨.context, c⟩ [.work])
  | .capture d => crit ⟨.capture, d⟩ [.work]

/-- A thread: the mutexes it holds, the last taken first, and the code it has still to run (std::sync::Mutex as used in
context.rs:158-355). -/
structure Thread where
  held : List Lock
  rest : List Instr
deriving DecidableEq, Repr

/-- A process starts with threads that hold nothing and run lists of operations (client.rs:300-350, exports/mod.rs:121-272). -/
def start (threads : List (List Op)) : List Thread :=
  threads.map fun ops => ⟨[], ops.flatMap Op.code⟩

/-- Nobody holds the mutex, not even the thread that asks: a `std::sync::Mutex` is not reentrant (context.rs:158-355). -/
def free (s : List Thread) (l : Lock) : Bool :=
  s.all fun t => !t.held.contains l

/-- The thread `i` makes one step, if it can: it has something to do and does not wait for a mutex (`Mutex::lock`, `Drop` of
the guard; context.rs:158-355). -/
def step (s : List Thread) (i : Nat) : Option (List Thread) :=
  match s[i]? with
  | none => none
  | some t =>
    match t.rest with
    | [] => none
    | .acq l :: r => if free s l then some (s.set i ⟨l :: t.held, r⟩) else none
    | .rel l :: r => some (s.set i ⟨t.held.erase l, r⟩)
    | .work :: r => some (s.set i ⟨t.held, r⟩)

/-- The threads make steps in the given order (any interleaving; client.rs:300-350). -/
def run (s : List Thread) : List Nat → Option (List Thread)
  | [] => some s
  | i :: is =>
    match step s i with
    | none => none
    | some s' => run s' is

/-- The scheduler of the system lets the threads try to go on, in the given order; a thread that has to wait stays where it is
(std::sync::Mutex as used in context.rs:158-355). -/
def turns (s : List Thread) : List Nat → List Thread
  | [] => s
  | i :: is => turns ((step s i).getD s) is

end Verif.Locks
