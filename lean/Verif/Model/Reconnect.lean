import Verif.Model.Client
/-!
# Model of the task that keeps the client connected

Source: /repo/src/client.rs lines 38-258. Time is a `Nat` in nanoseconds. How long a connection lasts and
how it ends comes from outside; so does the delay with which the scheduler runs the task (`slack`), since
`tokio::time::sleep` only promises not to return early. A panic in `connect` ends the process (release
profile, panic = "abort"). Logging is left out.
-/
namespace Verif.Reconnect
open Verif Verif.Client

/-- `RETRY_TIMEOUT` (client.rs:38). -/
def retryTimeout : Nat := 60 * sec
/-- `PAIRING_MODE_TIMEOUT` (client.rs:41). -/
def pairingModeTimeout : Nat := 1200 * sec

/-- `ConnectionState` (context.rs:32-36). -/
inductive ConnState where
  | connected | disconnected | unauthorized
deriving DecidableEq, Repr

/-- `struct ArrowMainTask` (client.rs:44-54), without the parts that are passed on. -/
structure Task where
  defaultAddr : Bytes
  currentAddr : Bytes
  lastAttempt : Nat
  pairingEnd : Nat
  diagnostic : Bool
deriving DecidableEq

/-- `ConnectionRetry` and `SuspendReason` (client.rs:156-176). -/
inductive Retry where
  | timeout (d : Nat)
  | notInPairingMode
  | unsupportedVersion
deriving DecidableEq

/-- The result of `arrow::connect` (src/net/arrow/mod.rs:671-680, client.rs:93-113). -/
inductive ConnRes where
  | redirect (addr : Bytes)
  | error (e : ErrKind)
deriving DecidableEq

/-- `process_connection_error` (client.rs:176-218). -/
def processError (e : ErrKind) (lastAttempt pairingEnd now : Nat) : Retry :=
  match e with
  | .unauthorized =>
    if now + 600 * sec < pairingEnd then .timeout (10 * sec)
    else if now < pairingEnd then .timeout (30 * sec)
    else .notInPairingMode
  | .unsupportedVersion => .unsupportedVersion
  | _ =>
    if lastAttempt + retryTimeout > now then .timeout (lastAttempt + retryTimeout - now)
    else .timeout 0

/-- What `process_result` makes the task do next: sleep for a time (0: go on at once), wait for ever, or
exit the process. -/
inductive Next where
  | sleep (d : Nat)
  | halt
  | exit (code : Nat)
deriving DecidableEq

/-- `wait_for_retry` (client.rs:221-245). -/
def waitForRetry : Retry → Next
  | .timeout d => if d > sec / 2 then .sleep d else .sleep 0
  | .notInPairingMode => .halt
  | .unsupportedVersion => .halt

/-- `diagnose_connection_result` (client.rs:250-258). -/
def diagnose : ConnRes → Nat
  | .redirect _ => 0
  | .error .unauthorized => 0
  | .error _ => 1

/-- `process_result` (client.rs:114-148): the new task, the connection state it sets, what comes next. -/
def Task.processResult (t : Task) (now : Nat) (r : ConnRes) : Task × Option ConnState × Next :=
  if t.diagnostic then (t, none, .exit (diagnose r))
  else
    match r with
    | .redirect addr => ({ t with currentAddr := addr }, none, .sleep 0)
    | .error e =>
      ({ t with currentAddr := t.defaultAddr },
        some (if e = .unauthorized then .unauthorized else .disconnected),
        waitForRetry (processError e t.lastAttempt t.pairingEnd now))

/-- The task at the start (client.rs:62-83). -/
def Task.start (addr : Bytes) (diagnostic : Bool) (now : Nat) : Task :=
  { defaultAddr := addr, currentAddr := addr, lastAttempt := now,
    pairingEnd := now + pairingModeTimeout, diagnostic := diagnostic }

/-- What comes from outside in one round of the loop: the delay before the attempt, how long the
connection lasts, how it ends, and the delay before the result is processed (client.rs:64-150, 221-247). -/
structure Round where
  slack : Nat
  duration : Nat
  result : ConnRes
  slack2 : Nat

/-- What can be observed (client.rs:64-258). -/
inductive REv where
  /-- a connection attempt begins (client.rs:92-109) -/
  | attempt (at_ : Nat) (addr : Bytes)
  /-- the connection state is set (context.rs:317-336) -/
  | state (at_ : Nat) (s : ConnState)
  /-- the connection ended -/
  | result (at_ : Nat) (r : ConnRes)
  | exit (code : Nat)
deriving DecidableEq

/-- The loop of `ArrowMainTask::start` (client.rs:85-89) with `connect` (92-109). -/
def Task.run (t : Task) (now : Nat) : List Round → List REv
  | [] => []
  | r :: rs =>
    let start := now + r.slack
    let stop := start + r.duration
    let t := { t with lastAttempt := start }
    let p := t.processResult (stop + r.slack2) r.result
    [.attempt start t.currentAddr, .state start .connected, .result stop r.result] ++
      (p.2.1.map (REv.state (stop + r.slack2))).toList ++
      match p.2.2 with
      | .sleep d => p.1.run (stop + r.slack2 + d) rs
      | .halt => []
      | .exit code => [.exit code]

end Verif.Reconnect
