import Verif.Model.Text
/-!
# Model of connecting to the service

Source: /repo/src/net/tls.rs (322-374) and /repo/src/net/arrow/mod.rs (671-699); the combinators `then`, `buffered`,
`filter_map` and `next` of the crate `futures`.

Time is counted in milliseconds from the end of the name lookup, and the task is polled in every millisecond. How long a
connection attempt takes, and whether it is accepted, is an input.
-/
namespace Verif.Tls
open Verif

/-- What an attempt to connect to an address yields (tls.rs:341, `TcpStream::connect`): after how long it is answered (`none`
is never), and whether it is accepted. -/
structure Attempt where
  delay : Option Nat
  ok : Bool
deriving DecidableEq

/-- An attempt in the queue of `buffered` (tls.rs:342): the number of the address, when it is answered, and how. -/
structure InFlight where
  idx : Nat
  doneAt : Option Nat
  ok : Bool
deriving DecidableEq

/-- The stream of sockets (tls.rs:331-343): the addresses that were not yet emitted by `then`, the end of the sleep before the
next one (if it is sleeping), the queue of `buffered`, and when attempts were started. -/
structure Race where
  source : List (Nat × Attempt)
  sleep : Option Nat
  queue : List InFlight
  started : List (Nat × Nat)

/-- `enumerate` (tls.rs:329): the addresses are numbered from 0. -/
def enumerate (k : Nat) : List Attempt → List (Nat × Attempt)
  | [] => []
  | a :: l => (k, a) :: enumerate (k + 1) l

/-- The stream at the beginning (tls.rs:331). -/
def Race.new (l : List Attempt) : Race := ⟨enumerate 0 l, none, [], []⟩

/-- Polling `then` (tls.rs:332-340): all but the first address are delayed by 1 s. -/
def pollThen (t : Nat) (r : Race) : Race × Option (Nat × Attempt) :=
  match r.source with
  | [] => (r, none)
  | (i, a) :: rest =>
    match r.sleep with
    | some u => if u ≤ t then ({ r with source := rest, sleep := none }, some (i, a)) else (r, none)
    | none => if i > 0 then ({ r with sleep := some (t + 1000) }, none) else ({ r with source := rest }, some (i, a))

/-- The first loop of `buffered(4)` (tls.rs:341-342): attempts are started while there are less than four in the queue. -/
def fill (t : Nat) : Nat → Race → Race
  | 0, r => r
  | n + 1, r =>
    if r.queue.length < 4 then
      match pollThen t r with
      | (r, some (i, a)) =>
        fill t n { r with queue := r.queue ++ [⟨i, a.delay.map (t + ·), a.ok⟩], started := r.started ++ [(i, t)] }
      | (r, none) => r
    else r

/-- Polling `sockets.next()` (tls.rs:342-350): the results are taken in the order of the queue; those that are errors are
skipped. `none` is pending, `some none` the end of the stream, `some (some i)` the socket of the address `i`. -/
def poll (t : Nat) : Nat → Race → Race × Option (Option Nat)
  | 0, r => (r, none)
  | n + 1, r =>
    let r := fill t r.source.length r
    match r.queue with
    | [] => if r.source.isEmpty then (r, some none) else (r, none)
    | f :: q =>
      match f.doneAt with
      | none => (r, none)
      | some d =>
        if d ≤ t then
          if f.ok then ({ r with queue := q }, some (some f.idx))
          else poll t n { r with queue := q }
        else (r, none)

/-- The rounds of the loop of `filter_map` in one poll (tls.rs:343): at most one per address that is left. -/
def rounds (r : Race) : Nat := r.source.length + r.queue.length + 1

/-- The stream and its result after the poll at time `t` (tls.rs:347-350). -/
def race (l : List Attempt) : Nat → Race × Option (Option Nat)
  | 0 => poll 0 (rounds (Race.new l)) (Race.new l)
  | t + 1 =>
    match race l t with
    | (r, none) => poll (t + 1) (rounds r) r
    | done => done

/-- The first time up to `m` at which there is a result, with the result (tls.rs:347-350). -/
def firstDone (l : List Attempt) (m : Nat) : Option (Nat × Option Nat) :=
  (List.range (m + 1)).findSome? fun t => (race l t).2.map fun x => (t, x)

/-- What the network does during a call of `connect` (tls.rs:329, 347, 354-373): how long the lookup takes and what it yields
(`none` is an error), and for each address how long the TLS handshake takes and whether it succeeds. -/
structure Net where
  lookup : Option Nat
  addrs : Option (List Attempt)
  handshake : Nat → Attempt

/-- How connecting ends (net/arrow/mod.rs:685-699). -/
inductive Outcome where
  | connected (idx : Nat)
  | lookupFailed
  | unreachable
  | tlsFailed (idx : Nat)
  | timeout
deriving DecidableEq

/-- `CONNECTION_TIMEOUT` (net/arrow/mod.rs:52), in milliseconds. -/
def limit : Nat := 20000

/-- `TlsConnector::connect` with the timeout (tls.rs:322-374, net/arrow/mod.rs:685-699): the outcome and its time. The future
is polled before the timeout, so that what happens at 20 s is in time. -/
def connect (n : Net) : Outcome × Nat :=
  match n.lookup with
  | none => (.timeout, limit)
  | some l =>
    if l ≤ limit then
      match n.addrs with
      | none => (.lookupFailed, l)
      | some as =>
        match firstDone as (limit - l) with
        | none => (.timeout, limit)
        | some (t, none) => (.unreachable, l + t)
        | some (t, some i) =>
          match (n.handshake i).delay with
          | none => (.timeout, limit)
          | some d =>
            if l + t + d ≤ limit then (if (n.handshake i).ok then .connected i else .tlsFailed i, l + t + d)
            else (.timeout, limit)
    else (.timeout, limit)

/-- The position of the last colon (tls.rs:323, `rfind`). -/
def rfind (a : Bytes) : Option Nat :=
  if 58 ∈ a then some (a.length - 1 - (a.reverse.takeWhile (· ≠ 58)).length) else none

/-- The name the certificate of the server is checked for (tls.rs:323-327). -/
def hostname (a : Bytes) : Bytes :=
  match rfind a with
  | some i => a.take i
  | none => a

end Verif.Tls
