import Verif.Model.SvcTable
/-!
# Vocabulary for the properties of the service table
-/
namespace Verif.Spec.SvcTable
open Verif Verif.SvcTable

/-- The service a JSON entry describes. -/
def serviceOf (A : AddrText) : Json → Option Service
  | .obj l => serviceFromJson A l
  | _ => none

/-- The entries of a saved table. -/
def entries : Json → List Json
  | .obj l =>
    match Json.field l (asc "services") with
    | some (.arr a) => a
    | _ => []
  | _ => []

/-- A saved table describes no service twice and does not contain the control service. -/
def Distinct (A : AddrText) (j : Json) : Prop :=
  ((entries j).filterMap (serviceOf A)).Pairwise (fun a b => a.toIdentifier ≠ b.toIdentifier) ∧
  ∀ s ∈ (entries j).filterMap (serviceOf A), s.isControl = false

/-- Tables the program can start with: an empty one, or one loaded from a file without duplicates. -/
inductive Start (A : AddrText) : Table → Prop
  | new (now : Int64) : Start A (Table.new now)
  | loaded (j : Json) (now : Int64) (t : Table) (hd : Distinct A j) (hl : Table.fromJson A now j = .ok t) :
      Start A t

/-- An addition made by an operation: static or not, the time, the service. -/
def added : TOp → Option (Bool × Int64 × Service)
  | .add now s => some (false, now, s)
  | .addStatic now s => some (true, now, s)
  | .updateActive _ => none

/-- All services added are values of the public type `Service`. -/
def Services (ops : List TOp) : Prop := ∀ op ∈ ops, ∀ a, added op = some a → a.2.2.Constructible

/-- Tables that can arise. -/
def Reachable (farm : Bytes → UInt64) (A : AddrText) (t : Table) : Prop :=
  ∃ t0 ops, Start A t0 ∧ Services ops ∧ t0.run farm ops = some t

/-- The additions of the services with identity `k`, oldest first. -/
def adds (k : ServiceIdentifier) (ops : List TOp) : List (Bool × Int64 × Service) :=
  (ops.filterMap added).filter (fun a => a.2.2.toIdentifier = k)

/-- How many changes of visibility an operation can make: adding one, expiry one per id. -/
def cost : TOp → Nat
  | .add .. => 1
  | .addStatic .. => 1
  | .updateActive _ => 65536

def costs (ops : List TOp) : Nat := (ops.map cost).sum

/-- The same services are visible, under the same ids. -/
def SameVisible (t t' : Table) : Prop := ∀ p, p ∈ t.visible ↔ p ∈ t'.visible

/-- The service with an id, visible or not. -/
def known (t : Table) (id : UInt16) : Option Service := (t.svcMap.get id).map (·.service)

/-- What is saved about the service with an id: the service, the static flag, when it was last seen, and
whether it is active. -/
def saved (t : Table) (id : UInt16) : Option (Service × Bool × Int64 × Bool) :=
  (t.svcMap.get id).map (fun e => (e.service, e.static, e.lastSeen, e.active))

/-- Reading a formatted address gives the address back (a fact about the standard library). -/
def AddrText.Faithful (A : AddrText) : Prop := ∀ a, A.parse (A.format a) = some a

/-- A locked service whose path is present but empty. -/
def EmptyLockedPath (s : Service) : Prop :=
  (s.svcType = .lockedRtsp ∨ s.svcType = .lockedMjpeg) ∧ s.path = some []

/-- Ids and services correspond to each other. -/
structure Consistent (t : Table) : Prop where
  /-- Looking up an id never panics. -/
  lookup : ∀ k, t.getId k ≠ none
  /-- The service of the id of a service is that service. -/
  idService : ∀ k i, t.getId k = some (some i) → ∃ s, t.get i = some s ∧ s.toIdentifier = k
  /-- The id of the service of an id is that id. -/
  serviceId : ∀ i s, t.get i = some s → t.getId s.toIdentifier = some (some i)
  /-- No two ids share a service identity. -/
  identity : ∀ i j s s', t.get i = some s → t.get j = some s' → s.toIdentifier = s'.toIdentifier → i = j
  /-- The visible services are exactly those that can be looked up, except for the control service. -/
  listed : ∀ i s, (i, s) ∈ t.visible ↔ t.get i = some s ∧ s.isControl = false
  /-- No id is listed twice. -/
  unique : (t.visible.map (·.1)).Nodup

/-- Adding a service, static or not. -/
def addAs (farm : Bytes → UInt64) (t : Table) (static : Bool) (now : Int64) (s : Service) :
    Option (Table × UInt16) :=
  if static then t.addStatic farm now s else t.add farm now s

/-- A number in four bytes, the lowest first. -/
def fourBytes (n : Nat) : Bytes :=
  [UInt8.ofNat (n % 256), UInt8.ofNat (n / 256 % 256), UInt8.ofNat (n / 65536 % 256), UInt8.ofNat (n / 16777216 % 256)]

/-- The typeOrder of services, in the order of their numbers in an identity. -/
def typeOrder : List ServiceType :=
  [.controlProtocol, .rtsp, .lockedRtsp, .unknownRtsp, .unsupportedRtsp, .http, .mjpeg, .lockedMjpeg, .tcp]

/-- The bytes of the identity of a service from which its id is chosen. They must be the same in every version of the
program and on every machine: the number of its kind; then MAC address, port and path, each after a 1, or a 0 if there
is none. The address is preceded by its length; the port has its low byte first; 255 ends the path. -/
def identityBytes (k : ServiceIdentifier) : Bytes :=
  fourBytes (typeOrder.idxOf k.svcType) ++
  (match k.mac with
    | some a => fourBytes 1 ++ fourBytes 6 ++ [a.b0, a.b1, a.b2, a.b3, a.b4, a.b5]
    | none => fourBytes 0) ++
  (match k.port with
    | some p => fourBytes 1 ++ [UInt8.ofNat (p.toNat % 256), UInt8.ofNat (p.toNat / 256)]
    | none => fourBytes 0) ++
  (match k.path with
    | some s => fourBytes 1 ++ s ++ [255]
    | none => fourBytes 0)

/-- A service, visible or not, has this id. -/
def taken (t : Table) (id : UInt16) : Bool := (known t id).isSome

/-- `id` is the first id from `p` on, after 65535 going on with 0, that no service of the table has. -/
def FirstFree (t : Table) (p : Nat) (id : UInt16) : Prop :=
  ∃ d, d < 65536 ∧ id = UInt16.ofNat (p + d) ∧ taken t id = false ∧ ∀ d', d' < d → taken t (UInt16.ofNat (p + d')) = true

end Verif.Spec.SvcTable
