import Verif.Model.Text
import Verif.Model.Map
import Verif.Model.Wire
/-!
# Model of the service table

Source: /repo/src/svc_table/mod.rs. The clock (`get_utc_timestamp`, lines 72-75) is an argument of every
operation that reads it, in seconds as an `i64`. The hash function of the crate `farmhash` is the
parameter `farm`. Every operation locks the table (lines 549-680), so operations are atomic. A panic is
the result `none` (`.panic` where there are also errors).
-/
namespace Verif.SvcTable
open Verif

/-- `ACTIVE_THRESHOLD` (mod.rs:36). -/
def activeThreshold : Int64 := 1200

/-- The discriminants of `enum ServiceType` (service.rs:31-53), which the derived `Hash` writes as `u32`. -/
def discriminant : ServiceType → UInt32
  | .controlProtocol => 0
  | .rtsp => 1
  | .lockedRtsp => 2
  | .unknownRtsp => 3
  | .unsupportedRtsp => 4
  | .http => 5
  | .mjpeg => 6
  | .lockedMjpeg => 7
  | .tcp => 8

/-- `Hasher::write_u32` (native byte order; little-endian here) (the standard library; used by `Hash` in svc_table/mod.rs and service.rs). -/
def le32 (v : UInt32) : Bytes := (be32 v).reverse
/-- `Hasher::write_u16` (the standard library; used by `Hash` in svc_table/mod.rs and service.rs). -/
def le16 (v : UInt16) : Bytes := (be16 v).reverse

/-- `impl Hash for StableHashOption` (service.rs:258-274). -/
def hashOption {α : Type} (f : α → Bytes) : Option α → Bytes
  | some v => le32 1 ++ f v
  | none => le32 0

/-- `impl Hash for MacAddr` (ether/mod.rs:88-103). -/
def hashMac (m : MacAddr) : Bytes := le32 6 ++ m.octets

/-- `impl Hash for StableHashString` (service.rs:305-313). -/
def hashString (s : Bytes) : Bytes := s ++ [0xff]

/-- The bytes the derived `Hash` of `ServiceIdentifier` (service.rs:72-79) gives to the hasher. -/
def hashInput (k : ServiceIdentifier) : Bytes :=
  le32 (discriminant k.svcType) ++ hashOption hashMac k.mac ++ hashOption le16 k.port ++
    hashOption hashString k.path

/-- `stable_hash(..) as u16` (mod.rs:63-70, 362). -/
def hash16 (farm : Bytes → UInt64) (k : ServiceIdentifier) : UInt16 := (farm (hashInput k)).toUInt16

/-- `struct ServiceTableElement` (mod.rs:107-120). -/
structure Elem where
  id : UInt16
  service : Service
  static : Bool
  enabled : Bool
  lastSeen : Int64
  active : Bool
deriving DecidableEq

/-- `ServiceTableElement::new` (mod.rs:130-139). -/
def Elem.new (now : Int64) (id : UInt16) (s : Service) (static enabled : Bool) : Elem :=
  { id := id, service := s, static := static, enabled := enabled, lastSeen := now, active := true }

/-- `ServiceTableElement::is_visible` (mod.rs:142-148). -/
def Elem.visible (e : Elem) : Bool := if e.static then e.enabled else e.active

/-- `ServiceTableElement::update` (mod.rs:151-155). -/
def Elem.update (now : Int64) (e : Elem) (s : Service) (enabled : Bool) : Elem :=
  { e with service := s, enabled := enabled, lastSeen := now }

/-- `ServiceTableElement::update_active_flag` (mod.rs:158-160). The addition wraps (release build). -/
def Elem.updateActive (e : Elem) (now : Int64) : Elem :=
  { e with active := decide (now ≤ e.lastSeen + activeThreshold) }

/-- `struct ServiceTableData` (mod.rs:277-283). -/
structure Table where
  idMap : AMap ServiceIdentifier UInt16
  svcMap : AMap UInt16 Elem
  version : UInt32
  visVersion : UInt32
deriving DecidableEq

/-- `ServiceTableData::new` (mod.rs:287-303 with 125-127). -/
def Table.new (now : Int64) : Table :=
  let e := Elem.new now 0 .control true true
  { idMap := AMap.insert [] e.service.toIdentifier e.id, svcMap := AMap.insert [] e.id e
    version := 0, visVersion := 0 }

/-- `ServiceTableData::get` (mod.rs:321-331). -/
def Table.get (t : Table) (id : UInt16) : Option Service :=
  match t.svcMap.get id with
  | some e => if e.visible || e.service.isControl then some e.service else none
  | none => none

/-- `ServiceTableData::get_id` (mod.rs:335-347); `none` is the panic "broken service table". -/
def Table.getId (t : Table) (k : ServiceIdentifier) : Option (Option UInt16) :=
  match t.idMap.get k with
  | some id =>
    match t.svcMap.get id with
    | some e => some (if e.visible || e.service.isControl then some id else none)
    | none => none
  | none => some none

/-- `ServiceTableData::visible` (mod.rs:350-357, 505-533). -/
def Table.visible (t : Table) : List (UInt16 × Service) :=
  ((t.svcMap.map (·.2)).filter (fun e => e.visible && !e.service.isControl)).map
    (fun e => (e.id, e.service))

/-- The search for a free id (mod.rs:379-387); `none` is the panic "service table is full". The bound on
the number of rounds is never reached (`probe_none`). -/
def probe (m : AMap UInt16 Elem) (start : UInt16) : Nat → UInt16 → Option UInt16
  | 0, _ => none
  | n + 1, cur =>
    if (m.get cur).isSome then
      if cur + 1 = start then none else probe m start n (cur + 1)
    else some cur

/-- `add_element` (mod.rs:378-397). -/
def Table.addElement (t : Table) (e : Elem) : Option (Table × UInt16) :=
  match probe t.svcMap e.id 65536 e.id with
  | none => none
  | some id =>
    some ({ t with
      idMap := t.idMap.insert e.service.toIdentifier id
      svcMap := t.svcMap.insert id { e with id := id } }, id)

/-- `add_service` (mod.rs:360-375). -/
def Table.addService (farm : Bytes → UInt64) (now : Int64) (t : Table) (s : Service)
    (static enabled : Bool) : Option (Table × UInt16) :=
  let key := s.toIdentifier
  if (t.idMap.get key).isSome then none
  else
    let e := Elem.new now (hash16 farm key) s static enabled
    let t := if e.visible then { t with visVersion := t.visVersion + 1 } else t
    { t with version := t.version + 1 }.addElement e

/-- `update_element` (mod.rs:400-419). -/
def Table.updateElement (now : Int64) (t : Table) (id : UInt16) (s : Service) (enabled : Bool) :
    Option (Table × UInt16) :=
  match t.svcMap.get id with
  | none => none
  | some e =>
    let change := decide (e.service ≠ s)
    let e' := e.update now s enabled
    let t := { t with svcMap := t.svcMap.insert id e' }
    let t := if change then { t with version := t.version + 1 } else t
    let t := if e.visible ≠ e'.visible || (e'.visible && change) then
        { t with visVersion := t.visVersion + 1 }
      else t
    some (t, id)

/-- `update` (mod.rs:422-432). -/
def Table.update (farm : Bytes → UInt64) (now : Int64) (t : Table) (s : Service)
    (static enabled : Bool) : Option (Table × UInt16) :=
  match t.idMap.get s.toIdentifier with
  | some id => t.updateElement now id s enabled
  | none => t.addService farm now s static enabled

/-- `SharedServiceTable::add` (mod.rs:571-573). -/
def Table.add (farm : Bytes → UInt64) (now : Int64) (t : Table) (s : Service) :
    Option (Table × UInt16) := t.update farm now s false true

/-- `SharedServiceTable::add_static` (mod.rs:576-578). -/
def Table.addStatic (farm : Bytes → UInt64) (now : Int64) (t : Table) (s : Service) :
    Option (Table × UInt16) := t.update farm now s true true

/-- The loop of `update_active_services` (mod.rs:434-445). -/
def activeLoop (now : Int64) : List (UInt16 × Elem) → UInt32 → List (UInt16 × Elem) × UInt32
  | [], v => ([], v)
  | (i, e) :: l, v =>
    let e' := e.updateActive now
    let r := activeLoop now l (if e.visible ≠ e'.visible then v + 1 else v)
    ((i, e') :: r.1, r.2)

/-- `update_active_services` (mod.rs:435-445). -/
def Table.updateActive (now : Int64) (t : Table) : Table :=
  let r := activeLoop now t.svcMap t.visVersion
  { t with svcMap := r.1, visVersion := r.2 }

/-! ## JSON -/

/-- `Display` and `FromStr` of `std::net::SocketAddr` (standard library). -/
structure AddrText where
  format : SocketAddr → Bytes
  parse : Bytes → Option SocketAddr

/-- `impl ToJson for ServiceTableElement` (mod.rs:168-190). -/
def Elem.toJson (A : AddrText) (e : Elem) : Json :=
  .obj [
    (asc "id", .num e.id.toNat),
    (asc "svc_type", .num e.service.svcType.code.toNat),
    (asc "mac", .str (e.service.mac.getD .zero).format),
    (asc "address", .str (A.format (e.service.address.getD ⟨.v4 0 0 0 0, 0⟩))),
    (asc "path", .str (e.service.path.getD [])),
    (asc "static_svc", .bool e.static),
    (asc "last_seen", .num e.lastSeen.toInt),
    (asc "active", .bool e.active)]

/-- The service of a JSON entry (mod.rs:200-247). -/
def serviceFromJson (A : AddrText) (l : List (Bytes × Json)) : Option Service := do
  let ty ← (Json.field l (asc "svc_type")).bind Json.asU16
  let mac ← (Json.field l (asc "mac")).bind Json.asStr
  let address ← (Json.field l (asc "address")).bind Json.asStr
  let path ← (Json.field l (asc "path")).bind Json.asStr
  let opath := if path.isEmpty then none else some path
  if ty = 0 then some .control
  else if ty = 1 then some (.rtsp (← MacAddr.parse mac) (← A.parse address) (opath.getD []))
  else if ty = 2 then some (.lockedRtsp (← MacAddr.parse mac) (← A.parse address) opath)
  else if ty = 3 then some (.unknownRtsp (← MacAddr.parse mac) (← A.parse address))
  else if ty = 4 then some (.unsupportedRtsp (← MacAddr.parse mac) (← A.parse address) (opath.getD []))
  else if ty = 5 then some (.http (← MacAddr.parse mac) (← A.parse address))
  else if ty = 6 then some (.mjpeg (← MacAddr.parse mac) (← A.parse address) (opath.getD []))
  else if ty = 7 then some (.lockedMjpeg (← MacAddr.parse mac) (← A.parse address) opath)
  else if ty = 0xffff then some (.tcp (← MacAddr.parse mac) (← A.parse address))
  else none

/-- `impl FromJson for ServiceTableElement` (mod.rs:192-274); `none` is an error. -/
def Elem.fromJson (A : AddrText) (now : Int64) : Json → Option Elem
  | .obj l => do
    let s ← serviceFromJson A l
    some {
      id := ((Json.field l (asc "id")).bind Json.asU16).getD 0
      service := s
      static := ((Json.field l (asc "static_svc")).bind Json.asBool).getD false
      enabled := false
      lastSeen := ((Json.field l (asc "last_seen")).bind Json.asI64).getD now
      active := ((Json.field l (asc "active")).bind Json.asBool).getD true }
  | _ => none

/-- `impl ToJson for ServiceTableData` (mod.rs:448-461). -/
def Table.toJson (A : AddrText) (t : Table) : Json :=
  .obj [(asc "services",
    .arr (((t.svcMap.map (·.2)).filter (fun e => !e.service.isControl)).map (Elem.toJson A)))]

/-- The loop over the entries (mod.rs:481-493). -/
def loadLoop (A : AddrText) (now : Int64) : List Json → Nat → Table → Wire.Res Table
  | [], _, t => .ok t
  | j :: js, index, t =>
    match Elem.fromJson A now j with
    | none => .err
    | some e =>
      let e := if j.hasKey (asc "id") then e else { e with id := UInt16.ofNat (index + 1) }
      match t.addElement e with
      | none => .panic
      | some (t, _) => loadLoop A now js (index + 1) t

/-- `impl FromJson for ServiceTableData` (mod.rs:463-497). The clock is read once. -/
def Table.fromJson (A : AddrText) (now : Int64) : Json → Wire.Res Table
  | .obj l =>
    match Json.field l (asc "services") with
    | some (.arr svcs) => loadLoop A now svcs 0 (Table.new now)
    | _ => .err
  | _ => .err

/-! ## Histories -/

/-- The public operations that change a table (mod.rs:571-583), with the time at which they run. -/
inductive TOp where
  | add (now : Int64) (s : Service)
  | addStatic (now : Int64) (s : Service)
  | updateActive (now : Int64)

/-- One operation (svc_table/mod.rs:549-680, by the definitions above). -/
def Table.step (farm : Bytes → UInt64) (t : Table) : TOp → Option Table
  | .add now s => (t.add farm now s).map (·.1)
  | .addStatic now s => (t.addStatic farm now s).map (·.1)
  | .updateActive now => some (t.updateActive now)

/-- A history; `none` if some operation panics (a sequence of operations; svc_table/mod.rs:549-680). -/
def Table.run (farm : Bytes → UInt64) (t : Table) : List TOp → Option Table
  | [] => some t
  | op :: ops =>
    match t.step farm op with
    | some t => t.run farm ops
    | none => none

end Verif.SvcTable
