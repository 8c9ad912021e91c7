import Verif.Model.SvcTable
/-!
# Model of the service table in the C interface

Source: /repo/src/exports/svc_table.rs and the callers in /repo/src/client.rs (lines 378-390) and /repo/src/exports/mod.rs
(lines 232-240). A buffer or a C string is the list of the bytes in memory from a pointer on. Lifetimes of the objects (free)
are left out. `none` is a panic, which aborts the process.
-/
namespace Verif.Exports
open Verif.SvcTable

/-- `NativeService` (exports/svc_table.rs:54-61). The path is in memory with its terminating NUL. -/
structure NativeService where
  serviceId : UInt16
  serviceType : UInt16
  macAddress : MacAddr
  ipAddress : IpAddr
  port : UInt16
  path : Option Bytes
deriving DecidableEq

/-- `CString::new(..).unwrap()` (exports/svc_table.rs:65-69, the standard library): a NUL in the text is an error. -/
def cstring (s : Bytes) : Option Bytes := if 0 ∈ s then none else some (s ++ [0])

/-- The path of a service as a C string (exports/svc_table.rs:65-69). -/
def nativePath : Option Bytes → Option (Option Bytes)
  | none => some none
  | some p => (cstring p).map some

/-- `NativeService::new` (exports/svc_table.rs:64-80). -/
def NativeService.new (id : UInt16) (s : Service) : Option NativeService :=
  match nativePath s.path with
  | none => none
  | some path =>
    match s.mac, s.address with
    | some mac, some a => some ⟨id, s.svcType.code, mac, a.ip, a.port, path⟩
    | _, _ => none

/-- `NativeServiceTable::from` (exports/svc_table.rs:37-50). -/
def nativeTable : List (UInt16 × Service) → Option (List NativeService)
  | [] => some []
  | (id, s) :: l =>
    if s.isControl then nativeTable l
    else
      match NativeService.new id s with
      | none => none
      | some n =>
        match nativeTable l with
        | none => none
        | some ns => some (n :: ns)

/-- `ArrowClient::get_service_table` (client.rs:379-392). -/
def clientTable (t : Table) : List (UInt16 × Service) := t.visible.filter (fun x => !x.2.isControl)

/-- `ac__arrow_client__get_service_table` (exports/mod.rs:238-246). -/
def getServiceTable (t : Table) : Option (List NativeService) := nativeTable (clientTable t)

/-- `ac__service_table__get_service_count` (exports/svc_table.rs:90-94). -/
def serviceCount (t : List NativeService) : Nat := t.length

/-- `ac__service_table__get_service` (exports/svc_table.rs:97-105): a panic if the index is out of range. -/
def getService (t : List NativeService) (i : Nat) : Option NativeService := t[i]?

/-- `buffer.copy_from_slice(&data)` into the memory from a pointer on (exports/svc_table.rs:126-128, 149-159). -/
def copyTo (buffer data : Bytes) : Bytes := data ++ buffer.drop data.length

/-- `ac__service__get_mac_address` (exports/svc_table.rs:119-129). -/
def getMacAddress (s : NativeService) (buffer : Bytes) : Bytes := copyTo buffer s.macAddress.octets

/-- `ac__service__get_ip_version` (exports/svc_table.rs:131-135). -/
def getIpVersion (s : NativeService) : UInt8 := s.ipAddress.version

/-- `octets` of the standard library (exports/svc_table.rs:148, 154). -/
def ipOctets : IpAddr → Bytes
  | .v4 a b c d => [a, b, c, d]
  | .v6 s0 s1 s2 s3 s4 s5 s6 s7 =>
    be16 s0 ++ be16 s1 ++ be16 s2 ++ be16 s3 ++ be16 s4 ++ be16 s5 ++ be16 s6 ++ be16 s7

/-- `ac__service__get_ip_address` (exports/svc_table.rs:137-162): the buffer and the result. -/
def getIpAddress (s : NativeService) (buffer : Bytes) : Bytes × UInt8 :=
  (copyTo buffer (ipOctets s.ipAddress), s.ipAddress.version)

/-- `ac__service__get_path` (exports/svc_table.rs:170-178): NULL, or the memory from the pointer on. -/
def getPath (s : NativeService) : Option Bytes := s.path

end Verif.Exports
