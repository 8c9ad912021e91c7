import Verif.Model.Control
import Verif.Model.Map
/-!
# Model of the scan result and of the duplicate filter

Source: /repo/src/scanner/result/mod.rs, /repo/src/scanner/result/host.rs, /repo/src/scanner/discovery.rs
lines 196-210 and 586-621. Hash sets and hash maps are lists; their iteration order is not specified by the standard
library, and the theorems do not depend on it.
-/
namespace Verif.Scan
open Verif Control

/-- `HostRecord::new` (host.rs:36-43). -/
def newHost (mac : MacAddr) (ip : IpAddr) (flags : UInt8) : HostRecord := ⟨flags, mac, ip, []⟩

/-- `HostRecord::add_port` (host.rs:46-48): insertion into a set. -/
def hostAddPort (h : HostRecord) (p : UInt16) : HostRecord :=
  if p ∈ h.ports then h else { h with ports := h.ports ++ [p] }

/-- `HostRecord::add_ports` (host.rs:51-56). -/
def hostAddPorts (h : HostRecord) (ps : List UInt16) : HostRecord := ps.foldl hostAddPort h

/-- `HostRecord::socket_addrs` (host.rs:64-66, 97-130). -/
def hostSocketAddrs (h : HostRecord) : List (MacAddr × SocketAddr) := h.ports.map (fun p => (h.mac, ⟨h.ip, p⟩))

/-- `struct ScanResult` (result/mod.rs:29-37). -/
structure ScanResult where
  hosts : AMap (MacAddr × IpAddr) HostRecord
  services : AMap ServiceIdentifier Service

/-- `ScanResult::new` (result/mod.rs:39-42). -/
def ScanResult.new : ScanResult := ⟨[], []⟩

/-- `ScanResult::add_host` (result/mod.rs:44-53). -/
def ScanResult.addHost (r : ScanResult) (mac : MacAddr) (ip : IpAddr) (flags : UInt8) : ScanResult :=
  match AMap.get r.hosts (mac, ip) with
  | some h => { r with hosts := AMap.insert r.hosts (mac, ip) { h with flags := h.flags ||| flags } }
  | none => { r with hosts := AMap.insert r.hosts (mac, ip) (newHost mac ip flags) }

/-- `ScanResult::add_port` (result/mod.rs:55-67). -/
def ScanResult.addPort (r : ScanResult) (mac : MacAddr) (ip : IpAddr) (port : UInt16) : ScanResult :=
  let hosts := match AMap.get r.hosts (mac, ip) with
    | some _ => r.hosts
    | none => AMap.insert r.hosts (mac, ip) (newHost mac ip 0)
  match AMap.get hosts (mac, ip) with
  | some h => { r with hosts := AMap.insert hosts (mac, ip) (hostAddPort h port) }
  | none => { r with hosts := hosts }

/-- `ScanResult::add_service` (result/mod.rs:69-72). -/
def ScanResult.addService (r : ScanResult) (s : Service) : ScanResult :=
  { r with services := AMap.insert r.services s.toIdentifier s }

/-- One round of the loop of `merge` (result/mod.rs:89-101). -/
def mergeHost (hosts : AMap (MacAddr × IpAddr) HostRecord) (e : (MacAddr × IpAddr) × HostRecord) :
    AMap (MacAddr × IpAddr) HostRecord :=
  match AMap.get hosts e.1 with
  | some h =>
    let h := hostAddPorts h e.2.ports
    AMap.insert hosts e.1 { h with flags := h.flags ||| e.2.flags }
  | none => AMap.insert hosts e.1 e.2

/-- `ScanResult::merge` (result/mod.rs:89-101). -/
def ScanResult.merge (r o : ScanResult) : ScanResult :=
  { hosts := o.hosts.foldl mergeHost r.hosts
    services := o.services.foldl (fun m e => AMap.insert m e.1 e.2) r.services }

/-- `ScanResult::hosts` (result/mod.rs:76-78, 106-124). -/
def ScanResult.hostRecords (r : ScanResult) : List HostRecord := r.hosts.map (·.2)

/-- `ScanResult::socket_addrs` (result/mod.rs:81-83, 161-199): the addresses of the first host, then those of the
next one, until there is no host left. -/
def ScanResult.socketAddrs (r : ScanResult) : List (MacAddr × SocketAddr) := r.hostRecords.flatMap hostSocketAddrs

/-- `ScanResult::services` (result/mod.rs:86-88, 132-150). -/
def ScanResult.serviceList (r : ScanResult) : List Service := r.services.map (·.2)

/-! ## The duplicate filter -/

/-- The loop of `get_port_priorities` (discovery.rs:205-207): the ports left, the index of the first of them, and
the number of all ports. -/
def prioritiesFrom (len : Nat) : Nat → List UInt16 → AMap UInt16 Nat → AMap UInt16 Nat
  | _, [], m => m
  | i, p :: ps, m => prioritiesFrom len (i + 1) ps (AMap.insert m p (len - i))

/-- `get_port_priorities` (discovery.rs:200-210). -/
def getPortPriorities (ports : List UInt16) : AMap UInt16 Nat := prioritiesFrom ports.length 0 ports []

/-- One round of the loop of `filter_duplicit_services` (discovery.rs:594-610). -/
def filterStep (prio : AMap UInt16 Nat) (m : AMap IpAddr (MacAddr × UInt16)) (s : MacAddr × SocketAddr) :
    AMap IpAddr (MacAddr × UInt16) :=
  match AMap.get m s.2.ip with
  | some old =>
    if ((AMap.get prio s.2.port).getD 0) > ((AMap.get prio old.2).getD 0) then
      AMap.insert m s.2.ip (s.1, s.2.port)
    else m
  | none => AMap.insert m s.2.ip (s.1, s.2.port)

/-- `filter_duplicit_services` (discovery.rs:586-621). -/
def filterDuplicit (l : List (MacAddr × SocketAddr)) (prio : AMap UInt16 Nat) : List (MacAddr × SocketAddr) :=
  (l.foldl (filterStep prio) []).map (fun e => (e.2.1, ⟨e.1, e.2.2⟩))

end Verif.Scan
