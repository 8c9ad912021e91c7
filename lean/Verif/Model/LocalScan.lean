import Verif.Model.Discovery
import Verif.Model.RawScan
/-!
# Model of a scan of the local networks

Source: /repo/src/scanner/discovery.rs with the raw scanners of /repo/src/net/raw.

Puts the model of the discovery (`Verif.Model.Discovery`), in which the raw scanners are parameters, together with the
model of the raw scanners (`Verif.Model.RawScan`).
-/
namespace Verif.LocalScan
open Verif Verif.Raw Verif.Discovery Verif.Scan

/-- `struct EthernetDevice` (devices/mod.rs:42-47). -/
structure Iface where
  name : Bytes
  dev : EtherDev

/-- What happens on an interface while it is scanned (discovery.rs:330-350): one run for each of the scanners. A run that
is not reached does not matter. -/
structure Act where
  arp : Raw.Run
  icmp : Raw.Run
  tcp : Raw.Run

/-- The operator `?` (discovery.rs:330, 340, 385). A scanner that is still running and an abort end the scan here, too:
nothing is done after them. -/
def got {α : Type} : Option (Wire.Res α) → Option α
  | some (.ok x) => some x
  | _ => none

/-- An interface as the discovery sees it (discovery.rs:319-392). -/
def device (w : Nat) (x : Iface × Act) : Device :=
  ⟨x.1.name, got (arpScan w x.2.arp), got (icmpScan w x.1.dev x.2.icmp), fun _ _ => got (tcpScan w x.2.tcp)⟩

/-- The hosts of the TCP scan (discovery.rs:330-347, 376-379). -/
def tcpHosts (arp icmp : List (MacAddr × Ip4)) : List (MacAddr × Ip4) :=
  let report := arp.foldl (fun r x => r.addHost x.1 x.2.toIp 1) ScanResult.new
  let report := icmp.foldl (fun r x => r.addHost x.1 x.2.toIp 2) report
  ipv4Hosts (report.hostRecords.map (fun h => (h.mac, h.ip)))

/-- `PortCollection::new().push_all(candidates)` (discovery.rs:381-383, tcp.rs:259-290). -/
def tcpPorts : List PortRange := portCandidates.map PortRange.single

/-- What `send_packets` writes in a run (pcap/mod.rs:341-352). -/
def Writes {σ : Type} (run : Raw.Run) (next : σ → Option (Bytes × σ)) (start : σ) (l : List Bytes) : Prop :=
  if run.sendOpened = true then Sends next start l run.sent else l = []

/-- The frames that are written on an interface by `find_open_ports_in_network` (discovery.rs:319-358): those of the ARP
scan, those of the ICMP scan if the ARP scan succeeds, and those of the TCP scan if the ICMP scan succeeds. -/
def Frames (w : Nat) (x : Iface × Act) (l : List Bytes) : Prop :=
  ∃ l1 l2 l3, l = l1 ++ l2 ++ l3 ∧ Writes x.2.arp (arpNext x.1.dev) (HostGen.start x.1.dev) l1 ∧
    match got (arpScan w x.2.arp) with
    | none => l2 = [] ∧ l3 = []
    | some arp =>
      Writes x.2.icmp (icmpNext x.1.dev) (HostGen.start x.1.dev) l2 ∧
      match got (icmpScan w x.1.dev x.2.icmp) with
      | none => l3 = []
      | some icmp =>
        Writes x.2.tcp (tcpNext x.1.dev scanPort tcpPorts) (TcpGen.new (tcpHosts arp icmp) tcpPorts) l3

/-- `scan_network` (discovery.rs:93-145) on a machine with the given interfaces. -/
def scan (w : Nat) (E : Env) (ifaces : List (Iface × Act)) (answer : Probe → Option (List Bytes))
    (whitelist rtspPaths mjpegPaths : List Bytes) : Wire.Res ScanResult :=
  scanNetwork E ⟨ifaces.map (device w), answer⟩ whitelist rtspPaths mjpegPaths

/-- The frames that are written on the interfaces, one list for each of them: `find_open_ports` (discovery.rs:289-316)
takes those of the whitelist, or all if it is empty. -/
def Sent (w : Nat) (whitelist : List Bytes) (x : Iface × Act) (l : List Bytes) : Prop :=
  if whitelist = [] ∨ x.1.name ∈ whitelist then Frames w x l else l = []

end Verif.LocalScan
