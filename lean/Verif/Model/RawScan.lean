import Verif.Model.RawNet
/-!
# Model of the raw scanners

Source: /repo/src/net/raw/pcap/mod.rs and the modules `scanner` of /repo/src/net/raw/arp.rs, icmp.rs and tcp.rs.

The device (what it captures and when, whether it can be opened and written) is a parameter. The filter expression is a
text for the capture library and is left out, so any frame may be captured. A packet generator is a state with a function
to the next packet. A panic in the listener thread aborts the process (`panic = "abort"`, Cargo.toml:64).
-/
namespace Verif.Raw

/-- `struct EthernetDevice` (devices/mod.rs:42-47) without the name. -/
structure EtherDev where
  mac : MacAddr
  ip : Ip4
  mask : Ip4
deriving DecidableEq, Repr

/-! ## Sending and receiving -/

/-- `send_packets` (pcap/mod.rs:341-352) with an open device: the packets written and whether all writes succeeded. -/
inductive Sends {σ : Type} (next : σ → Option (Bytes × σ)) : σ → List Bytes → Bool → Prop
  | done {s : σ} (h : next s = none) : Sends next s [] true
  | written {s s' : σ} {p : Bytes} {l : List Bytes} {r : Bool} (h : next s = some (p, s')) (hl : Sends next s' l r) :
      Sends next s (p :: l) r
  | failed {s s' : σ} {p : Bytes} (h : next s = some (p, s')) : Sends next s [] false

/-- What `Capture::read_packet` returns (pcap/mod.rs:178-189). -/
inductive Read where
  | error
  | timeout
  | packet (data : Bytes)
deriving DecidableEq, Repr

/-- One round of the loop of `packet_listener` (pcap/mod.rs:316-335): what is read, and the clock, in milliseconds, at
the three places where it is looked at. -/
structure Round where
  read : Read
  /-- `last_packet_time = Instant::now()` -/
  now : Nat
  /-- `start_time.elapsed()` -/
  total : Nat
  /-- `last_packet_time.elapsed()` -/
  silence : Nat
deriving DecidableEq, Repr

/-- The state of the listener (pcap/mod.rs:292-338). -/
inductive Listen where
  /-- it waits for the next packet -/
  | running
  | finished (r : Wire.Res (List Frame))
deriving DecidableEq, Repr

/-- The conditions for the end of the loop (pcap/mod.rs:326-334). -/
def stops (packetTimeout : Nat) (totalTimeout : Option Nat) (start last : Nat) (r : Round) : Bool :=
  (match totalTimeout with
    | some t => decide (r.total - start > t)
    | none => false) || decide (r.silence - last > packetTimeout)

/-- The loop of `packet_listener` (pcap/mod.rs:316-337). -/
def listenLoop (w packetTimeout : Nat) (totalTimeout : Option Nat) (start : Nat) :
    Nat → List Frame → List Round → Listen
  | _, _, [] => .running
  | last, res, r :: rest =>
    match r.read with
    | .error => .finished .err
    | .timeout =>
      if stops packetTimeout totalTimeout start last r then .finished (.ok res)
      else listenLoop w packetTimeout totalTimeout start last res rest
    | .packet data =>
      let last := r.now
      match Frame.parse w data with
      | .panic => .finished .panic
      | .ok f =>
        if stops packetTimeout totalTimeout start last r then .finished (.ok (res ++ [f]))
        else listenLoop w packetTimeout totalTimeout start last (res ++ [f]) rest
      | .err =>
        if stops packetTimeout totalTimeout start last r then .finished (.ok res)
        else listenLoop w packetTimeout totalTimeout start last res rest

/-- `packet_listener` (pcap/mod.rs:292-338). `opened` is the outcome of `activate`, `start` and `last` the two readings of
the clock before the loop. -/
def packetListener (w packetTimeout : Nat) (totalTimeout : Option Nat) (opened : Bool) (start last : Nat)
    (rounds : List Round) : Listen :=
  if opened then listenLoop w packetTimeout totalTimeout start last [] rounds else .finished .err

/-- What a device does during a scan (pcap/mod.rs:251-352). -/
structure Run where
  /-- the listener opens the device -/
  opened : Bool
  start : Nat
  last : Nat
  rounds : List Round
  /-- the sender opens the device -/
  sendOpened : Bool
  /-- all packets are written -/
  sent : Bool

/-- `Scanner::sr` (pcap/mod.rs:251-279): `none` while the listener is running. If sending fails, the result of the
listener is dropped; a panic of the listener aborts the process nevertheless. -/
def sr (w : Nat) (packetTimeout : Nat) (totalTimeout : Option Nat) (run : Run) : Option (Wire.Res (List Frame)) :=
  match packetListener w packetTimeout totalTimeout run.opened run.start run.last run.rounds with
  | .finished .panic => some .panic
  | .running => if run.sendOpened && run.sent then none else some .err
  | .finished r => if run.sendOpened && run.sent then some r else some .err

/-! ## Hosts of a network -/

/-- The variables of the generator closures (arp.rs:237-239, icmp.rs:252-254). -/
structure HostGen where
  current : UInt32
  last : UInt32
deriving DecidableEq, Repr

/-- The start of the enumeration (arp.rs:234-239, icmp.rs:249-254). The addition wraps. -/
def HostGen.start (dev : EtherDev) : HostGen :=
  let mask := asU32 dev.mask
  let addr := asU32 dev.ip
  ⟨(addr &&& mask) + 1, addr ||| ~~~ mask⟩

/-- The broadcast address `bcast` (arp.rs:230, icmp.rs:246). -/
def bcast : MacAddr := ⟨0xff, 0xff, 0xff, 0xff, 0xff, 0xff⟩

/-- The generator of the ARP scanner (arp.rs:243-267). -/
def arpNext (dev : EtherDev) (g : HostGen) : Option (Bytes × HostGen) :=
  if g.current < g.last then
    let pdst := ofU32 g.current
    let arpp := Arp.ipv4 .request dev.mac dev.ip ⟨0, 0, 0, 0, 0, 0⟩ pdst
    let pkt := Frame.arp dev.mac bcast arpp
    some (pkt.bytes, { g with current := g.current + 1 })
  else none

/-- The generator of the ICMP scanner (icmp.rs:258-281). -/
def icmpNext (dev : EtherDev) (g : HostGen) : Option (Bytes × HostGen) :=
  if g.current < g.last then
    let icmpId := (g.current >>> 16).toUInt16
    let icmpSeq := (g.current &&& 0xff).toUInt16
    let pdst := ofU32 g.current
    let icmpp := Icmp.echoRequest icmpId icmpSeq []
    let ipp := Ip.icmp dev.ip pdst 64 icmpp
    let pkt := Frame.ipv4 dev.mac bcast ipp
    some (pkt.bytes, { g with current := g.current + 1 })
  else none

/-- The loop over the packets of the ARP scanner (arp.rs:278-289): `from_slice` asserts the lengths. -/
def arpHosts : List Frame → Wire.Res (List (MacAddr × Ip4))
  | [] => .ok []
  | f :: fs =>
    match f.body with
    | .arp p =>
      match macFromSlice p.sha, ip4FromSlice p.spa with
      | some sha, some spa =>
        match arpHosts fs with
        | .ok l => .ok ((sha, spa) :: l)
        | r => r
      | _, _ => .panic
    | _ => arpHosts fs

/-- The loop over the packets of the ICMP scanner (icmp.rs:295-312), with `mask` and `network` of icmp.rs:231-242. -/
def icmpHosts (dev : EtherDev) : List Frame → List (MacAddr × Ip4)
  | [] => []
  | f :: fs =>
    match f.body with
    | .ip p =>
      let mask := asU32 dev.mask
      let network := asU32 dev.ip &&& mask
      if asU32 p.header.src &&& mask = network then (f.header.src, p.header.src) :: icmpHosts dev fs
      else icmpHosts dev fs
    | _ => icmpHosts dev fs

/-- The timeouts of all scanners (arp.rs:274-275, icmp.rs:291-292, tcp.rs:390-391), in milliseconds. -/
def packetTimeout : Nat := 2000
def totalTimeout : Option Nat := some 20000

/-- `Ipv4ArpScanner::scan_device` (arp.rs:216-290). -/
def arpScan (w : Nat) (run : Run) : Option (Wire.Res (List (MacAddr × Ip4))) :=
  match sr w packetTimeout totalTimeout run with
  | none => none
  | some .panic => some .panic
  | some .err => some .err
  | some (.ok fs) => some (arpHosts fs)

/-- `IcmpScanner::scan_device` (icmp.rs:226-315). -/
def icmpScan (w : Nat) (dev : EtherDev) (run : Run) : Option (Wire.Res (List (MacAddr × Ip4))) :=
  match sr w packetTimeout totalTimeout run with
  | none => none
  | some .panic => some .panic
  | some .err => some .err
  | some (.ok fs) => some (.ok (icmpHosts dev fs))

/-! ## Ports -/

/-- `enum PortRange` (tcp.rs:230-233); `range a b` is `a..b`. -/
inductive PortRange where
  | single (p : UInt16)
  | range (a b : UInt16)
deriving DecidableEq, Repr

/-- `PortRange::to_range` (tcp.rs:238-243); `p + 1` wraps. -/
def PortRange.toRange : PortRange → UInt16 × UInt16
  | .range a b => (a, b)
  | .single p => (p, p + 1)

/-- `struct PortCollectionIterator` (tcp.rs:300-304). -/
structure PortIter where
  iter : List PortRange
  last : UInt16
  port : UInt16
deriving DecidableEq, Repr

/-- `PortCollection::iter` (tcp.rs:293-295, 306-314). -/
def portIter (c : List PortRange) : PortIter := ⟨c, 0, 0⟩

/-- The first half of `PortCollectionIterator::next` (tcp.rs:320-326). -/
def PortIter.refill (s : PortIter) : PortIter :=
  if s.port ≥ s.last then
    match s.iter with
    | [] => s
    | r :: iter => ⟨iter, r.toRange.2, r.toRange.1⟩
  else s

/-- `PortCollectionIterator::next` (tcp.rs:319-335). -/
def PortIter.next (s : PortIter) : Option UInt16 × PortIter :=
  let s := s.refill
  if s.port < s.last then (some s.port, { s with port := s.port + 1 }) else (none, s)

/-- `struct TcpPortScannerPacketGenerator` (tcp.rs:416-424) without the constant parts. -/
structure TcpGen where
  host : Option (MacAddr × Ip4)
  hosts : List (MacAddr × Ip4)
  ports : PortIter
deriving DecidableEq, Repr

/-- `TcpPortScannerPacketGenerator::new` (tcp.rs:431-448). -/
def TcpGen.new (hosts : List (MacAddr × Ip4)) (endpoints : List PortRange) : TcpGen :=
  match hosts with
  | [] => ⟨none, [], portIter endpoints⟩
  | h :: hs => ⟨some h, hs, portIter endpoints⟩

/-- The packet for a host and a port (tcp.rs:454-460). -/
def synFrame (dev : EtherDev) (sport : UInt16) (host : MacAddr × Ip4) (port : UInt16) : Bytes :=
  let tcpp := Tcp.new sport port 2 []
  let ipp := Ip.tcp dev.ip host.2 64 tcpp
  (Frame.ipv4 dev.mac host.1 ipp).bytes

/-- `TcpPortScannerPacketGenerator::next` (tcp.rs:451-472) for a host, recursively over the hosts that are left. -/
def tcpNextFor (dev : EtherDev) (sport : UInt16) (endpoints : List PortRange) (host : MacAddr × Ip4) (ports : PortIter) :
    List (MacAddr × Ip4) → Option (Bytes × TcpGen)
  | [] =>
    match ports.next with
    | (some port, ports') => some (synFrame dev sport host port, ⟨some host, [], ports'⟩)
    | (none, _) => none
  | h :: hs =>
    match ports.next with
    | (some port, ports') => some (synFrame dev sport host port, ⟨some host, h :: hs, ports'⟩)
    | (none, _) => tcpNextFor dev sport endpoints h (portIter endpoints) hs

/-- `TcpPortScannerPacketGenerator::next` (tcp.rs:451-472). -/
def tcpNext (dev : EtherDev) (sport : UInt16) (endpoints : List PortRange) (g : TcpGen) : Option (Bytes × TcpGen) :=
  match g.host with
  | some host => tcpNextFor dev sport endpoints host g.ports g.hosts
  | none => none

/-- `sport` (tcp.rs:375). -/
def scanPort : UInt16 := 61234

/-- The loop over the packets of the TCP scanner (tcp.rs:394-411). -/
def tcpServices : List Frame → List (MacAddr × Ip4 × UInt16)
  | [] => []
  | f :: fs =>
    match f.body with
    | .ip ⟨iph, .tcp t⟩ => (f.header.src, iph.src, t.sport) :: tcpServices fs
    | _ => tcpServices fs

/-- `TcpPortScanner::scan_ipv4_hosts` (tcp.rs:352-413). -/
def tcpScan (w : Nat) (run : Run) : Option (Wire.Res (List (MacAddr × Ip4 × UInt16))) :=
  match sr w packetTimeout totalTimeout run with
  | none => none
  | some .panic => some .panic
  | some .err => some .err
  | some (.ok fs) => some (.ok (tcpServices fs))

end Verif.Raw
