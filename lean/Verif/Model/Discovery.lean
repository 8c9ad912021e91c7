import Verif.Model.ScanResult
import Verif.Model.Http
import Verif.Model.Sdp
/-!
# Model of the network discovery

Source: /repo/src/scanner/discovery.rs. The raw scanners of a device (ARP, ICMP, TCP) and the answers of the hosts are
parameters; so is the order in which hash maps are iterated. `Wire.Res.panic` is the abort of the process, by a panic
or by a stack overflow. Logging is left out.
-/
namespace Verif.Discovery
open Verif Scan

/-- `RTSP_PORT_CANDIDATES` (discovery.rs:47). -/
def rtspPorts : List UInt16 := [554, 88, 81, 555, 7447, 8554, 7070, 10554, 80, 6667]

/-- `HTTP_PORT_CANDIDATES` (discovery.rs:50). -/
def httpPorts : List UInt16 := [80, 81, 8080, 8081, 8090]

/-- A network device with its scanners; `none` is an error (src/net/raw/devices/mod.rs:44-49 and the scanners called in discovery.rs:319-391). -/
structure Device where
  name : Bytes
  /-- `Ipv4ArpScanner::scan_device` -/
  arp : Option (List (MacAddr × Ip4))
  /-- `IcmpScanner::scan_device` -/
  icmp : Option (List (MacAddr × Ip4))
  /-- `TcpPortScanner::scan_ipv4_hosts` -/
  tcp : List (MacAddr × Ip4) → List UInt16 → Option (List (MacAddr × Ip4 × UInt16))

/-- The requests the discovery sends. `index` is the position of the path in the list of paths (discovery.rs:485-513, 683-705). -/
inductive Probe where
  | options (mac : MacAddr) (addr : SocketAddr)
  | root (mac : MacAddr) (addr : SocketAddr)
  | rtspPath (mac : MacAddr) (addr : SocketAddr) (index : Nat)
  | mjpegPath (mac : MacAddr) (addr : SocketAddr) (index : Nat)

/-- The world. `answer` is `none` if the connection fails or the request times out, otherwise what the server sends (discovery.rs:95-146, 485-513, 683-705). -/
structure Net where
  devices : List Device
  answer : Probe → Option (List Bytes)

/-- Functions of the standard library, the version of the client, the space on the stack for the SDP parser, and the
iteration order of the hash maps. -/
structure Env where
  T : Sdp.Txt
  version : Bytes
  stack : Nat
  /-- `impl Display for SocketAddr` -/
  format : SocketAddr → Bytes
  order : List (MacAddr × SocketAddr) → List (MacAddr × SocketAddr)

/-! ## Open ports -/

/-- The insertion of the ports into a hash set (discovery.rs:167-172). -/
def portSet (ports : List UInt16) : List UInt16 :=
  ports.foldl (fun s p => if p ∈ s then s else s ++ [p]) []

/-- `port_candidates` (discovery.rs:167-172). -/
def portCandidates : List UInt16 := portSet (rtspPorts ++ httpPorts)

/-- The hosts with an IPv4 address (discovery.rs:376-379). -/
def ipv4Hosts (hosts : List (MacAddr × IpAddr)) : List (MacAddr × Ip4) :=
  hosts.filterMap (fun h => match h.2 with
    | .v4 a b c d => some (h.1, ⟨a, b, c, d⟩)
    | .v6 .. => none)

/-- `find_open_ports_on_hosts` (discovery.rs:360-392). -/
def findOpenPortsOnHosts (dev : Device) (hosts : List (MacAddr × IpAddr)) : Option (List (MacAddr × SocketAddr)) :=
  match dev.tcp (ipv4Hosts hosts) portCandidates with
  | none => none
  | some l => some (l.map (fun x => (x.1, ⟨x.2.1.toIp, x.2.2⟩)))

/-- `find_open_ports_in_network` (discovery.rs:319-358), with `HR_FLAG_ARP` = 1 and `HR_FLAG_ICMP` = 2
(result/host.rs:22-24). -/
def findOpenPortsInNetwork (dev : Device) : Option ScanResult :=
  match dev.arp with
  | none => none
  | some arp =>
    let report := arp.foldl (fun r x => r.addHost x.1 x.2.toIp 1) ScanResult.new
    match dev.icmp with
    | none => none
    | some icmp =>
      let report := icmp.foldl (fun r x => r.addHost x.1 x.2.toIp 2) report
      match findOpenPortsOnHosts dev (report.hostRecords.map (fun h => (h.mac, h.ip))) with
      | none => none
      | some ports => some (ports.foldl (fun r x => r.addPort x.1 x.2.ip x.2.port) report)

/-- One round of the loop of `find_open_ports` (discovery.rs:298-313). -/
def addDevice (whitelist : List Bytes) (report : ScanResult) (dev : Device) : ScanResult :=
  if whitelist = [] ∨ dev.name ∈ whitelist then
    match findOpenPortsInNetwork dev with
    | none => report
    | some r => report.merge r
  else report

/-- `find_open_ports` (discovery.rs:289-316). -/
def findOpenPorts (whitelist : List Bytes) (N : Net) : ScanResult :=
  N.devices.foldl (addDevice whitelist) ScanResult.new

/-! ## Requests -/

/-- Sending a request: the request may have been refused when it was made (discovery.rs:486-496, 507-513, 686-694). -/
def exchange (E : Env) (N : Net) (P : Http.Proto) (probe : Probe) (request : Wire.Res Http.Client) :
    Wire.Res Http.Response :=
  match request with
  | .err => .err
  | .panic => .panic
  | .ok c =>
    match N.answer probe with
    | none => .err
    | some pieces => Http.response E.T.lower P c.ignore pieces

/-- `is_ok` of the result of a request (discovery.rs:497, 502). -/
def answered {α : Type} : Wire.Res α → Wire.Res Bool
  | .ok _ => .ok true
  | .err => .ok false
  | .panic => .panic

/-- `is_rtsp_service` (discovery.rs:485-498). -/
def isRtspService (E : Env) (N : Net) (mac : MacAddr) (addr : SocketAddr) : Wire.Res Bool :=
  answered (exchange E N .rtsp (.options mac addr)
    (Http.options E.T.lower E.version (asc "rtsp://" ++ E.format addr ++ asc "/")))

/-- `get_http_response` (discovery.rs:506-513). -/
def getHttpResponse (E : Env) (N : Net) (probe : Probe) (addr : SocketAddr) (path : Bytes) : Wire.Res Http.Response :=
  exchange E N .http probe (Http.getHeader E.T.lower E.version (asc "http://" ++ E.format addr ++ path))

/-- `is_http_service` (discovery.rs:501-503). -/
def isHttpService (E : Env) (N : Net) (mac : MacAddr) (addr : SocketAddr) : Wire.Res Bool :=
  answered (getHttpResponse E N (.root mac addr) addr (asc "/"))

/-- `futures::future::join_all`: all futures are run to their end (discovery.rs:570, 636, 728). -/
def joinAll {α β : Type} (f : α → Wire.Res β) : List α → Wire.Res (List β)
  | [] => .ok []
  | a :: as =>
    match f a with
    | .panic => .panic
    | .err => .err
    | .ok b =>
      match joinAll f as with
      | .panic => .panic
      | .err => .err
      | .ok bs => .ok (b :: bs)

/-- `filter_services` (discovery.rs:556-583). -/
def filterServices (predicate : MacAddr → SocketAddr → Wire.Res Bool) (l : List (MacAddr × SocketAddr)) :
    Wire.Res (List (MacAddr × SocketAddr)) :=
  match joinAll (fun x => match predicate x.1 x.2 with
    | .ok r => .ok (x.1, x.2, r)
    | .err => .err
    | .panic => .panic) l with
  | .panic => .panic
  | .err => .err
  | .ok l => .ok (l.filterMap (fun x => if x.2.2 then some (x.1, x.2.1) else none))

/-- `find_rtsp_services` (discovery.rs:516-533). -/
def findRtspServices (E : Env) (N : Net) (l : List (MacAddr × SocketAddr)) : Wire.Res (List (MacAddr × SocketAddr)) :=
  filterServices (fun mac addr => if addr.port ∈ rtspPorts then isRtspService E N mac addr else .ok false) l

/-- `find_http_services` (discovery.rs:536-553). -/
def findHttpServices (E : Env) (N : Net) (l : List (MacAddr × SocketAddr)) : Wire.Res (List (MacAddr × SocketAddr)) :=
  filterServices (fun mac addr => if addr.port ∈ httpPorts then isHttpService E N mac addr else .ok false) l

/-! ## Streams -/

/-- `enum StreamType` (discovery.rs:395-401). -/
inductive StreamType where
  | supported | locked | unsupported | notFound | error
deriving DecidableEq

/-- The loops of `is_supported_rtsp_service` (discovery.rs:449-460). -/
def videoCodecs (T : Sdp.Txt) (s : Sdp.Session) : List Bytes :=
  (s.medias.filter (fun md => md.mediaType = .video)).flatMap (fun md =>
    md.attributes.filterMap (fun a => (Sdp.RtpMap.ofAttr T a).map (fun m => T.upper m.encoding)))

/-- `is_supported_rtsp_service` (discovery.rs:445-470). -/
def isSupportedRtsp (E : Env) (body : Bytes) : Wire.Res Bool :=
  match Sdp.parse E.T E.stack body with
  | .ok s =>
    let v := videoCodecs E.T s
    .ok (asc "H264" ∈ v ∨ asc "H264-RCDO" ∈ v ∨ asc "H264-SVC" ∈ v ∨ asc "MP4V-ES" ∈ v ∨ asc "MPEG4-GENERIC" ∈ v)
  | .err => .ok false
  | .panic => .panic
  | .overflow => .panic

/-- `impl From<RtspResponse> for StreamType` (discovery.rs:403-421). -/
def rtspStreamType (E : Env) (r : Http.Response) : Wire.Res StreamType :=
  if r.header.status = 200 then
    match isSupportedRtsp E r.body with
    | .ok true => .ok .supported
    | .ok false => .ok .unsupported
    | .err => .err
    | .panic => .panic
  else if r.header.status = 401 then .ok .locked
  else if r.header.status = 404 then .ok .notFound
  else .ok .error

/-- `is_supported_mjpeg_service` (discovery.rs:473-482). -/
def isSupportedMjpeg (E : Env) (r : Http.Response) : Bool :=
  let ctype := E.T.lower ((r.header.value E.T.lower (asc "content-type")).getD [])
  (asc "multipart/x-mixed-replace").isPrefixOf ctype || (asc "image/jpeg").isPrefixOf ctype
    || (asc "image/jpg").isPrefixOf ctype

/-- `impl From<HttpResponse> for StreamType` (discovery.rs:423-441). -/
def httpStreamType (E : Env) (r : Http.Response) : StreamType :=
  if r.header.status = 200 then (if isSupportedMjpeg E r then .supported else .unsupported)
  else if r.header.status = 401 then .locked
  else if r.header.status = 404 then .notFound
  else .error

/-- `is_hipcam_rtsp_response` (discovery.rs:708-713). -/
def isHipcam (E : Env) (r : Http.Response) : Bool :=
  r.header.value E.T.lower (asc "server") = some (asc "HiIpcam/V100R003 VodServer/1.0.0")
    ∨ r.header.value E.T.lower (asc "server") = some (asc "Hipcam RealServer/V1.0")

/-- `get_rtsp_stream_type` (discovery.rs:682-705). -/
def getRtspStreamType (E : Env) (N : Net) (mac : MacAddr) (addr : SocketAddr) (index : Nat) (path : Bytes) :
    Wire.Res StreamType :=
  match exchange E N .rtsp (.rtspPath mac addr index)
    (Http.describe E.T.lower E.version (asc "rtsp://" ++ E.format addr ++ path)) with
  | .panic => .panic
  | .err => .ok .error
  | .ok r => if isHipcam E r ∧ path ≠ asc "/11" ∧ path ≠ asc "/12" then .ok .notFound else rtspStreamType E r

/-- `get_rtsp_stream` (discovery.rs:663-680). -/
def getRtspStream (E : Env) (N : Net) (mac : MacAddr) (addr : SocketAddr) (index : Nat) (path : Bytes) :
    Wire.Res (Option Service) :=
  match getRtspStreamType E N mac addr index path with
  | .panic => .panic
  | .err => .err
  | .ok .supported => .ok (some (.rtsp mac addr path))
  | .ok .unsupported => .ok (some (.unsupportedRtsp mac addr path))
  | .ok .locked => .ok (some (.lockedRtsp mac addr none))
  | .ok _ => .ok none

/-- The loop of `find_rtsp_stream` (discovery.rs:645-657). -/
def rtspLoop (E : Env) (N : Net) (mac : MacAddr) (addr : SocketAddr) : Nat → List Bytes → Service → Wire.Res Service
  | _, [], res => .ok res
  | i, path :: paths, res =>
    match getRtspStream E N mac addr i path with
    | .panic => .panic
    | .err => .err
    | .ok none => rtspLoop E N mac addr (i + 1) paths res
    | .ok (some svc) =>
      if svc.svcType = .rtsp ∨ svc.svcType = .lockedRtsp then .ok svc
      else rtspLoop E N mac addr (i + 1) paths svc

/-- `find_rtsp_stream` (discovery.rs:640-660). -/
def findRtspStream (E : Env) (N : Net) (paths : List Bytes) (mac : MacAddr) (addr : SocketAddr) : Wire.Res Service :=
  rtspLoop E N mac addr 0 paths (.unknownRtsp mac addr)

/-- `find_rtsp_streams` (discovery.rs:624-637). -/
def findRtspStreams (E : Env) (N : Net) (paths : List Bytes) (l : List (MacAddr × SocketAddr)) :
    Wire.Res (List Service) := joinAll (fun x => findRtspStream E N paths x.1 x.2) l

/-- `get_mjpeg_stream` (discovery.rs:751-769). -/
def getMjpegStream (E : Env) (N : Net) (mac : MacAddr) (addr : SocketAddr) (index : Nat) (path : Bytes) :
    Wire.Res (Option Service) :=
  match getHttpResponse E N (.mjpegPath mac addr index) addr path with
  | .panic => .panic
  | .err => .ok none
  | .ok r =>
    match httpStreamType E r with
    | .supported => .ok (some (.mjpeg mac addr path))
    | .locked => .ok (some (.lockedMjpeg mac addr none))
    | _ => .ok none

/-- The loop of `find_mjpeg_path` (discovery.rs:739-745). -/
def mjpegLoop (E : Env) (N : Net) (mac : MacAddr) (addr : SocketAddr) : Nat → List Bytes → Wire.Res (Option Service)
  | _, [] => .ok none
  | i, path :: paths =>
    match getMjpegStream E N mac addr i path with
    | .panic => .panic
    | .err => .err
    | .ok none => mjpegLoop E N mac addr (i + 1) paths
    | .ok (some svc) => .ok (some svc)

/-- `find_mjpeg_path` (discovery.rs:736-748). -/
def findMjpegPath (E : Env) (N : Net) (paths : List Bytes) (mac : MacAddr) (addr : SocketAddr) :
    Wire.Res (Option Service) := mjpegLoop E N mac addr 0 paths

/-- `find_mjpeg_streams` (discovery.rs:716-733). -/
def findMjpegStreams (E : Env) (N : Net) (paths : List Bytes) (l : List (MacAddr × SocketAddr)) :
    Wire.Res (List Service) :=
  match joinAll (fun x => findMjpegPath E N paths x.1 x.2) l with
  | .panic => .panic
  | .err => .err
  | .ok l => .ok (l.filterMap id)

/-! ## The scan -/

/-- The end of `scan_network` (discovery.rs:123-139). -/
def addServices (report : ScanResult) (rtspStreams : List Service) (rtspServices : List (MacAddr × SocketAddr))
    (mjpegStreams : List Service) (httpServices : List (MacAddr × SocketAddr)) : ScanResult :=
  let report := rtspStreams.foldl (·.addService ·) report
  let report := rtspServices.foldl (fun r x => r.addService (.tcp x.1 x.2)) report
  let report := mjpegStreams.foldl (·.addService ·) report
  httpServices.foldl (fun r x => r.addService (.http x.1 x.2)) report

/-- `scan_network` (discovery.rs:93-145). That the runtime can be created is assumed. -/
def scanNetwork (E : Env) (N : Net) (whitelist rtspPaths mjpegPaths : List Bytes) : Wire.Res ScanResult :=
  let report := findOpenPorts whitelist N
  match findRtspServices E N (E.order report.socketAddrs) with
  | .panic => .panic
  | .err => .err
  | .ok l =>
    let rtspServices := E.order (filterDuplicit l (getPortPriorities rtspPorts))
    match findRtspStreams E N rtspPaths rtspServices with
    | .panic => .panic
    | .err => .err
    | .ok rtspStreams =>
      match findHttpServices E N (E.order report.socketAddrs) with
      | .panic => .panic
      | .err => .err
      | .ok l =>
        let httpServices := E.order (filterDuplicit l (getPortPriorities httpPorts))
        match findMjpegStreams E N mjpegPaths httpServices with
        | .panic => .panic
        | .err => .err
        | .ok mjpegStreams => .ok (addServices report rtspStreams rtspServices mjpegStreams httpServices)

end Verif.Discovery
