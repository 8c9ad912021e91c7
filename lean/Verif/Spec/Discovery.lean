import Verif.Model.Discovery
import Verif.Spec.Http
import Verif.Spec.Sdp
import Verif.Spec.ScanResult
/-!
# What the discovery is meant to find
-/
namespace Verif.Spec.Discovery
open Verif Verif.Discovery Verif.Spec.Http Verif.Spec.Sdp

/-! ## Ports -/

/-- The ports of RTSP servers, the most preferred first. -/
def rtspCandidates : List UInt16 := [554, 88, 81, 555, 7447, 8554, 7070, 10554, 80, 6667]
/-- The ports of HTTP servers, the most preferred first. -/
def httpCandidates : List UInt16 := [80, 81, 8080, 8081, 8090]

/-! ## Answers -/

/-- The server sends a response with the given header and body, and perhaps more. If the client ignores bodies
(`ignore`), their length is not limited. -/
def Reply (L : Bytes → Bytes) (P : Http.Proto) (ignore : Bool) (pieces : List Bytes) (h : Head) (body : Bytes) : Prop :=
  ∃ head rest, pieces.flatten = head ++ rest ∧ IsHead head h ∧ Accepted P h ∧ BodyIs L P (limit ignore) h rest body

/-- The server announces a body that cannot be stored. -/
def HugeLength (L : Bytes → Bytes) (pieces : List Bytes) : Prop :=
  ∃ head rest h n, pieces.flatten = head ++ rest ∧ IsHead head h ∧ LengthIs L .rtsp h n ∧ 9223372036854775807 < n
    ∧ n ≤ 18446744073709551615

/-- The request for a path of a service. -/
def describeUrl (E : Env) (addr : SocketAddr) (path : Bytes) : Bytes := asc "rtsp://" ++ E.format addr ++ path
/-- The request for a path of a service. -/
def httpUrl (E : Env) (addr : SocketAddr) (path : Bytes) : Bytes := asc "http://" ++ E.format addr ++ path

/-- The URL is one the RTSP client accepts. -/
def RtspUrl (E : Env) (url : Bytes) : Prop := ∃ c, Http.newRtsp E.T.lower E.version [] url false = .ok c
/-- The URL is one the HTTP client accepts. -/
def HttpUrl (E : Env) (url : Bytes) : Prop := ∃ c, Http.newHttp E.T.lower E.version [] url false = .ok c

/-! ## Streams -/

/-- The encodings that are supported. -/
def codecs : List Bytes := [asc "H264", asc "H264-RCDO", asc "H264-SVC", asc "MP4V-ES", asc "MPEG4-GENERIC"]

/-- One of the media is a video, and one of its `rtpmap` attributes has a supported encoding. -/
def OffersVideo (T : Sdp.Txt) (s : Sdp.Session) : Prop :=
  ∃ m ∈ s.medias, m.mediaType = .video ∧ ∃ a ∈ m.attributes, T.lower a.name = asc "rtpmap"
    ∧ ∃ v r, a.value = some v ∧ RtpMapIs v r ∧ T.upper r.encoding ∈ codecs

/-- The body is a session description with a supported video. -/
def Playable (E : Env) (body : Bytes) : Prop :=
  ∃ lines s, IsLines body lines ∧ calls lines ≤ E.stack ∧ Says E.T lines s ∧ OffersVideo E.T s

/-- The body is a session description, or the beginning of one, with more media and time lines than there is stack. -/
def TooDeep (E : Env) (body : Bytes) : Prop :=
  ∃ p q pre t, body = p ++ q ∧ (q = [] ∨ ∃ p' e, p = p' ++ [e] ∧ IsEol e)
    ∧ IsLines p (pre ++ [t]) ∧ (Kind t 109 ∨ Kind t 116) ∧ calls pre = E.stack ∧ ∃ s, Says E.T pre s

/-- Servers that answer every path; only two paths of them count. -/
def Buggy (L : Bytes → Bytes) (h : Head) (path : Bytes) : Prop :=
  (h.last L (asc "server") = some (some (asc "HiIpcam/V100R003 VodServer/1.0.0"))
    ∨ h.last L (asc "server") = some (some (asc "Hipcam RealServer/V1.0")))
  ∧ path ≠ asc "/11" ∧ path ≠ asc "/12"

/-- The content type of a stream of pictures. -/
def Pictures (L : Bytes → Bytes) (h : Head) : Prop :=
  ∃ t ∈ [asc "multipart/x-mixed-replace", asc "image/jpeg", asc "image/jpg"],
    t <+: L (((h.last L (asc "content-type")).bind id).getD [])

/-- What a path turns out to be. -/
inductive Verdict where
  | supported | locked | unsupported | nothing
  /-- the process aborts -/
  | crash
deriving DecidableEq

/-- The RTSP server answers the request for a path. -/
def RtspReply (E : Env) (N : Net) (mac : MacAddr) (addr : SocketAddr) (i : Nat) (path : Bytes) (h : Head)
    (body : Bytes) : Prop :=
  RtspUrl E (describeUrl E addr path) ∧ ∃ pieces, N.answer (.rtspPath mac addr i) = some pieces
    ∧ Reply E.T.lower .rtsp false pieces h body ∧ ¬Buggy E.T.lower h path

/-- What an RTSP path turns out to be. -/
def rtspVerdict (E : Env) (N : Net) (mac : MacAddr) (addr : SocketAddr) (i : Nat) (path : Bytes) : Verdict → Prop
  | .supported => ∃ h body, RtspReply E N mac addr i path h body ∧ h.status = 200 ∧ Playable E body
  | .locked => ∃ h body, RtspReply E N mac addr i path h body ∧ h.status = 401
  | .unsupported => ∃ h body, RtspReply E N mac addr i path h body ∧ h.status = 200 ∧ ¬Playable E body ∧ ¬TooDeep E body
  | .crash => (∃ h body, RtspReply E N mac addr i path h body ∧ h.status = 200 ∧ TooDeep E body)
      ∨ (RtspUrl E (describeUrl E addr path) ∧
          ∃ pieces, N.answer (.rtspPath mac addr i) = some pieces ∧ HugeLength E.T.lower pieces)
  | .nothing => (¬∃ h body, RtspReply E N mac addr i path h body ∧ (h.status = 200 ∨ h.status = 401))
      ∧ ¬(RtspUrl E (describeUrl E addr path) ∧
          ∃ pieces, N.answer (.rtspPath mac addr i) = some pieces ∧ HugeLength E.T.lower pieces)

/-- The HTTP server answers the request for a path. -/
def HttpReply (E : Env) (N : Net) (mac : MacAddr) (addr : SocketAddr) (i : Nat) (path : Bytes) (h : Head) : Prop :=
  HttpUrl E (httpUrl E addr path) ∧ ∃ pieces body, N.answer (.mjpegPath mac addr i) = some pieces
    ∧ Reply E.T.lower .http true pieces h body

/-- What an HTTP path turns out to be. -/
def mjpegVerdict (E : Env) (N : Net) (mac : MacAddr) (addr : SocketAddr) (i : Nat) (path : Bytes) : Verdict → Prop
  | .supported => ∃ h, HttpReply E N mac addr i path h ∧ h.status = 200 ∧ Pictures E.T.lower h
  | .locked => ∃ h, HttpReply E N mac addr i path h ∧ h.status = 401
  | .unsupported => False
  | .crash => False
  | .nothing => ¬∃ h, HttpReply E N mac addr i path h ∧ ((h.status = 200 ∧ Pictures E.T.lower h) ∨ h.status = 401)

/-- None of the paths, the first of which has the index `n`, ends the search. -/
def Passed (V : Nat → Bytes → Verdict → Prop) (n : Nat) (paths : List Bytes) : Prop :=
  ∀ i p, paths[i]? = some p → V (n + i) p .nothing ∨ V (n + i) p .unsupported

/-- The search comes to a path with the verdict. -/
def Comes (V : Nat → Bytes → Verdict → Prop) (paths : List Bytes) (p : Bytes) (v : Verdict) : Prop :=
  ∃ a b, paths = a ++ p :: b ∧ Passed V 0 a ∧ V a.length p v

/-- The last unsupported path. -/
def LastUnsupported (V : Nat → Bytes → Verdict → Prop) (paths : List Bytes) (p : Bytes) : Prop :=
  ∃ a b, paths = a ++ p :: b ∧ V a.length p .unsupported
    ∧ ∀ i q, b[i]? = some q → V (a.length + 1 + i) q .nothing

/-- The service that is reported for an RTSP server: the first path that is supported or locked; if there is none, the
last path that is not supported; if there is none, the server alone. -/
inductive RtspStream (E : Env) (N : Net) (paths : List Bytes) (mac : MacAddr) (addr : SocketAddr) : Service → Prop
  | supported {p} : Comes (rtspVerdict E N mac addr) paths p .supported →
      RtspStream E N paths mac addr ⟨.rtsp, some mac, some addr, some p⟩
  | locked {p} : Comes (rtspVerdict E N mac addr) paths p .locked →
      RtspStream E N paths mac addr ⟨.lockedRtsp, some mac, some addr, none⟩
  | unsupported {p} : Passed (rtspVerdict E N mac addr) 0 paths → LastUnsupported (rtspVerdict E N mac addr) paths p →
      RtspStream E N paths mac addr ⟨.unsupportedRtsp, some mac, some addr, some p⟩
  | unknown : (∀ i p, paths[i]? = some p → rtspVerdict E N mac addr i p .nothing) →
      RtspStream E N paths mac addr ⟨.unknownRtsp, some mac, some addr, none⟩

/-- The service that is reported for an HTTP server, if there is one: the first path that is supported or locked. -/
inductive MjpegStream (E : Env) (N : Net) (paths : List Bytes) (mac : MacAddr) (addr : SocketAddr) :
    Option Service → Prop
  | supported {p} : Comes (mjpegVerdict E N mac addr) paths p .supported →
      MjpegStream E N paths mac addr (some ⟨.mjpeg, some mac, some addr, some p⟩)
  | locked {p} : Comes (mjpegVerdict E N mac addr) paths p .locked →
      MjpegStream E N paths mac addr (some ⟨.lockedMjpeg, some mac, some addr, none⟩)
  | none : Passed (mjpegVerdict E N mac addr) 0 paths → MjpegStream E N paths mac addr none

/-! ## Open ports -/

/-- What the scanners of a device have found. -/
structure Run where
  arp : List (MacAddr × Ip4)
  icmp : List (MacAddr × Ip4)
  open_ : List (MacAddr × Ip4 × UInt16)

/-- The arguments of the TCP scan: all the hosts and all the candidate ports, each once. -/
def Targets (arp icmp : List (MacAddr × Ip4)) (hosts : List (MacAddr × Ip4)) (ports : List UInt16) : Prop :=
  hosts.Nodup ∧ (∀ x, x ∈ hosts ↔ x ∈ arp ∨ x ∈ icmp) ∧ ports.Nodup ∧ ∀ p, p ∈ ports ↔ p ∈ rtspCandidates ∨ p ∈ httpCandidates

/-- The scan of a device: `none` if one of the scanners fails. -/
inductive IsRun (dev : Device) : Option Run → Prop
  | ok {r hosts ports} : dev.arp = some r.arp → dev.icmp = some r.icmp → Targets r.arp r.icmp hosts ports →
      dev.tcp hosts ports = some r.open_ → IsRun dev (some r)
  | arp : dev.arp = none → IsRun dev none
  | icmp : dev.icmp = none → IsRun dev none
  | tcp {arp icmp hosts ports} : dev.arp = some arp → dev.icmp = some icmp → Targets arp icmp hosts ports →
      dev.tcp hosts ports = none → IsRun dev none

/-- The devices that are scanned. -/
def scanned (whitelist : List Bytes) (N : Net) : List Device :=
  N.devices.filter (fun d => whitelist = [] ∨ d.name ∈ whitelist)

/-- The port was found open. -/
def Open (runs : List (Option Run)) (mac : MacAddr) (addr : SocketAddr) : Prop :=
  ∃ r, some r ∈ runs ∧ ∃ ip, (mac, ip, addr.port) ∈ r.open_ ∧ ip.toIp = addr.ip

/-- The host was found with ARP. -/
def ByArp (runs : List (Option Run)) (mac : MacAddr) (ip : IpAddr) : Prop :=
  ∃ r, some r ∈ runs ∧ ∃ x, (mac, x) ∈ r.arp ∧ x.toIp = ip

/-- The host was found with ICMP. -/
def ByIcmp (runs : List (Option Run)) (mac : MacAddr) (ip : IpAddr) : Prop :=
  ∃ r, some r ∈ runs ∧ ∃ x, (mac, x) ∈ r.icmp ∧ x.toIp = ip

/-! ## Services -/

/-- An open port where an RTSP server answers. -/
def RtspServer (E : Env) (N : Net) (runs : List (Option Run)) (mac : MacAddr) (addr : SocketAddr) : Prop :=
  Open runs mac addr ∧ addr.port ∈ rtspCandidates ∧ RtspUrl E (describeUrl E addr (asc "/"))
    ∧ ∃ pieces h body, N.answer (.options mac addr) = some pieces ∧ Reply E.T.lower .rtsp true pieces h body

/-- An open port where an HTTP server answers. -/
def HttpServer (E : Env) (N : Net) (runs : List (Option Run)) (mac : MacAddr) (addr : SocketAddr) : Prop :=
  Open runs mac addr ∧ addr.port ∈ httpCandidates ∧ HttpUrl E (httpUrl E addr (asc "/"))
    ∧ ∃ pieces h body, N.answer (.root mac addr) = some pieces ∧ Reply E.T.lower .http true pieces h body

/-- One server for every IP address, with the most preferred port. -/
structure Selected (ports : List UInt16) (S : MacAddr → SocketAddr → Prop) (l : List (MacAddr × SocketAddr)) : Prop where
  one : (l.map (·.2.ip)).Nodup
  sound : ∀ x ∈ l, S x.1 x.2
  complete : ∀ mac addr, S mac addr → ∃ x ∈ l, x.2.ip = addr.ip
  best : ∀ x ∈ l, ∀ mac addr, S mac addr → addr.ip = x.2.ip → ¬Scan.Preferred ports addr.port x.2.port

/-- The services that are reported for the selected servers. -/
def Reported (E : Env) (N : Net) (rtspPaths mjpegPaths : List Bytes) (rtsp http : List (MacAddr × SocketAddr))
    (s : Service) : Prop :=
  (∃ x ∈ rtsp, RtspStream E N rtspPaths x.1 x.2 s ∨ s = ⟨.tcp, some x.1, some x.2, none⟩)
  ∨ ∃ x ∈ http, MjpegStream E N mjpegPaths x.1 x.2 (some s) ∨ s = ⟨.http, some x.1, some x.2, none⟩

end Verif.Spec.Discovery
