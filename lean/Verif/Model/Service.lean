import Verif.Basic
/-!
# Services and addresses

Source: /repo/src/svc_table/service.rs, /repo/src/net/raw/ether/mod.rs, /repo/src/net/utils.rs.
-/
namespace Verif

/-- `struct MacAddr` (src/net/raw/ether/mod.rs:52-56). -/
structure MacAddr where
  b0 : UInt8
  b1 : UInt8
  b2 : UInt8
  b3 : UInt8
  b4 : UInt8
  b5 : UInt8
deriving DecidableEq, Repr

/-- `MacAddr::zero` (ether/mod.rs:60-62). -/
def MacAddr.zero : MacAddr := ⟨0, 0, 0, 0, 0, 0⟩

/-- `MacAddr::octets` (ether/mod.rs:72-74). -/
def MacAddr.octets (m : MacAddr) : Bytes := [m.b0, m.b1, m.b2, m.b3, m.b4, m.b5]

/-- `std::net::IpAddr`: the four octets of an IPv4 or the eight segments of an IPv6 address. -/
inductive IpAddr where
  | v4 (a b c d : UInt8)
  | v6 (s0 s1 s2 s3 s4 s5 s6 s7 : UInt16)
deriving DecidableEq, Repr

/-- `IpAddrEx::bytes` (src/net/utils.rs:67-115): left-aligned 16-byte representation. -/
def IpAddr.bytes : IpAddr → Bytes
  | .v4 a b c d => [a, b, c, d, 0, 0, 0, 0, 0, 0, 0, 0, 0, 0, 0, 0]
  | .v6 s0 s1 s2 s3 s4 s5 s6 s7 =>
    be16 s0 ++ be16 s1 ++ be16 s2 ++ be16 s3 ++ be16 s4 ++ be16 s5 ++ be16 s6 ++ be16 s7

/-- `IpAddrEx::version` (src/net/utils.rs:75-80, 93-95, 112-114). -/
def IpAddr.version : IpAddr → UInt8
  | .v4 .. => 4
  | .v6 .. => 6

/-- `std::net::IpAddr::is_loopback` (standard library: 127.0.0.0/8, ::1), used by session.rs:617-626. -/
def IpAddr.isLoopback : IpAddr → Bool
  | .v4 a _ _ _ => a = 127
  | .v6 s0 s1 s2 s3 s4 s5 s6 s7 =>
    s0 = 0 ∧ s1 = 0 ∧ s2 = 0 ∧ s3 = 0 ∧ s4 = 0 ∧ s5 = 0 ∧ s6 = 0 ∧ s7 = 1

/-- `std::net::Ipv4Addr`. -/
structure Ip4 where
  a : UInt8
  b : UInt8
  c : UInt8
  d : UInt8
deriving DecidableEq, Repr

/-- `IpAddr::V4` (the standard library; used in svc_table/service.rs). -/
def Ip4.toIp (x : Ip4) : IpAddr := .v4 x.a x.b x.c x.d

/-- `std::net::SocketAddr`. Simplification: IPv6 flow info and scope id are left out (they are
never written to the wire, see src/net/utils.rs). -/
structure SocketAddr where
  ip : IpAddr
  port : UInt16
deriving DecidableEq, Repr

/-- `enum ServiceType` (src/svc_table/service.rs:34-53). -/
inductive ServiceType where
  | controlProtocol | rtsp | lockedRtsp | unknownRtsp | unsupportedRtsp | http | mjpeg
  | lockedMjpeg | tcp
deriving DecidableEq, Repr

/-- `ServiceType::code` (service.rs:57-69 with the constants of lines 20-28). -/
def ServiceType.code : ServiceType → UInt16
  | .controlProtocol => 0
  | .rtsp => 1
  | .lockedRtsp => 2
  | .unknownRtsp => 3
  | .unsupportedRtsp => 4
  | .http => 5
  | .mjpeg => 6
  | .lockedMjpeg => 7
  | .tcp => 0xffff

/-- `struct Service` (service.rs:88-95). The path is the UTF-8 content of the Rust `String`. -/
structure Service where
  svcType : ServiceType
  mac : Option MacAddr
  address : Option SocketAddr
  path : Option Bytes
deriving DecidableEq, Repr

/-- `Service::control` (service.rs:100-107). -/
def Service.control : Service := ⟨.controlProtocol, none, none, none⟩

/-- `Service::rtsp` (service.rs:110-117). -/
def Service.rtsp (m : MacAddr) (a : SocketAddr) (p : Bytes) : Service := ⟨.rtsp, some m, some a, some p⟩
/-- `Service::locked_rtsp` (service.rs:120-127). -/
def Service.lockedRtsp (m : MacAddr) (a : SocketAddr) (p : Option Bytes) : Service :=
  ⟨.lockedRtsp, some m, some a, p⟩
/-- `Service::unknown_rtsp` (service.rs:130-137). -/
def Service.unknownRtsp (m : MacAddr) (a : SocketAddr) : Service := ⟨.unknownRtsp, some m, some a, none⟩
/-- `Service::unsupported_rtsp` (service.rs:140-147). -/
def Service.unsupportedRtsp (m : MacAddr) (a : SocketAddr) (p : Bytes) : Service :=
  ⟨.unsupportedRtsp, some m, some a, some p⟩
/-- `Service::http` (service.rs:150-157). -/
def Service.http (m : MacAddr) (a : SocketAddr) : Service := ⟨.http, some m, some a, none⟩
/-- `Service::mjpeg` (service.rs:160-167). -/
def Service.mjpeg (m : MacAddr) (a : SocketAddr) (p : Bytes) : Service := ⟨.mjpeg, some m, some a, some p⟩
/-- `Service::locked_mjpeg` (service.rs:170-177). -/
def Service.lockedMjpeg (m : MacAddr) (a : SocketAddr) (p : Option Bytes) : Service :=
  ⟨.lockedMjpeg, some m, some a, p⟩
/-- `Service::tcp` (service.rs:180-187). -/
def Service.tcp (m : MacAddr) (a : SocketAddr) : Service := ⟨.tcp, some m, some a, none⟩

/-- `Service::is_control` (service.rs:190-192). -/
def Service.isControl (s : Service) : Bool := s.svcType = .controlProtocol

/-- `Service::port` (service.rs:215-217). -/
def Service.port (s : Service) : Option UInt16 := s.address.map (·.port)

/-- `struct ServiceIdentifier` (service.rs:72-79). The stable-hash wrappers of lines 236-321 compare
like the wrapped values. -/
structure ServiceIdentifier where
  svcType : ServiceType
  mac : Option MacAddr
  port : Option UInt16
  path : Option Bytes
deriving DecidableEq, Repr

/-- `ServiceIdentifier::is_control` (service.rs:83-85). -/
def ServiceIdentifier.isControl (i : ServiceIdentifier) : Bool := i.svcType = .controlProtocol

/-- `Service::to_service_identifier` (service.rs:226-233). -/
def Service.toIdentifier (s : Service) : ServiceIdentifier := ⟨s.svcType, s.mac, s.port, s.path⟩

/-- The values constructible through the public API of `Service` (its fields are private and the
only constructors are those of service.rs:97-187). -/
inductive Service.Constructible : Service → Prop
  | control : Constructible .control
  | rtsp (m a p) : Constructible (.rtsp m a p)
  | lockedRtsp (m a p) : Constructible (.lockedRtsp m a p)
  | unknownRtsp (m a) : Constructible (.unknownRtsp m a)
  | unsupportedRtsp (m a p) : Constructible (.unsupportedRtsp m a p)
  | http (m a) : Constructible (.http m a)
  | mjpeg (m a p) : Constructible (.mjpeg m a p)
  | lockedMjpeg (m a p) : Constructible (.lockedMjpeg m a p)
  | tcp (m a) : Constructible (.tcp m a)

end Verif
