import Verif.Model.Exports
/-!
# Specification of the service table in the C interface
-/
namespace Verif.Spec.Exports
open Verif Verif.Exports

/-- `SERVICE_TYPE_...` in include/arrow_client.h. -/
def headerCode : ServiceType → Option UInt16
  | .controlProtocol => none
  | .rtsp => some 0x0001
  | .lockedRtsp => some 0x0002
  | .unknownRtsp => some 0x0003
  | .unsupportedRtsp => some 0x0004
  | .http => some 0x0005
  | .mjpeg => some 0x0006
  | .lockedMjpeg => some 0x0007
  | .tcp => some 0xffff

/-- What a C program reads as a string: everything before the first NUL. -/
def cRead (memory : Bytes) : Bytes := memory.takeWhile (· ≠ 0)

/-- What a C program learns about a service, if it reads 6 bytes of the buffer for the MAC address and as many of that for the
IP address as its version says. -/
structure View where
  id : UInt16
  code : UInt16
  mac : Bytes
  version : UInt8
  ip : Bytes
  port : UInt16
  path : Option Bytes
deriving DecidableEq

def view (n : NativeService) (buffer : Bytes) : View where
  id := n.serviceId
  code := n.serviceType
  mac := (getMacAddress n buffer).take 6
  version := (getIpAddress n buffer).2
  ip := (getIpAddress n buffer).1.take (if (getIpAddress n buffer).2 = 4 then 4 else 16)
  port := n.port
  path := (getPath n).map cRead

/-- The view of a service is right. -/
structure Tells (v : View) (id : UInt16) (s : Service) : Prop where
  id : v.id = id
  code : some v.code = headerCode s.svcType
  mac : ∃ m, s.mac = some m ∧ v.mac = [m.b0, m.b1, m.b2, m.b3, m.b4, m.b5]
  address : ∃ a, s.address = some a ∧ v.port = a.port
    ∧ ((∃ b0 b1 b2 b3, a.ip = .v4 b0 b1 b2 b3 ∧ v.version = 4 ∧ v.ip = [b0, b1, b2, b3])
      ∨ (∃ s0 s1 s2 s3 s4 s5 s6 s7, a.ip = .v6 s0 s1 s2 s3 s4 s5 s6 s7 ∧ v.version = 6
        ∧ v.ip = be16 s0 ++ be16 s1 ++ be16 s2 ++ be16 s3 ++ be16 s4 ++ be16 s5 ++ be16 s6 ++ be16 s7))
  path : v.path = s.path

/-- A path that is not a C string. -/
def NulPath (s : Service) : Prop := ∃ p, s.path = some p ∧ 0 ∈ p

end Verif.Spec.Exports
