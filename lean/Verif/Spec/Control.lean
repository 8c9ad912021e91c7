import Verif.Spec.Bytes
import Verif.Model.Service
/-!
# Independent description of the control protocol on the wire

Which payloads a client has to accept, what they mean, and layout-only readers for the messages
the client sends. Nothing here uses the encoder or decoder of the model; only the plain data types
`Service`, `MacAddr`, `IpAddr` are shared.
-/
namespace Verif.Spec

/-- Meaning of a control message a server may send. -/
inductive Ctl where
  | ack (err : Nat)
  | connect (service session : Nat)
  | dataAck (session length : Nat)
  | hup (session err : Nat)
  | redirect (target : List Char)
  | empty

/-- `bs` is a well-formed control payload with meaning `c`. -/
def WellFormed (bs : Bytes) : Ctl → Prop
  | .ack e => bs.length = 8 ∧ field bs 2 2 = 0x0 ∧ e = field bs 4 4
  | .connect svc sess =>
    bs.length = 10 ∧ field bs 2 2 = 0xd ∧ svc = field bs 4 2 ∧ sess = field bs 6 4
  | .dataAck sess len =>
    bs.length = 12 ∧ field bs 2 2 = 0xc ∧ sess = field bs 4 4 ∧ len = field bs 8 4
  | .hup sess err =>
    bs.length = 12 ∧ field bs 2 2 = 0x5 ∧ sess = field bs 4 4 ∧ err = field bs 8 4
  | .redirect target =>
    4 ≤ bs.length ∧ field bs 2 2 = 0x3 ∧ bs.drop 4 = target.flatMap String.utf8EncodeChar ++ [0]
  | .empty => bs.length = 4 ∧ field bs 2 2 ∈ [0x1, 0x6, 0x7, 0x8, 0xa]

/-- Split a NUL-terminated string off a byte string. -/
def readCString : Bytes → Option (Bytes × Bytes)
  | [] => none
  | b :: bs => if b = 0 then some ([], bs) else (readCString bs).map (fun r => (b :: r.1, r.2))

/-- A service record as it appears on the wire; the IP address as a 128-bit number. -/
structure SvcRecord where
  id : Nat
  svcType : Nat
  mac : Bytes
  ipVersion : Nat
  ip : Nat
  port : Nat
  path : Bytes
deriving DecidableEq, Repr

/-- Read one service record: id 2, type 2, MAC 6, IP version 1, IP 16, port 2, path, NUL. -/
def readSvcRecord (bs : Bytes) : Option (SvcRecord × Bytes) :=
  if bs.length < 29 then none
  else (readCString (bs.drop 29)).map (fun r =>
    ({ id := field bs 0 2, svcType := field bs 2 2, mac := slice bs 4 6, ipVersion := field bs 10 1,
       ip := field bs 11 16, port := field bs 27 2, path := r.1 }, r.2))

/-- Read service records up to the terminating control record (type 0). `fuel` bounds the number of
records and is given as the number of available bytes. -/
def readSvcRecords : Nat → Bytes → Option (List SvcRecord × Bytes)
  | 0, _ => none
  | fuel + 1, bs =>
    match readSvcRecord bs with
    | none => none
    | some (r, rest) =>
      if r.svcType = 0 then (if r.id = 0 then some ([], rest) else none)
      else (readSvcRecords fuel rest).map (fun p => (r :: p.1, p.2))

/-- Read a service table. -/
def readSvcTable (bs : Bytes) : Option (List SvcRecord × Bytes) := readSvcRecords bs.length bs

/-- The left-aligned 128-bit number of an IP address. -/
def ipNumber : IpAddr → Nat
  | .v4 a b c d => ((a.toNat * 256 + b.toNat) * 256 + c.toNat) * 256 + d.toNat |> (· * 2 ^ 96)
  | .v6 s0 s1 s2 s3 s4 s5 s6 s7 =>
    [s0, s1, s2, s3, s4, s5, s6, s7].foldl (fun acc s => acc * 65536 + s.toNat) 0

/-- IP version number. -/
def ipVersion : IpAddr → Nat
  | .v4 .. => 4
  | .v6 .. => 6

/-- Code of a service type in the Arrow protocol. -/
def typeCode : ServiceType → Nat
  | .controlProtocol => 0 | .rtsp => 1 | .lockedRtsp => 2 | .unknownRtsp => 3
  | .unsupportedRtsp => 4 | .http => 5 | .mjpeg => 6 | .lockedMjpeg => 7 | .tcp => 65535

/-- The bytes of a MAC address. -/
def macBytes (m : MacAddr) : Bytes := [m.b0, m.b1, m.b2, m.b3, m.b4, m.b5]

/-- The record that must appear on the wire for a service with a given id. -/
def svcRecord (id : UInt16) (s : Service) : SvcRecord :=
  { id := id.toNat
    svcType := typeCode s.svcType
    mac := match s.mac with | some m => macBytes m | none => [0, 0, 0, 0, 0, 0]
    ipVersion := match s.address with | some a => ipVersion a.ip | none => 4
    ip := match s.address with | some a => ipNumber a.ip | none => 0
    port := match s.address with | some a => a.port.toNat | none => 0
    path := match s.path with | some p => p | none => [] }

/-- A REGISTER body. `window` is the advertised window in bytes. -/
structure RegisterRecord where
  uuid : Bytes
  key : Bytes
  mac : Bytes
  window : Nat
  gateway : Bool
  info : Bytes
  services : List SvcRecord
deriving DecidableEq, Repr

/-- Read a REGISTER body: uuid 16, key 16, MAC 6, window size minus one 2, flags 4, extended info,
NUL, service table. The body must be used up. -/
def readRegister (bs : Bytes) : Option RegisterRecord :=
  if bs.length < 44 then none
  else
    match readCString (bs.drop 44) with
    | none => none
    | some (info, rest) =>
      match readSvcTable rest with
      | some (svcs, []) =>
        some { uuid := slice bs 0 16, key := slice bs 16 16, mac := slice bs 32 6,
               window := field bs 38 2 + 1, gateway := field bs 40 4 % 2 = 1, info := info,
               services := svcs }
      | _ => none

/-- A host of a SCAN_REPORT. -/
structure HostRec where
  flags : Nat
  mac : Bytes
  ipVersion : Nat
  ip : Nat
  ports : List Nat
deriving DecidableEq, Repr

/-- Read `n` port numbers. -/
def readPorts : Nat → Bytes → Option (List Nat × Bytes)
  | 0, bs => some ([], bs)
  | n + 1, bs =>
    if bs.length < 2 then none
    else (readPorts n (bs.drop 2)).map (fun p => (field bs 0 2 :: p.1, p.2))

/-- Read one host: flags 1, MAC 6, IP version 1, IP 16, port count 2, ports. -/
def readHost (bs : Bytes) : Option (HostRec × Bytes) :=
  if bs.length < 26 then none
  else (readPorts (field bs 24 2) (bs.drop 26)).map (fun p =>
    ({ flags := field bs 0 1, mac := slice bs 1 6, ipVersion := field bs 7 1,
       ip := field bs 8 16, ports := p.1 }, p.2))

/-- Read `n` hosts. -/
def readHosts : Nat → Bytes → Option (List HostRec × Bytes)
  | 0, bs => some ([], bs)
  | n + 1, bs =>
    match readHost bs with
    | none => none
    | some (h, rest) => (readHosts n rest).map (fun p => (h :: p.1, p.2))

/-- Read a SCAN_REPORT body: request id 2, host count 4, hosts, service table; all bytes used. -/
def readScanReport (bs : Bytes) : Option (Nat × List HostRec × List SvcRecord) :=
  if bs.length < 6 then none
  else
    match readHosts (field bs 2 4) (bs.drop 6) with
    | none => none
    | some (hosts, rest) =>
      match readSvcTable rest with
      | some (svcs, []) => some (field bs 0 2, hosts, svcs)
      | _ => none

end Verif.Spec
