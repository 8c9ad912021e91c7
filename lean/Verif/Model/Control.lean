import Verif.Model.Wire
import Verif.Model.Utf8
import Verif.Model.Service
/-!
# Model of the Arrow Control Protocol messages

Source: /repo/src/net/arrow/proto/msg/control/*.rs and scan_report/*.rs.
-/
namespace Verif.Control
open Verif.Wire (Res)

/-! ## Error codes and message types -/

/-- `EC_NO_ERROR` (control/mod.rs:59). -/
def ecNoError : UInt32 := 0
/-- `EC_UNSUPPORTED_PROTOCOL_VERSION` (control/mod.rs:60). -/
def ecUnsupportedProtocolVersion : UInt32 := 1
/-- `EC_UNAUTHORIZED` (control/mod.rs:61). -/
def ecUnauthorized : UInt32 := 2
/-- `EC_CONNECTION_ERROR` (control/mod.rs:62). -/
def ecConnectionError : UInt32 := 3
/-- `EC_INTERNAL_SERVER_ERROR` (control/mod.rs:63). -/
def ecInternalServerError : UInt32 := 0xffffffff

/-- `enum ControlMessageType` (control/mod.rs:85-104). -/
inductive MsgType where
  | ack | ping | register | redirect | update | hup | resetSvcTable | scanNetwork | getStatus
  | status | unknown | getScanReport | scanReport | dataAck | connect
deriving DecidableEq, Repr

/-- `ControlMessageType::code` (control/mod.rs:106-126 with lines 69-82); `none` is the panic for
`UNKNOWN`. -/
def MsgType.code : MsgType → Option UInt16
  | .ack => some 0x0
  | .ping => some 0x1
  | .register => some 0x2
  | .redirect => some 0x3
  | .update => some 0x4
  | .hup => some 0x5
  | .resetSvcTable => some 0x6
  | .scanNetwork => some 0x7
  | .getStatus => some 0x8
  | .status => some 0x9
  | .getScanReport => some 0xa
  | .scanReport => some 0xb
  | .dataAck => some 0xc
  | .connect => some 0xd
  | .unknown => none

/-- `ControlMessageHeader::message_type` (control/mod.rs:145-163). -/
def MsgType.ofCode (c : UInt16) : MsgType :=
  if c = 0x0 then .ack
  else if c = 0x1 then .ping
  else if c = 0x2 then .register
  else if c = 0x3 then .redirect
  else if c = 0x4 then .update
  else if c = 0x5 then .hup
  else if c = 0x6 then .resetSvcTable
  else if c = 0x7 then .scanNetwork
  else if c = 0x8 then .getStatus
  else if c = 0x9 then .status
  else if c = 0xa then .getScanReport
  else if c = 0xb then .scanReport
  else if c = 0xc then .dataAck
  else if c = 0xd then .connect
  else .unknown

/-! ## Service tables (control/svc_table.rs) -/

/-- `struct Element` (svc_table.rs:78-90). -/
structure SvcElement where
  id : UInt16
  service : Service
deriving DecidableEq, Repr

/-- `ElementHeader::from` and its `Encode` (svc_table.rs:30-76): 29 bytes; missing values are
the null MAC address and `0.0.0.0:0`. -/
def SvcElement.encodeHeader (e : SvcElement) : Bytes :=
  let mac := e.service.mac.getD ⟨0, 0, 0, 0, 0, 0⟩
  let addr := e.service.address.getD ⟨.v4 0 0 0 0, 0⟩
  be16 e.id ++ be16 e.service.svcType.code ++ mac.octets ++ [addr.ip.version] ++ addr.ip.bytes
    ++ be16 addr.port

/-- `impl Encode for Element` (svc_table.rs:92-101). -/
def SvcElement.encode (e : SvcElement) : Bytes :=
  e.encodeHeader ++ (e.service.path.getD []) ++ [0]

/-- `impl MessageBody for Element` (svc_table.rs:103-109). -/
def SvcElement.len (e : SvcElement) : Nat := 29 + ((e.service.path.getD []).length + 1)

/-- `struct SimpleServiceTable` (svc_table.rs:111-115): the map as an association list in
iteration order. -/
structure SimpleTable where
  elems : List SvcElement
deriving DecidableEq, Repr

/-- `HashMap::insert` of `From<I> for SimpleServiceTable` (svc_table.rs:124-126): replaces the
element with the same key. -/
def insertElem (l : List SvcElement) (e : SvcElement) : List SvcElement :=
  if l.any (·.id = e.id) then l.map (fun x => if x.id = e.id then e else x) else l ++ [e]

/-- `From<I> for SimpleServiceTable` (svc_table.rs:117-130). -/
def SimpleTable.ofServices (svcs : List (UInt16 × Service)) : SimpleTable :=
  ⟨svcs.foldl (fun l p => insertElem l ⟨p.1, p.2⟩) []⟩

/-- `SimpleServiceTable::get` (svc_table.rs:133-139). -/
def SimpleTable.get (t : SimpleTable) (id : UInt16) : Option Service :=
  if id = 0 then some .control else (t.elems.find? (·.id = id)).map (·.service)

/-- `SimpleServiceTable::get_id` (svc_table.rs:141-153). -/
def SimpleTable.getId (t : SimpleTable) (i : ServiceIdentifier) : Option UInt16 :=
  if i.isControl then some 0
  else (t.elems.find? (fun e => i = e.service.toIdentifier)).map (·.id)

/-- The terminating control element (svc_table.rs:166, 178). -/
def controlElem : SvcElement := ⟨0, .control⟩

/-- `impl Encode for SimpleServiceTable` (svc_table.rs:160-168). -/
def SimpleTable.encode (t : SimpleTable) : Bytes :=
  t.elems.flatMap SvcElement.encode ++ controlElem.encode

/-- `impl MessageBody for SimpleServiceTable` (svc_table.rs:170-182). -/
def SimpleTable.len (t : SimpleTable) : Nat :=
  t.elems.foldl (fun n e => n + e.len) 0 + controlElem.len

/-! ## Host tables (scan_report/host_table.rs) -/

/-- `struct HostRecord` (src/scanner/result/host.rs:24-32): the port set as a list in iteration
order. -/
structure HostRecord where
  flags : UInt8
  mac : MacAddr
  ip : IpAddr
  ports : List UInt16
deriving DecidableEq, Repr

/-- `Element` encoding (host_table.rs:26-62, 76-84); `ports.len() as u16` truncates. -/
def HostRecord.encode (h : HostRecord) : Bytes :=
  [h.flags] ++ h.mac.octets ++ [h.ip.version] ++ h.ip.bytes ++ be16 (UInt16.ofNat h.ports.length)
    ++ h.ports.flatMap be16

/-- `impl MessageBody for Element` (host_table.rs:86-92): 26-byte header. -/
def HostRecord.len (h : HostRecord) : Nat := 26 + h.ports.length * 2

/-- `impl Encode for HostTable` (host_table.rs:134-142); `hosts.len() as u32` truncates. -/
def encodeHosts (hs : List HostRecord) : Bytes :=
  be32 (UInt32.ofNat hs.length) ++ hs.flatMap HostRecord.encode

/-- `impl MessageBody for HostTable` (host_table.rs:144-154). -/
def hostsLen (hs : List HostRecord) : Nat := hs.foldl (fun n h => n + h.len) 4

/-! ## Message bodies -/

/-- All `ControlMessageBody` implementations (control/*.rs). Strings are their UTF-8 bytes, `uuid`
and `key` are the 16-byte arrays of register.rs:28-33. -/
inductive Body where
  /-- `AckMessage` (ack.rs:26-30). -/
  | ack (err : UInt32)
  /-- `ConnectMessage` (connect.rs:26-33). -/
  | connect (service : UInt16) (session : UInt32)
  /-- `DataAckMessage` (data_ack.rs:26-33). -/
  | dataAck (session : UInt32) (length : UInt32)
  /-- `HupMessage` (hup.rs:26-33). -/
  | hup (session : UInt32) (error : UInt32)
  /-- `RedirectMessage` (redirect.rs:24-27). -/
  | redirect (target : Bytes)
  /-- `EmptyMessage` (control/mod.rs:198). -/
  | empty
  /-- `StatusMessage` (status.rs:28-34). -/
  | status (requestId : UInt16) (flags : UInt32) (sessions : UInt32)
  /-- `RegisterMessage` (register.rs:26-75). -/
  | register (uuid key : Vector UInt8 16) (mac : MacAddr) (window : UInt16) (flags : UInt32)
      (info : Bytes) (table : SimpleTable)
  /-- `UpdateMessage` (update.rs:21-24). -/
  | update (table : SimpleTable)
  /-- `ScanReportMessage` (scan_report/mod.rs:56-61). -/
  | scanReport (requestId : UInt16) (hosts : List HostRecord) (table : SimpleTable)
deriving DecidableEq

/-- The `Encode` implementations of the bodies (ack.rs:39-47, connect.rs:35-44, data_ack.rs:45-54,
hup.rs:45-54, redirect.rs:29-34, control/mod.rs:200-202, status.rs:48-58, register.rs:50-62,105-114,
update.rs:33-37, scan_report/mod.rs:91-98). -/
def Body.encode : Body → Bytes
  | .ack e => be32 e
  | .connect svc s => be16 svc ++ be32 s
  | .dataAck s l => be32 s ++ be32 l
  | .hup s e => be32 s ++ be32 e
  | .redirect t => t ++ [0]
  | .empty => []
  | .status r f n => be16 r ++ be32 f ++ be32 n
  | .register uuid key mac w f info t =>
    uuid.toList ++ key.toList ++ mac.octets ++ be16 w ++ be32 f ++ info ++ [0] ++ t.encode
  | .update t => t.encode
  | .scanReport r hs t => be16 r ++ encodeHosts hs ++ t.encode

/-- The `MessageBody::len` implementations (ack.rs:49-53, connect.rs:46-50, data_ack.rs:56-60,
hup.rs:56-60, redirect.rs:36-40, control/mod.rs:204-208, status.rs:60-64, register.rs:116-123,
update.rs:39-43, scan_report/mod.rs:100-104). `size_of` of the packed structs: 4, 6, 8, 8, 10, 44, 2. -/
def Body.len : Body → Nat
  | .ack _ => 4
  | .connect _ _ => 6
  | .dataAck _ _ => 8
  | .hup _ _ => 8
  | .redirect t => t.length + 1
  | .empty => 0
  | .status _ _ _ => 10
  | .register _ _ _ _ _ info t => 44 + info.length + 1 + t.len
  | .update t => t.len
  | .scanReport _ hs t => 2 + hostsLen hs + t.len

/-- `struct ControlMessage` (control/mod.rs:212-218) with its header (lines 129-137). -/
structure ControlMessage where
  msgId : UInt16
  msgType : UInt16
  body : Body
deriving DecidableEq

/-- `impl Encode for ControlMessage` (control/mod.rs:418-423, 166-175). -/
def ControlMessage.encode (m : ControlMessage) : Bytes :=
  be16 m.msgId ++ be16 m.msgType ++ m.body.encode

/-- `impl MessageBody for ControlMessage` (control/mod.rs:425-429). -/
def ControlMessage.len (m : ControlMessage) : Nat := 4 + m.body.len

/-- `AckMessage::from_bytes` (ack.rs:58-74). -/
def decodeAck : Bytes → Res Body
  | [a, b, c, d] => .ok (.ack (rd32 a b c d))
  | _ => .err

/-- `ConnectMessage::from_bytes` (connect.rs:55-72). The session id is not masked. -/
def decodeConnect : Bytes → Res Body
  | [s0, s1, a, b, c, d] => .ok (.connect (rd16 s0 s1) (rd32 a b c d))
  | _ => .err

/-- `DataAckMessage::from_bytes` (data_ack.rs:65-82). The session id is not masked. -/
def decodeDataAck : Bytes → Res Body
  | [a, b, c, d, e, f, g, h] => .ok (.dataAck (rd32 a b c d) (rd32 e f g h))
  | _ => .err

/-- `HupMessage::from_bytes` (hup.rs:65-82). The session id is not masked. -/
def decodeHup : Bytes → Res Body
  | [a, b, c, d, e, f, g, h] => .ok (.hup (rd32 a b c d) (rd32 e f g h))
  | _ => .err

/-- `RedirectMessage::from_bytes` (redirect.rs:45-63). -/
def decodeRedirect (bs : Bytes) : Res Body :=
  if bs.length = 0 ∨ bs.getLast? ≠ some 0 then .err
  else
    let t := bs.take (bs.length - 1)
    if Utf8.valid t then .ok (.redirect t) else .err

/-- `ControlMessage::decode_empty_message` (control/mod.rs:408-415). -/
def decodeEmpty (bs : Bytes) : Res Body := if bs = [] then .ok .empty else .err

/-- `ControlMessage::decode_body` (control/mod.rs:339-361). -/
def decodeBody (t : MsgType) (bs : Bytes) : Res Body :=
  match t with
  | .ack => decodeAck bs
  | .connect => decodeConnect bs
  | .dataAck => decodeDataAck bs
  | .redirect => decodeRedirect bs
  | .hup => decodeHup bs
  | .ping | .resetSvcTable | .scanNetwork | .getStatus | .getScanReport => decodeEmpty bs
  | .unknown => .err
  | .register | .update | .status | .scanReport => .err

/-- `ControlMessage::from_bytes` (control/mod.rs:434-450) with `ControlMessageHeader::from_bytes`
(lines 177-192). -/
def ControlMessage.fromBytes (bs : Bytes) : Res ControlMessage :=
  match bs with
  | i0 :: i1 :: t0 :: t1 :: rest =>
    match decodeBody (MsgType.ofCode (rd16 t0 t1)) rest with
    | .ok b => .ok ⟨rd16 i0 i1, rd16 t0 t1, b⟩
    | .err => .err
    | .panic => .panic
  | _ => .err

/-! ## Constructors (control/mod.rs:220-324) -/

/-- `ControlMessage::ack` (control/mod.rs:222-224). -/
def mkAck (id : UInt16) (err : UInt32) : ControlMessage := ⟨id, 0x0, .ack err⟩
/-- `ControlMessage::data_ack` (control/mod.rs:227-233) with `DataAckMessage::new` (data_ack.rs:37-42). -/
def mkDataAck (id : UInt16) (session len : UInt32) : ControlMessage :=
  ⟨id, 0xc, .dataAck (mask24 session) len⟩
/-- `ControlMessage::hup` (control/mod.rs:236-242) with `HupMessage::new` (hup.rs:37-42). -/
def mkHup (id : UInt16) (session err : UInt32) : ControlMessage :=
  ⟨id, 0x5, .hup (mask24 session) err⟩
/-- `ControlMessage::status` (control/mod.rs:245-251). -/
def mkStatus (id req : UInt16) (flags sessions : UInt32) : ControlMessage :=
  ⟨id, 0x9, .status req flags sessions⟩
/-- `ControlMessage::ping` (control/mod.rs:270-273). -/
def mkPing (id : UInt16) : ControlMessage := ⟨id, 0x1, .empty⟩
/-- `ControlMessage::register` (control/mod.rs:277-305): `none` is the failed assertion
`0 < window_size ≤ 65536`. -/
def mkRegister (id : UInt16) (uuid key : Vector UInt8 16) (mac : MacAddr) (window : Nat)
    (gateway : Bool) (table : SimpleTable) (info : Bytes) : Option ControlMessage :=
  if 0 < window ∧ window ≤ 65536 then
    some ⟨id, 0x2, .register uuid key mac (UInt16.ofNat (window - 1)) (if gateway then 1 else 0)
      info table⟩
  else none
/-- `ControlMessage::update` (control/mod.rs:308-314). -/
def mkUpdate (id : UInt16) (t : SimpleTable) : ControlMessage := ⟨id, 0x4, .update t⟩
/-- `ControlMessage::scan_report` (control/mod.rs:254-269) with `ScanReportMessage::new`
(scan_report/mod.rs:65-88). `getId` is the lookup of the given service table. -/
def mkScanReport (id req : UInt16) (hosts : List HostRecord) (services : List Service)
    (getId : ServiceIdentifier → Option UInt16) : ControlMessage :=
  let listed := services.filterMap (fun s => (getId s.toIdentifier).map (fun i => (i, s)))
  ⟨id, 0xb, .scanReport req hosts (SimpleTable.ofServices listed)⟩

/-! ## Message factory (control/mod.rs:454-547) -/

/-- The requests made of `ControlMessageFactory` (control/mod.rs:476-546). -/
inductive FactoryOp where
  | ack (msgId : UInt16) (err : UInt32)
  | dataAck (session len : UInt32)
  | hup (session err : UInt32)
  | status (req : UInt16) (flags sessions : UInt32)
  | scanReport (req : UInt16) (hosts : List HostRecord) (services : List Service)
      (getId : ServiceIdentifier → Option UInt16)
  | ping
  | register (uuid key : Vector UInt8 16) (mac : MacAddr) (window : Nat) (gateway : Bool)
      (table : SimpleTable) (info : Bytes)
  | update (table : SimpleTable)

/-- `ControlMessageFactory` methods (control/mod.rs:459-547). The state is the shared counter; its
`usize` overflow is not modelled (2^64 messages). `next_id` returns `counter as u16` and increments.
`none` is the panic of `register`. -/
def factoryStep (counter : Nat) : FactoryOp → Nat × Option ControlMessage
  | .ack id e => (counter, some (mkAck id e))
  | .dataAck s l => (counter + 1, some (mkDataAck (UInt16.ofNat counter) s l))
  | .hup s e => (counter + 1, some (mkHup (UInt16.ofNat counter) s e))
  | .status r f n => (counter + 1, some (mkStatus (UInt16.ofNat counter) r f n))
  | .scanReport r hs ss g => (counter + 1, some (mkScanReport (UInt16.ofNat counter) r hs ss g))
  | .ping => (counter + 1, some (mkPing (UInt16.ofNat counter)))
  | .register u k m w gw t i => (counter + 1, mkRegister (UInt16.ofNat counter) u k m w gw t i)
  | .update t => (counter + 1, some (mkUpdate (UInt16.ofNat counter) t))

/-- A history of factory requests (a sequence of calls; control/mod.rs, `ControlMessageFactory`). -/
def factoryRun (counter : Nat) : List FactoryOp → Nat × List (Option ControlMessage)
  | [] => (counter, [])
  | op :: ops =>
    let r := factoryStep counter op
    let rest := factoryRun r.1 ops
    (rest.1, r.2 :: rest.2)

/-- `From<ControlMessage> for ArrowMessage` (msg/mod.rs:144-148): service 0, session 0. -/
def ControlMessage.toArrow (m : ControlMessage) : Wire.Message := Wire.Message.new 0 0 m.encode

end Verif.Control
