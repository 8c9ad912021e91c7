import Verif.Model.Reader
import Verif.Model.Url
/-!
# Model of the SDP parser

Source: /repo/src/net/rtsp/sdp.rs. Texts are UTF-8. Functions of the standard library that are not modelled are the
parameter `Txt`. The parser calls itself for every `t` and `m` line; the parameter `stack` is the number of nested
calls there is space for, and `overflow` is the abort of the process when they are used up.
-/
namespace Verif.Sdp
open Verif

/-- `str::to_lowercase`, `str::to_uppercase` and `String::from_utf8_lossy` (used in sdp.rs:97-108, 185-212, 233-287, 433-533). -/
structure Txt where
  lower : Bytes → Bytes
  upper : Bytes → Bytes
  lossy : Bytes → Bytes

/-- `enum MediaType` (sdp.rs:88-95). -/
inductive MediaType where
  | audio | video | text | application | message
  | other (s : Bytes)
deriving DecidableEq

/-- `impl From<&str> for MediaType` (sdp.rs:97-108). -/
def MediaType.ofText (T : Txt) (s : Bytes) : MediaType :=
  let l := T.lower s
  if l = asc "audio" then .audio
  else if l = asc "video" then .video
  else if l = asc "text" then .text
  else if l = asc "application" then .application
  else if l = asc "message" then .message
  else .other s

/-- `struct Attribute` (sdp.rs:178-183). -/
structure Attr where
  name : Bytes
  value : Option Bytes
deriving DecidableEq

/-- `impl FromStr for Attribute` (sdp.rs:195-210): `splitn` always returns a first part. -/
def Attr.parse (s : Bytes) : Attr :=
  match Url.find 58 s with
  | some i => ⟨trim (s.take i), some (trim (s.drop (i + 1)))⟩
  | none => ⟨trim s, none⟩

/-- `struct MediaDescription` (sdp.rs:112-126). -/
structure Media where
  mediaType : MediaType
  port : UInt16
  nbPorts : Option UInt16
  protocol : Bytes
  formats : List Bytes
  attributes : List Attr
deriving DecidableEq

/-- The loop that reads the formats (sdp.rs:157-161). Every round reads something, so the bound on their number is
not reached. -/
def readFormats : Nat → Bytes → List Bytes
  | 0, _ => []
  | n + 1, s => if s = [] then [] else
    let (w, r) := Reader.readWord s
    w :: readFormats n r

/-- The number of ports (sdp.rs:137-151): `none` is an error. -/
def readPorts (s : Bytes) : Option (Option UInt16 × Bytes) :=
  match Reader.skipWhitespace s with
  | [] => none
  | c :: s =>
    if c = 47 then
      match Reader.readDecimal s with
      | some (v, r) => some (some (UInt16.ofNat v.toNat), r)
      | none => none
    else some (none, c :: s)

/-- `impl FromStr for MediaDescription` (sdp.rs:128-174). -/
def Media.parse (T : Txt) (s : Bytes) : Option Media :=
  let (mtype, s) := Reader.readWord (trim s)
  match Reader.readDecimal s with
  | none => none
  | some (port, s) =>
    match readPorts s with
    | none => none
    | some (np, s) =>
      let (protocol, s) := Reader.readWord s
      some ⟨.ofText T mtype, UInt16.ofNat port.toNat, np, protocol, readFormats s.length s, []⟩

/-- `struct RTPMap` (sdp.rs:222-231). -/
structure RtpMap where
  payloadType : UInt32
  encoding : Bytes
  clockRate : UInt32
  params : Option Bytes
deriving DecidableEq

/-- `impl FromStr for RTPMap` (sdp.rs:233-268). -/
def RtpMap.parse (s : Bytes) : Option RtpMap :=
  match Reader.readDecimal (trim s) with
  | none => none
  | some (pt, s) =>
    let (enc, s) := Reader.readUntil (Reader.isChar 47) s
    match Reader.matchChar 47 s with
    | none => none
    | some s =>
      match Reader.readDecimal s with
      | none => none
      | some (cr, s) =>
        let s := Reader.skipWhitespace s
        if s = [] then some ⟨pt, trim enc, cr, none⟩
        else
          match Reader.matchChar 47 s with
          | none => none
          | some s => some ⟨pt, trim enc, cr, some (Reader.skipWhitespace s)⟩

/-- `impl FromAttribute for RTPMap` (sdp.rs:270-286). -/
def RtpMap.ofAttr (T : Txt) (a : Attr) : Option RtpMap :=
  if T.lower a.name = asc "rtpmap" then
    match a.value with
    | some v => RtpMap.parse v
    | none => none
  else none

/-! ## Lines -/

/-- `LineReader::append` (sdp.rs:331-349) for the rest of the content, with the line up to now: the line, and what
follows it. `none` is the error. -/
def appendLine (cap : Nat) : Bytes → Bytes → Option (Bytes × Bytes)
  | buf, [] => some (buf, [])
  | buf, b :: s =>
    if buf.length ≥ cap then none
    else if b = 13 ∨ b = 10 then some (buf, s)
    else appendLine cap (buf ++ [b]) s

/-- `LineIterator::next` (sdp.rs:371-386). -/
inductive Next where
  | err
  | none
  | line (t s : Bytes)

/-- `LineIterator::next` (sdp.rs:371-386) with the limit of line 401. -/
def nextLine (s : Bytes) : Next :=
  if s = [] then .none
  else
    match appendLine 4096 [] s with
    | some (t, r) => .line t r
    | none => .err

/-- `char::is_whitespace` of a byte that is taken for a character (sdp.rs:537-538). -/
def byteWhite (b : UInt8) : Bool := (9 ≤ b.toNat ∧ b.toNat ≤ 13) ∨ b = 32 ∨ b = 0x85 ∨ b = 0xa0

/-- `trim_left(line).first()` (sdp.rs:535-544). -/
def first : Bytes → Option UInt8
  | [] => none
  | b :: s => if byteWhite b then first s else some b

/-! ## The parser -/

/-- `struct SessionDescription` (sdp.rs:63-69). -/
structure Session where
  version : Int32
  medias : List Media
deriving DecidableEq

/-- `SessionDescription::new` (sdp.rs:73-78). -/
def Session.new : Session := ⟨0, []⟩

/-- Results of the parser (sdp.rs:28-60). -/
inductive Res (α : Type) where
  | ok (a : α)
  | err
  | panic
  | overflow
deriving DecidableEq

/-- `c =` at the beginning of a line (sdp.rs:438-445, 480-487, 514-521): what follows it. -/
def afterEq (T : Txt) (c : UInt8) (t : Bytes) : Option Bytes :=
  match Reader.matchChar c (Reader.skipWhitespace (T.lossy t)) with
  | none => none
  | some s => Reader.matchChar 61 (Reader.skipWhitespace s)

/-- `process_version` (sdp.rs:433-454). -/
def processVersion (T : Txt) (sdp : Session) (t : Bytes) : Option Session :=
  match afterEq T 118 t with
  | none => none
  | some s =>
    match Reader.readDecimal s with
    | none => none
    | some (v, _) => some { sdp with version := v.toInt32 }

/-- The first part of `process_media_description` (sdp.rs:476-493). -/
def startMedia (T : Txt) (sdp : Session) (t : Bytes) : Option Session :=
  match afterEq T 109 t with
  | none => none
  | some s =>
    match Media.parse T (Reader.skipWhitespace s) with
    | none => none
    | some md => some { sdp with medias := sdp.medias ++ [md] }

/-- `process_media_attribute` (sdp.rs:509-532); `unwrap` panics if there is no media description. -/
def processAttribute (T : Txt) (sdp : Session) (t : Bytes) : Res Session :=
  match afterEq T 97 t with
  | none => .err
  | some s =>
    let a := Attr.parse (Reader.skipWhitespace s)
    match sdp.medias.getLast? with
    | none => .panic
    | some md => .ok { sdp with medias := sdp.medias.dropLast ++ [{ md with attributes := md.attributes ++ [a] }] }

/-- The loops: `process_lines` (sdp.rs:410-416), `process_time_description` (457-468), and the second part of
`process_media_description` (495-503). -/
inductive Mode where
  | lines | time | media
deriving DecidableEq

/-- `process_line` (sdp.rs:419-430). `call` runs one of the loops, if there is space on the stack. -/
def processLine (T : Txt) (call : Option (Mode → Session → Bytes → Res (Session × Bytes))) (sdp : Session)
    (t s : Bytes) : Res (Session × Bytes) :=
  match first t with
  | none => .ok (sdp, s)
  | some c =>
    if c = 118 then
      match processVersion T sdp t with
      | some sdp => .ok (sdp, s)
      | none => .err
    else if c = 116 then
      match call with
      | none => .overflow
      | some call => call .time sdp s
    else if c = 109 then
      match call with
      | none => .overflow
      | some call =>
        match startMedia T sdp t with
        | some sdp => call .media sdp s
        | none => .err
    else .ok (sdp, s)

/-- What a loop does with a line (sdp.rs:410-430, 457-507). -/
def processIn (T : Txt) (call : Option (Mode → Session → Bytes → Res (Session × Bytes))) (mode : Mode)
    (sdp : Session) (t s : Bytes) : Res (Session × Bytes) :=
  match mode with
  | .lines => processLine T call sdp t s
  | .time =>
    match first t with
    | none => .ok (sdp, s)
    | some c => if c = 114 then .ok (sdp, s) else processLine T call sdp t s
  | .media =>
    match first t with
    | none => .ok (sdp, s)
    | some c =>
      if c = 105 ∨ c = 99 ∨ c = 98 ∨ c = 107 then .ok (sdp, s)
      else if c = 97 then
        match processAttribute T sdp t with
        | .ok sdp => .ok (sdp, s)
        | .err => .err
        | .panic => .panic
        | .overflow => .overflow
      else processLine T call sdp t s

/-- One of the loops, with the space on the stack. Every round reads a byte, so the bound on their number is not
reached (sdp.rs:410-416, 457-507). -/
def loop (T : Txt) : Nat → Nat → Mode → Session → Bytes → Res (Session × Bytes)
  | 0, _, _, _, _ => .panic
  | n + 1, stack, mode, sdp, s =>
    match nextLine s with
    | .err => .err
    | .none => .ok (sdp, s)
    | .line t s =>
      let call := match stack with
        | 0 => none
        | k + 1 => some (loop T n k)
      match processIn T call mode sdp t s with
      | .ok (sdp, s) => loop T n stack mode sdp s
      | .err => .err
      | .panic => .panic
      | .overflow => .overflow

/-- `SessionDescriptionParser::parse` (sdp.rs:396-407). -/
def parse (T : Txt) (stack : Nat) (s : Bytes) : Res Session :=
  match loop T (s.length + 1) stack .lines Session.new s with
  | .ok (sdp, _) => .ok sdp
  | .err => .err
  | .panic => .panic
  | .overflow => .overflow

end Verif.Sdp
