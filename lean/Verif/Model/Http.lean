import Verif.Model.Reader
import Verif.Model.Url
import Verif.Model.Map
import Verif.Model.Utf8
/-!
# Model of the HTTP and RTSP clients

Source: /repo/src/net/http/generic.rs, /repo/src/net/http/mod.rs, /repo/src/net/rtsp/mod.rs. Texts are UTF-8.
`str::to_lowercase` is a parameter `L`. Connecting, sending and the timeout are left out. After an error a decoder is
not used again (`tokio_util::codec::Framed`), so its state is left out of the result.
-/
namespace Verif.Http
open Verif

/-! ## Header fields -/

/-- `struct HeaderField` (generic.rs:68-74). -/
structure Field where
  nname : Bytes
  name : Bytes
  value : Option Bytes
deriving DecidableEq

/-- `HeaderField::new` (generic.rs:78-91). -/
def Field.new (L : Bytes → Bytes) (name : Bytes) (value : Option Bytes) : Field := ⟨L name, name, value⟩

/-- `impl FromStr for HeaderField` (generic.rs:146-168). -/
def Field.parse (L : Bytes → Bytes) (s : Bytes) : Field :=
  match Url.find 58 s with
  | some i => Field.new L (trim (s.take i)) (some (trim (s.drop (i + 1))))
  | none => Field.new L (trim s) none

/-- `impl Display for HeaderField` (generic.rs:109-120). -/
def Field.render (f : Field) : Bytes :=
  match f.value with
  | some v => f.name ++ [58, 32] ++ v
  | none => f.name

/-- `struct HeaderFields` (generic.rs:171-175). -/
structure Fields where
  fields : List Field
  map : AMap Bytes (List Field)

/-- `HeaderFields::new` (generic.rs:179-181). -/
def Fields.new : Fields := ⟨[], []⟩

/-- `HeaderFields::add` (generic.rs:184-197). -/
def Fields.add (h : Fields) (f : Field) : Fields :=
  let old := (h.map.get f.nname).getD []
  ⟨h.fields ++ [f], (h.map.remove f.nname).insert f.nname (old ++ [f])⟩

/-- `HeaderFields::set` (generic.rs:201-216). -/
def Fields.set (h : Fields) (f : Field) : Fields :=
  ⟨h.fields.filter (fun g => f.nname ≠ g.nname) ++ [f], h.map.insert f.nname [f]⟩

/-- `HeaderFields::get` (generic.rs:219-224). -/
def Fields.get (L : Bytes → Bytes) (h : Fields) (name : Bytes) : List Field := (h.map.get (L name)).getD []

/-! ## Requests -/

/-- `struct RequestHeader` (generic.rs:260-268) and the body of `struct Request` (305-310). -/
structure Request where
  method : Bytes
  path : Bytes
  protocol : Bytes
  version : Bytes
  fields : Fields
  body : Bytes

/-- `RequestBuilder::new` (generic.rs:339-344) with the constructors behind it. -/
def Request.new (protocol version method path : Bytes) : Request := ⟨method, path, protocol, version, Fields.new, []⟩

/-- `set_header_field` (generic.rs:352-363). -/
def Request.set (L : Bytes → Bytes) (r : Request) (name value : Bytes) : Request :=
  { r with fields := r.fields.set (Field.new L name (some value)) }

/-- `add_header_field` (generic.rs:365-375). -/
def Request.add (L : Bytes → Bytes) (r : Request) (name value : Bytes) : Request :=
  { r with fields := r.fields.add (Field.new L name (some value)) }

/-- `impl Encoder` (http/mod.rs:439-450, rtsp/mod.rs:408-420) with `impl Display for RequestHeader`
(generic.rs:283-303). -/
def Request.encode (r : Request) : Bytes :=
  r.method ++ [32] ++ r.path ++ [32] ++ r.protocol ++ [47] ++ r.version ++ [13, 10] ++
    r.fields.fields.flatMap (fun f => f.render ++ [13, 10]) ++ [13, 10] ++ r.body

/-! ## Response headers -/

/-- `struct ResponseHeader` (generic.rs:395-403). -/
structure Header where
  protocol : Bytes
  version : Bytes
  status : UInt16
  line : Bytes
  fields : Fields

/-- `get_header_field` (generic.rs:431-434). -/
def Header.field (L : Bytes → Bytes) (h : Header) (name : Bytes) : Option Field := (h.fields.get L name).getLast?

/-- `get_header_field_value` (generic.rs:436-448). -/
def Header.value (L : Bytes → Bytes) (h : Header) (name : Bytes) : Option Bytes :=
  match (h.fields.get L name).getLast?.map (·.value) with
  | some (some v) => some v
  | _ => none

/-- `impl FromStr for ResponseHeader` (generic.rs:451-482). -/
def Header.parse (s : Bytes) : Option Header :=
  let (protocol, s) := Reader.readUntil (Reader.isChar 47) s
  match Reader.matchChar 47 s with
  | none => none
  | some s =>
    let (version, s) := Reader.readWord s
    let (code, s) := Reader.readWord s
    match parseUInt 10 65535 code with
    | none => none
    | some code => some ⟨protocol, version, UInt16.ofNat code, trim s, Fields.new⟩

/-! ## Lines -/

/-- The result of a decoder: an item or a request for more data, the new state and the data that is left; an error;
a panic (`tokio_util::codec::Decoder::decode`, generic.rs:533-594, 627-668, 709-951). -/
inductive Dec (σ α : Type) where
  | ok (item : Option α) (state : σ) (data : Bytes)
  | err
  | panic

/-- `struct LineDecoder` (generic.rs:509-513). -/
structure Line where
  sep : Bytes
  buffer : Bytes
  max : Nat

/-- `LineDecoder::new` (generic.rs:517-524). -/
def Line.new (sep : Bytes) (max : Nat) : Line := ⟨sep, [], max⟩

/-- The search for the separator (generic.rs:558-582), from an index, a number of times. -/
def search (buf sep : Bytes) : Nat → Nat → Option Nat
  | _, 0 => none
  | i, n + 1 => if (buf.drop i).take sep.length = sep then some i else search buf sep (i + 1) n

/-- `LineDecoder::decode` (generic.rs:537-592). An underflow of `max_length - old_buffer_length` is a panic. -/
def Line.decode (d : Line) (data : Bytes) : Dec Line Bytes :=
  let seplen := d.sep.length
  let old := d.buffer.length
  let start := if old > seplen then old - seplen else 0
  if old + data.length > d.max ∧ d.max < old then .panic
  else
    let append := if old + data.length > d.max then d.max - old else data.length
    let buffer := d.buffer ++ data.take append
    let stop := if buffer.length ≥ seplen then buffer.length - seplen + 1 else 0
    match search buffer d.sep start (stop - start) with
    | some index =>
      let line := buffer.take index
      let len := index + seplen
      if Utf8.valid line then
        .ok (some line) { d with buffer := [] } (if len > old then data.drop (len - old) else data)
      else .err
    | none =>
      if buffer.length ≥ d.max then .err
      else .ok none { d with buffer := buffer } (data.drop append)

/-! ## Header decoder -/

/-- `struct ResponseHeaderDecoder` (generic.rs:596-602). -/
structure HDec where
  line : Line
  header : Option Header
  field : Bytes
  lines : Nat
  maxLines : Nat

/-- `ResponseHeaderDecoder::new` (generic.rs:606-614). -/
def HDec.new (maxLine maxLines : Nat) : HDec := ⟨⟨[13, 10], [], maxLine⟩, none, [], 0, maxLines⟩

/-- One line (generic.rs:634-663): an error is `none`; otherwise the header, if complete, and the new state. -/
def HDec.process (L : Bytes → Bytes) (d : HDec) (line : Bytes) : Option (Option Header × HDec) :=
  let d := { d with lines := d.lines + 1 }
  if d.lines > d.maxLines then none
  else
    match d.header with
    | some header =>
      let commit := !Reader.isWhite line
      let (header, d) :=
        if commit ∧ d.field ≠ [] then
          ({ header with fields := header.fields.add (Field.parse L d.field) }, { d with field := [] })
        else (header, d)
      let d := { d with field := d.field ++ line }
      if line = [] then
        some (some header, { d with line := { d.line with buffer := [] }, field := [], header := none, lines := 0 })
      else some (none, { d with header := some header })
    | none =>
      match Header.parse line with
      | none => none
      | some h => some (none, { d with header := some h })

/-- The loop of `ResponseHeaderDecoder::decode` (generic.rs:631-666). Every round consumes data, so the bound on the
number of rounds is not reached; that would be the result `panic`. -/
def HDec.loop (L : Bytes → Bytes) : Nat → HDec → Bytes → Dec HDec Header
  | 0, _, _ => .panic
  | n + 1, d, data =>
    match d.line.decode data with
    | .err => .err
    | .panic => .panic
    | .ok none line data => .ok none { d with line := line } data
    | .ok (some text) line data =>
      match HDec.process L { d with line := line } text with
      | none => .err
      | some (some h, d) => .ok (some h) d data
      | some (none, d) => HDec.loop L n d data

/-- `ResponseHeaderDecoder::decode` (generic.rs:631-665). -/
def HDec.decode (L : Bytes → Bytes) (d : HDec) (data : Bytes) : Dec HDec Header := d.loop L (data.length + 1) data

/-! ## Body decoders -/

/-- `enum ChunkedDecoderState` (generic.rs:803-810). -/
inductive CState where
  | header | body | delimiter | trailer | completed
deriving DecidableEq

/-- The body decoders: `struct SimpleBodyDecoder` (generic.rs:694-697), `struct FixedSizeBodyDecoder` (735-739),
`struct ChunkedBodyDecoder` (813-819). -/
inductive Body where
  | simple (body : Bytes) (ignore : Bool)
  | fixed (body : Option Bytes) (expected : Nat) (ignore : Bool)
  | chunked (state : CState) (line : Line) (body : Bytes) (expected : Nat) (ignore : Bool)

/-- `FixedSizeBodyDecoder::new` (generic.rs:742-755). `Vec::with_capacity` panics (`none`) if the capacity exceeds
`isize::MAX`. A failure to allocate less than that is not modelled. -/
def Body.newFixed (n : Nat) (ignore : Bool) : Option Body :=
  if ignore = false ∧ n > 9223372036854775807 then none else some (.fixed (some []) n ignore)

/-- `ChunkedBodyDecoder::new` (generic.rs:821-830). -/
def Body.newChunked (maxLine : Nat) (ignore : Bool) : Body := .chunked .header ⟨[13, 10], [], maxLine⟩ [] 0 ignore

/-- `FixedSizeBodyDecoder::decode` (generic.rs:762-786). -/
def decodeFixed (body : Option Bytes) (expected : Nat) (ignore : Bool) (data : Bytes) : Dec Body Bytes :=
  let take := if expected < data.length then expected else data.length
  let expected := expected - take
  let body := body.map (fun b => if ignore then b else b ++ data.take take)
  if expected > 0 then .ok none (.fixed body expected ignore) (data.drop take)
  else
    match body with
    | some b => .ok (some b) (.fixed none expected ignore) (data.drop take)
    | none => .err

/-- `decode_trailer_part` (generic.rs:902-916); the bound on the number of rounds is not reached. -/
def decodeTrailer : Nat → Line → Bytes → Nat → Bool → Bytes → Dec Body Bytes
  | 0, _, _, _, _, _ => .panic
  | n + 1, line, body, expected, ignore, data =>
    match line.decode data with
    | .err => .err
    | .panic => .panic
    | .ok none line data => .ok none (.chunked .trailer line body expected ignore) data
    | .ok (some text) line data =>
      if text = [] then .ok (some body) (.chunked .completed line [] expected ignore) data
      else decodeTrailer n line body expected ignore data

/-- `decoding_step` (generic.rs:832-841) with `decode_chunk_header` (843-863), `decode_chunk_body` (865-887),
`decode_chunk_body_delimiter` (889-900). -/
def decodeChunk (state : CState) (line : Line) (body : Bytes) (expected : Nat) (ignore : Bool) (data : Bytes) :
    Dec Body Bytes :=
  match state with
  | .header =>
    match line.decode data with
    | .err => .err
    | .panic => .panic
    | .ok none line data => .ok none (.chunked .header line body expected ignore) data
    | .ok (some text) line data =>
      match parseUInt 16 18446744073709551615 (Reader.readUntil (Reader.isChar 59) text).1 with
      | none => .err
      | some size => .ok none (.chunked (if size > 0 then .body else .trailer) line body size ignore) data
  | .body =>
    let take := if expected < data.length then expected else data.length
    let expected := expected - take
    let body := if ignore then body else body ++ data.take take
    .ok none (.chunked (if expected = 0 then .delimiter else .body) line body expected ignore) (data.drop take)
  | .delimiter =>
    match line.decode data with
    | .err => .err
    | .panic => .panic
    | .ok none line data => .ok none (.chunked .delimiter line body expected ignore) data
    | .ok (some _) line data => .ok none (.chunked .header line body expected ignore) data
  | .trailer => decodeTrailer (data.length + 1) line body expected ignore data
  | .completed => .err

/-- `ChunkedBodyDecoder::decode` (generic.rs:923-933); the bound on the number of rounds is not reached. -/
def decodeChunked : Nat → CState → Line → Bytes → Nat → Bool → Bytes → Dec Body Bytes
  | n, state, line, body, expected, ignore, data =>
    if data = [] then .ok none (.chunked state line body expected ignore) data
    else
      match n with
      | 0 => .panic
      | n + 1 =>
        match decodeChunk state line body expected ignore data with
        | .ok none (.chunked state line body expected ignore) data =>
          decodeChunked n state line body expected ignore data
        | r => r

/-- `MessageBodyDecoder::decode` (generic.rs:679-690) of the three decoders; the simple one is generic.rs:713-721. -/
def Body.decode (b : Body) (data : Bytes) : Dec Body Bytes :=
  match b with
  | .simple body ignore => .ok none (.simple (if ignore then body else body ++ data) ignore) []
  | .fixed body expected ignore => decodeFixed body expected ignore data
  | .chunked state line body expected ignore => decodeChunked data.length state line body expected ignore data

/-- The end of the stream: generic.rs:723-729, 788-798, 935-950. -/
def Body.decodeEof (b : Body) (data : Bytes) : Dec Body Bytes :=
  match b.decode data with
  | .ok (some x) b data => .ok (some x) b data
  | .ok none (.simple body ignore) data => .ok (some body) (.simple [] ignore) data
  | .ok none (.fixed (some body) expected ignore) data => .ok (some body) (.fixed none expected ignore) data
  | .ok none (.fixed none _ _) _ => .err
  | .ok none (.chunked .completed ..) _ => .err
  | .ok none (.chunked _ line body expected ignore) data =>
    .ok (some body) (.chunked .completed line [] expected ignore) data
  | .err => .err
  | .panic => .panic

/-! ## Client codecs -/

/-- The two clients (src/net/http/mod.rs and src/net/rtsp/mod.rs). -/
inductive Proto where
  | http | rtsp
deriving DecidableEq

/-- `struct Response` (generic.rs:485-489). -/
structure Response where
  header : Header
  body : Bytes

/-- `Response::new` (http/mod.rs:267-286, rtsp/mod.rs:268-287). -/
def Response.new (P : Proto) (header : Header) (body : Bytes) : Option Response :=
  match P with
  | .http =>
    if header.protocol ≠ asc "HTTP" then none
    else if header.version ≠ asc "1.0" ∧ header.version ≠ asc "1.1" then none
    else some ⟨header, body⟩
  | .rtsp =>
    if header.protocol ≠ asc "RTSP" then none
    else if header.version ≠ asc "1.0" then none
    else some ⟨header, body⟩

/-- `struct ClientCodec` (http/mod.rs:324-331, rtsp/mod.rs:320-326). -/
structure Codec where
  hdec : HDec
  bdec : Option Body
  header : Option Header
  maxLine : Nat
  ignore : Bool

/-- `ClientCodec::new` (http/mod.rs:334-349, rtsp/mod.rs:329-339) with the limits of `Request::new`
(http/mod.rs:183-184, rtsp/mod.rs:182-183). -/
def Codec.new (ignore : Bool) : Codec := ⟨HDec.new 4096 1024, none, none, 4096, ignore⟩

/-- The body decoder of a message with a `Content-Length` (http/mod.rs:377-387, rtsp/mod.rs:349-356). -/
def lengthBody (f : Field) (ignore : Bool) : Wire.Res Body :=
  match f.value with
  | none => .err
  | some v =>
    match parseUInt 10 18446744073709551615 v with
    | none => .err
    | some n =>
      match Body.newFixed n ignore with
      | some b => .ok b
      | none => .panic

/-- The choice of the body decoder (http/mod.rs:361-390, rtsp/mod.rs:349-359). -/
def bodyFor (L : Bytes → Bytes) (P : Proto) (maxLine : Nat) (ignore : Bool) (h : Header) : Wire.Res Body :=
  match P with
  | .http =>
    if (100 ≤ h.status.toNat ∧ h.status.toNat < 200) ∨ h.status = 204 ∨ h.status = 304 then
      .ok (.fixed (some []) 0 ignore)
    else
      match h.field L (asc "transfer-encoding") with
      | some f =>
        if L (f.value.getD []) = asc "chunked" then .ok (Body.newChunked maxLine ignore) else .ok (.simple [] ignore)
      | none =>
        match h.field L (asc "content-length") with
        | some f => lengthBody f ignore
        | none => .ok (.simple [] ignore)
  | .rtsp =>
    match h.field L (asc "content-length") with
    | some f => lengthBody f ignore
    | none => .ok (.fixed (some []) 0 ignore)

/-- The second half of `decode` (http/mod.rs:397-410, rtsp/mod.rs:366-379) with the body decoder's function. The panic
of `expect` is `none`. -/
def Codec.finish (P : Proto) (c : Codec) (dec : Body → Bytes → Dec Body Bytes) (data : Bytes) : Dec Codec Response :=
  match c.bdec with
  | none => .ok none c data
  | some b =>
    match dec b data with
    | .err => .err
    | .panic => .panic
    | .ok none b data => .ok none { c with bdec := some b } data
    | .ok (some body) _ data =>
      match c.header with
      | none => .panic
      | some h =>
        match Response.new P h body with
        | none => .err
        | some r => .ok (some r) { c with bdec := none, header := none } data

/-- `decode` (http/mod.rs:356-411, rtsp/mod.rs:346-380). -/
def Codec.decode (L : Bytes → Bytes) (P : Proto) (c : Codec) (data : Bytes) : Dec Codec Response :=
  match c.header with
  | some _ => c.finish P Body.decode data
  | none =>
    match c.hdec.decode L data with
    | .err => .err
    | .panic => .panic
    | .ok none hdec data => { c with hdec := hdec }.finish P Body.decode data
    | .ok (some h) hdec data =>
      match bodyFor L P c.maxLine c.ignore h with
      | .err => .err
      | .panic => .panic
      | .ok b => { c with hdec := hdec, bdec := some b, header := some h }.finish P Body.decode data

/-- `decode_eof` (http/mod.rs:413-436, rtsp/mod.rs:382-405); every round of the loop consumes data, so the bound on
their number is not reached. -/
def Codec.decodeEof (L : Bytes → Bytes) (P : Proto) : Nat → Codec → Bytes → Dec Codec Response
  | n, c, data =>
    if data = [] then c.finish P Body.decodeEof data
    else
      match n with
      | 0 => .panic
      | n + 1 =>
        match c.decode L P data with
        | .ok none c data => Codec.decodeEof L P n c data
        | r => r

/-- `stream.next()` of the framed stream (http/mod.rs:243-247, rtsp/mod.rs:244-248), for a server that sends the given
pieces and then closes the connection: `tokio_util::codec::Framed` appends what is read to its buffer and calls
`decode`, at the end of the stream `decode_eof`. A stream that ends without a response is an error. -/
def Codec.run (L : Bytes → Bytes) (P : Proto) : Codec → Bytes → List Bytes → Wire.Res Response
  | c, buf, [] =>
    match c.decodeEof L P buf.length buf with
    | .ok (some r) _ _ => .ok r
    | .ok none _ _ => .err
    | .err => .err
    | .panic => .panic
  | c, buf, piece :: pieces =>
    match c.decode L P (buf ++ piece) with
    | .ok (some r) _ _ => .ok r
    | .ok none c buf => Codec.run L P c buf pieces
    | .err => .err
    | .panic => .panic

/-- The response to a request (`send_inner`, http/mod.rs:229-248, rtsp/mod.rs:230-249). -/
def response (L : Bytes → Bytes) (P : Proto) (ignore : Bool) (pieces : List Bytes) : Wire.Res Response :=
  (Codec.new ignore).run L P [] pieces

/-- What `stream.next()` has returned while the connection is still open, if it has returned: the pieces are all the
server has sent up to now (src/net/http/mod.rs and src/net/rtsp/mod.rs: `Framed` and `next`). -/
def Codec.receive (L : Bytes → Bytes) (P : Proto) : Codec → Bytes → List Bytes → Option (Wire.Res Response)
  | _, _, [] => none
  | c, buf, piece :: pieces =>
    match c.decode L P (buf ++ piece) with
    | .ok (some r) _ _ => some (.ok r)
    | .ok none c buf => Codec.receive L P c buf pieces
    | .err => some .err
    | .panic => some .panic

/-- The response to a request as long as the connection is open (src/net/http/mod.rs and src/net/rtsp/mod.rs: `Client::request`). -/
def received (L : Bytes → Bytes) (P : Proto) (ignore : Bool) (pieces : List Bytes) : Option (Wire.Res Response) :=
  (Codec.new ignore).receive L P [] pieces

/-! ## Clients -/

/-- `struct Request` (http/mod.rs:142-152, rtsp/mod.rs:147-157), without the limits and the timeout. -/
structure Client where
  host : Bytes
  port : UInt16
  inner : Request
  ignore : Bool

/-- `Request::new` (http/mod.rs:155-189): `none` of the URL's functions is a panic. `version` is the version of the
client. -/
def newHttp (L : Bytes → Bytes) (version method url : Bytes) (ignore : Bool) : Wire.Res Client :=
  match Url.parse url with
  | .err => .err
  | .panic => .panic
  | .ok url =>
    match url.getScheme, url.getHost, url.getPath, url.getQuery with
    | some scheme, some host, some path, some query =>
      if L scheme = asc "http" then
        let path := match query with
          | some q => path ++ [63] ++ q
          | none => path
        .ok ⟨host, url.port.getD 80,
          ((Request.new (asc "HTTP") (asc "1.0") method path).set L (asc "Host") host).set L (asc "User-Agent")
            (asc "ArrowClient/" ++ version), ignore⟩
      else .err
    | _, _, _, _ => .panic

/-- `Request::get_header` (http/mod.rs:191-193). -/
def getHeader (L : Bytes → Bytes) (version url : Bytes) : Wire.Res Client := newHttp L version (asc "GET") url true

/-- `set_header_field` of the HTTP client (http/mod.rs:202-208): it adds. -/
def Client.setHttp (L : Bytes → Bytes) (c : Client) (name value : Bytes) : Client :=
  { c with inner := c.inner.add L name value }

/-- `Request::new` (rtsp/mod.rs:160-188). -/
def newRtsp (L : Bytes → Bytes) (version method url : Bytes) (ignore : Bool) : Wire.Res Client :=
  match Url.parse url with
  | .err => .err
  | .panic => .panic
  | .ok url =>
    match url.getScheme, url.getHost with
    | some scheme, some host =>
      if L scheme = asc "rtsp" then
        .ok ⟨host, url.port.getD 554,
          ((Request.new (asc "RTSP") (asc "1.0") method url.serialized).set L (asc "CSeq") (asc "1")).set L
            (asc "User-Agent") (asc "ArrowClient/" ++ version), ignore⟩
      else .err
    | _, _ => .panic

/-- `Request::options` (rtsp/mod.rs:190-192). -/
def options (L : Bytes → Bytes) (version url : Bytes) : Wire.Res Client := newRtsp L version (asc "OPTIONS") url true

/-- `set_header_field` of the RTSP client (rtsp/mod.rs:203-209): it replaces. -/
def Client.setRtsp (L : Bytes → Bytes) (c : Client) (name value : Bytes) : Client :=
  { c with inner := c.inner.set L name value }

/-- `Request::describe` (rtsp/mod.rs:195-200). -/
def describe (L : Bytes → Bytes) (version url : Bytes) : Wire.Res Client :=
  match newRtsp L version (asc "DESCRIBE") url false with
  | .ok c => .ok (c.setRtsp L (asc "Accept") (asc "application/sdp"))
  | .err => .err
  | .panic => .panic

end Verif.Http
