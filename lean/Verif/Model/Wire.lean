import Verif.Basic
/-!
# Model of the Arrow message framing

Source: /repo/src/net/arrow/proto/msg/mod.rs, /repo/src/net/arrow/proto/codec.rs.
-/

namespace Verif.Wire

/-- `ARROW_PROTOCOL_VERSION` (src/net/arrow/proto/mod.rs:20). -/
def protocolVersion : UInt8 := 2

/-- `mem::size_of::<ArrowMessageHeader>()`: packed u8 + u16 + u32 + u32 (msg/mod.rs:42-53). -/
def headerSize : Nat := 11

/-- `struct ArrowMessageHeader` (msg/mod.rs:41-53). -/
structure Header where
  version : UInt8
  service : UInt16
  session : UInt32
  size : UInt32
deriving DecidableEq, Repr

/-- `ArrowMessageHeader::new` (msg/mod.rs:57-66): masks the session ID to 24 bits. -/
def Header.new (service : UInt16) (session : UInt32) (size : UInt32) : Header :=
  { version := protocolVersion, service := service, session := mask24 session, size := size }

/-- `impl Encode for ArrowMessageHeader` (msg/mod.rs:68-79). -/
def Header.encode (h : Header) : Bytes :=
  h.version :: (be16 h.service ++ be32 h.session ++ be32 h.size)

/-- Outcome of a decoding function: a value, a `DecodeError`, or a panic
(`Result` plus the panics of `assert_eq!`, slicing, `split_to` and `split_off`) (src/net/arrow/proto/error.rs, msg/mod.rs). -/
inductive Res (α : Type) where
  | ok (a : α)
  | err
  | panic
deriving DecidableEq, Repr

/-- `impl FromBytes for ArrowMessageHeader` (msg/mod.rs:81-102): asserts the length, masks the
session ID, rejects other protocol versions. (`Ok(None)` is never returned by the code.) -/
def Header.fromBytes (bs : Bytes) : Res Header :=
  match bs with
  | [v, s0, s1, e0, e1, e2, e3, z0, z1, z2, z3] =>
    let res : Header :=
      { version := v, service := rd16 s0 s1, session := mask24 (rd32 e0 e1 e2 e3),
        size := rd32 z0 z1 z2 z3 }
    if res.version = protocolVersion then .ok res else .err
  | _ => .panic

/-- `struct ArrowMessage` (msg/mod.rs:109-115). -/
structure Message where
  header : Header
  payload : Bytes
deriving DecidableEq, Repr

/-- `ArrowMessage::new` (msg/mod.rs:118-131), with the already encoded body as payload. -/
def Message.new (service : UInt16) (session : UInt32) (payload : Bytes) : Message :=
  { header := Header.new service session 0, payload := payload }

/-- `impl Encode for ArrowMessage` (msg/mod.rs:150-162); `payload.len() as u32` truncates. -/
def Message.encode (m : Message) : Bytes :=
  (Header.new m.header.service m.header.session (UInt32.ofNat m.payload.length)).encode
    ++ m.payload

/-- `impl Decode for ArrowMessage` (msg/mod.rs:164-189). `w` is the width of `usize` in bits:
`header.size as usize + hsize` wraps modulo `2^w` (release profile, no overflow checks).
`split_to(msize)` panics if `msize > len`, `split_off(hsize)` panics if `hsize > msize`.
Returns the result and the buffer left behind. -/
def decode (w : Nat) (buf : Bytes) : Res (Option Message) × Bytes :=
  if buf.length < headerSize then (.ok none, buf)
  else
    match Header.fromBytes (buf.take headerSize) with
    | .panic => (.panic, buf)
    | .err => (.err, buf)
    | .ok h =>
      let msize := (h.size.toNat + headerSize) % 2 ^ w
      if buf.length < msize then (.ok none, buf)
      else if msize < headerSize then (.panic, buf.drop msize)
      else (.ok (some { header := h, payload := (buf.take msize).drop headerSize }), buf.drop msize)

/-- State of a `FramedRead` over `ArrowCodec`: the read buffer and whether the stream failed. A
decoder error ends the stream (tokio-util `FramedRead`; the error ends the connection in
src/net/arrow/mod.rs:640-667). A panic ends it as well. -/
structure Reader where
  buf : Bytes
  failed : Bool
deriving DecidableEq, Repr

theorem decode_some_length {w : Nat} {buf rest : Bytes} {m : Message}
    (h : decode w buf = (.ok (some m), rest)) : rest.length < buf.length := by
  unfold decode at h
  split at h
  · simp at h
  · rename_i hlen
    split at h
    · simp at h
    · simp at h
    · rename_i hd _
      dsimp only at h
      split at h
      · simp at h
      · split at h
        · simp at h
        · rename_i h1 h2
          simp only [Prod.mk.injEq] at h
          rw [← h.2, List.length_drop]
          simp only [headerSize] at *
          omega

/-- Decode messages until the decoder asks for more data or fails (the loop of
`FramedRead::poll_next`, tokio-util; 64-bit `usize`). -/
def drain (r : Reader) : List Message × Reader :=
  if r.failed then ([], r)
  else
    match _h : decode 64 r.buf with
    | (.ok (some m), rest) =>
      let out := drain { buf := rest, failed := false }
      (m :: out.1, out.2)
    | (.ok none, rest) => ([], { buf := rest, failed := false })
    | (.err, rest) => ([], { buf := rest, failed := true })
    | (.panic, rest) => ([], { buf := rest, failed := true })
termination_by r.buf.length
decreasing_by exact decode_some_length _h

/-- One chunk arrives: it is appended to the read buffer (unless the stream already failed) and
everything decodable is decoded (codec.rs:50-57, called by `Framed`). -/
def feed (r : Reader) (chunk : Bytes) : List Message × Reader :=
  if r.failed then ([], r) else drain { r with buf := r.buf ++ chunk }

/-- A sequence of chunks arrives (a sequence of chunks; codec.rs:50-57). -/
def feedAll (r : Reader) : List Bytes → List Message × Reader
  | [] => ([], r)
  | c :: cs =>
    let a := feed r c
    let b := feedAll a.2 cs
    (a.1 ++ b.1, b.2)

/-- A fresh reader (codec.rs:47-48). -/
def Reader.init : Reader := { buf := [], failed := false }

end Verif.Wire
