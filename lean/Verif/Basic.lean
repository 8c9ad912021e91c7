/-!
# Byte helpers

Big-endian encoding of fixed-width integers on byte lists. In /repo every wire structure is a
`#[repr(packed)]` struct whose integer fields are converted by `to_be`/`from_be` and then viewed
as raw bytes (`utils::as_bytes`, src/utils/mod.rs); reading goes through `ptr.read_unaligned()`.
Both are modelled by the functions below.
-/

namespace Verif

abbrev Bytes := List UInt8

/-- Big-endian bytes of a `u16` (`u16::to_be` + `as_bytes`). -/
def be16 (v : UInt16) : Bytes :=
  [UInt8.ofNat (v.toNat / 256), UInt8.ofNat (v.toNat % 256)]

/-- Big-endian bytes of a `u32` (`u32::to_be` + `as_bytes`). -/
def be32 (v : UInt32) : Bytes :=
  [UInt8.ofNat (v.toNat / 16777216), UInt8.ofNat (v.toNat / 65536 % 256),
   UInt8.ofNat (v.toNat / 256 % 256), UInt8.ofNat (v.toNat % 256)]

/-- `u16::from_be` of two raw bytes. -/
def rd16 (a b : UInt8) : UInt16 := UInt16.ofNat (a.toNat * 256 + b.toNat)

/-- `u32::from_be` of four raw bytes. -/
def rd32 (a b c d : UInt8) : UInt32 :=
  UInt32.ofNat (a.toNat * 16777216 + b.toNat * 65536 + c.toNat * 256 + d.toNat)

/-- The 24-bit mask `session & ((1 << 24) - 1)`. -/
def mask24 (v : UInt32) : UInt32 := v &&& 0xFFFFFF

end Verif
