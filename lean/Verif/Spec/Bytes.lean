import Verif.Basic
/-!
# Reading byte strings, independently of the model

Specification-level view of binary layouts: the number denoted by a big-endian byte string and
the sub-string at a given offset.
-/
namespace Verif.Spec

/-- The number denoted by a big-endian (network order) byte string. -/
def natBE (bs : Bytes) : Nat := bs.foldl (fun acc b => acc * 256 + b.toNat) 0

/-- `len` bytes at offset `off`. -/
def slice (bs : Bytes) (off len : Nat) : Bytes := (bs.drop off).take len

/-- The number in the `len` bytes at offset `off`. -/
def field (bs : Bytes) (off len : Nat) : Nat := natBE (slice bs off len)

end Verif.Spec
