import Verif.Model.Text
/-!
# White space

The functions of the Rust standard library that remove white space from UTF-8 text.
-/
namespace Verif

/-- The characters with the Unicode property `White_Space` (`char::is_whitespace`), in UTF-8. -/
def white : List Bytes :=
  [[9], [10], [11], [12], [13], [32], [0xc2, 0x85], [0xc2, 0xa0], [0xe1, 0x9a, 0x80],
    [0xe2, 0x80, 0x80], [0xe2, 0x80, 0x81], [0xe2, 0x80, 0x82], [0xe2, 0x80, 0x83], [0xe2, 0x80, 0x84],
    [0xe2, 0x80, 0x85], [0xe2, 0x80, 0x86], [0xe2, 0x80, 0x87], [0xe2, 0x80, 0x88], [0xe2, 0x80, 0x89],
    [0xe2, 0x80, 0x8a], [0xe2, 0x80, 0xa8], [0xe2, 0x80, 0xa9], [0xe2, 0x80, 0xaf], [0xe2, 0x81, 0x9f],
    [0xe3, 0x80, 0x80]]

/-- Remove leading members of a list of texts. The bound on the number of rounds is not reached if it is the
length of the text (bookkeeping for the functions of the standard library below). -/
def strip (ws : List Bytes) : Nat → Bytes → Bytes
  | 0, s => s
  | n + 1, s =>
    match ws.find? (·.isPrefixOf s) with
    | some w => strip ws n (s.drop w.length)
    | none => s

/-- `str::trim_start` (the standard library; used in src/net/http/generic.rs and sdp.rs). -/
def trimStart (s : Bytes) : Bytes := strip white s.length s

/-- `str::trim_end` (as `trimStart`). -/
def trimEnd (s : Bytes) : Bytes := (strip (white.map List.reverse) s.length s.reverse).reverse

/-- `str::trim` (as `trimStart`). -/
def trim (s : Bytes) : Bytes := trimEnd (trimStart s)

/-- `str::eq_ignore_ascii_case` (the standard library). -/
def lower (c : UInt8) : UInt8 := if 65 ≤ c.toNat ∧ c.toNat ≤ 90 then c + 32 else c

end Verif
