import Verif.Model.White
/-!
# Model of the string reader

Source: /repo/src/utils/string/reader.rs lines 51-206. The state of the reader is the input that is left, in UTF-8.
A character is recognised by its bytes; the characters looked for are ASCII characters or white space, whose first
byte is not a continuation byte, so they are not found inside another character.
-/
namespace Verif.Reader
open Verif

/-- `char::is_whitespace` of the first character (used in reader.rs:51-206). -/
def isWhite (s : Bytes) : Bool := white.any (·.isPrefixOf s)

/-- `skip_whitespace` (reader.rs:115-123). -/
def skipWhitespace (s : Bytes) : Bytes := trimStart s

/-- `match_char` (reader.rs:91-103) of an ASCII character. -/
def matchChar (c : UInt8) : Bytes → Option Bytes
  | [] => none
  | b :: s => if b = c then some s else none

/-- The loop of `read_decimal_u32` (reader.rs:151-161): the value and the number of digits. Without overflow checks
(release builds) the arithmetic is modulo 2^32. -/
def digits (res : UInt32) (cnt : Nat) : Bytes → UInt32 × Nat × Bytes
  | [] => (res, cnt, [])
  | b :: s =>
    if 48 ≤ b.toNat ∧ b.toNat ≤ 57 then digits (res * 10 + UInt32.ofNat (b.toNat - 48)) (cnt + 1) s
    else (res, cnt, b :: s)

/-- `read_decimal_u32` (reader.rs:145-168). -/
def readDecimal (s : Bytes) : Option (UInt32 × Bytes) :=
  let (res, cnt, rest) := digits 0 0 (skipWhitespace s)
  if cnt = 0 then none else some (res, rest)

/-- `read_until` (reader.rs:171-187): what was read and what is left. -/
def readUntil (stop : Bytes → Bool) : Bytes → Bytes × Bytes
  | [] => ([], [])
  | b :: s =>
    if stop (b :: s) then ([], b :: s)
    else
      let (w, rest) := readUntil stop s
      (b :: w, rest)

/-- Is the first character the given ASCII character? (used in reader.rs:51-206) -/
def isChar (c : UInt8) : Bytes → Bool
  | b :: _ => b = c
  | [] => false

/-- `read_word` (reader.rs:192-195). -/
def readWord (s : Bytes) : Bytes × Bytes := readUntil isWhite (skipWhitespace s)

end Verif.Reader
