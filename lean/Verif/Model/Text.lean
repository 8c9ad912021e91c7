import Verif.Model.Service
/-!
# Text

Strings are lists of bytes (their UTF-8 encoding). The functions of the Rust standard library used on
them are modelled here; they are not part of /repo.
-/
namespace Verif

/-- The bytes of an ASCII string literal of the source (the standard library). -/
def asc (s : String) : Bytes := s.toList.map (fun c => UInt8.ofNat c.toNat)

/-- `char::to_digit` for an ASCII character (the standard library). -/
def digitVal (radix : Nat) (c : UInt8) : Option Nat :=
  let n := c.toNat
  let d := if 48 ≤ n ∧ n ≤ 57 then some (n - 48)
    else if 97 ≤ n ∧ n ≤ 122 then some (n - 97 + 10)
    else if 65 ≤ n ∧ n ≤ 90 then some (n - 65 + 10)
    else none
  match d with
  | some d => if d < radix then some d else none
  | none => none

/-- The digit loop of the integer parser of the standard library, with its overflow check. -/
def parseDigits (radix max : Nat) : Bytes → Nat → Option Nat
  | [], acc => some acc
  | c :: cs, acc =>
    match digitVal radix c with
    | none => none
    | some d =>
      let v := acc * radix + d
      if v ≤ max then parseDigits radix max cs v else none

/-- `from_str_radix` of an unsigned integer type with maximum `max`: an empty string and a lone sign are
errors, a leading plus sign is accepted (the standard library; used in ether/mod.rs:126, config.rs:709-731 and elsewhere). -/
def parseUInt (radix max : Nat) (s : Bytes) : Option Nat :=
  match s with
  | [] => none
  | [c] => if c = 43 ∨ c = 45 then none else parseDigits radix max [c] 0
  | c :: cs => if c = 43 then parseDigits radix max cs 0 else parseDigits radix max (c :: cs) 0

/-- `str::split` by an ASCII character (the standard library; used in ether/mod.rs:124). -/
def splitOn (sep : UInt8) : Bytes → List Bytes
  | [] => [[]]
  | c :: cs =>
    if c = sep then [] :: splitOn sep cs
    else
      match splitOn sep cs with
      | [] => [[c]]
      | w :: ws => (c :: w) :: ws

/-- A lower-case hexadecimal digit (the standard library; used in ether/mod.rs:105-117). -/
def hexDigit (n : Nat) : UInt8 := UInt8.ofNat (if n < 10 then 48 + n else 87 + n)

/-- The format `{:02x}` of a byte (the standard library; used in ether/mod.rs:105-117). -/
def hex2 (b : UInt8) : Bytes := [hexDigit (b.toNat / 16), hexDigit (b.toNat % 16)]

/-- `impl Display for MacAddr` (src/net/raw/ether/mod.rs:105-117). -/
def MacAddr.format (m : MacAddr) : Bytes :=
  hex2 m.b0 ++ [58] ++ hex2 m.b1 ++ [58] ++ hex2 m.b2 ++ [58] ++ hex2 m.b3 ++ [58] ++ hex2 m.b4 ++
    [58] ++ hex2 m.b5

/-- One octet of a MAC address (ether/mod.rs:125-129). -/
def parseOctet (s : Bytes) : Option UInt8 := (parseUInt 16 255 s).map UInt8.ofNat

/-- `impl FromStr for MacAddr` (ether/mod.rs:119-147). -/
def MacAddr.parse (s : Bytes) : Option MacAddr :=
  match (splitOn 58 s).map parseOctet with
  | [some a, some b, some c, some d, some e, some f] => some ⟨a, b, c, d, e, f⟩
  | _ => none

/-- JSON values (the crate `json`, not part of /repo). Simplification: numbers are integers. Keys of an
object are distinct after parsing; looking a key up takes the first. -/
inductive Json where
  | null
  | bool (b : Bool)
  | num (n : Int)
  | str (s : Bytes)
  | arr (l : List Json)
  | obj (l : List (Bytes × Json))

/-- `Object::get` of the crate `json`. -/
def Json.field (l : List (Bytes × Json)) (k : Bytes) : Option Json := (l.find? (·.1 = k)).map (·.2)

/-- `JsonValue::has_key` (the crate `json`). -/
def Json.hasKey : Json → Bytes → Bool
  | .obj l, k => (Json.field l k).isSome
  | _, _ => false

/-- `JsonValue::as_u16` (the crate `json`). -/
def Json.asU16 : Json → Option UInt16
  | .num n => if 0 ≤ n ∧ n < 65536 then some (UInt16.ofNat n.toNat) else none
  | _ => none

/-- `JsonValue::as_i64` (the crate `json`). -/
def Json.asI64 : Json → Option Int64
  | .num n => if -9223372036854775808 ≤ n ∧ n < 9223372036854775808 then some (Int64.ofInt n) else none
  | _ => none

/-- `JsonValue::as_str` (the crate `json`). -/
def Json.asStr : Json → Option Bytes
  | .str s => some s
  | _ => none

/-- `JsonValue::as_bool` (the crate `json`). -/
def Json.asBool : Json → Option Bool
  | .bool b => some b
  | _ => none

end Verif
