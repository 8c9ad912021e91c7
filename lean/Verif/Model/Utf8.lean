import Verif.Basic
/-!
# UTF-8 validation

`str::from_utf8` of the Rust standard library, used by src/net/arrow/proto/msg/control/redirect.rs:53
and src/net/http/generic.rs (LineDecoder). The standard library is not part of /repo; its documented
behaviour (well-formed UTF-8 as in table 3-7 of the Unicode standard, which is what
`core::str::validations::run_utf8_validation` checks) is modelled here.
-/
namespace Verif.Utf8

/-- A continuation byte `80..BF`. -/
def cont (b : UInt8) : Bool := 0x80 ≤ b.toNat && b.toNat ≤ 0xBF

/-- Well-formedness of a UTF-8 byte string (redirect.rs:53 `str::from_utf8`). -/
def valid : Bytes → Bool
  | [] => true
  | b0 :: rest =>
    if b0.toNat < 0x80 then valid rest
    else if 0xC2 ≤ b0.toNat ∧ b0.toNat ≤ 0xDF then
      match rest with
      | b1 :: r => cont b1 && valid r
      | _ => false
    else if 0xE0 ≤ b0.toNat ∧ b0.toNat ≤ 0xEF then
      match rest with
      | b1 :: b2 :: r =>
        (if b0.toNat = 0xE0 then 0xA0 ≤ b1.toNat && b1.toNat ≤ 0xBF
         else if b0.toNat = 0xED then 0x80 ≤ b1.toNat && b1.toNat ≤ 0x9F
         else cont b1) && cont b2 && valid r
      | _ => false
    else if 0xF0 ≤ b0.toNat ∧ b0.toNat ≤ 0xF4 then
      match rest with
      | b1 :: b2 :: b3 :: r =>
        (if b0.toNat = 0xF0 then 0x90 ≤ b1.toNat && b1.toNat ≤ 0xBF
         else if b0.toNat = 0xF4 then 0x80 ≤ b1.toNat && b1.toNat ≤ 0x8F
         else cont b1) && cont b2 && cont b3 && valid r
      | _ => false
    else false

end Verif.Utf8
