import Verif.Model.White
import Verif.Spec.Text
/-!
# White space in text
-/
namespace Verif.Spec.Text
open Verif

/-- The characters with the Unicode property `White_Space`. -/
def spaces : List Char :=
  ['\t', '\n', '\u000b', '\u000c', '\r', ' ', '\u0085', '\u00a0', '\u1680', '\u2000', '\u2001', '\u2002', '\u2003',
    '\u2004', '\u2005', '\u2006', '\u2007', '\u2008', '\u2009', '\u200a', '\u2028', '\u2029', '\u202f', '\u205f',
    '\u3000']

/-- They are written in UTF-8. -/
def spaceTexts : List Bytes := spaces.map String.utf8EncodeChar

/-- `s` consists of white-space characters. -/
def AllWhite (s : Bytes) : Prop := ∃ ws : List Bytes, (∀ w ∈ ws, w ∈ spaceTexts) ∧ s = ws.flatten

/-- `v` is the text `t` without the white space at both ends. -/
def Trimmed (t v : Bytes) : Prop :=
  (∃ a b, AllWhite a ∧ AllWhite b ∧ t = a ++ v ++ b) ∧ ∀ w ∈ spaceTexts, ¬w <+: v ∧ ¬w <:+ v

/-- `s` begins with a white-space character. -/
def StartsWhite (s : Bytes) : Prop := ∃ w ∈ spaceTexts, w <+: s

/-- `w` is the first word of `t`, behind white space, and `r` is what follows it. -/
def FirstWord (t w r : Bytes) : Prop :=
  ∃ a, AllWhite a ∧ t = a ++ w ++ r ∧ ¬StartsWhite (w ++ r) ∧ (∀ x y, w = x ++ y → y ≠ [] → ¬StartsWhite (y ++ r)) ∧
    (r = [] ∨ StartsWhite r)

end Verif.Spec.Text
