import Verif.Model.Sdp
import Verif.Spec.White
/-!
# Session descriptions, described as text
-/
namespace Verif.Spec.Sdp
open Verif Verif.Spec.Text Verif.Sdp

/-! ## Lines -/

/-- Carriage return or line feed. -/
def IsEol (b : UInt8) : Prop := b = 13 ∨ b = 10

/-- The text consists of the given lines, each of them with the byte that ends it, and of a last line without end. -/
structure Split (s : Bytes) (ended : List (Bytes × UInt8)) (last : Bytes) : Prop where
  text : s = ended.flatMap (fun l => l.1 ++ [l.2]) ++ last
  eol : ∀ l ∈ ended, IsEol l.2
  inner : ∀ l ∈ ended, ∀ b ∈ l.1, ¬IsEol b
  rest : ∀ b ∈ last, ¬IsEol b

/-- The lines of a text; lines that are too long do not count as lines. -/
def IsLines (s : Bytes) (lines : List Bytes) : Prop :=
  ∃ ended last, Split s ended last ∧ lines = ended.map (·.1) ++ (if last = [] then [] else [last])
    ∧ (∀ l ∈ ended, l.1.length < 4096) ∧ last.length ≤ 4096

/-- White space, for a byte alone. -/
def ByteWhite (b : UInt8) : Prop := b ∈ ([9, 10, 11, 12, 13, 32, 0x85, 0xa0] : List UInt8)

/-- The type of a line: the first byte that is not white space. -/
def Kind (t : Bytes) (c : UInt8) : Prop :=
  ∃ w r, t = w ++ c :: r ∧ (∀ b ∈ w, ByteWhite b) ∧ ¬ByteWhite c

/-- A line `c = r`. -/
def Entry (T : Txt) (c : UInt8) (t r : Bytes) : Prop :=
  ∃ w v, AllWhite w ∧ AllWhite v ∧ T.lossy t = w ++ c :: v ++ 61 :: r

/-! ## Values -/

/-- `s` begins with a number, perhaps behind white space, and `r` follows. -/
def Number (s : Bytes) (n : Nat) (r : Bytes) : Prop :=
  ∃ w ds, AllWhite w ∧ s = w ++ ds ++ r ∧ ds ≠ [] ∧ (∀ d ∈ ds, 48 ≤ d.toNat ∧ d.toNat ≤ 57)
    ∧ (∀ d x, r = d :: x → ¬(48 ≤ d.toNat ∧ d.toNat ≤ 57))
    ∧ n = ds.foldl (fun a d => a * 10 + (d.toNat - 48)) 0

/-- `r` is `s` without the white space at the beginning. -/
def Skipped (s r : Bytes) : Prop := ∃ w, AllWhite w ∧ s = w ++ r ∧ ¬StartsWhite r

/-- The words of a text. -/
inductive Words : Bytes → List Bytes → Prop
  | nil : Words [] []
  | cons {s w r ws} : s ≠ [] → FirstWord s w r → Words r ws → Words s (w :: ws)

/-- The type of a media description: one of five words, in upper or lower case, or any other word. -/
def TypeIs (T : Txt) (word : Bytes) : MediaType → Prop
  | .audio => T.lower word = asc "audio"
  | .video => T.lower word = asc "video"
  | .text => T.lower word = asc "text"
  | .application => T.lower word = asc "application"
  | .message => T.lower word = asc "message"
  | .other s => s = word ∧ T.lower word ∉ [asc "audio", asc "video", asc "text", asc "application", asc "message"]

/-- `type port[/count] protocol formats`; numbers are modulo 2^16. -/
def MediaIs (T : Txt) (t : Bytes) (m : Media) : Prop :=
  ∃ t' ty r1 port r2 r3 r4 r5,
    Trimmed t t' ∧ FirstWord t' ty r1 ∧ TypeIs T ty m.mediaType
    ∧ Number r1 port r2 ∧ m.port.toNat = port % 65536
    ∧ Skipped r2 r3 ∧ r3 ≠ []
    ∧ ((∃ x n, r3 = 47 :: x ∧ Number x n r4 ∧ m.nbPorts = some (UInt16.ofNat n))
        ∨ (r3.head? ≠ some 47 ∧ r4 = r3 ∧ m.nbPorts = none))
    ∧ FirstWord r4 m.protocol r5 ∧ Words r5 m.formats
    ∧ m.attributes = []

/-- `name:value`, or only `name`. -/
def AttrIs (t : Bytes) (a : Attr) : Prop :=
  (∃ x y v, t = x ++ 58 :: y ∧ 58 ∉ x ∧ Trimmed x a.name ∧ a.value = some v ∧ Trimmed y v)
    ∨ (58 ∉ t ∧ Trimmed t a.name ∧ a.value = none)

/-- `payload encoding/clock[/parameters]`; numbers are modulo 2^32. -/
def RtpMapIs (t : Bytes) (m : RtpMap) : Prop :=
  ∃ t' pt r1 e r2 cr r3 r4,
    Trimmed t t' ∧ Number t' pt r1 ∧ m.payloadType.toNat = pt % 4294967296
    ∧ r1 = e ++ 47 :: r2 ∧ 47 ∉ e ∧ Trimmed e m.encoding
    ∧ Number r2 cr r3 ∧ m.clockRate.toNat = cr % 4294967296
    ∧ Skipped r3 r4
    ∧ ((r4 = [] ∧ m.params = none) ∨ ∃ x p, r4 = 47 :: x ∧ Skipped x p ∧ m.params = some p)

/-- A version line. -/
def VersionLine (T : Txt) (t : Bytes) (v : Int32) : Prop :=
  ∃ r n x, Entry T 118 t r ∧ Number r n x ∧ v = (UInt32.ofNat n).toInt32

/-- A media line. -/
def MediaLine (T : Txt) (t : Bytes) (m : Media) : Prop := ∃ r, Entry T 109 t r ∧ MediaIs T r m

/-- An attribute line. -/
def AttrLine (T : Txt) (t : Bytes) (a : Attr) : Prop := ∃ r, Entry T 97 t r ∧ AttrIs r a

/-! ## Descriptions -/

/-- The members of two lists of the same length belong to each other. -/
inductive Each {α β : Type} (R : α → β → Prop) : List α → List β → Prop
  | nil : Each R [] []
  | cons {a b as bs} : R a b → Each R as bs → Each R (a :: as) (b :: bs)

open Classical in
/-- The lines up to the next media or time line. -/
noncomputable def section_ (lines : List Bytes) : List Bytes :=
  lines.takeWhile (fun t => decide (¬(Kind t 109 ∨ Kind t 116)))

open Classical in
/-- Every media line, with the attribute lines of its section. -/
noncomputable def mediaSections : List Bytes → List (Bytes × List Bytes)
  | [] => []
  | t :: ts =>
    if Kind t 109 then (t, (section_ ts).filter (fun u => decide (Kind u 97))) :: mediaSections ts
    else mediaSections ts

open Classical in
/-- The version lines. -/
noncomputable def versions (lines : List Bytes) : List Bytes := lines.filter (fun t => decide (Kind t 118))

/-- What a session description with the given lines says. -/
structure Says (T : Txt) (lines : List Bytes) (s : Session) : Prop where
  /-- the last version line counts; all of them must be correct -/
  version : ∃ vs, Each (VersionLine T) (versions lines) vs ∧ s.version = vs.getLast?.getD 0
  /-- the media descriptions, with their attributes -/
  medias : Each (fun (p : Bytes × List Bytes) (m : Media) =>
    MediaLine T p.1 { m with attributes := [] } ∧ Each (AttrLine T) p.2 m.attributes) (mediaSections lines) s.medias

open Classical in
/-- The number of media and time lines. -/
noncomputable def calls (lines : List Bytes) : Nat := lines.countP (fun t => decide (Kind t 109 ∨ Kind t 116))

end Verif.Spec.Sdp
