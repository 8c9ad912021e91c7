import Verif.Model.Http
import Verif.Spec.White
import Verif.Spec.Url
/-!
# HTTP and RTSP responses, described as text

What a server sends: a status line, header fields, an empty line, a body. Lines end with CR LF.
-/
namespace Verif.Spec.Http
open Verif Verif.Spec.Text

/-- There is no line end in the text. -/
def OneLine (t : Bytes) : Prop := ¬[13, 10] <:+: t

/-- A line that is accepted, without its line end: UTF-8, and with the line end at most 4096 bytes long. -/
structure IsLine (t : Bytes) : Prop where
  one : OneLine t
  utf8 : Utf8.valid t = true
  fits : t.length + 2 ≤ 4096

/-- The text of some lines. -/
def text (lines : List Bytes) : Bytes := lines.flatMap (· ++ [13, 10])

/-- The content of a header. -/
structure Head where
  protocol : Bytes
  version : Bytes
  status : Nat
  reason : Bytes
  /-- names and values of the fields, in order -/
  fields : List (Bytes × Option Bytes)

/-- The status line `protocol/version status reason`. -/
def StatusIs (t : Bytes) (h : Head) : Prop :=
  ∃ r1 code r2, (47 ∉ h.protocol ∧ ∃ r0, t = h.protocol ++ 47 :: r0 ∧ FirstWord r0 h.version r1) ∧
    FirstWord r1 code r2 ∧ IsDecimal code h.status ∧ h.status ≤ 65535 ∧ Trimmed r2 h.reason

/-- A field `name: value`, or only `name`. -/
def FieldIs (t : Bytes) (f : Bytes × Option Bytes) : Prop :=
  (∃ a b v, t = a ++ 58 :: b ∧ 58 ∉ a ∧ Trimmed a f.1 ∧ f.2 = some v ∧ Trimmed b v) ∨
    (58 ∉ t ∧ Trimmed t f.1 ∧ f.2 = none)

/-- The lines, in groups of one field: a line that begins with white space continues the field before it. -/
structure Groups (lines : List Bytes) (groups : List (List Bytes)) : Prop where
  all : lines = groups.flatten
  within : ∀ g ∈ groups, ∃ a cs, g = a :: cs ∧ ∀ c ∈ cs, StartsWhite c
  between : ∀ g ∈ groups.tail, ∀ a, g.head? = some a → ¬StartsWhite a

/-- The text `s` is a header with the content `h`. A header has at most 1024 lines, with the status line and the empty
line. -/
def IsHead (s : Bytes) (h : Head) : Prop :=
  ∃ (status : Bytes) (lines : List Bytes) (groups : List (List Bytes)),
    s = text (status :: lines) ++ [13, 10] ∧ IsLine status ∧ (∀ t ∈ lines, IsLine t ∧ t ≠ []) ∧ lines.length + 2 ≤ 1024 ∧
    StatusIs status h ∧ Groups lines groups ∧ groups.length = h.fields.length ∧
    ∀ (i : Nat) (g : List Bytes) (f : Bytes × Option Bytes), groups[i]? = some g → h.fields[i]? = some f → FieldIs g.flatten f

/-- The last field with the name, where `L` makes names comparable: its value. -/
def Head.last (L : Bytes → Bytes) (h : Head) (name : Bytes) : Option (Option Bytes) :=
  ((h.fields.filter (fun f => L f.1 = L name)).getLast?).map (·.2)

/-- The protocols and versions the clients accept. -/
def Accepted (P : Http.Proto) (h : Head) : Prop :=
  match P with
  | .http => h.protocol = asc "HTTP" ∧ (h.version = asc "1.0" ∨ h.version = asc "1.1")
  | .rtsp => h.protocol = asc "RTSP" ∧ h.version = asc "1.0"

/-! ## Lines -/

/-- In `t` followed by the separator, the separator does not begin before the end of `t`. -/
def Until (sep t : Bytes) : Prop := ∀ a b, t = a ++ b → b ≠ [] → ¬sep <+: b ++ sep

/-- The lines a line decoder returns for some data, and the decoder afterwards unless there was an error. -/
def drain : Nat → Http.Line → Bytes → List Bytes × Option Http.Line
  | 0, d, _ => ([], some d)
  | n + 1, d, data =>
    match d.decode data with
    | .ok (some t) d r => (t :: (drain n d r).1, (drain n d r).2)
    | .ok none d _ => ([], some d)
    | .err => ([], none)
    | .panic => ([], none)

/-- The lines a line decoder returns for some pieces of data. -/
def lines : Http.Line → List Bytes → List Bytes × Option Http.Line
  | d, [] => ([], some d)
  | d, p :: ps =>
    match drain (p.length + 1) d p with
    | (ts, none) => (ts, none)
    | (ts, some d) => (ts ++ (lines d ps).1, (lines d ps).2)

/-! ## Field collections -/

/-- The operations on a collection of fields. -/
inductive Op where
  | add (name : Bytes) (value : Option Bytes)
  | set (name : Bytes) (value : Option Bytes)

/-- The fields afterwards: `add` keeps the others, `set` removes those with the same name. -/
def Op.spec (L : Bytes → Bytes) (fs : List (Bytes × Option Bytes)) : Op → List (Bytes × Option Bytes)
  | .add n v => fs ++ [(n, v)]
  | .set n v => fs.filter (fun f => L f.1 ≠ L n) ++ [(n, v)]

/-- What the code does. -/
def Op.run (L : Bytes → Bytes) (fs : Http.Fields) : Op → Http.Fields
  | .add n v => fs.add (Http.Field.new L n v)
  | .set n v => fs.set (Http.Field.new L n v)

/-! ## Bodies -/

/-- `s` begins with the line `t`, and `r` follows. -/
def FirstLine (s t r : Bytes) : Prop := s = t ++ [13, 10] ++ r ∧ IsLine t

/-- `s` is a part of a line whose end is missing. -/
def Cut (s : Bytes) : Prop := OneLine s ∧ s.length < 4096

/-- `t` is one or more hexadecimal digits, perhaps behind a plus sign, and means `n`. -/
def IsHex (t : Bytes) (n : Nat) : Prop :=
  ∃ ds, (t = ds ∨ t = 43 :: ds) ∧ ds ≠ [] ∧ (∀ c ∈ ds, digitVal 16 c ≠ none) ∧
    n = ds.foldl (fun a c => a * 16 + (digitVal 16 c).getD 0) 0

/-- The line in front of a chunk: its size, and perhaps extensions behind a semicolon. -/
def SizeIs (t : Bytes) (n : Nat) : Prop :=
  ∃ a b, t = a ++ b ∧ 59 ∉ a ∧ (b = [] ∨ b.head? = some 59) ∧ IsHex a n ∧ n ≤ 18446744073709551615

/-- Lines up to an empty line, or up to the end of the stream. -/
inductive Trailer : Bytes → Prop
  | cut {s : Bytes} : Cut s → Trailer s
  | last {s r : Bytes} : FirstLine s [] r → Trailer s
  | line {s t r : Bytes} : FirstLine s t r → t ≠ [] → Trailer r → Trailer s

/-- `Chunks s body`: the chunks in `s` are put together to the body. The stream may end anywhere. What stands between
a chunk and the next line end is dropped. -/
inductive Chunks : Bytes → Bytes → Prop
  | cut {s : Bytes} : Cut s → Chunks s []
  | last {s t r : Bytes} : FirstLine s t r → SizeIs t 0 → Trailer r → Chunks s []
  | short {s t r : Bytes} {n : Nat} : FirstLine s t r → SizeIs t n → r.length < n → Chunks s r
  | open {s t r : Bytes} {n : Nat} : FirstLine s t r → SizeIs t n → 0 < n → n ≤ r.length → Cut (r.drop n) →
    Chunks s (r.take n)
  | chunk {s t r g q body : Bytes} {n : Nat} : FirstLine s t r → SizeIs t n → 0 < n → n ≤ r.length →
    FirstLine (r.drop n) g q → Chunks q body → Chunks s (r.take n ++ body)

/-- Lines up to an empty line, which has arrived. -/
inductive TrailerDone : Bytes → Prop
  | last {s r : Bytes} : FirstLine s [] r → TrailerDone s
  | line {s t r : Bytes} : FirstLine s t r → t ≠ [] → TrailerDone r → TrailerDone s

/-- `ChunksDone s body`: all the chunks have arrived, and the trailer. -/
inductive ChunksDone : Bytes → Bytes → Prop
  | last {s t r : Bytes} : FirstLine s t r → SizeIs t 0 → TrailerDone r → ChunksDone s []
  | chunk {s t r g q body : Bytes} {n : Nat} : FirstLine s t r → SizeIs t n → 0 < n → n ≤ r.length →
    FirstLine (r.drop n) g q → ChunksDone q body → ChunksDone s (r.take n ++ body)

/-- The encoding of a body in chunks: in front of every chunk a line with its size. -/
def encodeChunks (chunks : List (Bytes × Bytes)) (last : Bytes) (trailer : List Bytes) : Bytes :=
  chunks.flatMap (fun c => c.1 ++ [13, 10] ++ c.2 ++ [13, 10]) ++ last ++ [13, 10] ++ text trailer ++ [13, 10]

/-- A response to which no body belongs. -/
def Bodiless (h : Head) : Prop := (100 ≤ h.status ∧ h.status < 200) ∨ h.status = 204 ∨ h.status = 304

/-- The announced length of the body. -/
def LengthIs (L : Bytes → Bytes) (P : Http.Proto) (h : Head) (n : Nat) : Prop :=
  (P = .http → ¬Bodiless h ∧ h.last L (asc "transfer-encoding") = none) ∧
    ∃ v, h.last L (asc "content-length") = some (some v) ∧ IsDecimal v n

/-- `BodyIs L P limit h rest body`: if `rest` is everything the server sends behind the header `h`, then the body is
`body`. -/
inductive BodyIs (L : Bytes → Bytes) : Http.Proto → Nat → Head → Bytes → Bytes → Prop
  | length {P limit h rest n} : LengthIs L P h n → n ≤ limit → BodyIs L P limit h rest (rest.take n)
  | bodiless {limit h rest} : Bodiless h → BodyIs L .http limit h rest []
  | chunked {limit h rest v body} : ¬Bodiless h → h.last L (asc "transfer-encoding") = some v →
    L (v.getD []) = asc "chunked" → Chunks rest body → BodyIs L .http limit h rest body
  | encoded {limit h rest v} : ¬Bodiless h → h.last L (asc "transfer-encoding") = some v →
    L (v.getD []) ≠ asc "chunked" → BodyIs L .http limit h rest rest
  | unknown {limit h rest} : ¬Bodiless h → h.last L (asc "transfer-encoding") = none →
    h.last L (asc "content-length") = none → BodyIs L .http limit h rest rest
  | none {limit h rest} : h.last L (asc "content-length") = none → BodyIs L .rtsp limit h rest []

/-- The longest body: a longer one cannot be stored, or, if the body is ignored, its length cannot be parsed. -/
def limit (ignore : Bool) : Nat := if ignore then 18446744073709551615 else 9223372036854775807

/-- The response shows the content of the header, and the body. -/
structure Shows (L : Bytes → Bytes) (r : Http.Response) (h : Head) (body : Bytes) : Prop where
  protocol : r.header.protocol = h.protocol
  version : r.header.version = h.version
  status : r.header.status.toNat = h.status
  reason : r.header.line = h.reason
  fields : ∀ name, (r.header.fields.get L name).map (fun f => (f.name, f.value)) =
    h.fields.filter (fun f => L f.1 = L name)
  body : r.body = body

/-! ## Requests -/

/-- `L` converts ASCII text to lower case. -/
def AsciiLower (L : Bytes → Bytes) : Prop := ∀ s : Bytes, (∀ c ∈ s, c.toNat < 128) → L s = s.map lower

/-- The path and the query of a URL. -/
def resource (p : Spec.Url.Parts) : Bytes :=
  match p.tail with
  | some (path, query, _) => path ++ Spec.Url.opt 63 query
  | none => [47]

end Verif.Spec.Http
