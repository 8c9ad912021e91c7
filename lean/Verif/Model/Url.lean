import Verif.Model.Text
import Verif.Model.Utf8
import Verif.Model.Wire
/-!
# Model of the URL parser

Source: /repo/src/net/url.rs lines 53-263. A string is the list of its UTF-8 bytes. The delimiters are ASCII
characters, so finding a character is finding its byte. A string slice panics if its ends are in the wrong
order, behind the end of the string, or inside a character.
-/
namespace Verif.Url
open Verif

/-- `str::find` with an ASCII character (standard library). -/
def find (c : UInt8) : Bytes → Option Nat
  | [] => none
  | b :: s => if b = c then some 0 else (find c s).map (· + 1)

/-- `str::rfind` with an ASCII character (standard library). -/
def rfind (c : UInt8) : Bytes → Option Nat
  | [] => none
  | b :: s =>
    match rfind c s with
    | some i => some (i + 1)
    | none => if b = c then some 0 else none

/-- `str::is_char_boundary` (standard library). -/
def boundary (s : Bytes) (i : Nat) : Bool :=
  match s[i]? with
  | some b => !Utf8.cont b
  | none => i = s.length

/-- `&s[a..b]` (standard library); `none` is a panic. -/
def slice (s : Bytes) (a b : Nat) : Option Bytes :=
  if a ≤ b ∧ boundary s a ∧ boundary s b then some ((s.take b).drop a) else none

/-- `struct Url` (url.rs:53-64). -/
structure Url where
  serialized : Bytes
  hier : Nat
  netloc : Nat
  username : Option Nat
  password : Option Nat
  portpos : Option Nat
  port : Option UInt16
  path : Option Nat
  query : Option Nat
  fragment : Option Nat

/-- Use a slice or panic (slices in url.rs:68-225). -/
def orPanic {α β : Type} : Option α → (α → Wire.Res β) → Wire.Res β
  | some a, f => f a
  | none, _ => .panic

/-- `process_user_info` (url.rs:127-135). -/
def Url.processUserInfo (u : Url) (start stop : Nat) : Wire.Res Url :=
  orPanic (slice u.serialized start stop) fun uinfo =>
    let u := { u with username := some start }
    match find 58 uinfo with
    | some delim => .ok { u with password := some (start + delim + 1) }
    | none => .ok u

/-- `process_authority` (url.rs:101-124). -/
def Url.processAuthority (u : Url) (start stop : Nat) : Wire.Res Url :=
  orPanic (slice u.serialized start stop) fun auth =>
    let r : Wire.Res Url := match rfind 64 auth with
      | some delim =>
        match u.processUserInfo start (start + delim) with
        | .ok u => .ok { u with netloc := start + delim + 1 }
        | .err => .err
        | .panic => .panic
      | none => .ok { u with netloc := start }
    match r with
    | .err => .err
    | .panic => .panic
    | .ok u =>
      orPanic (slice u.serialized u.netloc stop) fun netloc =>
        if netloc.getLast? = some 93 then .ok u
        else
          match rfind 58 netloc with
          | none => .ok u
          | some delim =>
            let ppos := delim + 1
            orPanic (slice netloc ppos netloc.length) fun text =>
              match parseUInt 10 65535 text with
              | none => .err
              | some port => .ok { u with portpos := some (u.netloc + ppos), port := some (UInt16.ofNat port) }

/-- `process_path` (url.rs:138-154). -/
def Url.processPath (u : Url) (start : Nat) : Wire.Res Url :=
  orPanic (slice u.serialized start u.serialized.length) fun path =>
    let u := { u with path := some start }
    let u := match rfind 35 path with
      | some delim => { u with fragment := some (start + delim + 1) }
      | none => u
    let stop := match u.fragment with
      | some f => f - 1
      | none => u.serialized.length
    orPanic (slice u.serialized start stop) fun path =>
      match rfind 63 path with
      | some delim => .ok { u with query := some (start + delim + 1) }
      | none => .ok u

/-- `process_hierarchy` (url.rs:77-98). -/
def Url.processHierarchy (u : Url) (start : Nat) : Wire.Res Url :=
  let u := { u with hier := start }
  orPanic (slice u.serialized start u.serialized.length) fun rest =>
    if [47, 47].isPrefixOf rest then
      let authority := start + 2
      orPanic (slice u.serialized authority u.serialized.length) fun rest =>
        match find 47 rest with
        | some pos =>
          match u.processAuthority authority (authority + pos) with
          | .ok u => u.processPath (authority + pos)
          | .err => .err
          | .panic => .panic
        | none => u.processAuthority authority u.serialized.length
    else .err

/-- `impl FromStr for Url` (url.rs:242-263) with `init` (68-74). -/
def parse (s : Bytes) : Wire.Res Url :=
  match find 58 s with
  | some delim => Url.processHierarchy ⟨s, 0, 0, none, none, none, none, none, none, none⟩ (delim + 1)
  | none => .err

/-- `scheme` (url.rs:157-159); `none` is a panic, also below. -/
def Url.getScheme (u : Url) : Option Bytes := slice u.serialized 0 (u.hier - 1)

/-- `username` (url.rs:162-172). -/
def Url.getUsername (u : Url) : Option (Option Bytes) :=
  match u.username with
  | some pos =>
    match u.password with
    | some pwd => (slice u.serialized pos (pwd - 1)).map some
    | none => (slice u.serialized pos (u.netloc - 1)).map some
  | none => some none

/-- `password` (url.rs:175-178). -/
def Url.getPassword (u : Url) : Option (Option Bytes) :=
  match u.password with
  | some pwd => (slice u.serialized pwd (u.netloc - 1)).map some
  | none => some none

/-- `host` (url.rs:181-189). -/
def Url.getHost (u : Url) : Option Bytes :=
  match u.portpos, u.path with
  | some pos, _ => slice u.serialized u.netloc (pos - 1)
  | none, some path => slice u.serialized u.netloc path
  | none, none => slice u.serialized u.netloc u.serialized.length

/-- `path` (url.rs:197-209). -/
def Url.getPath (u : Url) : Option Bytes :=
  match u.path with
  | some path =>
    match u.query, u.fragment with
    | some q, _ => slice u.serialized path (q - 1)
    | none, some f => slice u.serialized path (f - 1)
    | none, none => slice u.serialized path u.serialized.length
  | none => some [47]

/-- `query` (url.rs:212-222). -/
def Url.getQuery (u : Url) : Option (Option Bytes) :=
  match u.query with
  | some q =>
    match u.fragment with
    | some f => (slice u.serialized q (f - 1)).map some
    | none => (slice u.serialized q u.serialized.length).map some
  | none => some none

/-- `fragment` (url.rs:225-227). -/
def Url.getFragment (u : Url) : Option (Option Bytes) :=
  match u.fragment with
  | some f => (slice u.serialized f u.serialized.length).map some
  | none => some none

end Verif.Url
