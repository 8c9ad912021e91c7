import Verif.Model.Url
import Verif.Spec.Text
/-!
# URLs, described by their components
-/
namespace Verif.Spec.Url
open Verif Verif.Spec.Text

/-- The components of a URL. The path, if there is one, includes its leading slash. -/
structure Parts where
  scheme : Bytes
  user : Option (Bytes × Option Bytes)
  host : Bytes
  /-- the text of the port -/
  port : Option Bytes
  tail : Option (Bytes × Option Bytes × Option Bytes)

/-- A component with its leading delimiter, or nothing. -/
def opt (c : UInt8) : Option Bytes → Bytes
  | some b => c :: b
  | none => []

/-- `name[:password]@`, or nothing -/
def userText : Option (Bytes × Option Bytes) → Bytes
  | some (name, password) => name ++ opt 58 password ++ [64]
  | none => []

/-- `/path[?query][#fragment]`, or nothing -/
def tailText : Option (Bytes × Option Bytes × Option Bytes) → Bytes
  | some (path, query, fragment) => path ++ opt 63 query ++ opt 35 fragment
  | none => []

/-- `scheme://[name[:password]@]host[:port][/path[?query][#fragment]]` -/
def render (p : Parts) : Bytes :=
  p.scheme ++ [58, 47, 47] ++ userText p.user ++ p.host ++ opt 58 p.port ++ tailText p.tail

/-- Which components can be told apart. -/
structure Wf (p : Parts) : Prop where
  scheme : 58 ∉ p.scheme
  user : ∀ n w, p.user = some (n, w) → 58 ∉ n ∧ 47 ∉ n ∧ ∀ x, w = some x → 47 ∉ x
  host : 47 ∉ p.host ∧ 64 ∉ p.host
  noPort : p.port = none → 58 ∉ p.host ∨ p.host.getLast? = some 93
  port : ∀ t, p.port = some t → ∃ n, IsDecimal t n ∧ n ≤ 65535
  slash : ∀ x q f, p.tail = some (x, q, f) → x.head? = some 47
  query : ∀ x q f, p.tail = some (x, q, f) → (q = none → 63 ∉ x) ∧ ∀ y, q = some y → 63 ∉ y
  fragment : ∀ x q f, p.tail = some (x, q, f) →
    (f = none → 35 ∉ x ∧ ∀ y, q = some y → 35 ∉ y) ∧ ∀ y, f = some y → 35 ∉ y

/-- The parsed URL hands out the components `p`, and none of its functions panics. -/
structure Reads (u : Url.Url) (p : Parts) : Prop where
  text : u.serialized = render p
  scheme : u.getScheme = some p.scheme
  username : u.getUsername = some (p.user.map (·.1))
  password : u.getPassword = some (p.user.bind (·.2))
  host : u.getHost = some p.host
  port : match p.port with
    | none => u.port = none
    | some t => ∃ n : UInt16, u.port = some n ∧ IsDecimal t n.toNat
  path : u.getPath = some (match p.tail with | some (x, _, _) => x | none => [47])
  query : u.getQuery = some (p.tail.bind (·.2.1))
  fragment : u.getFragment = some (p.tail.bind (·.2.2))

end Verif.Spec.Url
