import Verif.Model.Text
import Verif.Model.Service
import Verif.Spec.Mac
/-!
# What a stored configuration says

The services and settings that a JSON document describes, whoever wrote it.
-/
namespace Verif.Spec.Load
open Verif Verif.Spec.Mac

/-- The value of a key of an object. -/
def Says (l : List (Bytes × Json)) (key : Bytes) (v : Json) : Prop :=
  ∃ a b, l = a ++ (key, v) :: b ∧ ∀ x ∈ a, x.1 ≠ key

/-- The text of a MAC address. -/
def MacText (t : Bytes) (m : MacAddr) : Prop :=
  ∃ t0 t1 t2 t3 t4 t5, t = joined t0 t1 t2 t3 t4 t5 ∧ HexOctet t0 m.b0 ∧ HexOctet t1 m.b1 ∧ HexOctet t2 m.b2 ∧
    HexOctet t3 m.b3 ∧ HexOctet t4 m.b4 ∧ HexOctet t5 m.b5

/-- Has a service a path: never, always, or only if it is not empty? -/
inductive PathKind where
  | never | always | nonempty

/-- The types of services that are in the network, with their numbers. -/
def kinds : List (Int × ServiceType × PathKind) :=
  [(1, .rtsp, .always), (2, .lockedRtsp, .nonempty), (3, .unknownRtsp, .never), (4, .unsupportedRtsp, .always),
    (5, .http, .never), (6, .mjpeg, .always), (7, .lockedMjpeg, .nonempty), (65535, .tcp, .never)]

/-- The path of a service. -/
def PathIs : PathKind → Bytes → Option Bytes → Prop
  | .never, _, p => p = none
  | .always, t, p => p = some t
  | .nonempty, t, p => (t = [] ∧ p = none) ∨ (t ≠ [] ∧ p = some t)

/-- The service an object describes. All four keys are needed, also by the control service, which ignores three. -/
inductive Describes (address : Bytes → Option SocketAddr) (l : List (Bytes × Json)) : Service → Prop
  | control {m a p} : Says l (asc "svc_type") (.num 0) → Says l (asc "mac") (.str m) →
      Says l (asc "address") (.str a) → Says l (asc "path") (.str p) → Describes address l ⟨.controlProtocol, none, none, none⟩
  | network {m a p n ty k mac addr path} : (n, ty, k) ∈ kinds → Says l (asc "svc_type") (.num n) →
      Says l (asc "mac") (.str m) → MacText m mac → Says l (asc "address") (.str a) → address a = some addr →
      Says l (asc "path") (.str p) → PathIs k p path → Describes address l ⟨ty, some mac, some addr, path⟩

/-- A flag, `d` unless the object says otherwise. -/
def Flag (l : List (Bytes × Json)) (key : Bytes) (d b : Bool) : Prop :=
  Says l key (.bool b) ∨ ((¬∃ x, Says l key (.bool x)) ∧ b = d)

/-- When the service was last seen: `now`, unless the object has a number of 64 bits. -/
def Seen (l : List (Bytes × Json)) (now t : Int64) : Prop :=
  Says l (asc "last_seen") (.num t.toInt) ∨ ((¬∃ x : Int64, Says l (asc "last_seen") (.num x.toInt)) ∧ t = now)

/-- The id that the entry with index `i` asks for: the id it has, 0 if that is not a number of 16 bits; the position
if it has none. -/
def Wants (l : List (Bytes × Json)) (i : Nat) (id : UInt16) : Prop :=
  Says l (asc "id") (.num id.toNat) ∨
  ((∃ v, Says l (asc "id") v ∧ ¬∃ x : UInt16, v = .num x.toNat) ∧ id = 0) ∨
  ((¬∃ v, Says l (asc "id") v) ∧ id.toNat = (i + 1) % 65536)

/-- What an entry says. -/
structure Row where
  wants : UInt16
  service : Service
  static : Bool
  seen : Int64
  active : Bool

/-- The entry with index `i`. -/
def IsRow (address : Bytes → Option SocketAddr) (now : Int64) (i : Nat) (j : Json) (r : Row) : Prop :=
  ∃ l, j = .obj l ∧ Describes address l r.service ∧ Flag l (asc "static_svc") false r.static ∧ Seen l now r.seen ∧
    Flag l (asc "active") true r.active ∧ Wants l i r.wants

/-- The entries of a list, from index `i`. -/
inductive Rows (address : Bytes → Option SocketAddr) (now : Int64) : Nat → List Json → List Row → Prop
  | nil {i} : Rows address now i [] []
  | cons {i j js r rs} : IsRow address now i j r → Rows address now (i + 1) js rs → Rows address now i (j :: js) (r :: rs)

/-- The document is an object with this list of services. -/
def Listed (j : Json) (entries : List Json) : Prop := ∃ l, j = .obj l ∧ Says l (asc "services") (.arr entries)

/-- `id` is the first id, from `want` on and beginning with 0 again after 65535, that is not taken. -/
def FirstFree (taken : UInt16 → Prop) (want id : UInt16) : Prop :=
  ¬taken id ∧ ∃ k, k < 65536 ∧ id.toNat = (want.toNat + k) % 65536 ∧
    ∀ m, m < k → ∀ x : UInt16, x.toNat = (want.toNat + m) % 65536 → taken x

/-- The ids the entries get: each the first one that is free after the entries before it. -/
inductive Placed : List UInt16 → List Row → List UInt16 → Prop
  | nil {used} : Placed used [] []
  | cons {used r rs id ids} : FirstFree (· ∈ used) r.wants id → Placed (id :: used) rs ids →
      Placed used (r :: rs) (id :: ids)

end Verif.Spec.Load
