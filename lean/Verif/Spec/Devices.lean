import Verif.Model.Devices
/-!
# Which interfaces are listed

What the list of network interfaces should be, from the answers of the operating system alone.
-/
namespace Verif.Spec.Devices
open Verif Verif.Devices

/-- An entry of the system is an interface of the list if it has a MAC address (`mac`), an IPv4 address and an IPv4
network mask. -/
def interface (mac : Bytes → Option MacAddr) (e : IfAddr) : Option Interface :=
  match mac e.name, e.addr, e.netmask with
  | some m, some (.inet a), some (.inet k) => some ⟨e.name, m, a, k⟩
  | _, _, _ => none

/-- The MAC address of an Ethernet interface on Linux (hardware type 1). -/
def etherLinux (hwaddr : Bytes → Option (Nat × MacAddr)) (name : Bytes) : Option MacAddr :=
  match hwaddr name with
  | some (1, mac) => some mac
  | _ => none

/-- The MAC address in an entry of an Ethernet link on macOS (type 6, 6 bytes). -/
def linkOf (name : Bytes) (e : IfAddr) : Option MacAddr :=
  match e.addr with
  | some (.link type len mac) => if e.name = name ∧ type = 6 ∧ len = 6 then some mac else none
  | _ => none

/-- The MAC address of an interface on macOS: that of its first Ethernet link. -/
def etherMacos (es : List IfAddr) (name : Bytes) : Option MacAddr := (es.filterMap (linkOf name)).head?

/-- An entry that has a MAC address and an IPv4 address, but no network mask. -/
def Maskless (mac : Bytes → Option MacAddr) (e : IfAddr) : Prop :=
  (mac e.name).isSome ∧ (∃ a, e.addr = some (.inet a)) ∧ e.netmask = none

/-- A name of an interface is a string of at most 15 characters. -/
def Named (e : IfAddr) : Prop := (0 : UInt8) ∉ e.name ∧ e.name.length ≤ 15

/-- The first IPv4 address of an adapter, with the length of its prefix. -/
def firstIpv4 (us : List (SockAddr × UInt8)) : Option (Ip4 × Nat) :=
  (us.filterMap fun u => match u.1 with | .inet a => some (a, u.2.toNat) | _ => none).head?

/-- The IPv4 address as a number. -/
def number (a : Ip4) : Nat := a.a.toNat * 2 ^ 24 + a.b.toNat * 2 ^ 16 + a.c.toNat * 2 ^ 8 + a.d.toNat

/-- The interface is that of the adapter: Ethernet (6) or wireless (71), with a MAC address of 6 bytes and an IPv4
address, and the mask is made of the first bits, as many as the prefix has. -/
def IsInterface (a : Adapter) (i : Interface) : Prop :=
  (a.ifType = 6 ∨ a.ifType = 71) ∧ a.physLen = 6 ∧ i.name = a.name ∧ i.mac = a.phys ∧
    ∃ n, firstIpv4 a.unicast = some (i.ip, n) ∧ number i.mask = 2 ^ 32 - 2 ^ (32 - n)

/-- An adapter that should be listed. -/
def Wanted (a : Adapter) : Prop :=
  (a.ifType = 6 ∨ a.ifType = 71) ∧ a.physLen = 6 ∧ (firstIpv4 a.unicast).isSome

/-- The interfaces are those of the adapters that should be listed, in the same order. -/
inductive Listed : List Adapter → List Interface → Prop
  | nil : Listed [] []
  | skip {a : Adapter} {as : List Adapter} {is : List Interface} : ¬ Wanted a → Listed as is → Listed (a :: as) is
  | cons {a : Adapter} {as : List Adapter} {i : Interface} {is : List Interface} :
      IsInterface a i → Listed as is → Listed (a :: as) (i :: is)

/-- The interfaces that should be listed on Linux: the last entry comes first. -/
def expectedLinux (sys : Linux) : List Interface :=
  if sys.socket then ((sys.ifaddrs.getD []).filterMap (interface (etherLinux sys.hwaddr))).reverse else []

/-- The interfaces that should be listed on macOS: the last entry comes first. -/
def expectedMacos (ifaddrs : Option (List IfAddr)) : List Interface :=
  let es := ifaddrs.getD []
  (es.filterMap (interface (etherMacos es))).reverse

/-- The heaps hold the same blocks and the same open resources. -/
def Same {σ : Type} (h h' : CMem.Heap σ) : Prop := h'.objs = h.objs ∧ h'.held = h.held

end Verif.Spec.Devices
