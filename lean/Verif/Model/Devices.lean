import Verif.Model.CMem
import Verif.Model.Service
/-!
# Model of the list of network interfaces

Source: /repo/src/net/raw/devices (devices-common.c, devices-linux.c, devices-macos.c, devices-windows.c,
devices-utils.h, mod.rs), with the memory of `CMem`. What the operating system answers is an input. Strings are their
characters without the NUL at the end. The name of an interface is left as bytes (`String::from_utf8_lossy` in
`cstr_to_string`, utils/mod.rs:123-127, is left out).
-/
namespace Verif.Devices
open Verif.CMem

/-- `struct net_device` (devices.h:21-27); pointers are addresses. -/
structure NetDev where
  name : Nat
  ip : Ip4
  mask : Ip4
  mac : MacAddr
  next : Nat
deriving DecidableEq, Repr

/-- An interface as the user of the library sees it: `struct EthernetDevice` (devices/mod.rs:42-48). -/
structure Interface where
  name : Bytes
  mac : MacAddr
  ip : Ip4
  mask : Ip4
deriving DecidableEq, Repr

/-- `struct sockaddr` as far as it is looked at (devices-utils.h:20-31, devices-macos.c:33-45): the address of the
families AF_INET and AF_LINK (of the latter the type and the length, too). -/
inductive SockAddr where
  | inet (a : Ip4)
  | link (type alen : Nat) (mac : MacAddr)
  | other
deriving DecidableEq, Repr

/-- An entry of the list made by `getifaddrs` (the C library; devices-linux.c:47-63). -/
structure IfAddr where
  name : Bytes
  addr : Option SockAddr
  netmask : Option SockAddr
deriving DecidableEq, Repr

/-! ## devices-common.c -/

/-- Addresses in zeroed memory (devices-common.c:23). -/
def zero4 : Ip4 := ⟨0, 0, 0, 0⟩
/-- Addresses in zeroed memory (devices-common.c:23). -/
def zero6 : MacAddr := ⟨0, 0, 0, 0, 0, 0⟩

/-- `net_new_device` (devices-common.c:22-24): `calloc`. -/
def newDevice : Prog NetDev Nat := alloc (.struct ⟨0, zero4, zero4, zero6, 0⟩)

/-- The loop of `net_free_device_list` (devices-common.c:29-36), `k` rounds at most. -/
def freeLoop : Nat → Nat → Prog NetDev Unit
  | 0, dev => if dev = 0 then pure () else stop .fuel
  | k + 1, dev =>
    if dev = 0 then pure ()
    else do
      let d ← struct dev
      if d.name ≠ 0 then free d.name
      free dev
      freeLoop k d.next

/-- `net_free_device_list` (devices-common.c:26-37). The bound on the rounds is the number of addresses in use. -/
def freeDeviceList (dev : Nat) : Prog NetDev Unit := fun h => freeLoop h.next dev h

/-! ## devices-utils.h -/

/-- `get_ipv4_record` (devices-utils.h:20-31): whether the address is copied; `put` stores it. -/
def getIpv4Record (addr : Option SockAddr) (put : Ip4 → Prog NetDev Unit) : Prog NetDev Bool :=
  match addr with
  | none => stop .null
  | some (.inet a) => do put a; pure true
  | some _ => pure false

/-! ## devices-linux.c -/

/-- What the system answers (devices-linux.c:31-45, 78-81): whether there is a socket, the list of addresses, and for
the name of an interface its hardware type and address. -/
structure Linux where
  socket : Bool
  ifaddrs : Option (List IfAddr)
  hwaddr : Bytes → Option (Nat × MacAddr)

/-- `ARPHRD_ETHER` (net/if_arp.h). -/
def arphrdEther : Nat := 1

/-- `get_mac_address` (devices-linux.c:31-45). `strncpy` copies at most 15 characters (`IFNAMSIZ - 1`). -/
def macLinux (sys : Linux) (dname dev : Nat) : Prog NetDev Bool := do
  let name ← cstr dname
  match sys.hwaddr (name.take 15) with
  | none => pure false
  | some (family, mac) =>
    if family = arphrdEther then
      update dev fun d => { d with mac := mac }
      pure true
    else pure false

/-- `err:` of `get_device_info` (devices-linux.c:65-68, devices-macos.c:70-73). -/
def infoErr (result : Nat) : Prog NetDev Nat := do
  freeDeviceList result
  pure 0

/-- The addresses in `get_device_info` (devices-linux.c:58-63, devices-macos.c:63-68). -/
def infoAddrs (e : IfAddr) (result : Nat) : Prog NetDev Nat := do
  if ← getIpv4Record e.addr fun a => update result fun d => { d with ip := a } then
    if ← getIpv4Record e.netmask fun a => update result fun d => { d with mask := a } then
      pure result
    else infoErr result
  else infoErr result

/-- `get_device_info` (devices-linux.c:47-69, devices-macos.c:52-74); `getMac` is `get_mac_address`. -/
def deviceInfo (getMac : Nat → Nat → Prog NetDev Bool) (e : IfAddr) : Prog NetDev Nat := do
  let result ← newDevice
  if result = 0 then return 0
  let name ← stringDup (some e.name)
  update result fun d => { d with name := name }
  if name = 0 then infoErr result
  else if ← getMac name result then infoAddrs e result
  else infoErr result

/-- The loop of `net_find_devices` (devices-linux.c:83-92, devices-macos.c:85-94). `skip` is the first condition in it. -/
def findLoop (skip : IfAddr → Bool) (getMac : Nat → Nat → Prog NetDev Bool) : List IfAddr → Nat → Prog NetDev Nat
  | [], result => pure result
  | e :: es, result =>
    if skip e then findLoop skip getMac es result
    else do
      let tmp ← deviceInfo getMac e
      if tmp = 0 then findLoop skip getMac es result
      else do
        update tmp fun d => { d with next := result }
        findLoop skip getMac es tmp

/-- `net_find_devices` (devices-linux.c:71-100). -/
def findLinux (sys : Linux) : Prog NetDev Nat :=
  if sys.socket then do
    acquire .fd
    let result ← match sys.ifaddrs with
      | none => pure 0
      | some es => do
        acquire .ifaddrs
        let result ← findLoop (fun e => e.addr.isNone) (macLinux sys) es 0
        release .ifaddrs
        pure result
    release .fd
    pure result
  else pure 0

/-! ## devices-macos.c -/

/-- `IFT_ETHER` (net/if_types.h). -/
def iftEther : Nat := 6

/-- The loop of `get_mac_address` (devices-macos.c:33-47): the address to be copied. -/
def macOf (name : Bytes) : List IfAddr → Option MacAddr
  | [] => none
  | e :: es =>
    match e.addr with
    | some (.link type alen mac) =>
      if e.name ≠ name then macOf name es
      else if type ≠ iftEther || alen ≠ 6 then macOf name es
      else some mac
    | _ => macOf name es

/-- `get_mac_address` (devices-macos.c:29-50). -/
def macMacos (es : List IfAddr) (dname dev : Nat) : Prog NetDev Bool := do
  let name ← cstr dname
  match macOf name es with
  | none => pure false
  | some mac => do
    update dev fun d => { d with mac := mac }
    pure true

/-- `net_find_devices` (devices-macos.c:76-100). -/
def findMacos (ifaddrs : Option (List IfAddr)) : Prog NetDev Nat :=
  match ifaddrs with
  | none => pure 0
  | some es => do
    acquire .ifaddrs
    let result ← findLoop (fun e => match e.addr with | some (.inet _) => false | _ => true) (macMacos es) es 0
    release .ifaddrs
    pure result

/-! ## devices-windows.c -/

/-- `IP_ADAPTER_ADDRESSES` as far as it is looked at (devices-windows.c:28-67, 105-117): the name, the type, the
physical address and its length, the unicast addresses with the lengths of their prefixes. -/
structure Adapter where
  name : Bytes
  ifType : Nat
  physLen : Nat
  phys : MacAddr
  unicast : List (SockAddr × UInt8)
deriving DecidableEq, Repr

/-- `find_ipv4_unicast_address` (devices-windows.c:28-36). -/
def findUnicast : List (SockAddr × UInt8) → Option (SockAddr × UInt8)
  | [] => none
  | (.inet a, n) :: _ => some (.inet a, n)
  | _ :: us => findUnicast us

/-- `~((unsigned int)0xff >> prefix_length)` as an `unsigned char` (devices-windows.c:42). -/
def maskByte (n : Nat) : Option UInt8 :=
  if n ≥ 32 then none else some (~~~ ((0xff : UInt32) >>> UInt32.ofNat n)).toUInt8

/-- The loop of `set_ipv4_netmask` (devices-windows.c:41-45) for the `k` bytes that are left; they are 0 before. The
prefix length is an `int` that may become negative, which ends the loop like 0 does. -/
def maskLoop : Nat → Nat → Option Bytes
  | 0, _ => some []
  | k + 1, n =>
    if n = 0 then some (List.replicate (k + 1) 0)
    else match maskByte n with
      | none => none
      | some b => (maskLoop k (n - 8)).map (b :: ·)

/-- `set_ipv4_netmask` (devices-windows.c:38-46). -/
def setNetmask (n : UInt8) (dev : Nat) : Prog NetDev Unit :=
  match maskLoop 4 n.toNat with
  | some [a, b, c, d] => update dev fun x => { x with mask := ⟨a, b, c, d⟩ }
  | _ => stop .shift

/-- `get_device_info` (devices-windows.c:48-67). -/
def deviceInfoWindows (a : Adapter) : Prog NetDev Nat := do
  let res ← newDevice
  if res = 0 then return 0
  let name ← stringDup (some a.name)
  update res fun d => { d with name := name }
  update res fun d => { d with mac := a.phys }
  match findUnicast a.unicast with
  | none => stop .null
  | some (addr, n) => do
    let _ ← getIpv4Record (some addr) fun ip => update res fun d => { d with ip := ip }
    setNetmask n res
    pure res

/-- `add_device_info` (devices-windows.c:69-77). -/
def addDeviceInfo (last : Nat) (a : Adapter) : Prog NetDev Nat := do
  let res ← deviceInfoWindows a
  if last ≠ 0 then update last fun d => { d with next := res }
  pure res

/-- The conditions for an adapter to be listed (devices-windows.c:108-109); `IF_TYPE_ETHERNET_CSMACD` is 6,
`IF_TYPE_IEEE80211` is 71. -/
def Adapter.wanted (a : Adapter) : Bool :=
  (a.ifType = 6 || a.ifType = 71) && a.physLen = 6 && (findUnicast a.unicast).isSome

/-- The loop of `net_find_devices` (devices-windows.c:107-122): the first device, or `none` after an error, with the
first device so far. -/
def windowsLoop : List Adapter → Nat → Nat → Prog NetDev (Bool × Nat)
  | [], devices, _ => pure (true, devices)
  | a :: as, devices, last =>
    if a.wanted then do
      let last ← addDeviceInfo last a
      if last = 0 then pure (false, devices)
      else windowsLoop as (if devices = 0 then last else devices) last
    else windowsLoop as devices last

/-- What the system answers (devices-windows.c:94-105): whether the first buffer is too small, the size that is needed,
and the adapters (or an error). -/
structure Windows where
  overflow : Bool
  size : Nat
  adapters : Option (List Adapter)

/-- `err:` (devices-windows.c:128-135). -/
def windowsErr (adapters devices : Nat) : Prog NetDev Nat := do
  if adapters ≠ 0 then free adapters
  freeDeviceList devices
  pure 0

/-- `net_find_devices` from the second call of `GetAdaptersAddresses` on (devices-windows.c:104-135). -/
def findWindowsIn (sys : Windows) (adapters : Nat) : Prog NetDev Nat :=
  match sys.adapters with
  | none => do free adapters; pure 0
  | some as => do
    let r ← windowsLoop as 0 0
    if r.1 then do free adapters; pure r.2
    else windowsErr adapters r.2

/-- `net_find_devices` (devices-windows.c:79-136); 448 stands for `sizeof(IP_ADAPTER_ADDRESSES)`. -/
def findWindows (sys : Windows) : Prog NetDev Nat := do
  let adapters ← malloc 448
  if adapters = 0 then windowsErr 0 0
  else if sys.overflow then do
    free adapters
    let adapters ← malloc sys.size
    if adapters = 0 then windowsErr 0 0 else findWindowsIn sys adapters
  else findWindowsIn sys adapters

/-! ## mod.rs -/

/-- `EthernetDevice::new` (devices/mod.rs:73-80 with 108-140). -/
def deviceNew (dev : Nat) : Prog NetDev Interface := do
  let d ← struct dev
  let name ← cstr d.name
  pure ⟨name, d.mac, d.ip, d.mask⟩

/-- The loop of `EthernetDevice::list` (devices/mod.rs:60-63), `k` rounds at most. -/
def listLoop : Nat → Nat → Prog NetDev (List Interface)
  | 0, dev => if dev = 0 then pure [] else stop .fuel
  | k + 1, dev =>
    if dev = 0 then pure []
    else do
      let i ← deviceNew dev
      let d ← struct dev
      let is ← listLoop k d.next
      pure (i :: is)

/-- `EthernetDevice::list` (devices/mod.rs:52-70); `find` is `net_find_devices`. -/
def list (find : Prog NetDev Nat) : Prog NetDev (List Interface) := do
  let devices ← find
  let result ← fun h => listLoop h.next devices h
  freeDeviceList devices
  pure result

end Verif.Devices
