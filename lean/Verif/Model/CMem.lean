import Verif.Basic
/-!
# Memory of the C parts

What the C sources of /repo (src/utils.h, src/net/raw/devices/*.c, src/net/raw/pcap/wrapper-*.c) rely on: a heap of
blocks with `malloc`, `calloc`, `free`, loads and stores. A block holds one structure or an array of characters that
may be uninitialised. Addresses are never used again after `free`, so that every access to freed memory is found. What
C leaves undefined is an explicit fault. The answers of the allocator are inputs. Resources of the operating system and
of libraries (file descriptors, lists, handles) are in `held` while they are open.
-/
namespace Verif.CMem

/-- Undefined behaviour (the C standard; src/net/raw). `fuel` stands for a loop that does not end. -/
inductive Fault where
  /-- a NULL pointer is dereferenced -/
  | null
  /-- a pointer to no live block (or to a block of another type) is used or freed -/
  | invalid
  /-- an access outside of the block -/
  | bounds
  /-- an uninitialised character is read -/
  | uninit
  /-- a shift by the width of the type or more -/
  | shift
  | fuel
deriving DecidableEq, Repr

/-- The content of a block: a structure of type `σ`, or characters (src/net/raw/devices/devices.h:21-27,
src/net/raw/pcap/wrapper.h:20-28). -/
inductive Obj (σ : Type) where
  | struct (s : σ)
  | chars (cells : List (Option UInt8))

/-- Resources that must be given back (devices-linux.c:72-100, devices-windows.c:79-136, wrapper-linux.c:23-75). -/
inductive Held where
  /-- a file descriptor -/
  | fd
  /-- the list made by `getifaddrs` -/
  | ifaddrs
  /-- a capture handle -/
  | pcap
  /-- a compiled packet filter -/
  | filter
deriving DecidableEq, Repr

/-- The heap: live blocks, the next fresh address, the coming answers of the allocator (it succeeds once they are used
up), the open resources (the C library; used by src/net/raw). -/
structure Heap (σ : Type) where
  objs : Nat → Option (Obj σ)
  next : Nat
  answers : List Bool
  held : List Held

/-- Addresses in use are below `next`; 0 is no address (the C library; used by src/net/raw). -/
structure WF {σ : Type} (h : Heap σ) : Prop where
  pos : 0 < h.next
  zero : h.objs 0 = none
  fresh : ∀ a, h.next ≤ a → h.objs a = none

/-- The outcome of a part of a program (the C standard; src/net/raw). -/
inductive Out (σ α : Type) where
  | ok (a : α) (h : Heap σ)
  | fault (f : Fault)

/-- A part of a program (the C standard; src/net/raw). -/
def Prog (σ α : Type) := Heap σ → Out σ α

instance {σ : Type} : Monad (Prog σ) where
  pure a := fun h => .ok a h
  bind p f := fun h => match p h with
    | .ok a h => f a h
    | .fault e => .fault e

variable {σ : Type}

/-- Undefined behaviour (the C standard). -/
def stop {α : Type} (f : Fault) : Prog σ α := fun _ => .fault f

/-- A new block, or NULL (`malloc` and `calloc`, the C library). -/
def alloc (o : Obj σ) : Prog σ Nat := fun h =>
  if h.answers.headD true then
    .ok h.next { h with
      objs := fun a => if a = h.next then some o else h.objs a
      next := h.next + 1
      answers := h.answers.tail }
  else .ok 0 { h with answers := h.answers.tail }

/-- `malloc` of `n` characters (the C library; utils.h:29). -/
def malloc (n : Nat) : Prog σ Nat := alloc (.chars (List.replicate n none))

/-- `free` (the C library). -/
def free (p : Nat) : Prog σ Unit := fun h =>
  if p = 0 then .ok () h
  else match h.objs p with
    | some _ => .ok () { h with objs := fun a => if a = p then none else h.objs a }
    | none => .fault .invalid

/-- The block at an address (the C standard; src/net/raw). -/
def load (p : Nat) : Prog σ (Obj σ) := fun h =>
  if p = 0 then .fault .null
  else match h.objs p with
    | some o => .ok o h
    | none => .fault .invalid

/-- Change the block at an address (the C standard; src/net/raw). -/
def store (p : Nat) (o : Obj σ) : Prog σ Unit := fun h =>
  if p = 0 then .fault .null
  else match h.objs p with
    | some _ => .ok () { h with objs := fun a => if a = p then some o else h.objs a }
    | none => .fault .invalid

/-- The structure at an address: `p->...` (the C standard; src/net/raw). -/
def struct (p : Nat) : Prog σ σ := do
  match ← load p with
  | .struct s => pure s
  | .chars _ => stop .invalid

/-- The characters at an address (the C standard; src/net/raw). -/
def chars (p : Nat) : Prog σ (List (Option UInt8)) := do
  match ← load p with
  | .chars cs => pure cs
  | .struct _ => stop .invalid

/-- Assignment to fields of a structure (the C standard; src/net/raw). -/
def update (p : Nat) (f : σ → σ) : Prog σ Unit := do
  let s ← struct p
  store p (.struct (f s))

/-- `memcpy(p, bs, bs.length)` to the beginning of a block (the C library; utils.h:35). -/
def memcpy (p : Nat) (bs : Bytes) : Prog σ Unit := do
  let cs ← chars p
  if bs.length ≤ cs.length then store p (.chars (bs.map some ++ cs.drop bs.length)) else stop .bounds

/-- `p[i] = b` (the C standard; utils.h:36). -/
def poke (p i : Nat) (b : UInt8) : Prog σ Unit := do
  let cs ← chars p
  if i < cs.length then store p (.chars (cs.set i (some b))) else stop .bounds

/-- The string in a block: up to the first NUL (the C standard). -/
def cstrOf : List (Option UInt8) → Except Fault Bytes
  | [] => .error .bounds
  | none :: _ => .error .uninit
  | some b :: cs => if b = 0 then .ok [] else (cstrOf cs).map (b :: ·)

/-- Read a string (the C library: `strlen`, `strcmp`, ...; `CStr::from_ptr`). -/
def cstr (p : Nat) : Prog σ Bytes := do
  match cstrOf (← chars p) with
  | .ok s => pure s
  | .error f => stop f

/-- Open a resource (the operating system). -/
def acquire (r : Held) : Prog σ Unit := fun h => .ok () { h with held := r :: h.held }

/-- Give a resource back; it must be open (the operating system). -/
def release (r : Held) : Prog σ Unit := fun h =>
  if r ∈ h.held then .ok () { h with held := h.held.erase r } else .fault .invalid

/-- `string_dup` (utils.h:18-39). A string is its characters without the NUL at the end; `none` is NULL. -/
def stringDup : Option Bytes → Prog σ Nat
  | none => pure 0
  | some str => do
    let result ← malloc (str.length + 1)
    if result = 0 then return 0
    memcpy result str
    poke result str.length 0
    return result

end Verif.CMem
