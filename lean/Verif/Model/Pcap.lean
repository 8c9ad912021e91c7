import Verif.Model.CMem
import Verif.Model.RawScan
/-!
# Model of the capture wrapper

Source: /repo/src/net/raw/pcap/wrapper-common.c, wrapper-linux.c (wrapper-macos.c is the same file), wrapper-windows.c,
/repo/src/utils.h and the unsafe half of /repo/src/net/raw/pcap/mod.rs.

The capture library and the operating system are inputs (`Lib`, and the answers to each read and write). The library
writes at most 255 characters and a NUL into an error buffer (`PCAP_ERRBUF_SIZE` is 256); this is a hypothesis of the
theorems, here the write is checked against the block. A capture handle is the field `h` and an element of `held`.
`#ifdef strerror_s` (wrapper-common.c:106-116) is not taken: `strerror_s` is a function, not a macro.
Error texts are bytes; `to_string_lossy` is left out.
-/
namespace Verif.Pcap
open Verif.CMem

/-- `struct Wrapper` (wrapper.h:22-30); `h` says whether there is a handle. -/
structure Wrapper where
  device : Nat
  filter : Nat
  maxPacketSize : Nat
  readTimeout : Nat
  errorBuffer : Nat
  errorBufferSize : Nat
  h : Bool
deriving DecidableEq, Repr

/-- Programs over wrappers (wrapper.h:22-30). -/
abbrev P (α : Type) := Prog Wrapper α

/-- `EINVAL`, `ENOMEM`, `EIO` (errno.h). -/
def EINVAL : Int := 22
def ENOMEM : Int := 12
def EIO : Int := 5

/-- `PCAP_ERRBUF_SIZE` (pcap.h). -/
def errbufSize : Nat := 256

/-- `if (p) free(p)` (wrapper-common.c:60-70, 130-132). -/
def freeIf (p : Nat) : P Unit := if p ≠ 0 then free p else pure ()

/-! ## wrapper-common.c -/

/-- `pcap_wrapper__close` (wrapper-linux.c:74-80, wrapper-windows.c:88-94). -/
def close (w : Nat) : P Unit := do
  let s ← struct w
  if s.h then release .pcap else pure ()
  update w fun s => { s with h := false }

/-- `pcap_wrapper__free` (wrapper-common.c:55-73). -/
def wrapperFree (w : Nat) : P Unit := do
  let s ← struct w
  if s.h then close w else pure ()
  freeIf s.errorBuffer
  freeIf s.device
  freeIf s.filter
  free w

/-- `err:` of `pcap_wrapper__new` (wrapper-common.c:47-52). -/
def newErr (w : Nat) : P Nat := do
  if w ≠ 0 then wrapperFree w else pure ()
  pure 0

/-- `pcap_wrapper__new` (wrapper-common.c:24-53). -/
def wrapperNew (device : Bytes) : P Nat := do
  let w ← alloc (.struct ⟨0, 0, 0, 0, 0, 0, false⟩)
  if w = 0 then newErr w
  else do
    let d ← stringDup (some device)
    update w fun s => { s with device := d }
    if d = 0 then newErr w
    else do
      update w fun s => { s with maxPacketSize := 65536, readTimeout := 1000, errorBufferSize := 256 }
      let s ← struct w
      let e ← malloc s.errorBufferSize
      update w fun s => { s with errorBuffer := e }
      if e = 0 then newErr w
      else do
        poke e 0 0
        pure w

/-- `try_realloc_error_buffer` (wrapper-common.c:79-88). -/
def tryRealloc (w newSize : Nat) : P Unit := do
  let b ← malloc newSize
  if b ≠ 0 then do
    let s ← struct w
    free s.errorBuffer
    update w fun s => { s with errorBuffer := b, errorBufferSize := newSize }
  else pure ()

/-- `copy_error_string` (wrapper-common.c:90-103). -/
def copyErrorString (w : Nat) (text : Bytes) : P Unit := do
  let s ← struct w
  if text.length + 1 > s.errorBufferSize then tryRealloc w (text.length + 1) else pure ()
  let s ← struct w
  let len := if text.length + 1 > s.errorBufferSize then s.errorBufferSize - 1 else text.length
  memcpy s.errorBuffer (text.take len)
  poke s.errorBuffer len 0

/-- `pcap_wrapper__set_error` (wrapper-common.c:119-127) with `copy_errno_description` (wrapper-common.c:105-117);
`strerror` gives the text for a number of an error. -/
def setError (strerror : Int → Bytes) (w : Nat) (err : Int) (desc : Option Bytes) : P Int := do
  match desc with
  | some t => copyErrorString w t
  | none => copyErrorString w (strerror err)
  pure err

/-- `pcap_wrapper__set_filter` (wrapper-common.c:129-140). -/
def setFilter (w : Nat) (filter : Option Bytes) : P Int := do
  let s ← struct w
  freeIf s.filter
  let f ← stringDup filter
  update w fun s => { s with filter := f }
  pure (if f = 0 then ENOMEM else 0)

/-! ## The library -/

/-- The capture library and `strerror`. Opening a device may fail with a text, and may leave a text (a warning) in the
error buffer otherwise; the other functions fail with a number and a text (wrapper-linux.c:44-68,
wrapper-windows.c:57-82). `create` has the name of the device, the maximal size and the timeout. -/
structure Lib where
  strerror : Int → Bytes
  create : Bytes → Nat → Nat → Except Bytes (Option Bytes)
  activate : Bytes → Nat → Nat → Option (Int × Bytes)
  compile : Bytes → Option (Int × Bytes)
  setfilter : Bytes → Option (Int × Bytes)

/-- The library writes a text into the error buffer (wrapper-linux.c:44, 106, wrapper-windows.c:57-63). -/
def libText (w : Nat) (text : Bytes) : P Unit := do
  let s ← struct w
  memcpy s.errorBuffer text
  poke s.errorBuffer text.length 0

/-- The error buffer gets its size (wrapper-linux.c:34-42, wrapper-windows.c:47-55). -/
def ensureBuffer (w : Nat) : P Bool := do
  let s ← struct w
  if s.errorBufferSize < errbufSize then do
    let b ← malloc errbufSize
    if b = 0 then pure false
    else do
      free s.errorBuffer
      update w fun s => { s with errorBuffer := b, errorBufferSize := errbufSize }
      pure true
  else pure true

/-- The filter of a capture (wrapper-linux.c:57-71, wrapper-windows.c:71-85). -/
def openFilter (lib : Lib) (w : Nat) : P Int := do
  let s ← struct w
  if s.filter ≠ 0 then do
    let f ← cstr s.filter
    match lib.compile f with
    | some (c, t) => setError lib.strerror w c (some t)
    | none => do
      acquire .filter
      let ret ← match lib.setfilter f with
        | some (c, t) => setError lib.strerror w c (some t)
        | none => pure 0
      release .filter
      pure ret
  else pure 0

/-! ## wrapper-linux.c -/

/-- `pcap_wrapper__open` (wrapper-linux.c:25-72). `pcap_set_snaplen` and `pcap_set_timeout` only store their arguments for
`pcap_activate`. -/
def openUnix (lib : Lib) (w : Nat) : P Int := do
  let s ← struct w
  if s.h then setError lib.strerror w EINVAL none
  else do
    if ← ensureBuffer w then do
      let d ← cstr s.device
      match lib.create d s.maxPacketSize s.readTimeout with
      | .error t => do
        libText w t
        pure EINVAL
      | .ok warning => do
        match warning with
          | some t => libText w t
          | none => pure ()
        acquire .pcap
        update w fun s => { s with h := true }
        match lib.activate d s.maxPacketSize s.readTimeout with
        | some (c, t) => setError lib.strerror w c (some t)
        | none => openFilter lib w
    else setError lib.strerror w ENOMEM none

/-- What `pcap_dispatch` does (wrapper-linux.c:118, wrapper-windows.c:119): the callback is called at most once. -/
inductive Dispatch where
  | error (code : Int) (text : Bytes)
  | nothing
  | packet (data : Bytes)
deriving DecidableEq, Repr

/-- The end of `pcap_wrapper__read_packet` (wrapper-linux.c:118-122, wrapper-windows.c:119-123): the value returned, and
what the callback got. -/
def dispatch (lib : Lib) (w : Nat) (d : Dispatch) : P (Int × Bytes) :=
  match d with
  | .error c t => do
    let ret ← setError lib.strerror w c (some t)
    pure (ret, [])
  | .nothing => pure (0, [])
  | .packet data => pure (1, data)

/-- What the calls of a read do (wrapper-linux.c:106-118): `pcap_setnonblock`, `poll` (an error number), `pcap_dispatch`. -/
structure ReadAns where
  nonblock : Option Bytes
  poll : Option Int
  dispatch : Dispatch
deriving DecidableEq, Repr

/-- `pcap_wrapper__read_packet` (wrapper-linux.c:94-123). -/
def readUnix (lib : Lib) (w : Nat) (a : ReadAns) : P (Int × Bytes) := do
  let s ← struct w
  if s.h then
    match a.nonblock with
    | some t => do
      libText w t
      pure (EIO, [])
    | none =>
      match a.poll with
      | some errno => do
        let ret ← setError lib.strerror w errno none
        pure (ret, [])
      | none => dispatch lib w a.dispatch
  else do
    let ret ← setError lib.strerror w EINVAL none
    pure (ret, [])

/-- What the calls of a write do (wrapper-linux.c:132-138): `pcap_setnonblock`, `pcap_sendpacket`. -/
structure WriteAns where
  nonblock : Option Bytes
  send : Option (Int × Bytes)
deriving DecidableEq, Repr

/-- The end of `pcap_wrapper__write_packet` (wrapper-linux.c:136-140, wrapper-windows.c:133-137). -/
def sendpacket (lib : Lib) (w : Nat) (a : Option (Int × Bytes)) : P Int :=
  match a with
  | some (c, t) => setError lib.strerror w c (some t)
  | none => pure 0

/-- `pcap_wrapper__write_packet` (wrapper-linux.c:125-141). -/
def writeUnix (lib : Lib) (w : Nat) (a : WriteAns) : P Int := do
  let s ← struct w
  if s.h then
    match a.nonblock with
    | some t => do
      libText w t
      pure EIO
    | none => sendpacket lib w a.send
  else setError lib.strerror w EINVAL none

/-! ## wrapper-windows.c -/

/-- `device_fmt` without `%s` (wrapper-windows.c:31). -/
def deviceFmt : Bytes := "rpcap://\\Device\\NPF_".toUTF8.toList

/-- `pcap_wrapper__open` (wrapper-windows.c:28-86). -/
def openWindows (lib : Lib) (w : Nat) : P Int := do
  let s ← struct w
  if s.h then setError lib.strerror w EINVAL none
  else do
    let name ← cstr s.device
    let device ← malloc (deviceFmt.length + 2 + name.length + 1)
    if device = 0 then setError lib.strerror w ENOMEM none
    else do
      memcpy device (deviceFmt ++ name)
      poke device (deviceFmt ++ name).length 0
      if ← ensureBuffer w then do
        let d ← cstr device
        match lib.create d s.maxPacketSize s.readTimeout with
        | .error t => do
          libText w t
          free device
          pure EINVAL
        | .ok warning => do
          match warning with
            | some t => libText w t
            | none => pure ()
          acquire .pcap
          update w fun s => { s with h := true }
          free device
          openFilter lib w
      else setError lib.strerror w ENOMEM none

/-- `pcap_wrapper__read_packet` (wrapper-windows.c:108-124). -/
def readWindows (lib : Lib) (w : Nat) (a : ReadAns) : P (Int × Bytes) := do
  let s ← struct w
  if s.h then dispatch lib w a.dispatch
  else do
    let ret ← setError lib.strerror w EINVAL none
    pure (ret, [])

/-- `pcap_wrapper__write_packet` (wrapper-windows.c:126-138). -/
def writeWindows (lib : Lib) (w : Nat) (a : WriteAns) : P Int := do
  let s ← struct w
  if s.h then sendpacket lib w a.send else setError lib.strerror w EINVAL none

/-! ## mod.rs -/

/-- The functions that depend on the platform (wrapper.h:45-49). -/
structure Platform where
  openW : Lib → Nat → P Int
  read : Lib → Nat → ReadAns → P (Int × Bytes)
  write : Lib → Nat → WriteAns → P Int

/-- Linux and macOS (wrapper-linux.c, wrapper-macos.c). -/
def unix : Platform := ⟨openUnix, readUnix, writeUnix⟩

/-- Windows (wrapper-windows.c). -/
def windows : Platform := ⟨openWindows, readWindows, writeWindows⟩

/-- `get_last_error` (pcap/mod.rs:206-213, wrapper-common.c:75-77). -/
def lastError (w : Nat) : P Bytes := do
  let s ← struct w
  cstr s.errorBuffer

/-- `CaptureBuilder::activate` (pcap/mod.rs:152-162); after an error the capture is dropped (pcap/mod.rs:216-220). -/
def activate (pf : Platform) (lib : Lib) (w : Nat) : P (Except Bytes Unit) := do
  let ret ← pf.openW lib w
  if ret = 0 then pure (.ok ())
  else do
    let e ← lastError w
    wrapperFree w
    pure (.error e)

/-- `Capture::read_packet` (pcap/mod.rs:178-189) with the callback (pcap/mod.rs:223-234): the buffer afterwards, and the result. -/
def readPacket (pf : Platform) (lib : Lib) (w : Nat) (a : ReadAns) (buffer : Bytes) : P (Bytes × Except Bytes Bool) := do
  let (ret, data) ← pf.read lib w a
  if ret ≥ 0 then pure (buffer ++ data, .ok (decide (ret > 0)))
  else do
    let e ← lastError w
    pure (buffer ++ data, .error e)

/-- `Capture::write_packet` (pcap/mod.rs:192-203). -/
def writePacket (pf : Platform) (lib : Lib) (w : Nat) (a : WriteAns) : P (Except Bytes Unit) := do
  let ret ← pf.write lib w a
  if ret = 0 then pure (.ok ())
  else do
    let e ← lastError w
    pure (.error e)

/-- The options of a builder (pcap/mod.rs:117-149). -/
inductive Opt where
  | maxPacketLength (n : Nat)
  | readTimeout (n : Nat)
  | filter (f : Option Bytes)
deriving DecidableEq, Repr

/-- `max_packet_length`, `read_timeout`, `filter` (pcap/mod.rs:117-149): `false` is a panic. -/
def setOpt (w : Nat) : Opt → P Bool
  | .maxPacketLength n => do
    update w fun s => { s with maxPacketSize := n }
    pure true
  | .readTimeout n => do
    update w fun s => { s with readTimeout := n }
    pure true
  | .filter f => do
    let ret ← setFilter w f
    pure (decide (ret = 0))

/-- The options one after the other (pcap/mod.rs:299-303). -/
def setOpts (w : Nat) : List Opt → P Bool
  | [] => pure true
  | o :: os => do
    if ← setOpt w o then setOpts w os else pure false

/-- The calls of an active capture (pcap/mod.rs:178-203) with what the system does in them. -/
inductive Call where
  | read (a : ReadAns)
  | write (data : Bytes) (a : WriteAns)
deriving DecidableEq, Repr

/-- What a call returns (pcap/mod.rs:178-203). The buffer of a read is empty before (pcap/mod.rs:312, 323). -/
inductive Answer where
  | got (buffer : Bytes) (r : Except Bytes Bool)
  | wrote (r : Except Bytes Unit)

/-- The calls one after the other (pcap/mod.rs:315-335, 347-349). -/
def calls (pf : Platform) (lib : Lib) (w : Nat) : List Call → P (List Answer)
  | [] => pure []
  | .read a :: cs => do
    let (b, r) ← readPacket pf lib w a []
    let rs ← calls pf lib w cs
    pure (.got b r :: rs)
  | .write _ a :: cs => do
    let r ← writePacket pf lib w a
    let rs ← calls pf lib w cs
    pure (.wrote r :: rs)

/-- How the life of a capture ends (pcap/mod.rs:96-220). -/
inductive Life where
  /-- the client is aborted: no memory for the capture, or no filter -/
  | panic
  | notOpened (e : Bytes)
  | done (l : List Answer)

/-- A capture from `Capture::builder` to its `Drop` (pcap/mod.rs:96-220, used in pcap/mod.rs:292-352). -/
def life (pf : Platform) (lib : Lib) (device : Bytes) (opts : List Opt) (cs : List Call) : P Life := do
  let w ← wrapperNew device
  if w = 0 then pure .panic
  else do
    if ← setOpts w opts then do
      match ← activate pf lib w with
      | .error e => pure (.notOpened e)
      | .ok _ => do
        let rs ← calls pf lib w cs
        wrapperFree w
        pure (.done rs)
    else pure .panic

/-! ## The listener -/

/-- What the listener makes of the answer to a read (pcap/mod.rs:316-324). -/
def readOf : Answer → Option Raw.Read
  | .got _ (.error _) => some .error
  | .got _ (.ok false) => some .timeout
  | .got buffer (.ok true) => some (.packet buffer)
  | .wrote _ => none

/-- The capture of the listener (pcap/mod.rs:299-303). -/
def listenerOpts (filter : Bytes) : List Opt := [.maxPacketLength 65536, .readTimeout 100, .filter (some filter)]

/-- `packet_listener` (pcap/mod.rs:292-338) on a capture: what the calls answer is what the rounds read. `clocks` has the three
readings of the clock in each round; there are as many as rounds. -/
def listener (w packetTimeout : Nat) (totalTimeout : Option Nat) (start last : Nat) (l : List Answer) (clocks : List (Nat × Nat × Nat)) :
    Raw.Listen :=
  Raw.listenLoop w packetTimeout totalTimeout start last []
    (List.zipWith (fun r (c : Nat × Nat × Nat) => ⟨r, c.1, c.2.1, c.2.2⟩) (l.filterMap readOf) clocks)

end Verif.Pcap
