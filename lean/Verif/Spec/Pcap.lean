import Verif.Model.Pcap
/-!
# What captures should do

Written from the answers of the capture library alone.
-/
namespace Verif.Spec.Pcap
open Verif Verif.CMem Verif.Pcap

/-- A string without a NUL. -/
def Str (t : Bytes) : Prop := (0 : UInt8) ∉ t

/-- A text for an error buffer of 256 characters. -/
def Short (t : Bytes) : Prop := Str t ∧ t.length ≤ 255

/-- What is known of the library: texts are strings, those it writes into a buffer of the caller are short, and the
numbers of errors are negative (`pcap_setfilter`: not 0). -/
structure Sound (lib : Lib) : Prop where
  strerror : ∀ n, Str (lib.strerror n)
  error : ∀ d m t e, lib.create d m t = .error e → Short e
  warning : ∀ d m t e, lib.create d m t = .ok (some e) → Short e
  activate : ∀ d m t c e, lib.activate d m t = some (c, e) → c < 0 ∧ Str e
  compile : ∀ f c e, lib.compile f = some (c, e) → c < 0 ∧ Str e
  setfilter : ∀ f c e, lib.setfilter f = some (c, e) → c ≠ 0 ∧ Str e

/-- The same of a call. -/
def SoundCall : Call → Prop
  | .read a => (∀ t, a.nonblock = some t → Short t) ∧ (∀ n, a.poll = some n → 0 < n) ∧
      ∀ c t, a.dispatch = .error c t → c < 0 ∧ Str t
  | .write _ a => (∀ t, a.nonblock = some t → Short t) ∧ ∀ c t, a.send = some (c, t) → c ≠ 0 ∧ Str t

/-- The options of a capture. -/
structure Settings where
  max : Nat
  timeout : Nat
  filter : Option Bytes
deriving DecidableEq, Repr

/-- The defaults. -/
def defaults : Settings := ⟨65536, 1000, none⟩

/-- An option replaces the value before it. -/
def Settings.with (s : Settings) : Opt → Settings
  | .maxPacketLength n => { s with max := n }
  | .readTimeout n => { s with timeout := n }
  | .filter f => { s with filter := f }

/-- The settings after some options. -/
def settings (opts : List Opt) : Settings := opts.foldl Settings.with defaults

/-- The filters that are set are strings. -/
def StrOpts (opts : List Opt) : Prop := ∀ f, .filter (some f) ∈ opts → Str f

/-- Why setting a filter fails, if it does. -/
def filterError (lib : Lib) (f : Option Bytes) : Option Bytes :=
  match f with
  | none => none
  | some f =>
    match lib.compile f with
    | some (_, t) => some t
    | none =>
      match lib.setfilter f with
      | some (_, t) => some t
      | none => none

/-- Why a device cannot be opened on Linux or macOS, if it cannot: the answer of the first call that fails. -/
def openErrorUnix (lib : Lib) (device : Bytes) (s : Settings) : Option Bytes :=
  match lib.create device s.max s.timeout with
  | .error t => some t
  | .ok _ =>
    match lib.activate device s.max s.timeout with
    | some (_, t) => some t
    | none => filterError lib s.filter

/-- The same on Windows, where the name gets a prefix. -/
def openErrorWindows (lib : Lib) (device : Bytes) (s : Settings) : Option Bytes :=
  match lib.create ("rpcap://\\Device\\NPF_".toUTF8.toList ++ device) s.max s.timeout with
  | .error t => some t
  | .ok _ => filterError lib s.filter

/-- The text of an error reaches the caller: entirely, or, if memory ran out, its first characters, 255 at least. -/
def Told (noMemory : Prop) (text told : Bytes) : Prop :=
  told = text ∨ noMemory ∧ ∃ n, 255 ≤ n ∧ told = text.take n

/-- Why a read fails on Linux or macOS, if it does. -/
def readErrorUnix (lib : Lib) (a : ReadAns) : Option Bytes :=
  match a.nonblock, a.poll, a.dispatch with
  | some t, _, _ => some t
  | none, some n, _ => some (lib.strerror n)
  | none, none, .error _ t => some t
  | none, none, _ => none

/-- Why a read fails on Windows, if it does. -/
def readErrorWindows (_ : Lib) (a : ReadAns) : Option Bytes :=
  match a.dispatch with
  | .error _ t => some t
  | _ => none

/-- Why a write fails on Linux or macOS, if it does. -/
def writeErrorUnix (a : WriteAns) : Option Bytes :=
  match a.nonblock, a.send with
  | some t, _ => some t
  | none, some (_, t) => some t
  | none, none => none

/-- Why a write fails on Windows, if it does. -/
def writeErrorWindows (a : WriteAns) : Option Bytes := a.send.map (·.2)

/-- The right answer to a call: the frame that was captured, that there was none, or the error. -/
def Right (noMemory : Prop) (readError : ReadAns → Option Bytes) (writeError : WriteAns → Option Bytes) :
    Call → Answer → Prop
  | .read a, r =>
    match readError a with
    | some t => ∃ e, r = .got [] (.error e) ∧ Told noMemory t e
    | none =>
      match a.dispatch with
      | .packet data => r = .got data (.ok true)
      | _ => r = .got [] (.ok false)
  | .write _ a, r =>
    match writeError a with
    | some t => ∃ e, r = .wrote (.error e) ∧ Told noMemory t e
    | none => r = .wrote (.ok ())

/-- `R` holds of the elements of two lists, one by one. -/
inductive Each {α β : Type} (R : α → β → Prop) : List α → List β → Prop
  | nil : Each R [] []
  | cons {a : α} {b : β} {as : List α} {bs : List β} : R a b → Each R as bs → Each R (a :: as) (b :: bs)

/-- The heaps hold the same blocks and the same open resources. -/
def Same {σ : Type} (h h' : Heap σ) : Prop := h'.objs = h.objs ∧ h'.held = h.held

/-- The right outcome of a capture: `openError` is why its device cannot be opened, `R` relates calls to the right answers. -/
def RightLife (noMemory : Prop) (noMemoryText : Bytes) (openError : Option Bytes) (R : Call → Answer → Prop) (cs : List Call) :
    Life → Prop
  | .panic => noMemory
  | .notOpened e => ∃ t, (openError = some t ∨ noMemory ∧ t = noMemoryText) ∧ Told noMemory t e
  | .done l => openError = none ∧ Each R cs l

/-- A read that fails before the capture library is asked for a frame. -/
def Early : Call → Prop
  | .read a => a.nonblock ≠ none ∨ a.poll ≠ none
  | .write .. => False

end Verif.Spec.Pcap
