import Verif.Model.Config
import Verif.Model.Exports
import Verif.Model.Utf8
/-!
# Model of the custom storage of the C interface

Source: /repo/src/exports/storage/custom.rs, /repo/src/exports/mem.rs, and the callers in /repo/src/config.rs (253-324) and
/repo/src/exports/mod.rs (126-146).

The heap maps addresses of the blocks allocated by `ac__malloc` to their contents. What a callback answers is an input; the
blocks it allocates are taken to be in the heap before it is called. Undefined behaviour (a NULL or dangling pointer is
used, a block is freed twice, memory outside of a block is read) is an explicit result. The state callback and the
certificates are left out.
-/
namespace Verif.CustomStorage
open Verif Verif.SvcTable Verif.Config

/-- The content of a block: text, or an array of pointers (`none` is NULL) (custom.rs:115, 208-214). -/
inductive Block where
  | text (bs : Bytes)
  | ptrs (ps : List (Option Nat))
deriving DecidableEq

/-- The blocks that are allocated (mem.rs:21-31). -/
abbrev Heap := Nat → Option Block

/-- A result of the code: a value, an `Err`, a panic (which aborts), or undefined behaviour (custom.rs:84-228). -/
inductive Out (α : Type) where
  | ok (a : α)
  | err
  | panic
  | ub
deriving DecidableEq

/-- `ac__free` (mem.rs:33-42). -/
def free (h : Heap) : Option Nat → Option Heap
  | none => none
  | some p => if (h p).isSome then some (fun q => if q = p then none else h q) else none

/-- `CStr::from_ptr` and `to_bytes` (custom.rs:115, 209): the bytes before the first NUL; `none` is undefined behaviour. -/
def cstr (h : Heap) : Option Nat → Option Bytes
  | none => none
  | some p =>
    match h p with
    | some (.text bs) => if 0 ∈ bs then some (bs.takeWhile (· ≠ 0)) else none
    | _ => none

/-- What the function that loads the configuration answers: its return value and the pointer (custom.rs:104-113). -/
structure LoadAnswer where
  code : Int
  ptr : Option Nat

/-- What a function that loads paths answers: its return value, the array and its length (custom.rs:197-204). -/
structure PathsAnswer where
  code : Int
  arr : Option Nat
  len : Nat

/-- The text of a configuration (custom.rs:117-136): UTF-8, JSON, the fields. -/
def parseConfig (E : Env) (now : Int64) (data : Bytes) : Out PConfig :=
  if Utf8.valid data then
    match E.parse data with
    | none => .err
    | some j =>
      match PConfig.fromJson E now j with
      | .ok c => .ok c
      | .err => .err
      | .panic => .panic
  else .err

/-- `CustomStorage::load_configuration` (custom.rs:103-147). `fresh` is what `create_configuration` makes. -/
def loadConfiguration (E : Env) (now : Int64) (fresh : PConfig) (h : Heap) : Option LoadAnswer → Heap × Out PConfig
  | none => (h, .err)
  | some a =>
    if a.code ≠ 0 then (h, .err)
    else
      match a.ptr with
      | none => (h, .ok fresh)
      | some p =>
        match cstr h (some p) with
        | none => (h, .ub)
        | some data =>
          match parseConfig E now data with
          | .panic => (h, .panic)
          | .ub => (h, .ub)
          | .ok c => match free h (some p) with
            | none => (h, .ub)
            | some h => (h, .ok c)
          | .err => match free h (some p) with
            | none => (h, .ub)
            | some h => (h, .err)

/-- The loop over the pointers (custom.rs:208-217); a path that is not UTF-8 is `none`. -/
def readPaths (h : Heap) : List (Option Nat) → Option (Heap × List (Option Bytes))
  | [] => some (h, [])
  | p :: ps =>
    match cstr h p with
    | none => none
    | some bs =>
      match free h p with
      | none => none
      | some h =>
        match readPaths h ps with
        | none => none
        | some (h, r) => some (h, (if Utf8.valid bs then some bs else none) :: r)

/-- `res.push(path?)` (custom.rs:221-227). -/
def collect : List (Option Bytes) → Option (List Bytes)
  | [] => some []
  | none :: _ => none
  | some b :: l => (collect l).map (b :: ·)

/-- `load_paths` (custom.rs:196-228), and no function: no paths (custom.rs:161-175). -/
def loadPaths (h : Heap) : Option PathsAnswer → Heap × Out (List Bytes)
  | none => (h, .ok [])
  | some a =>
    if a.code ≠ 0 then (h, .err)
    else
      match a.arr with
      | none => (h, .ub)
      | some p =>
        match h p with
        | some (.ptrs ps) =>
          if a.len ≤ ps.length then
            match readPaths h (ps.take a.len) with
            | none => (h, .ub)
            | some (h, r) =>
              match free h (some p) with
              | none => (h, .ub)
              | some h => match collect r with
                | some l => (h, .ok l)
                | none => (h, .err)
          else (h, .ub)
        | _ => (h, .ub)

/-- `CustomStorage::save_configuration` (custom.rs:85-101): what the function is given (memory with a NUL at its end), and the
result. `func` tells its return value. -/
def saveConfiguration (E : Env) (c : PConfig) : Option (Bytes → Int) → List Bytes × Out Unit
  | none => ([], .ok ())
  | some func =>
    match Exports.cstring (E.render (c.toJson E)) with
    | none => ([], .panic)
    | some data => ([data], if func data ≠ 0 then .err else .ok ())

/-- The functions given to the builder (custom.rs:58-67, 244-300): their answers. -/
structure Funcs where
  load : Option LoadAnswer
  rtsp : Option PathsAnswer
  mjpeg : Option PathsAnswer
  save : Option (Bytes → Int)

/-- A call of a function of the application (custom.rs:84-192). -/
inductive Call where
  | load
  | rtsp
  | mjpeg
  | save (memory : Bytes)
deriving DecidableEq

/-- A client (config.rs:290-312): its configuration and paths, and whether there was a warning about each list of paths. -/
structure Client where
  config : PConfig
  rtsp : List Bytes
  mjpeg : List Bytes
  warnings : Bool × Bool

/-- The paths of the client (config.rs:276-288, 305-306): an error is a warning, and no paths. -/
def pathsOf : Out (List Bytes) → Option (List Bytes × Bool)
  | .ok l => some (l, false)
  | .err => some ([], true)
  | _ => none

/-- `ac__arrow_client__new` with a custom storage (exports/mod.rs:126-146, config.rs:253-324). `.err` is the result NULL. The
MAC address is left out: a client without any interface is not made. -/
def newClient (E : Env) (now : Int64) (fresh : PConfig) (h : Heap) (f : Funcs) : Heap × Out Client × List Call :=
  let c1 := if f.load.isSome then [Call.load] else []
  match loadConfiguration E now fresh h f.load with
  | (h, .err) => (h, .err, c1)
  | (h, .panic) => (h, .panic, c1)
  | (h, .ub) => (h, .ub, c1)
  | (h, .ok c) =>
    let c2 := c1 ++ if f.rtsp.isSome then [Call.rtsp] else []
    match loadPaths h f.rtsp with
    | (h, r) =>
      match pathsOf r with
      | none => (h, .ub, c2)
      | some (rtsp, w1) =>
        let c3 := c2 ++ if f.mjpeg.isSome then [Call.mjpeg] else []
        match loadPaths h f.mjpeg with
        | (h, r) =>
          match pathsOf r with
          | none => (h, .ub, c3)
          | some (mjpeg, w2) =>
            match saveConfiguration E c f.save with
            | (ms, .ok ()) => (h, .ok ⟨c, rtsp, mjpeg, (w1, w2)⟩, c3 ++ ms.map .save)
            | (ms, .err) => (h, .err, c3 ++ ms.map .save)
            | (ms, _) => (h, .panic, c3 ++ ms.map .save)

end Verif.CustomStorage
