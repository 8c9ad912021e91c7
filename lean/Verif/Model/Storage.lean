import Verif.Model.AppContext
import Verif.Model.Config
import Verif.Model.Text
import Verif.Model.Utf8
import Verif.Model.White
/-!
# Model of the other files of the default storage

Source: /repo/src/storage.rs lines 328-422 and 470-502, and their callers in /repo/src/config.rs (276-288, 1056-1058,
1116-1123) and /repo/src/context.rs (129-133, 317-336): the files with the paths of the scanner, the certificates of
authorities, and the file with the state of the connection.
-/
namespace Verif.Storage
open Verif.Reconnect (ConnState)

/-! ## Files with paths -/

/-- What reading a file gives: nothing if it cannot be opened; otherwise bytes, and whether the end was reached or
reading failed there (storage.rs:479-484). -/
inductive Read where
  | notOpened
  | data (bs : Bytes) (complete : Bool)
deriving DecidableEq

/-- The pieces `BufRead::read_line` returns: each with its end of line (storage.rs:482 `breader.lines()`, the standard
library). `acc` is the piece read so far. -/
def pieces (acc : Bytes) : Bytes → List Bytes
  | [] => if acc = [] then [] else [acc]
  | b :: bs => if b = 10 then (acc ++ [b]) :: pieces [] bs else pieces (acc ++ [b]) bs

/-- `Lines::next` takes off the end of line: `\n`, and one `\r` before it (storage.rs:482, the standard library). -/
def chomp (l : Bytes) : Bytes :=
  if l.getLast? = some 10 then
    if l.dropLast.getLast? = some 13 then l.dropLast.dropLast else l.dropLast
  else l

/-- The loop over the lines (storage.rs:482-487); a line that is not UTF-8 is an error. -/
def keepPaths : List Bytes → Option (List Bytes)
  | [] => some []
  | l :: ls =>
    if Utf8.valid l then
      match keepPaths ls with
      | some ps => some (if (chomp l).head? = some 35 then ps else chomp l :: ps)
      | none => none
    else none

/-- `load_paths` (storage.rs:471-490). -/
def loadPaths : Read → Option (List Bytes)
  | .notOpened => none
  | .data bs complete => if complete then keepPaths (pieces [] bs) else none

/-- The paths of the configuration: `load_rtsp_paths` and `load_mjpeg_paths` (storage.rs:338-352) with what
`ConfigBuilder::build` makes of an error (config.rs:276-288, 305-306: a warning, and no paths). `file = none`: no file
is set. The result is the paths and whether there is a warning. -/
def configPaths : Option Read → List Bytes × Bool
  | none => ([], false)
  | some r =>
    match loadPaths r with
    | some ps => (ps, false)
    | none => ([], true)

/-! ## Certificates of authorities -/

mutual
/-- What is found at a path (storage.rs:388-399): a directory; a directory that cannot be read; anything else, with
what `set_ca_file` would load from it (`none`: an error). Certificates are numbers. Links are followed. -/
inductive Node where
  | file (certs : Option (List Nat))
  | unreadable
  | dir (es : Entries)
/-- What `read_dir` returns, in its order: an error of an entry ends the loop (storage.rs:391-395). -/
inductive Entries where
  | done
  | failed
  | item (name : Bytes) (n : Node) (rest : Entries)
end

/-- The last position of `c`: `rsplitn(2, …)` of the standard library (`Path::extension`, storage.rs:412). -/
def splitLast (c : UInt8) : Bytes → Option (Bytes × Bytes)
  | [] => none
  | b :: bs =>
    match splitLast c bs with
    | some (x, y) => some (b :: x, y)
    | none => if b = c then some ([], bs) else none

/-- `Path::extension` of a file name (storage.rs:412, the standard library). -/
def extension (name : Bytes) : Option Bytes :=
  if name = [46, 46] then none
  else
    match splitLast 46 name with
    | some (before, after) => if before = [] then none else some after
    | none => none

/-- `is_cert_file` (storage.rs:405-422). -/
def isCertFile (name : Bytes) : Bool :=
  match extension name with
  | some ext =>
    ext.map lower = asc "der" || ext.map lower = asc "cer" || ext.map lower = asc "crt" || ext.map lower = asc "pem"
  | none => false

mutual
/-- `SslConnectorBuilderExt::load_ca_certificates` (storage.rs:382-402): what is loaded, and whether it ends well. -/
def loadNode (name : Bytes) : Node → List Nat × Bool
  | .file certs => if isCertFile name then (match certs with | some cs => (cs, true) | none => ([], false)) else ([], true)
  | .unreadable => ([], false)
  | .dir es => loadEntries es
/-- The loop over the entries of a directory (storage.rs:391-395). -/
def loadEntries : Entries → List Nat × Bool
  | .done => ([], true)
  | .failed => ([], false)
  | .item name n rest =>
    match loadNode name n with
    | (cs, true) => let r := loadEntries rest; (cs ++ r.1, r.2)
    | (cs, false) => (cs, false)
end

/-- `DefaultStorage::load_ca_certificates` (storage.rs:354-371): the given paths in turn; an error is a warning (here:
the name of the path). -/
def loadAll : List (Bytes × Node) → List Nat × List Bytes
  | [] => ([], [])
  | (name, n) :: ps =>
    let r := loadNode name n
    let rs := loadAll ps
    (r.1 ++ rs.1, (if r.2 then [] else [name]) ++ rs.2)

/-! ## The file with the state of the connection -/

/-- `Display for ConnectionState` and the end of line (context.rs:38-48, storage.rs:332). -/
def stateLine : ConnState → Bytes
  | .connected => asc "connected\n"
  | .disconnected => asc "disconnected\n"
  | .unauthorized => asc "unauthorized\n"

/-- The running client, if any, and the file (storage.rs:328-336, context.rs:65-72). `fileSet`: a file is given. -/
structure World where
  fileSet : Bool
  file : Option Bytes
  app : Option AppContext.App

/-- Steps: a client starts; it makes a step, with the outcome of writing the file if that step writes it; it ends
(context.rs:76-85, 317-336). -/
inductive Op where
  | start
  | app (op : AppContext.AOp) (o : Config.Out)
  | exit

/-- What happens: a client starts or ends; it changes its connection state and writes the file (if one is set) with
this outcome (context.rs:129-133). -/
inductive Ev where
  | started
  | ended
  | saved (s : ConnState) (o : Config.Out)
deriving DecidableEq

/-- `DefaultStorage::save_connection_state` (storage.rs:328-336) as called by `update_connection_state`
(config.rs:1116-1123), which logs an error. The result is the file and whether the process goes on. -/
def saveState (fileSet : Bool) (file : Option Bytes) (s : ConnState) (o : Config.Out) : Option Bytes × Bool :=
  if fileSet then
    let r := Config.writeFile file (stateLine s) o
    (r.1, r.2 ≠ .crashed)
  else (file, true)

/-- One step (context.rs:76-85, 129-133, 317-336). The file is written in the critical section that changes the state. -/
def World.step (w : World) : Op → World × List Ev
  | .start =>
    match w.app with
    | none => ({ w with app := some .new }, [.started])
    | some _ => (w, [])
  | .app op o =>
    match w.app with
    | none => (w, [])
    | some a =>
      let r := a.step op
      match r.2 with
      | [.changed (.conn s)] =>
        let f := saveState w.fileSet w.file s o
        if f.2 then ({ w with file := f.1, app := some r.1 }, [.saved s o])
        else ({ w with file := f.1, app := none }, [.saved s o, .ended])
      | _ => ({ w with app := some r.1 }, [])
  | .exit =>
    match w.app with
    | none => (w, [])
    | some _ => ({ w with app := none }, [.ended])

/-- A history (context.rs:317-336). -/
def World.run (w : World) : List Op → World × List Ev
  | [] => (w, [])
  | op :: ops =>
    let r := w.step op
    let r2 := r.1.run ops
    (r2.1, r.2 ++ r2.2)

end Verif.Storage
