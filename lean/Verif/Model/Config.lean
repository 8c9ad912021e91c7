import Verif.Model.SvcTable
/-!
# Model of the configuration and its storage

Source: /repo/src/config.rs, /repo/src/storage.rs.

Parameters, all facts about external crates: the JSON text of the crate `json`, the UUID text of the crate
`uuid`, the hash function and the text of socket addresses (see `Model/SvcTable`). The clock is an argument.
Files are byte strings; nobody but the program writes them. Logging is left out.
-/
namespace Verif.Config
open Verif Verif.SvcTable

/-- The functions of external crates. -/
structure Env where
  farm : Bytes → UInt64
  addr : AddrText
  /-- `JsonValue::write` -/
  render : Json → Bytes
  /-- `json::parse` after `read_to_string` -/
  parse : Bytes → Option Json
  /-- `Uuid::as_hyphenated` and `Display` -/
  formatUuid : Bytes → Bytes
  /-- `Uuid::from_str` -/
  parseUuid : Bytes → Option Bytes

/-- `struct PersistentConfig` (config.rs:835-840). A UUID is a byte string. `version` is a `usize` of 64
bits. -/
structure PConfig where
  uuid : Bytes
  passwd : Bytes
  version : UInt64
  table : Table

/-- `PersistentConfig::new` (config.rs:844-846, 866-875) with the random UUIDs as arguments. -/
def PConfig.new (now : Int64) (uuid passwd : Bytes) : PConfig := ⟨uuid, passwd, 0, Table.new now⟩

/-- `PersistentConfig::to_skeleton` (config.rs:856-863). -/
def PConfig.toSkeleton (now : Int64) (c : PConfig) : PConfig := ⟨c.uuid, c.passwd, 0, Table.new now⟩

/-- `impl ToJson for PersistentConfig` (config.rs:877-886). -/
def PConfig.toJson (E : Env) (c : PConfig) : Json :=
  .obj [
    (asc "uuid", .str (E.formatUuid c.uuid)),
    (asc "passwd", .str (E.formatUuid c.passwd)),
    (asc "version", .num c.version.toNat),
    (asc "svc_table", c.table.toJson E.addr)]

/-- `JsonValue::as_usize` (crate `json`). -/
def asUsize : Json → Option UInt64
  | .num n => if 0 ≤ n ∧ n < 18446744073709551616 then some (UInt64.ofNat n.toNat) else none
  | _ => none

/-- `impl FromJson for PersistentConfig` (config.rs:888-928). A panic comes from loading the table. -/
def PConfig.fromJson (E : Env) (now : Int64) : Json → Wire.Res PConfig
  | .obj l =>
    match Json.field l (asc "svc_table") with
    | none => .err
    | some tj =>
      match Table.fromJson E.addr now tj with
      | .panic => .panic
      | .err => .err
      | .ok table =>
        match (Json.field l (asc "uuid")).bind Json.asStr,
          (Json.field l (asc "passwd")).bind Json.asStr,
          (Json.field l (asc "version")).bind asUsize with
        | some uuid, some passwd, some version =>
          match E.parseUuid uuid, E.parseUuid passwd with
          | some uuid, some passwd => .ok ⟨uuid, passwd, version, table⟩
          | _, _ => .err
        | _, _, _ => .err
  | _ => .err

/-- `impl ToJson for PublicIdentity` (config.rs:826-832) of `to_identity` (849-852). -/
def identityJson (E : Env) (c : PConfig) : Json := .obj [(asc "uuid", .str (E.formatUuid c.uuid))]

/-! ## Files -/

/-- What can happen while a file is written: everything works; it cannot be created; writing fails after `n`
bytes; the process ends before the file is created; the process ends after `n` bytes (storage.rs:448-471: `File::create` and `write`). -/
inductive Out where
  | ok
  | notCreated
  | short (n : Nat)
  | crashBefore
  | crash (n : Nat)
deriving DecidableEq

/-- The effect on the process (config.rs:253-325, 432-479: `Result`, or a panic). -/
inductive Status where
  | done | failed | crashed
deriving DecidableEq

/-- `File::create` (which empties an existing file) and writing the data: `save_configuration_file`
(storage.rs:448-457), `save_identity_file` (460-469). -/
def writeFile (old : Option Bytes) (data : Bytes) : Out → Option Bytes × Status
  | .ok => (some data, .done)
  | .notCreated => (old, .failed)
  | .short n => (some (data.take n), .failed)
  | .crashBefore => (old, .crashed)
  | .crash n => (some (data.take n), .crashed)

/-- The files; `none` is a missing file (storage.rs:175-185). -/
structure Files where
  config : Option Bytes
  skeleton : Option Bytes
  identity : Option Bytes

/-- `load_configuration_file` (storage.rs:425-445) with the `result_or_log` around it: an error is the value
`.ok none`. `readable = false` is an I/O error. -/
def loadFile (E : Env) (now : Int64) (file : Option Bytes) (readable : Bool) : Wire.Res (Option PConfig) :=
  if readable then
    match file with
    | none => .ok none
    | some data =>
      match E.parse data with
      | none => .ok none
      | some j =>
        match PConfig.fromJson E now j with
        | .ok c => .ok (some c)
        | .err => .ok none
        | .panic => .panic
  else .ok none

/-- Which optional files `DefaultStorage` was given (storage.rs:166-176). -/
structure Setup where
  skeleton : Bool
  identity : Bool

/-- What happens from outside while the program starts (config.rs:253-325). -/
structure StartUp where
  now : Int64
  /-- Are the files readable? -/
  readConfig : Bool
  readSkeleton : Bool
  /-- The UUIDs drawn if a new configuration is created. -/
  freshUuid : Bytes
  freshPasswd : Bytes
  /-- What happens when the files are written. -/
  outSkeleton : Out
  outIdentity : Out
  outConfig : Out
  /-- The static services and the mode given to the builder. -/
  services : List Service
  flashFriendly : Bool

/-- `DefaultStorage::load_configuration` (storage.rs:251-326). The result is `none` if the process ends. -/
def loadConfiguration (E : Env) (S : Setup) (fs : Files) (a : StartUp) : Files × Option PConfig :=
  match (if S.skeleton then loadFile E a.now fs.skeleton a.readSkeleton else .ok none),
    loadFile E a.now fs.config a.readConfig with
  | .ok skel, .ok config =>
    let c := (config.or skel).getD (PConfig.new a.now a.freshUuid a.freshPasswd)
    let (skelFile, st) :=
      if S.skeleton ∧ skel.isNone then
        writeFile fs.skeleton (E.render ((c.toSkeleton a.now).toJson E)) a.outSkeleton
      else (fs.skeleton, .done)
    if st = .crashed then ({ fs with skeleton := skelFile }, none)
    else
      let (idFile, st) :=
        if S.identity then writeFile fs.identity (E.render (identityJson E c)) a.outIdentity
        else (fs.identity, .done)
      ({ fs with skeleton := skelFile, identity := idFile }, if st = .crashed then none else some c)
  | _, _ => (fs, none)

/-! ## The configuration in memory -/

/-- `struct Config` (config.rs:931-951), the parts that change or matter for saving. The shared service table is
a reference (`Arc`) into `World.heap`; the default table is never shared. -/
structure Cfg where
  version : UInt64
  uuid : Bytes
  passwd : Bytes
  cell : Nat
  default : Table
  flashFriendly : Bool

/-- The files, the shared tables, and the configuration of the running process, if any (config.rs:931-951, storage.rs:175-185). -/
structure World where
  fs : Files
  heap : List Table
  proc : Option Cfg

/-- An attempt to write the configuration file with the given content, and how it ended (config.rs:1143-1152, storage.rs:448-457). -/
structure Save where
  data : Bytes
  out : Out

/-- `Config::save` (config.rs:1142-1162); the process goes on after an error (1078-1080, 1109-1111). -/
def World.save (E : Env) (w : World) (c : Cfg) (t : Table) (o : Out) : World × List Save :=
  let data := E.render (PConfig.toJson E ⟨c.uuid, c.passwd, c.version, t⟩)
  let (f, st) := writeFile w.fs.config data o
  ({ w with fs := { w.fs with config := f }, proc := if st = .crashed then none else some c }, [⟨data, o⟩])

/-- `ConfigBuilder::build` (config.rs:253-324). The interfaces and the paths of the scanner are left out. Both
tables get the static services; the clock is read once. An error of saving is an error of `build`. -/
def World.start (E : Env) (S : Setup) (w : World) (a : StartUp) : World × List Save :=
  match loadConfiguration E S w.fs a with
  | (fs, none) => ({ w with fs := fs, proc := none }, [])
  | (fs, some p) =>
    match p.table.run E.farm (a.services.map (.addStatic a.now)) with
    | none => ({ w with fs := fs, proc := none }, [])
    | some t =>
      let c : Cfg := ⟨p.version, p.uuid, p.passwd, w.heap.length, t, a.flashFriendly⟩
      let (w', s) := { w with fs := fs, heap := w.heap ++ [t] }.save E c t a.outConfig
      (if a.outConfig = .ok then w' else { w' with proc := none }, s)

/-- `Config::reset_service_table` (config.rs:1073-1081): a clone (svc_table/mod.rs:593-601) is a new table. -/
def World.reset (E : Env) (w : World) (c : Cfg) (o : Out) : World × List Save :=
  let c := { c with cell := w.heap.length, version := c.version + 1 }
  { w with heap := w.heap ++ [c.default] }.save E c c.default o

/-- `Config::update_service_table` (config.rs:1085-1112). A panic of the table ends the process. -/
def World.update (E : Env) (w : World) (c : Cfg) (services : List (Int64 × Service)) (now : Int64) (o : Out) :
    World × List Save :=
  match w.heap[c.cell]? with
  | none => (w, [])
  | some t =>
    match t.run E.farm (services.map (fun s => .add s.1 s.2) ++ [.updateActive now]) with
    | none => ({ w with proc := none }, [])
    | some t' =>
      let w := { w with heap := w.heap.set c.cell t' }
      if t'.version = t.version ∧ (c.flashFriendly ∨ t'.visVersion = t.visVersion) then (w, [])
      else w.save E { c with version := c.version + 1 } t' o

/-! ## Histories -/

/-- What can happen. Nothing happens if there is no process (a process, in case of `start`) (config.rs:253-325, 1073-1113, 1143-1152). -/
inductive Op where
  | start (a : StartUp)
  | update (services : List (Int64 × Service)) (now : Int64) (o : Out)
  | reset (o : Out)
  /-- the process ends -/
  | stop

/-- One step (config.rs:253-325, 1073-1152, by the definitions above). -/
def World.step (E : Env) (S : Setup) (w : World) : Op → World × List Save
  | .start a => match w.proc with
    | none => w.start E S a
    | some _ => (w, [])
  | .update services now o => match w.proc with
    | some c => w.update E c services now o
    | none => (w, [])
  | .reset o => match w.proc with
    | some c => w.reset E c o
    | none => (w, [])
  | .stop => ({ w with proc := none }, [])

/-- A history (a sequence of steps; config.rs:931-1152). -/
def World.run (E : Env) (S : Setup) (w : World) : List Op → World × List Save
  | [] => (w, [])
  | op :: ops =>
    let (w, a) := w.step E S op
    let (w, b) := w.run E S ops
    (w, a ++ b)

end Verif.Config
