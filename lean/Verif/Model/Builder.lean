import Verif.Model.Args
import Verif.Model.Reconnect
/-!
# Model of the builder of the configuration and of the start of the program

Source: `ConfigBuilder` of /repo/src/config.rs (lines 114-325), `ConfigParser::create_logger` and `build` (409-480),
`get_first_mac` (1166-1172), /repo/src/exports/config.rs (the setters), /repo/src/main.rs.

The storage is any implementation of the trait `Storage`: its answers are inputs. A logger is a number; no logger is the
`DummyLogger`. The clock is read once.
-/
namespace Verif.Builder
open Verif Verif.Config Verif.SvcTable

/-- A call of a setter of `ConfigBuilder` (config.rs:149-250). -/
inductive Setting where
  | logger (l : Nat)
  | mac (m : Option MacAddr)
  | addService (s : Service)
  | services (ss : List Service)
  | flashFriendly (on : Bool)
  | diagnostic (on : Bool)
  | gateway (on : Bool)
  | discovery (on : Bool)
  | whitelist (names : List Bytes)
  | verbose (on : Bool)
  | category (t : Bytes)
  | type (t : Bytes)
  | vendor (t : Bytes)

/-- `struct ConfigBuilder` (config.rs:114-127) with its logger. -/
structure Bld where
  b : Args.Builder
  logger : Option Nat

/-- `Config::builder` (config.rs:955-957), `ConfigBuilder::new` (131-146). -/
def Bld.new : Bld := ⟨Args.Builder.new, none⟩

/-- The setters (config.rs:149-250). -/
def Bld.set (x : Bld) : Setting → Bld
  | .logger l => { x with logger := some l }
  | .mac m => { x with b := { x.b with mac := m } }
  | .addService s => { x with b := { x.b with services := x.b.services ++ [s] } }
  | .services ss => { x with b := { x.b with services := ss } }
  | .flashFriendly on => { x with b := { x.b with flashFriendly := on } }
  | .diagnostic on => { x with b := { x.b with diagnostic := on } }
  | .gateway on => { x with b := { x.b with gateway := on } }
  | .discovery on => { x with b := { x.b with discovery := on } }
  | .whitelist names => { x with b := { x.b with whitelist := names } }
  | .verbose on => { x with b := { x.b with verbose := on } }
  | .category t => { x with b := { x.b with category := some t } }
  | .type t => { x with b := { x.b with type := some t } }
  | .vendor t => { x with b := { x.b with vendor := some t } }

/-- Calls of setters, one after the other (config.rs:149-250). -/
def Bld.setAll (x : Bld) (l : List Setting) : Bld := l.foldl Bld.set x

/-- `struct Config` (config.rs:931-951) without the storage. -/
structure Conf where
  version : UInt64
  uuid : Bytes
  passwd : Bytes
  mac : MacAddr
  address : Bytes
  diagnostic : Bool
  gateway : Bool
  discovery : Bool
  whitelist : List Bytes
  rtspPaths : List Bytes
  mjpegPaths : List Bytes
  default : Table
  table : Table
  logger : Option Nat
  flashFriendly : Bool
  category : Option Bytes
  type : Option Bytes
  vendor : Option Bytes

/-- The lists of paths (config.rs:276-288). -/
inductive Paths where
  | rtsp | mjpeg
deriving DecidableEq

/-- What `build` does to the world (config.rs:264-321). -/
inductive Ev where
  /-- `Storage::load_configuration` -/
  | load
  /-- `NetworkInterface::list` -/
  | interfaces
  /-- `Storage::load_rtsp_paths`, `load_mjpeg_paths` -/
  | paths (p : Paths)
  /-- a warning -/
  | warning (logger : Option Nat) (p : Paths)
  /-- the level of the logger is set to `DEBUG` -/
  | debug (logger : Option Nat)
  /-- `Storage::save_configuration` -/
  | save (c : PConfig)

/-- The answers of the storage and of the system (config.rs:264-321). `none` is an error. -/
structure World where
  config : Option PConfig
  interfaces : List (Bytes × MacAddr)
  rtsp : Option (List Bytes)
  mjpeg : Option (List Bytes)
  saved : Bool
  now : Int64

/-- `get_first_mac` (config.rs:1166-1172). -/
def firstMac (interfaces : List (Bytes × MacAddr)) : Option MacAddr := interfaces.head?.map (·.2)

/-- The MAC address of the client (config.rs:270-274): the one given, or the one of the first interface. -/
def findMac (x : Bld) (w : World) : List Ev × Option MacAddr :=
  match x.b.mac with
  | some m => ([], some m)
  | none => ([.interfaces], firstMac w.interfaces)

/-- Loading paths, with the `result_or_log` around it (config.rs:276-288, src/utils/mod.rs:130-148), and
`unwrap_or_default` (300-301). -/
def loadPaths (x : Bld) (p : Paths) : Option (List Bytes) → List Ev × List Bytes
  | some l => ([.paths p], l)
  | none => ([.paths p, .warning x.logger p], [])

/-- `ConfigBuilder::build` (config.rs:253-325). A panic is that of a full service table. -/
def Bld.build (E : Env) (x : Bld) (w : World) (address : Bytes) : List Ev × Wire.Res Conf :=
  match w.config with
  | none => ([.load], .err)
  | some p =>
    match findMac x w with
    | (e, none) => (.load :: e, .err)
    | (e, some mac) =>
      let (r, rtsp) := loadPaths x .rtsp w.rtsp
      let (m, mjpeg) := loadPaths x .mjpeg w.mjpeg
      let done := .load :: e ++ r ++ m ++ if x.b.verbose then [.debug x.logger] else []
      match p.table.run E.farm (x.b.services.map (.addStatic w.now)) with
      | none => (done, .panic)
      | some t =>
        let c : Conf :=
          { version := p.version, uuid := p.uuid, passwd := p.passwd, mac := mac, address := address,
            diagnostic := x.b.diagnostic, gateway := x.b.gateway, discovery := x.b.discovery,
            whitelist := x.b.whitelist, rtspPaths := rtsp, mjpegPaths := mjpeg, default := t, table := t,
            logger := x.logger, flashFriendly := x.b.flashFriendly, category := x.b.category, type := x.b.type,
            vendor := x.b.vendor }
        (done ++ [.save ⟨c.uuid, c.passwd, c.version, c.table⟩], if w.saved then .ok c else .err)

/-! ## The C interface -/

/-- The setters of the C interface (exports/config.rs:39-85): NULL or six bytes, and an `int`. -/
inductive CSetting where
  | logger (l : Nat)
  | mac (bytes : Option MacAddr)
  | diagnostic (enabled : Int32)
  | discovery (enabled : Int32)
  | verbose (enabled : Int32)

/-- `ac__config__set_*` (exports/config.rs:39-85). -/
def CSetting.setting : CSetting → Setting
  | .logger l => .logger l
  | .mac none => .mac none
  | .mac (some m) => .mac (some m)
  | .diagnostic n => .diagnostic (n != 0)
  | .discovery n => .discovery (n != 0)
  | .verbose n => .verbose (n != 0)

/-! ## The program -/

/-- The setters called by `ConfigParser::build` (config.rs:451-473). -/
def settings (p : Args.Parser) (logger : Nat) : List Setting :=
  [.logger logger, .mac p.mac, .services p.services, .diagnostic p.diagnostic, .gateway p.gateway,
    .discovery p.discovery, .whitelist p.whitelist, .verbose p.verbose] ++
  p.category.toList.map .category ++ p.type.toList.map .type ++ p.vendor.toList.map .vendor

/-- What the program does before it runs (config.rs:432-479). -/
inductive PEv where
  /-- taking the lock with this file -/
  | lock (file : Bytes)
  /-- opening the log file -/
  | openLog (file : Bytes)
  | conf (e : Ev)

/-- The answers of the system to the program (config.rs:409-479). -/
structure Sys where
  /-- can the lock be taken? -/
  lock : Bytes → Bool
  /-- can the log file be opened? -/
  log : Bytes → Bool
  /-- the number of the logger that is created -/
  logger : Nat
  /-- the answers to `ConfigBuilder::build`, with the files chosen -/
  world : Args.Parser → World

/-- `DefaultStorage::builder`, as far as the lock goes (config.rs:435-437, src/storage.rs:189-233). -/
def takeLock (s : Sys) : Option Bytes → List PEv × Bool
  | none => ([], true)
  | some f => ([.lock f], s.lock f)

/-- `ConfigParser::create_logger` (config.rs:409-428). -/
def createLogger (s : Sys) (p : Args.Parser) : List PEv × Bool :=
  match p.logger with
  | .syslog | .stderr | .stderrPretty => ([], true)
  | .file => ([.openLog p.logFile], s.log p.logFile)

/-- `ConfigParser::build` (config.rs:431-480). -/
def buildParser (E : Env) (s : Sys) (p : Args.Parser) : List PEv × Wire.Res Conf :=
  match takeLock s p.lockFile with
  | (e, false) => (e, .err)
  | (e, true) =>
    match createLogger s p with
    | (e', false) => (e ++ e', .err)
    | (e', true) =>
      let r := (Bld.new.setAll (settings p s.logger)).build E (s.world p) p.address
      (e ++ e' ++ r.1.map .conf, r.2)

/-- How the start of the program ends (main.rs:27-52). -/
inductive Start where
  | exit (code : Int)
  /-- the process is aborted by a panic -/
  | panic
  | running (c : Conf)

/-- `main` (main.rs:41-52) and `Config::from_args` (config.rs:961-963), `args` without the name of the program
(config.rs:485). An error is reported by `result_or_usage` (main.rs:27-38); `--help` and `--version` end the process
with 0 (config.rs:505-506, 1294-1370). -/
def main (A : Args.Env) (E : Env) (s : Sys) (args : List Bytes) : List PEv × Start :=
  match Args.parse A args with
  | .err => ([], .exit 1)
  | .exit => ([], .exit 0)
  | .panic => ([], .panic)
  | .ok p =>
    match buildParser E s p with
    | (e, .ok c) => (e, .running c)
    | (e, .err) => (e, .exit 1)
    | (e, .panic) => (e, .panic)

/-- The task that connects to the server (src/client.rs:66-93, main.rs:44): `Reconnect.Task` with the address and
the mode of the configuration. -/
def Conf.trace (c : Conf) (now : Nat) (rounds : List Reconnect.Round) : List Reconnect.REv :=
  (Reconnect.Task.start c.address c.diagnostic now).run now rounds

end Verif.Builder
