import Verif.Model.Builder
import Verif.Spec.Args
/-!
# What a configuration says, given the calls of the setters or the command line
-/
namespace Verif.Spec.Builder
open Verif Verif.SvcTable Verif.Builder
open Verif.Config (Env PConfig)

/-- The last value that was set, or the default. -/
def last {α : Type} (f : Setting → Option α) (d : α) (l : List Setting) : α := ((l.filterMap f).getLast?).getD d

/-- The MAC address set, if any. -/
def macSet (l : List Setting) : Option MacAddr := last (fun | .mac m => some m | _ => none) none l

/-- The logger set, if any. -/
def loggerSet (l : List Setting) : Option Nat := last (fun | .logger n => some (some n) | _ => none) none l

/-- The services that were added. -/
def added (l : List Setting) : List Service := l.filterMap (fun | .addService s => some s | _ => none)

/-- Does the call set all the services? -/
def setsServices : Setting → Prop
  | .services _ => True
  | _ => False

/-- The static services: those set by the last call that sets them all, and those added after it. -/
def Static (l : List Setting) (ss : List Service) : Prop :=
  (∃ before xs after, l = before ++ .services xs :: after ∧ (∀ x ∈ after, ¬setsServices x) ∧ ss = xs ++ added after) ∨
  ((∀ x ∈ l, ¬setsServices x) ∧ ss = added l)

/-- There is no MAC address: none set, and no interface. -/
def NoMac (l : List Setting) (w : World) : Prop := macSet l = none ∧ w.interfaces = []

/-- The table that results if static services are added to a loaded one; `none` is a panic. -/
def tableOf (E : Env) (w : World) (p : PConfig) (ss : List Service) : Option Table :=
  p.table.run E.farm (ss.map (.addStatic w.now))

/-- The configuration is the one asked for. -/
structure Configured (E : Env) (l : List Setting) (w : World) (address : Bytes) (c : Conf) : Prop where
  loaded : ∃ p ss, w.config = some p ∧ c.uuid = p.uuid ∧ c.passwd = p.passwd ∧ c.version = p.version ∧
    Static l ss ∧ tableOf E w p ss = some c.table ∧ c.default = c.table
  mac : macSet l = some c.mac ∨ macSet l = none ∧ ∃ name rest, w.interfaces = (name, c.mac) :: rest
  address : c.address = address
  diagnostic : c.diagnostic = last (fun | .diagnostic b => some b | _ => none) false l
  gateway : c.gateway = last (fun | .gateway b => some b | _ => none) true l
  discovery : c.discovery = last (fun | .discovery b => some b | _ => none) false l
  flashFriendly : c.flashFriendly = last (fun | .flashFriendly b => some b | _ => none) false l
  whitelist : c.whitelist = last (fun | .whitelist n => some n | _ => none) [] l
  rtspPaths : c.rtspPaths = w.rtsp.getD []
  mjpegPaths : c.mjpegPaths = w.mjpeg.getD []
  logger : c.logger = loggerSet l
  category : c.category = last (fun | .category t => some (some t) | _ => none) none l
  type : c.type = last (fun | .type t => some (some t) | _ => none) none l
  vendor : c.vendor = last (fun | .vendor t => some (some t) | _ => none) none l

/-- What was saved. -/
def saves (e : List Ev) : List PConfig := e.filterMap (fun | .save c => some c | _ => none)

/-- The warnings. -/
def warnings (e : List Ev) : List (Option Nat × Paths) := e.filterMap (fun | .warning l p => some (l, p) | _ => none)

/-- Does it list the network interfaces? -/
def listsInterfaces (e : List Ev) : Prop := ∃ x ∈ e, x = .interfaces

/-- Is the level of the logger raised? -/
def raisesLevel (e : List Ev) : Prop := ∃ x ∈ e, ∃ l, x = .debug l

/-- The last number given to a setter of the C interface is there and is not zero. -/
def On (f : CSetting → Option Int32) (cs : List CSetting) : Prop := ∃ n, (cs.filterMap f).getLast? = some n ∧ n ≠ 0

/-! ## The program -/

open Verif.Spec.Args

/-- The last value given on the command line. -/
def lockFile (opts : List Opt) : Option Bytes := Spec.Args.last (fun | .lockFile f => some f | _ => none) opts

/-- The network interface named last. -/
def interface (opts : List Opt) : Option Bytes := Spec.Args.last (fun | .interface v => some v | _ => none) opts

/-- The log file of the command line, if the last option about the logger asks for one. -/
def logFile (opts : List Opt) : Option Bytes :=
  if Spec.Args.last Opt.logger opts = some .file then Spec.Args.last (fun | .logFile f => some f | _ => none) opts
  else none

/-- The address of the server: the port 8900 is added if there is none. -/
def Address (a r : Bytes) : Prop :=
  (58 ∉ a ∨ ∃ x, a = x ++ asc "]") ∧ r = a ++ asc ":8900" ∨ 58 ∈ a ∧ (∀ x, a ≠ x ++ asc "]") ∧ r = a

/-- Does the option ask for the mode? -/
def diagnosticMode (opts : List Opt) : Bool := opts.any (fun | .diagnostic => true | _ => false)

/-- The configuration that runs is the one of the command line. -/
structure Runs (A : Verif.Args.Env) (E : Env) (s : Sys) (opts : List Opt) (c : Conf) : Prop where
  diagnostic : c.diagnostic = diagnosticMode opts
  gateway : c.gateway = !opts.any (fun | .noGateway => true | _ => false)
  discovery : c.discovery = opts.any (fun | .discovery | .whitelist _ => true | _ => false)
  whitelist : c.whitelist = opts.filterMap (fun | .whitelist v => some v | _ => none)
  /-- the option `--flash-friendly` has no effect -/
  flashFriendly : c.flashFriendly = false
  category : Device (Spec.Args.last (fun | .category v => some v | _ => none) opts) c.category
  type : Device (Spec.Args.last (fun | .type v => some v | _ => none) opts) c.type
  vendor : Device (Spec.Args.last (fun | .vendor v => some v | _ => none) opts) c.vendor
  logger : c.logger = some s.logger
  /-- the MAC address of the interface named last, or of the first interface; the storage is that of the files named -/
  loaded : ∃ f : Verif.Args.Parser, Effect A opts f ∧
    (match interface opts with
      | some i => A.mac i = some c.mac
      | none => ∃ name rest, (s.world f).interfaces = (name, c.mac) :: rest) ∧
    c.rtspPaths = (s.world f).rtsp.getD [] ∧ c.mjpegPaths = (s.world f).mjpeg.getD [] ∧
    ∃ p ss, (s.world f).config = some p ∧ c.uuid = p.uuid ∧ c.passwd = p.passwd ∧ c.version = p.version ∧
      ss.length = (opts.filter Opt.isService).length ∧
      (∀ x ∈ (opts.filter Opt.isService).zip ss, ServiceOf A x.1 x.2) ∧
      tableOf E (s.world f) p ss = some c.table

end Verif.Spec.Builder
