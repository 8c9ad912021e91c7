import Verif.Model.Args
import Verif.Spec.Url
import Verif.Spec.White
/-!
# The command line, as a list of options
-/
namespace Verif.Spec.Args
open Verif Verif.Args Verif.Spec.Text Verif.Spec.Url

/-- The options, with their values as texts. -/
inductive Opt where
  | ca (path : Bytes)
  | discovery
  | whitelist (iface : Bytes)
  | interface (iface : Bytes)
  | rtsp (url : Bytes)
  | mjpeg (url : Bytes)
  | http (addr : Bytes)
  | tcp (addr : Bytes)
  | verbose
  | flashFriendly
  | diagnostic
  | noGateway
  | logStderr
  | logStderrPretty
  | configFile (f : Bytes)
  | skeletonFile (f : Bytes)
  | stateFile (f : Bytes)
  | identityFile (f : Bytes)
  | rtspPaths (f : Bytes)
  | mjpegPaths (f : Bytes)
  | logFile (f : Bytes)
  | logFileSize (n : Bytes)
  | logFileRotations (n : Bytes)
  | lockFile (f : Bytes)
  | category (t : Bytes)
  | type (t : Bytes)
  | vendor (t : Bytes)

/-- How an option is written. -/
def Opt.words : Opt → List Bytes
  | .ca v => [asc "-c", v]
  | .discovery => [asc "-d"]
  | .whitelist v => [asc "-D", v]
  | .interface v => [asc "-i", v]
  | .rtsp v => [asc "-r", v]
  | .mjpeg v => [asc "-m", v]
  | .http v => [asc "-h", v]
  | .tcp v => [asc "-t", v]
  | .verbose => [asc "-v"]
  | .flashFriendly => [asc "--flash-friendly"]
  | .diagnostic => [asc "--diagnostic-mode"]
  | .noGateway => [asc "--no-gateway-mode"]
  | .logStderr => [asc "--log-stderr"]
  | .logStderrPretty => [asc "--log-stderr-pretty"]
  | .configFile v => [asc "--config-file=" ++ v]
  | .skeletonFile v => [asc "--config-file-skel=" ++ v]
  | .stateFile v => [asc "--conn-state-file=" ++ v]
  | .identityFile v => [asc "--identity-file=" ++ v]
  | .rtspPaths v => [asc "--rtsp-paths=" ++ v]
  | .mjpegPaths v => [asc "--mjpeg-paths=" ++ v]
  | .logFile v => [asc "--log-file=" ++ v]
  | .logFileSize v => [asc "--log-file-size=" ++ v]
  | .logFileRotations v => [asc "--log-file-rotations=" ++ v]
  | .lockFile v => [asc "--lock-file=" ++ v]
  | .category v => [asc "--device-category=" ++ v]
  | .type v => [asc "--device-type=" ++ v]
  | .vendor v => [asc "--device-vendor=" ++ v]

/-- The texts that are options without a value in the same argument. -/
def keywords : List Bytes :=
  [asc "-c", asc "-d", asc "-D", asc "-i", asc "-r", asc "-m", asc "-h", asc "-t", asc "-v",
    asc "--flash-friendly", asc "--diagnostic-mode", asc "--no-gateway-mode", asc "--log-stderr",
    asc "--log-stderr-pretty", asc "--help", asc "--version"]

/-- The options that need the next argument. -/
def needValue : List Bytes :=
  [asc "-c", asc "-D", asc "-i", asc "-r", asc "-m", asc "-h", asc "-t"]

/-- What an option with a `=` starts with. -/
def prefixes : List Bytes :=
  [asc "--config-file=", asc "--config-file-skel=", asc "--conn-state-file=", asc "--identity-file=",
    asc "--rtsp-paths=", asc "--mjpeg-paths=", asc "--log-file=", asc "--log-file-size=",
    asc "--log-file-rotations=", asc "--lock-file=", asc "--device-category=", asc "--device-type=",
    asc "--device-vendor="]

/-- An argument that is no option. -/
def Unknown (arg : Bytes) : Prop := arg ∉ keywords ∧ ∀ x ∈ prefixes, ¬∃ t, arg = x ++ t

/-- The port of a URL, with its default. -/
def PortIs (d : UInt16) : Option Bytes → UInt16 → Prop
  | none, n => n = d
  | some t, n => IsDecimal t n.toNat

/-- The static service of the URL with components `p`: its host and port resolve to `addr`, its path is the path
and the query of the URL; it is a locked service if the URL has a user name. -/
def UrlService (E : Env) (scheme : Bytes) (defaultPort : UInt16)
    (free locked : ServiceType) (url : Bytes) (s : Service) : Prop :=
  ∃ (p : Parts) (port : UInt16) (addr : SocketAddr), Wf p ∧ render p = url ∧ p.scheme.map lower = scheme ∧
    PortIs defaultPort p.port port ∧ E.resolveHost p.host port = some addr ∧
    let path := match p.tail with
      | some (x, query, _) => x ++ opt 63 query
      | none => [47]
    s = ⟨if p.user.isSome then locked else free, some (fakeMac 0xffff addr), some addr, some path⟩

/-- The static service an option asks for. -/
def ServiceOf (E : Env) : Opt → Service → Prop
  | .rtsp url, s => UrlService E (asc "rtsp") 554 .rtsp .lockedRtsp url s
  | .mjpeg url, s => UrlService E (asc "http") 80 .mjpeg .lockedMjpeg url s
  | .http a, s => ∃ addr, E.resolve a = some addr ∧ s = ⟨.http, some (fakeMac 0xffff addr), some addr, none⟩
  | .tcp a, s => ∃ addr, E.resolve a = some addr ∧ s = ⟨.tcp, some (fakeMac 0xffff addr), some addr, none⟩
  | _, _ => False

/-- Does the option ask for a static service? -/
def Opt.isService : Opt → Bool
  | .rtsp _ | .mjpeg _ | .http _ | .tcp _ => true
  | _ => false

/-- The options whose value is accepted. -/
def Accepted (E : Env) : Opt → Prop
  | .discovery | .whitelist _ | .rtspPaths _ | .mjpegPaths _ => E.discovery = true
  | .interface i => ∃ m, E.mac i = some m
  | .rtsp u => ∃ s, ServiceOf E (.rtsp u) s
  | .mjpeg u => ∃ s, ServiceOf E (.mjpeg u) s
  | .http a => ∃ s, ServiceOf E (.http a) s
  | .tcp a => ∃ s, ServiceOf E (.tcp a) s
  | .logFileSize t | .logFileRotations t => ∃ n, IsDecimal t n ∧ n < 2 ^ 64
  | _ => True

/-- The last value given. -/
def last {α : Type} (f : Opt → Option α) (opts : List Opt) : Option α := (opts.filterMap f).getLast?

/-- The logger an option asks for. -/
def Opt.logger : Opt → Option LoggerType
  | .logStderr => some .stderr
  | .logStderrPretty => some .stderrPretty
  | .logFile _ => some .file
  | _ => none

/-- A number with its default. -/
def Number (d : UInt64) : Option Bytes → UInt64 → Prop
  | none, n => n = d
  | some t, n => IsDecimal t n.toNat

/-- The value of a device option: trimmed, and nothing if it is blank. -/
def Device : Option Bytes → Option Bytes → Prop
  | none, v => v = none
  | some t, v => ∃ w, Trimmed t w ∧ v = if w = [] then none else some w

/-- What the settings are after the options. -/
structure Effect (E : Env) (opts : List Opt) (p : Parser) : Prop where
  caCertificates : p.caCertificates = opts.filterMap (fun | .ca v => some v | _ => none)
  whitelist : p.whitelist = opts.filterMap (fun | .whitelist v => some v | _ => none)
  discovery : p.discovery = opts.any (fun | .discovery | .whitelist _ => true | _ => false)
  verbose : p.verbose = opts.any (fun | .verbose => true | _ => false)
  flashFriendly : p.flashFriendly = opts.any (fun | .flashFriendly => true | _ => false)
  diagnostic : p.diagnostic = opts.any (fun | .diagnostic => true | _ => false)
  gateway : p.gateway = !opts.any (fun | .noGateway => true | _ => false)
  mac : p.mac = (last (fun | .interface v => some v | _ => none) opts).bind E.mac
  services : ∃ ss, p.services = ss ∧ ss.length = (opts.filter Opt.isService).length ∧
    ∀ x ∈ (opts.filter Opt.isService).zip ss, ServiceOf E x.1 x.2
  logger : p.logger = (last Opt.logger opts).getD .syslog
  logFile : p.logFile = (last (fun | .logFile v => some v | _ => none) opts).getD []
  logFileSize : Number 10240 (last (fun | .logFileSize v => some v | _ => none) opts) p.logFileSize
  logFileRotations : Number 1 (last (fun | .logFileRotations v => some v | _ => none) opts) p.logFileRotations
  configFile : p.configFile =
    (last (fun | .configFile v => some v | _ => none) opts).getD (asc "/etc/arrow/config.json")
  skeletonFile : p.skeletonFile =
    (last (fun | .skeletonFile v => some v | _ => none) opts).getD (asc "/etc/arrow/config-skel.json")
  stateFile : p.stateFile =
    (last (fun | .stateFile v => some v | _ => none) opts).getD (asc "/var/lib/arrow/state")
  rtspPaths : p.rtspPaths =
    (last (fun | .rtspPaths v => some v | _ => none) opts).getD (asc "/etc/arrow/rtsp-paths")
  mjpegPaths : p.mjpegPaths =
    (last (fun | .mjpegPaths v => some v | _ => none) opts).getD (asc "/etc/arrow/mjpeg-paths")
  identityFile : p.identityFile = last (fun | .identityFile v => some v | _ => none) opts
  lockFile : p.lockFile = last (fun | .lockFile v => some v | _ => none) opts
  category : Device (last (fun | .category v => some v | _ => none) opts) p.category
  type : Device (last (fun | .type v => some v | _ => none) opts) p.type
  vendor : Device (last (fun | .vendor v => some v | _ => none) opts) p.vendor

/-- How reading the options ends, and at which rest of the arguments: all read; help or version asked for; a value
not accepted; an unknown argument; a missing value. -/
inductive Ends (E : Env) : List Bytes → R Parser → Prop
  | ok (p : Parser) : Ends E [] (.ok p)
  | help (w : Bytes) (rest : List Bytes) (h : w = asc "--help" ∨ w = asc "--version") : Ends E (w :: rest) .exit
  | refused (o : Opt) (rest : List Bytes) (h : ¬Accepted E o) : Ends E (o.words ++ rest) .err
  | unknown (w : Bytes) (rest : List Bytes) (h : Unknown w) : Ends E (w :: rest) .err
  | missing (w : Bytes) (h : w ∈ needValue) : Ends E [w] .err

end Verif.Spec.Args
