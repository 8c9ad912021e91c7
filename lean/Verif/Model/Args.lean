import Verif.Model.Url
import Verif.Model.White
import Verif.Model.Config
/-!
# Model of the command line

Source: /repo/src/config.rs lines 326-817 and 1178-1290. Arguments are UTF-8 texts. Resolving a host name and
finding a network interface are parameters. Creating the logger and taking the lock are left out.
-/
namespace Verif.Args
open Verif

/-- What the parser asks the system, and whether it was compiled with the feature `discovery` (config.rs:573-581, 1175-1181, src/net/utils.rs:21-30). -/
structure Env where
  discovery : Bool
  /-- `get_mac` (config.rs:1175-1181) -/
  mac : Bytes → Option MacAddr
  /-- `get_socket_address` (src/net/utils.rs:21-30) of a text -/
  resolve : Bytes → Option SocketAddr
  /-- `get_socket_address` of a host and a port -/
  resolveHost : Bytes → UInt16 → Option SocketAddr

/-- `enum LoggerType` (config.rs:328-335). -/
inductive LoggerType where
  | syslog | stderr | stderrPretty | file
deriving DecidableEq

/-- `struct ConfigParser` (config.rs:351-376). -/
structure Parser where
  mac : Option MacAddr
  address : Bytes
  caCertificates : List Bytes
  services : List Service
  logger : LoggerType
  configFile : Bytes
  skeletonFile : Bytes
  identityFile : Option Bytes
  stateFile : Bytes
  rtspPaths : Bytes
  mjpegPaths : Bytes
  logFile : Bytes
  flashFriendly : Bool
  discovery : Bool
  whitelist : List Bytes
  verbose : Bool
  diagnostic : Bool
  gateway : Bool
  logFileSize : UInt64
  logFileRotations : UInt64
  lockFile : Option Bytes
  category : Option Bytes
  type : Option Bytes
  vendor : Option Bytes

/-- `ConfigParser::new` (config.rs:378-406) with the constants of lines 64-80. The default logger is the one of
all systems but Windows. -/
def Parser.new : Parser where
  mac := none
  address := []
  caCertificates := []
  services := []
  logger := .syslog
  configFile := asc "/etc/arrow/config.json"
  skeletonFile := asc "/etc/arrow/config-skel.json"
  identityFile := none
  stateFile := asc "/var/lib/arrow/state"
  rtspPaths := asc "/etc/arrow/rtsp-paths"
  mjpegPaths := asc "/etc/arrow/mjpeg-paths"
  logFile := []
  flashFriendly := false
  discovery := false
  whitelist := []
  verbose := false
  diagnostic := false
  gateway := true
  logFileSize := 10 * 1024
  logFileRotations := 1
  lockFile := none
  category := none
  type := none
  vendor := none

/-- The result of parsing: a value, an error, the end of the process by `--help` or `--version`, a panic (config.rs:482-543; `--help` and `--version`: config.rs:1294-1380). -/
inductive R (α : Type) where
  | ok (a : α)
  | err
  | exit
  | panic

/-- `arrow_service_address` (config.rs:546-559). -/
def serviceAddress (addr : Bytes) : Bytes :=
  if addr.getLast? = some 93 ∨ (58 : UInt8) ∉ addr then addr ++ [58] ++ asc "8900" else addr

/-- `get_fake_mac` (config.rs:1187-1216) with the prefix 0xffff of all its callers. -/
def fakeMac (pre : UInt16) (a : SocketAddr) : MacAddr :=
  let x := ((pre >>> 8) &&& 0xff).toUInt8
  let y := (pre &&& 0xff).toUInt8
  match a.ip with
  | .v4 a b c d => ⟨x, y, a, b, c, d⟩
  | .v6 _ _ _ _ _ _ s6 s7 =>
    ⟨x, y, ((s6 >>> 8) &&& 0xff).toUInt8, (s6 &&& 0xff).toUInt8, ((s7 >>> 8) &&& 0xff).toUInt8,
      (s7 &&& 0xff).toUInt8⟩

/-- The path of a static service (config.rs:1244-1248, 1282-1286); `none` is a panic. -/
def urlPath (u : Url.Url) : Option Bytes :=
  match u.getPath, u.getQuery with
  | some path, some (some query) => some (path ++ [63] ++ query)
  | some path, some none => some path
  | _, _ => none

/-- `parse_rtsp_url` (config.rs:1218-1253) and `parse_mjpeg_url` (1258-1290), which differ only in the scheme, the
default port and the kinds of service. -/
def urlService (E : Env) (scheme : Bytes) (port : UInt16) (open_ locked : ServiceType) (url : Bytes) : R Service :=
  match Url.parse url with
  | .err => .err
  | .panic => .panic
  | .ok u =>
    match u.getScheme with
    | none => .panic
    | some s =>
      if s.map lower ≠ scheme.map lower then .err
      else
        match u.getHost with
        | none => .panic
        | some host =>
          match E.resolveHost host (u.port.getD port) with
          | none => .err
          | some addr =>
            match urlPath u, u.getUsername with
            | some path, some (some _) => .ok ⟨locked, some (fakeMac 0xffff addr), some addr, some path⟩
            | some path, some none => .ok ⟨open_, some (fakeMac 0xffff addr), some addr, some path⟩
            | _, _ => .panic

/-- `parse_rtsp_url` (config.rs:1218-1253). -/
def rtspService (E : Env) : Bytes → R Service := urlService E (asc "rtsp") 554 .rtsp .lockedRtsp

/-- `parse_mjpeg_url` (config.rs:1255-1290). -/
def mjpegService (E : Env) : Bytes → R Service := urlService E (asc "http") 80 .mjpeg .lockedMjpeg

/-- The service of `-h` (config.rs:635-648) and `-t` (651-664). -/
def addrService (E : Env) (ty : ServiceType) (text : Bytes) : R Service :=
  match E.resolve text with
  | none => .err
  | some addr => .ok ⟨ty, some (fakeMac 0xffff addr), some addr, none⟩

/-- Push a static service (e.g. config.rs:613-616). -/
def Parser.addService (p : Parser) : R Service → R Parser
  | .ok s => .ok { p with services := p.services ++ [s] }
  | .err => .err
  | .exit => .exit
  | .panic => .panic

/-- `size.parse()` of a `usize` of 64 bits (config.rs:711-713, 723-725). -/
def parseUsize (s : Bytes) : Option UInt64 := (parseUInt 10 18446744073709551615 s).map UInt64.ofNat

/-- The value of a device argument (config.rs:793-817). -/
def deviceValue (s : Bytes) : Option Bytes := if trim s = [] then none else some (trim s)

/-- The functions behind the arguments that take the next argument as their value (config.rs:562-664). -/
def Parser.valued (E : Env) (p : Parser) (arg v : Bytes) : R Parser :=
  if arg = asc "-c" then .ok { p with caCertificates := p.caCertificates ++ [v] }
  else if arg = asc "-D" then
    if E.discovery then .ok { p with whitelist := p.whitelist ++ [v], discovery := true } else .err
  else if arg = asc "-i" then
    match E.mac v with
    | some m => .ok { p with mac := some m }
    | none => .err
  else if arg = asc "-r" then p.addService (rtspService E v)
  else if arg = asc "-m" then p.addService (mjpegService E v)
  else if arg = asc "-h" then p.addService (addrService E .http v)
  else p.addService (addrService E .tcp v)

/-- The arguments with a `=` (config.rs:509-537, 695-817). -/
def Parser.assigned (E : Env) (p : Parser) (arg : Bytes) : R Parser :=
  if (asc "--config-file=").isPrefixOf arg then .ok { p with configFile := arg.drop 14 }
  else if (asc "--config-file-skel=").isPrefixOf arg then .ok { p with skeletonFile := arg.drop 19 }
  else if (asc "--conn-state-file=").isPrefixOf arg then .ok { p with stateFile := arg.drop 18 }
  else if (asc "--identity-file=").isPrefixOf arg then .ok { p with identityFile := some (arg.drop 16) }
  else if (asc "--rtsp-paths=").isPrefixOf arg then
    if E.discovery then .ok { p with rtspPaths := arg.drop 13 } else .err
  else if (asc "--mjpeg-paths=").isPrefixOf arg then
    if E.discovery then .ok { p with mjpegPaths := arg.drop 14 } else .err
  else if (asc "--log-file=").isPrefixOf arg then .ok { p with logger := .file, logFile := arg.drop 11 }
  else if (asc "--log-file-size=").isPrefixOf arg then
    match parseUsize (arg.drop 16) with
    | some n => .ok { p with logFileSize := n }
    | none => .err
  else if (asc "--log-file-rotations=").isPrefixOf arg then
    match parseUsize (arg.drop 21) with
    | some n => .ok { p with logFileRotations := n }
    | none => .err
  else if (asc "--lock-file=").isPrefixOf arg then .ok { p with lockFile := some (arg.drop 12) }
  else if (asc "--device-category=").isPrefixOf arg then .ok { p with category := deviceValue (arg.drop 18) }
  else if (asc "--device-type=").isPrefixOf arg then .ok { p with type := deviceValue (arg.drop 14) }
  else if (asc "--device-vendor=").isPrefixOf arg then .ok { p with vendor := deviceValue (arg.drop 16) }
  else .err

/-- Does the argument take the next one as its value? (config.rs:489-496) -/
def isValued (arg : Bytes) : Bool :=
  arg = asc "-c" ∨ arg = asc "-D" ∨ arg = asc "-i" ∨ arg = asc "-r" ∨ arg = asc "-m" ∨ arg = asc "-h" ∨
    arg = asc "-t"

/-- One argument without a value (config.rs:490, 497-507). -/
def Parser.flag (E : Env) (p : Parser) (arg : Bytes) : R Parser :=
  if arg = asc "-d" then if E.discovery then .ok { p with discovery := true } else .err
  else if arg = asc "-v" then .ok { p with verbose := true }
  else if arg = asc "--flash-friendly" then .ok { p with flashFriendly := true }
  else if arg = asc "--diagnostic-mode" then .ok { p with diagnostic := true }
  else if arg = asc "--no-gateway-mode" then .ok { p with gateway := false }
  else if arg = asc "--log-stderr" then .ok { p with logger := .stderr }
  else if arg = asc "--log-stderr-pretty" then .ok { p with logger := .stderrPretty }
  else if arg = asc "--help" then .exit
  else if arg = asc "--version" then .exit
  else p.assigned E arg

/-- The loop of `parse` (config.rs:488-540). Simplification: the arguments with a value are tested first (the
texts compared are different, so the order does not matter), and a missing value is an error before the test of
the feature `discovery` (an error, too). -/
def Parser.loop (E : Env) : Parser → List Bytes → R Parser
  | p, [] => .ok p
  | p, [arg] => if isValued arg then .err else p.flag E arg
  | p, arg :: v :: rest =>
    if isValued arg then
      match p.valued E arg v with
      | .ok p => Parser.loop E p rest
      | r => r
    else
      match p.flag E arg with
      | .ok p => Parser.loop E p (v :: rest)
      | r => r

/-- `ConfigParser::parse` (config.rs:482-543) of the arguments after the name of the program. -/
def parse (E : Env) : List Bytes → R Parser
  | [] => .err
  | addr :: rest => Parser.loop E { Parser.new with address := serviceAddress addr } rest

/-- `struct ConfigBuilder` (config.rs:114-127) without the logger. The whitelist is a set. -/
structure Builder where
  mac : Option MacAddr
  services : List Service
  flashFriendly : Bool
  diagnostic : Bool
  gateway : Bool
  discovery : Bool
  whitelist : List Bytes
  verbose : Bool
  category : Option Bytes
  type : Option Bytes
  vendor : Option Bytes

/-- `ConfigBuilder::new` (config.rs:131-146). -/
def Builder.new : Builder where
  mac := none
  services := []
  flashFriendly := false
  diagnostic := false
  gateway := true
  discovery := false
  whitelist := []
  verbose := false
  category := none
  type := none
  vendor := none

/-- What `ConfigParser::build` (config.rs:432-480) gives the builder of the configuration. -/
def Parser.builder (p : Parser) : Builder :=
  { Builder.new with
    mac := p.mac
    services := p.services
    diagnostic := p.diagnostic
    gateway := p.gateway
    discovery := p.discovery
    whitelist := p.whitelist
    verbose := p.verbose
    category := p.category
    type := p.type
    vendor := p.vendor }

/-- The start of the client with these arguments: what `ConfigBuilder::build` (config.rs:253-324) takes from the
builder, for the model of the configuration. -/
def Parser.startUp (p : Parser) (a : Config.StartUp) : Config.StartUp :=
  { a with services := p.builder.services, flashFriendly := p.builder.flashFriendly }

end Verif.Args
