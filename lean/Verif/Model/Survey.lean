import Verif.Model.LocalScan
import Verif.Model.Config
/-!
# Model of the network scanner thread, together with the scan and the service table

Source: /repo/src/cmd_handler.rs.
-/
namespace Verif.Survey
open Verif Verif.Discovery Verif.LocalScan Verif.Scan

/-- The circumstances of one scan of the local networks (cmd_handler.rs:227-241): the interfaces and what was captured
on them, what the servers of the networks answer, the configured whitelist of interfaces and the configured paths. -/
structure Survey where
  ifaces : List (Iface × Act)
  answer : Probe → Option (List Bytes)
  whitelist : List Bytes
  rtspPaths : List Bytes
  mjpegPaths : List Bytes

/-- `discovery::scan_network` as `network_scanner_thread` calls it (cmd_handler.rs:236-241). -/
def Survey.result (w : Nat) (E : Discovery.Env) (v : Survey) : Wire.Res ScanResult :=
  scan w E v.ifaces v.answer v.whitelist v.rtspPaths v.mjpegPaths

/-- The networks, as the discovery sees them (discovery.rs:289-316). -/
def Survey.net (w : Nat) (v : Survey) : Net := ⟨v.ifaces.map (device w), v.answer⟩

/-- The rest of `network_scanner_thread` (cmd_handler.rs:243-249): the scan ends with the report `r`, and this operation
tells the client about its services. `update` has the time at which every one of them was added. Scans that
fail or abort tell the client nothing. -/
def Survey.Ends (w : Nat) (E : Discovery.Env) (v : Survey) (r : ScanResult) : Config.Op → Prop
  | .update l _ _ => v.result w E = .ok r ∧ l.map (·.2) = r.serviceList
  | _ => False

end Verif.Survey
