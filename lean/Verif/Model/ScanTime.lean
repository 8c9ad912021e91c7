import Verif.Model.Discovery
/-!
# Model of the requests of a network scan in time

Source: /repo/src/scanner/discovery.rs with `Request::send` of /repo/src/net/http/mod.rs and /repo/src/net/rtsp/mod.rs.

`Verif.Model.Discovery` says what a scan does with the answers of the hosts. Here the requests are placed in time, in
milliseconds. Only waiting for the hosts takes time: the time for computations and the lateness of timers are left out.
The scans for hosts and open ports before the first request are left out, too (their ends are in `Verif.Model.RawScan`).
-/
namespace Verif.ScanTime
open Verif Verif.Discovery Verif.Scan

deriving instance DecidableEq for Probe

/-- What a host does with a request: after how much time the exchange is over, and what was received, `none` if the
connection failed (http/mod.rs:215-247, rtsp/mod.rs:216-248). A host that never answers has a large time. -/
structure Reply where
  after : Nat
  pieces : Option (List Bytes)

/-- `request_timeout` (discovery.rs:192). -/
def requestTimeout : Nat := 2000

/-- `tokio::time::timeout` in `Request::send` (http/mod.rs:250-258, rtsp/mod.rs:251-259): what is not over in time is an
error, like a connection that failed. The inner future is asked before the timer. -/
def timely (world : Probe → Reply) (p : Probe) : Option (List Bytes) :=
  if (world p).after ≤ requestTimeout then (world p).pieces else none

/-- A request in time (discovery.rs:485-513, 682-705). -/
structure Req where
  probe : Probe
  start : Nat
  stop : Nat
deriving DecidableEq

/-- The request that is sent at a time, if it could be made (discovery.rs:486-496, 507-513, 685-694). -/
def request (world : Probe → Reply) (t : Nat) (p : Probe) (r : Wire.Res Http.Client) : List Req :=
  match r with
  | .ok _ => [⟨p, t, t + min (world p).after requestTimeout⟩]
  | _ => []

/-- The time when all the requests are over (discovery.rs:570, 636, 728: `join_all` waits for the last). -/
def finish (t : Nat) (l : List Req) : Nat := l.foldl (fun m r => max m r.stop) t

/-- The network with the given devices and hosts. -/
def net (devices : List Device) (world : Probe → Reply) : Net := ⟨devices, timely world⟩

/-- The requests of `find_rtsp_services` (discovery.rs:516-533): all at the same time. -/
def rtspChecks (E : Env) (world : Probe → Reply) (t : Nat) (l : List (MacAddr × SocketAddr)) : List Req :=
  l.flatMap fun x => if x.2.port ∈ rtspPorts then
    request world t (.options x.1 x.2) (Http.options E.T.lower E.version (asc "rtsp://" ++ E.format x.2 ++ asc "/"))
    else []

/-- The requests of `find_http_services` (discovery.rs:536-553): all at the same time. -/
def httpChecks (E : Env) (world : Probe → Reply) (t : Nat) (l : List (MacAddr × SocketAddr)) : List Req :=
  l.flatMap fun x => if x.2.port ∈ httpPorts then
    request world t (.root x.1 x.2) (Http.getHeader E.T.lower E.version (asc "http://" ++ E.format x.2 ++ asc "/"))
    else []

/-- The requests of the loop of `find_rtsp_stream` (discovery.rs:645-657): one after the other. -/
def rtspPathReqs (E : Env) (N : Net) (world : Probe → Reply) (mac : MacAddr) (addr : SocketAddr) :
    Nat → Nat → List Bytes → List Req
  | _, _, [] => []
  | t, i, path :: paths =>
    let r := request world t (.rtspPath mac addr i)
      (Http.describe E.T.lower E.version (asc "rtsp://" ++ E.format addr ++ path))
    r ++ match getRtspStream E N mac addr i path with
      | .ok none => rtspPathReqs E N world mac addr (finish t r) (i + 1) paths
      | .ok (some svc) =>
        if svc.svcType = .rtsp ∨ svc.svcType = .lockedRtsp then []
        else rtspPathReqs E N world mac addr (finish t r) (i + 1) paths
      | _ => []

/-- The requests of the loop of `find_mjpeg_path` (discovery.rs:739-745): one after the other. -/
def mjpegPathReqs (E : Env) (N : Net) (world : Probe → Reply) (mac : MacAddr) (addr : SocketAddr) :
    Nat → Nat → List Bytes → List Req
  | _, _, [] => []
  | t, i, path :: paths =>
    let r := request world t (.mjpegPath mac addr i)
      (Http.getHeader E.T.lower E.version (asc "http://" ++ E.format addr ++ path))
    r ++ match getMjpegStream E N mac addr i path with
      | .ok none => mjpegPathReqs E N world mac addr (finish t r) (i + 1) paths
      | _ => []

/-- The requests of `scan_network` (discovery.rs:93-145) after `find_open_ports`, which ends at the time `t`. After an abort
of the process the requests of the phase are still listed. -/
def requests (E : Env) (devices : List Device) (world : Probe → Reply) (whitelist rtspPaths mjpegPaths : List Bytes)
    (t : Nat) : List Req :=
  let N := net devices world
  let addrs := E.order (findOpenPorts whitelist N).socketAddrs
  let r1 := rtspChecks E world t addrs
  r1 ++ match findRtspServices E N addrs with
  | .ok l =>
    let t1 := finish t r1
    let rtspServices := E.order (filterDuplicit l (getPortPriorities rtspPorts))
    let r2 := rtspServices.flatMap fun x => rtspPathReqs E N world x.1 x.2 t1 0 rtspPaths
    r2 ++ match findRtspStreams E N rtspPaths rtspServices with
    | .ok _ =>
      let t2 := finish t1 r2
      let r3 := httpChecks E world t2 addrs
      r3 ++ match findHttpServices E N addrs with
      | .ok l =>
        let t3 := finish t2 r3
        let httpServices := E.order (filterDuplicit l (getPortPriorities httpPorts))
        httpServices.flatMap fun x => mjpegPathReqs E N world x.1 x.2 t3 0 mjpegPaths
      | _ => []
    | _ => []
  | _ => []

end Verif.ScanTime
