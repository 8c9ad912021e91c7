import Verif.Props.Discovery
/-!
# Concrete networks for the properties of the network discovery (C58, C86)
-/
namespace Verif.Discovery
open Verif Spec.Discovery Spec.Http Spec.Sdp Scan Spec.Scan

/-! ## Examples -/

/-- An environment for examples: the address is always printed in the same way. -/
def demoEnv : Env := ⟨Sdp.asciiTxt, asc "1", 2, fun _ => asc "10.0.0.1:554", id⟩

theorem demo_ok : demoEnv.Ok := ⟨fun _ => by show Utf8.valid (asc "10.0.0.1:554") = true; decide +kernel, fun l => List.Perm.refl l⟩

def demoMac : MacAddr := ⟨2, 0, 0, 0, 0, 1⟩
def demoAddr : SocketAddr := ⟨.v4 10 0 0 1, 554⟩

/-- An RTSP answer. -/
def rtspAnswer (status : Bytes) (body : Bytes) (len : Bytes) : List Bytes :=
  [asc "RTSP/1.0 " ++ status ++ [13, 10] ++ asc "Content-Length: " ++ len ++ [13, 10, 13, 10], body]

/-- A session description with a video: 58 bytes. -/
def demoSdp : Bytes := asc "v=0\r\nm=video 0 RTP/AVP 96\r\na=rtpmap:96 H264/90000\r\n"
/-- A session description with three calls. -/
def deepSdp : Bytes := asc "t=0\nt=0\nt=0\n"

/-- A device with a camera at 10.0.0.1:554. -/
def demoDevice : Device :=
  ⟨asc "eth0", some [(demoMac, ⟨10, 0, 0, 1⟩)], some [], fun hosts _ => some (hosts.map (fun h => (h.1, h.2, 554)))⟩

/-- A camera whose paths give the given answers. -/
def demoNet (paths : List (List Bytes)) : Net :=
  ⟨[demoDevice], fun
    | .options _ _ => some (rtspAnswer (asc "200 OK") [] (asc "0"))
    | .rtspPath _ _ i => paths[i]?
    | _ => none⟩

theorem demo_valid : ∀ p ∈ [asc "/a", asc "/b"], Utf8.valid p = true := by decide +kernel

/-- C58: a locked path hides the supported ones after it: the camera is reported as locked, without a path. -/
theorem C58_locked_hides_supported : ∃ (E : Env) (N : Net) (mac : MacAddr) (addr : SocketAddr) (p q : Bytes),
    rtspVerdict E N mac addr 1 q .supported ∧ findRtspStream E N [p, q] mac addr = .ok (.lockedRtsp mac addr none) := by
  refine ⟨demoEnv, demoNet [rtspAnswer (asc "401 No") [] (asc "0"), rtspAnswer (asc "200 OK") demoSdp (asc "52")],
    demoMac, demoAddr, asc "/a", asc "/b", ?_, by decide +kernel⟩
  exact (rtspVerdict_iff _ _ _ _ _ _ (valid_describe demo_ok.format _ (by decide +kernel)) .supported).2
    (by decide +kernel)

example : findRtspStream demoEnv (demoNet [rtspAnswer (asc "404 No") [] (asc "0"),
    rtspAnswer (asc "200 OK") demoSdp (asc "52")]) [asc "/a", asc "/b"] demoMac demoAddr
      = .ok (.rtsp demoMac demoAddr (asc "/b")) := by decide +kernel
example : findRtspStream demoEnv (demoNet [rtspAnswer (asc "200 OK") [] (asc "0"), rtspAnswer (asc "404 No") [] (asc "0")])
    [asc "/a", asc "/b"] demoMac demoAddr = .ok (.unsupportedRtsp demoMac demoAddr (asc "/a")) := by decide +kernel
example : findRtspStream demoEnv (demoNet []) [asc "/a", asc "/b"] demoMac demoAddr
    = .ok (.unknownRtsp demoMac demoAddr) := by decide +kernel

/-- An answer of a server that answers every path. -/
def hipcamAnswer : List Bytes :=
  [asc "RTSP/1.0 200 OK" ++ [13, 10] ++ asc "Server: Hipcam RealServer/V1.0" ++ [13, 10] ++
    asc "Content-Length: 52" ++ [13, 10, 13, 10], demoSdp]

example : findRtspStream demoEnv (demoNet [hipcamAnswer, hipcamAnswer]) [asc "/a", asc "/12"] demoMac demoAddr
    = .ok (.rtsp demoMac demoAddr (asc "/12")) := by decide +kernel
example : findRtspStream demoEnv (demoNet [hipcamAnswer, hipcamAnswer]) [asc "/a", asc "/b"] demoMac demoAddr
    = .ok (.unknownRtsp demoMac demoAddr) := by decide +kernel

/-- The result is an abort. -/
def isAbort {α : Type} : Wire.Res α → Bool
  | .panic => true
  | _ => false

theorem abort_eq {α : Type} {r : Wire.Res α} (h : isAbort r = true) : r = .panic := by
  cases r <;> first | rfl | cases h

/-- C86: one host in the network is enough to abort the client: with a length that cannot be allocated, or, if it sends
enough lines, with a session description. -/
theorem C86_camera_aborts_client :
    (∃ (E : Env) (N : Net), E.Ok ∧ scanNetwork E N [] [asc "/a"] [] = .panic
      ∧ N.answer (.rtspPath demoMac demoAddr 0) = some (rtspAnswer (asc "200 OK") [] (asc "9223372036854775808")))
    ∧ ∃ (E : Env) (N : Net), E.Ok ∧ scanNetwork E N [] [asc "/a"] [] = .panic
      ∧ N.answer (.rtspPath demoMac demoAddr 0) = some (rtspAnswer (asc "200 OK") deepSdp (asc "12")) := by
  refine ⟨⟨demoEnv, demoNet [rtspAnswer (asc "200 OK") [] (asc "9223372036854775808")], demo_ok, ?_, rfl⟩,
    ⟨demoEnv, demoNet [rtspAnswer (asc "200 OK") deepSdp (asc "12")], demo_ok, ?_, rfl⟩⟩
  · exact abort_eq (by decide +kernel)
  · exact abort_eq (by decide +kernel)

/-- The services of a report. -/
def servicesOf : Wire.Res ScanResult → Option (List Control.HostRecord × List Service)
  | .ok r => some (r.hostRecords, r.serviceList)
  | _ => none

example : servicesOf (scanNetwork demoEnv (demoNet [rtspAnswer (asc "200 OK") demoSdp (asc "52")]) [] [asc "/a"] [])
    = some ([⟨1, demoMac, .v4 10 0 0 1, [554]⟩],
        [.rtsp demoMac demoAddr (asc "/a"), .tcp demoMac demoAddr]) := by decide +kernel

example : (findOpenPorts [] ⟨[{ demoDevice with icmp := none }], fun _ => none⟩).hostRecords = [] ∧
    (findOpenPorts [] ⟨[demoDevice], fun _ => none⟩).hostRecords = [⟨1, demoMac, .v4 10 0 0 1, [554]⟩] := by
  decide +kernel

end Verif.Discovery
