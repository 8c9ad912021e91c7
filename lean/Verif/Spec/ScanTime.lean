import Verif.Model.ScanTime
import Verif.Spec.Discovery
/-!
# Specification: a network scan in time
-/
namespace Verif.Spec.ScanTime
open Verif Verif.Discovery Verif.ScanTime

/-- The address of the host that is asked for a stream. -/
def streamHost : Probe → Option IpAddr
  | .options _ _ => none
  | .root _ _ => none
  | .rtspPath _ addr _ => some addr.ip
  | .mjpegPath _ addr _ => some addr.ip

/-- One of the requests is over before the other begins. -/
def Apart (a b : Req) : Prop := a.stop ≤ b.start ∨ b.stop ≤ a.start

/-- Two requests that ask the same host for a stream. -/
def SameHost (a b : Req) : Prop := ∃ ip, streamHost a.probe = some ip ∧ streamHost b.probe = some ip

/-- The hosts do the same with all the requests of a list. -/
def AgreeOn (l : List Req) (w w' : Probe → Reply) : Prop := ∀ r ∈ l, w' r.probe = w r.probe

/-- The request is one of the list. -/
def Asked (l : List Req) (q : Probe) : Prop := ∃ r ∈ l, r.probe = q

/-- The search for a stream comes to the path with the index `i`: none of the paths before ends it. -/
def Reaches (V : Nat → Bytes → Spec.Discovery.Verdict → Prop) (paths : List Bytes) (i : Nat) (p : Bytes) : Prop :=
  ∃ a b, paths = a ++ p :: b ∧ a.length = i ∧ Spec.Discovery.Passed V 0 a

open Spec.Discovery in
/-- The requests that make sense: whether there is a server at an open port that is a candidate for it; and whether a
server that was chosen has a stream at the next path. `R` and `H` are the RTSP and the HTTP servers that were chosen. -/
def Wanted (E : Env) (N : Net) (runs : List (Option Run)) (R H : List (MacAddr × SocketAddr))
    (rtspPaths mjpegPaths : List Bytes) : Probe → Prop
  | .options mac addr => Open runs mac addr ∧ addr.port ∈ rtspCandidates ∧ RtspUrl E (describeUrl E addr (asc "/"))
  | .root mac addr => Open runs mac addr ∧ addr.port ∈ httpCandidates ∧ HttpUrl E (httpUrl E addr (asc "/"))
  | .rtspPath mac addr i => (mac, addr) ∈ R ∧
      ∃ p, Reaches (rtspVerdict E N mac addr) rtspPaths i p ∧ RtspUrl E (describeUrl E addr p)
  | .mjpegPath mac addr i => (mac, addr) ∈ H ∧
      ∃ p, Reaches (mjpegVerdict E N mac addr) mjpegPaths i p ∧ HttpUrl E (httpUrl E addr p)

end Verif.Spec.ScanTime
