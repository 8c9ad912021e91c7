import Verif.Lemmas.ScanTimeOnce
import Verif.Props.DiscoveryCases
/-!
# C127: a network scan in time
-/
namespace Verif.ScanTime
open Verif Verif.Discovery Verif.Scan Verif.Spec.ScanTime Verif.Spec.Discovery Verif.Spec.Scan Verif.Spec.Sdp

/-- **C127**: no host can hold up a request for more than two seconds: a request is over when its exchange is over, or
after 2000 ms, and what a host does after that does not matter. -/
theorem C127_request_time (E : Env) (hE : E.Ok) (devices : List Device) (world : Probe → Reply)
    (whitelist rtspPaths mjpegPaths : List Bytes) (t : Nat) :
    (∀ r ∈ requests E devices world whitelist rtspPaths mjpegPaths t,
      t ≤ r.start ∧ r.stop = r.start + min (world r.probe).after 2000) ∧
    ∀ p, (net devices world).answer p = if (world p).after ≤ 2000 then (world p).pieces else none :=
  ⟨fun r hr => ⟨((requests_fine E hE.order devices world whitelist rtspPaths mjpegPaths t).1 r hr).1,
    ((requests_fine E hE.order devices world whitelist rtspPaths mjpegPaths t).1 r hr).2.1⟩, fun _ => rfl⟩

/-- **C127**: a scan ends: after the search for open ports, all requests are over within four seconds and two seconds for
every path, whatever the hosts do and however many there are. -/
theorem C127_scan_time (E : Env) (hE : E.Ok) (devices : List Device) (world : Probe → Reply)
    (whitelist rtspPaths mjpegPaths : List Bytes) (t : Nat) :
    ∀ r ∈ requests E devices world whitelist rtspPaths mjpegPaths t,
      r.stop ≤ t + 4000 + 2000 * (rtspPaths.length + mjpegPaths.length) := by
  intro r hr
  have := ((requests_fine E hE.order devices world whitelist rtspPaths mjpegPaths t).1 r hr).2.2.1
  omega

/-- **C127**: a host is asked for one stream at a time. -/
theorem C127_one_at_a_time (E : Env) (hE : E.Ok) (devices : List Device) (world : Probe → Reply)
    (whitelist rtspPaths mjpegPaths : List Bytes) (t : Nat) :
    (requests E devices world whitelist rtspPaths mjpegPaths t).Pairwise fun a b => SameHost a b → Apart a b :=
  (requests_fine E hE.order devices world whitelist rtspPaths mjpegPaths t).2

/-- **C127**: these are all the requests: the report depends on nothing but what the hosts do with them. If other hosts do
the same with these requests, whatever they do with others, the requests and the report are the same. -/
theorem C127_all_requests (E : Env) (devices : List Device) (world world' : Probe → Reply)
    (whitelist rtspPaths mjpegPaths : List Bytes) (t : Nat)
    (h : AgreeOn (requests E devices world whitelist rtspPaths mjpegPaths t) world world') :
    requests E devices world' whitelist rtspPaths mjpegPaths t = requests E devices world whitelist rtspPaths mjpegPaths t ∧
    scanNetwork E (net devices world') whitelist rtspPaths mjpegPaths =
      scanNetwork E (net devices world) whitelist rtspPaths mjpegPaths :=
  requests_agree h

/-- **C127**: a scan sends no request without need: it asks the open ports that are candidates, and a server that was
chosen for one path after the other, up to the first that has a stream or is locked. No request twice, and no other. -/
theorem C127_no_more_requests (E : Env) (hE : E.Ok) (devices : List Device) (world : Probe → Reply)
    (whitelist rtspPaths mjpegPaths : List Bytes) (t : Nat)
    (hr : ∀ p ∈ rtspPaths, Utf8.valid p = true) (hm : ∀ p ∈ mjpegPaths, Utf8.valid p = true)
    (hok : ∃ r, scanNetwork E (net devices world) whitelist rtspPaths mjpegPaths = .ok r) :
    ((requests E devices world whitelist rtspPaths mjpegPaths t).map (·.probe)).Nodup ∧
    ∃ runs R H, Each IsRun (scanned whitelist (net devices world)) runs
      ∧ Selected rtspCandidates (RtspServer E (net devices world) runs) R
      ∧ Selected httpCandidates (HttpServer E (net devices world) runs) H
      ∧ ∀ q, (∃ r ∈ requests E devices world whitelist rtspPaths mjpegPaths t, r.probe = q) ↔
          Wanted E (net devices world) runs R H rtspPaths mjpegPaths q :=
  ⟨nodup_probes (requests_diff E hE.order devices world whitelist rtspPaths mjpegPaths t),
    requests_asked E hE devices world whitelist rtspPaths mjpegPaths t hr hm hok⟩

/-- **C127**: the bound is reached: one RTSP server that does not answer when it is asked for streams is asked for all of
them, and each takes two seconds. With the 211 paths that come with the program this is more than the five minutes between
two scans. -/
theorem C127_slow_server (E : Env) (hE : E.Ok) (devices : List Device) (world : Probe → Reply)
    (whitelist rtspPaths mjpegPaths : List Bytes) (t : Nat) (hne : rtspPaths ≠ []) :
    ∃ runs, Each IsRun (scanned whitelist (net devices world)) runs ∧
      ∀ mac addr, RtspServer E (net devices world) runs mac addr →
        (∀ mac' addr', RtspServer E (net devices world) runs mac' addr' → addr'.ip = addr.ip →
          (∀ i, 2000 < (world (.rtspPath mac' addr' i)).after) ∧ ∀ p ∈ rtspPaths, RtspUrl E (describeUrl E addr' p)) →
        ∃ r ∈ requests E devices world whitelist rtspPaths mjpegPaths t, t + 2000 * rtspPaths.length ≤ r.stop := by
  obtain ⟨runs, h1, h2⟩ := devices_run whitelist (net devices world).devices [] _ ok_new
  rw [List.nil_append] at h2
  change Scan.Ok (factsOf runs) (findOpenPorts whitelist (net devices world)) at h2
  refine ⟨runs, h1, ?_⟩
  intro mac addr hs hslow
  have hso : ∀ x : MacAddr × SocketAddr,
      x ∈ E.order (findOpenPorts whitelist (net devices world)).socketAddrs ↔ Open runs x.1 x.2 := by
    intro x
    rw [(hE.order _).mem_iff, h2.mem_socketAddrs, open_iff]
  obtain ⟨lr, e1, m1⟩ := findRtsp_ok hE.format (net devices world)
    (E.order (findOpenPorts whitelist (net devices world)).socketAddrs)
  have s1 := selected rtspPorts rtspPorts_nodup (RtspServer E (net devices world) runs) lr
    (fun x => by rw [m1, hso]; exact Iff.rfl) _ (hE.order _)
  obtain ⟨y, hy, hip⟩ := s1.complete mac addr hs
  obtain ⟨hlate, hu⟩ := hslow y.1 y.2 (s1.sound y hy) hip
  have hd : ∀ p ∈ rtspPaths, ∃ c, Http.describe E.T.lower E.version (asc "rtsp://" ++ E.format y.2 ++ p) = .ok c := by
    intro p hp
    obtain ⟨c, hc⟩ := hu p hp
    rcases newRtsp_cases E.T.lower E.version (asc "DESCRIBE") (asc "rtsp://" ++ E.format y.2 ++ p) false with
      ⟨c', h, _⟩ | h | h
    · exact ⟨_, by unfold Http.describe; rw [h]⟩
    · have := (h [] false).symm.trans hc; cases this
    · have := (h [] false).symm.trans hc; cases this
  obtain ⟨r, hr, hstop⟩ := slow_paths (E := E) (devices := devices) hlate rtspPaths hd
    (finish t (rtspChecks E world t (E.order (findOpenPorts whitelist (net devices world)).socketAddrs))) 0 hne
  refine ⟨r, ?_, ?_⟩
  · unfold requests
    dsimp only
    rw [e1]
    dsimp only
    exact List.mem_append_right _ (List.mem_append_left _ (List.mem_flatMap.mpr ⟨y, hy, hr⟩))
  · have := (finish_ge t (rtspChecks E world t (E.order (findOpenPorts whitelist (net devices world)).socketAddrs))).1
    omega

/-! ## A concrete network -/

/-- A camera that answers OPTIONS after 10 ms and keeps silent on the given number of paths; the next one it serves. -/
def slowWorld (n : Nat) : Probe → Reply
  | .options _ _ => ⟨10, some (rtspAnswer (asc "200 OK") [] (asc "0"))⟩
  | .rtspPath _ _ i => if i < n then ⟨1000000, none⟩ else ⟨20, some (rtspAnswer (asc "200 OK") demoSdp (asc "52"))⟩
  | _ => ⟨0, none⟩

/-- Non-vacuity of C127: two silent paths, then a stream; the path after it is not asked for. -/
example : requests demoEnv [demoDevice] (slowWorld 2) [] [asc "/a", asc "/b", asc "/c", asc "/d"] [] 5 =
    [⟨.options demoMac demoAddr, 5, 15⟩, ⟨.rtspPath demoMac demoAddr 0, 15, 2015⟩,
      ⟨.rtspPath demoMac demoAddr 1, 2015, 4015⟩, ⟨.rtspPath demoMac demoAddr 2, 4015, 4035⟩] := by
  decide +kernel

theorem ok_of_services {r : Wire.Res ScanResult} {x : List Control.HostRecord × List Service}
    (h : servicesOf r = some x) : ∃ y, r = .ok y := by
  cases r with
  | ok y => exact ⟨y, rfl⟩
  | err => cases h
  | panic => cases h

/-- The premise of `C127_no_more_requests`: the scan of this network comes to its end. -/
example : ∃ r, scanNetwork demoEnv (net [demoDevice] (slowWorld 2)) [] [asc "/a", asc "/b", asc "/c", asc "/d"] [] = .ok r :=
  ok_of_services (x := ([⟨1, demoMac, .v4 10 0 0 1, [554]⟩], [.rtsp demoMac demoAddr (asc "/c"), .tcp demoMac demoAddr]))
    (by decide +kernel)

/-- A camera that answers OPTIONS and keeps silent on all paths. -/
def silentWorld : Probe → Reply
  | .options _ _ => ⟨10, some (rtspAnswer (asc "200 OK") [] (asc "0"))⟩
  | _ => ⟨2001, none⟩

/-- The premises of `C127_slow_server`, for the silent camera: a scan with 151 paths takes more than
five minutes. -/
example (paths : List Bytes) (h : ∀ p ∈ paths, p = asc "/a") (h151 : 151 ≤ paths.length) :
    ∃ r ∈ requests demoEnv [demoDevice] silentWorld [] paths [] 0, 300000 < r.stop := by
  obtain ⟨runs, h1, h2⟩ := C127_slow_server demoEnv demo_ok [demoDevice] silentWorld [] paths [] 0 (by intro e; rw [e] at h151; simp at h151)
  have ho : Open runs demoMac demoAddr := by
    cases h1 with
    | cons hd tl =>
      cases tl
      cases hd with
      | ok ha hi ht hp =>
        refine ⟨_, List.mem_singleton.mpr rfl, ⟨10, 0, 0, 1⟩, ?_, rfl⟩
        rw [← Option.some.inj hp]
        rw [← Option.some.inj ha, ← Option.some.inj hi] at ht
        exact List.mem_map.mpr ⟨(demoMac, ⟨10, 0, 0, 1⟩), (ht.2.1 _).mpr (.inl (List.mem_singleton.mpr rfl)), rfl⟩
      | arp ha => cases ha
      | icmp hi => cases hi
      | tcp _ _ _ hp => cases hp
  have hserver : RtspServer demoEnv (net [demoDevice] silentWorld) runs demoMac demoAddr := by
    obtain ⟨l, e, m⟩ := findRtsp_ok demo_ok.format (net [demoDevice] silentWorld) [(demoMac, demoAddr)]
    have e' : findRtspServices demoEnv (net [demoDevice] silentWorld) [(demoMac, demoAddr)] = .ok [(demoMac, demoAddr)] := by decide +kernel
    rw [e'] at e
    cases e
    exact ⟨ho, ((m (demoMac, demoAddr)).mp (List.mem_singleton.mpr rfl)).2⟩
  obtain ⟨r, hr, hs⟩ := h2 demoMac demoAddr hserver (fun mac' addr' _ _ => ⟨fun i => by show 2000 < 2001; decide,
    fun p hp => by
      rw [h p hp]
      have : (match Http.newRtsp demoEnv.T.lower demoEnv.version [] (describeUrl demoEnv demoAddr (asc "/a")) false with
        | .ok _ => true
        | _ => false) = true := by decide +kernel
      show RtspUrl demoEnv (describeUrl demoEnv demoAddr (asc "/a"))
      unfold RtspUrl
      split at this
      · exact ⟨_, by assumption⟩
      · cases this⟩)
  exact ⟨r, hr, by omega⟩

/-- The premise of `C127_all_requests` for two different networks: the second camera also does something with `/d`. -/
example : AgreeOn (requests demoEnv [demoDevice] (slowWorld 2) [] [asc "/a", asc "/b", asc "/c", asc "/d"] [] 5)
    (slowWorld 2) (fun p => if p = .rtspPath demoMac demoAddr 3 then ⟨7, none⟩ else slowWorld 2 p) := by
  have e : requests demoEnv [demoDevice] (slowWorld 2) [] [asc "/a", asc "/b", asc "/c", asc "/d"] [] 5 =
    [⟨.options demoMac demoAddr, 5, 15⟩, ⟨.rtspPath demoMac demoAddr 0, 15, 2015⟩,
      ⟨.rtspPath demoMac demoAddr 1, 2015, 4015⟩, ⟨.rtspPath demoMac demoAddr 2, 4015, 4035⟩] := by decide +kernel
  rw [e]
  intro r hr
  have : r.probe ≠ .rtspPath demoMac demoAddr 3 := by
    revert r
    decide +kernel
  exact if_neg this

/-- Two requests for streams of the same host, as in C127_one_at_a_time. -/
example : SameHost ⟨.rtspPath demoMac demoAddr 0, 15, 2015⟩ ⟨.rtspPath demoMac demoAddr 1, 2015, 4015⟩ ∧
    Apart ⟨.rtspPath demoMac demoAddr 0, 15, 2015⟩ ⟨.rtspPath demoMac demoAddr 1, 2015, 4015⟩ :=
  ⟨⟨_, rfl, rfl⟩, .inl (Nat.le_refl _)⟩

end Verif.ScanTime
