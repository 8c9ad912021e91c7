import Verif.Lemmas.DiscoveryScan
/-!
# Properties of the network discovery (C58, C86)
-/
namespace Verif.Discovery
open Verif Spec.Discovery Spec.Http Spec.Sdp Scan Spec.Scan

/-! ## C58: the choice of a stream -/

/-- C58: whatever the server answers, the service reported is the first path that is supported or locked; without one,
the last path that is not supported; without one, the server alone. The client aborts if and only if it comes to a path
whose answer cannot be digested. -/
theorem C58_rtsp (E : Env) (N : Net) (paths : List Bytes) (mac : MacAddr) (addr : SocketAddr)
    (hE : ∀ a, Utf8.valid (E.format a) = true) (hp : ∀ p ∈ paths, Utf8.valid p = true) :
    (∀ s, findRtspStream E N paths mac addr = .ok s ↔ RtspStream E N paths mac addr s)
    ∧ (findRtspStream E N paths mac addr = .panic ↔ ∃ p, Comes (rtspVerdict E N mac addr) paths p .crash)
    ∧ findRtspStream E N paths mac addr ≠ .err := by
  obtain ⟨h1, h2, h3⟩ := rtsp_find (E := E) (N := N) (mac := mac) (addr := addr) hE hp
  rcases h3 with ⟨s, hs⟩ | ⟨p, hc⟩
  · have e := h1 s hs
    refine ⟨fun s' => ⟨fun h => ?_, h1 s'⟩, ⟨fun h => ?_, fun ⟨p, hc⟩ => h2 p hc⟩, ?_⟩
    · rw [e] at h; cases h; exact hs
    · rw [e] at h; cases h
    · rw [e]; nofun
  · have e := h2 p hc
    refine ⟨fun s' => ⟨fun h => ?_, h1 s'⟩, ⟨fun _ => ⟨p, hc⟩, fun ⟨p, hc⟩ => h2 p hc⟩, ?_⟩
    · rw [e] at h; cases h
    · rw [e]; nofun

/-- C58: for HTTP servers the first path that is supported or locked is reported, or nothing; the client never
aborts. -/
theorem C58_mjpeg (E : Env) (N : Net) (paths : List Bytes) (mac : MacAddr) (addr : SocketAddr)
    (hE : ∀ a, Utf8.valid (E.format a) = true) (hp : ∀ p ∈ paths, Utf8.valid p = true) :
    (∀ s, findMjpegPath E N paths mac addr = .ok s ↔ MjpegStream E N paths mac addr s)
    ∧ findMjpegPath E N paths mac addr ≠ .panic ∧ findMjpegPath E N paths mac addr ≠ .err := by
  obtain ⟨h1, s, hs⟩ := mjpeg_find (E := E) (N := N) (mac := mac) (addr := addr) hE hp
  have e := h1 s hs
  refine ⟨fun s' => ⟨fun h => ?_, h1 s'⟩, ?_, ?_⟩
  · rw [e] at h; cases h; exact hs
  · rw [e]; nofun
  · rw [e]; nofun

/-- C58: every path has exactly one verdict. -/
theorem C58_verdict (E : Env) (N : Net) (mac : MacAddr) (addr : SocketAddr) (i : Nat) (path : Bytes)
    (hE : ∀ a, Utf8.valid (E.format a) = true) (hp : Utf8.valid path = true) :
    (∃ v, rtspVerdict E N mac addr i path v ∧ ∀ v', rtspVerdict E N mac addr i path v' → v' = v)
    ∧ ∃ v, mjpegVerdict E N mac addr i path v ∧ ∀ v', mjpegVerdict E N mac addr i path v' → v' = v := by
  have h1 := rtspVerdict_iff E N mac addr i path (valid_describe hE addr hp)
  have h2 := mjpegVerdict_iff E N mac addr i path (valid_http hE addr hp)
  exact ⟨⟨_, (h1 _).2 rfl, fun v' h => ((h1 v').1 h).symm⟩, ⟨_, (h2 _).2 rfl, fun v' h => ((h2 v').1 h).symm⟩⟩

/-- C58: servers that answer every path are believed for two paths only. -/
theorem C58_buggy (E : Env) (N : Net) (paths : List Bytes) (mac : MacAddr) (addr : SocketAddr)
    (hE : ∀ a, Utf8.valid (E.format a) = true) (hp : ∀ p ∈ paths, Utf8.valid p = true)
    (hb : ∀ i h body pieces, N.answer (.rtspPath mac addr i) = some pieces → Reply E.T.lower .rtsp false pieces h body →
      h.last E.T.lower (asc "server") = some (some (asc "Hipcam RealServer/V1.0"))
        ∨ h.last E.T.lower (asc "server") = some (some (asc "HiIpcam/V100R003 VodServer/1.0.0")))
    (s : Service) (h : findRtspStream E N paths mac addr = .ok s) :
    s = .unknownRtsp mac addr ∨ s = .lockedRtsp mac addr none ∨
      ∃ p, (p = asc "/11" ∨ p = asc "/12") ∧ p ∈ paths ∧ (s = .rtsp mac addr p ∨ s = .unsupportedRtsp mac addr p) := by
  have key : ∀ i p hd body, RtspReply E N mac addr i p hd body → p = asc "/11" ∨ p = asc "/12" := by
    rintro i p hd body ⟨_, pieces, ha, hr, hn⟩
    by_cases h11 : p = asc "/11"
    · exact .inl h11
    · by_cases h12 : p = asc "/12"
      · exact .inr h12
      · exact absurd ⟨(hb i hd body pieces ha hr).symm, h11, h12⟩ hn
  rcases ((C58_rtsp E N paths mac addr hE hp).1 s).1 h with hc | hc | ⟨_, a, b, h1, ⟨hd, body, hr, _⟩, _⟩ | _
  · obtain ⟨a, b, h1, _, hd, body, hr, _⟩ := hc
    exact .inr (.inr ⟨_, key _ _ _ _ hr, by rw [h1]; simp, .inl rfl⟩)
  · exact .inr (.inl rfl)
  · exact .inr (.inr ⟨_, key _ _ _ _ hr, by rw [h1]; simp, .inr rfl⟩)
  · exact .inl rfl

/-! ## C86: the scan of the network -/

/-- C86: the hosts and the open ports: every device is scanned on its own, in its order; a device is left out as a
whole if one of its scanners fails. The first flag says that the host was found with ARP, the second that it was found
with ICMP. -/
theorem C86_hosts (N : Net) (whitelist : List Bytes) : ∃ runs, Each IsRun (scanned whitelist N) runs
    ∧ ((findOpenPorts whitelist N).hostRecords.map (fun h => (h.mac, h.ip))).Nodup
    ∧ (∀ mac ip, (∃ h ∈ (findOpenPorts whitelist N).hostRecords, h.mac = mac ∧ h.ip = ip) ↔
        ByArp runs mac ip ∨ ByIcmp runs mac ip ∨ ∃ p, Open runs mac ⟨ip, p⟩)
    ∧ (∀ h ∈ (findOpenPorts whitelist N).hostRecords,
        (∀ i, h.flags.toNat.testBit i = true ↔ (i = 0 ∧ ByArp runs h.mac h.ip) ∨ (i = 1 ∧ ByIcmp runs h.mac h.ip))
        ∧ h.ports.Nodup ∧ ∀ p, p ∈ h.ports ↔ Open runs h.mac ⟨h.ip, p⟩)
    ∧ (findOpenPorts whitelist N).serviceList = [] := by
  obtain ⟨runs, h1, h2⟩ := devices_run whitelist N.devices [] _ ok_new
  rw [List.nil_append] at h2
  refine ⟨runs, h1, h2.hostRecords_nodup, ?_, ?_, ?_⟩
  · intro mac ip
    have := Scan.Ok.mem_pairs h2 mac ip
    rw [seen_iff, List.mem_map] at this
    refine Iff.trans ?_ this
    constructor
    · rintro ⟨x, hx, rfl, rfl⟩; exact ⟨x, hx, rfl⟩
    · rintro ⟨x, hx, e⟩
      injection e with e1 e2
      exact ⟨x, hx, e1, e2⟩
  · intro x hx
    have hk := h2.host _ x ((h2.mem_hostRecords x).1 hx)
    refine ⟨fun i => (hk.flags i).trans (flag_iff i), hk.nodup, fun p => (hk.ports p).trans ?_⟩
    exact open_iff (addr := ⟨x.ip, p⟩)
  · apply List.eq_nil_iff_forall_not_mem.2
    intro s hs
    obtain ⟨a, b, e, _⟩ := (h2.mem_services s).1 hs
    have hm : Fact.service s ∈ factsOf runs := by rw [e]; simp
    obtain ⟨r, _, hm⟩ := mem_factsOf.1 hm
    unfold runFacts at hm
    simp at hm

theorem rtspPorts_nodup : rtspPorts.Nodup := by decide +kernel
theorem httpPorts_nodup : httpPorts.Nodup := by decide +kernel

/-- The services of a report in the order in which they are added. -/
theorem addServices_ok {fs : List Fact} {r : ScanResult} (h : Scan.Ok fs r) (a c : List Service)
    (b d : List (MacAddr × SocketAddr)) :
    Scan.Ok (fs ++ (a ++ b.map (fun x => Service.tcp x.1 x.2) ++ c ++ d.map (fun x => Service.http x.1 x.2)).map Fact.service)
      (addServices r a b c d) := by
  have h1 := ok_foldl (fun (r : ScanResult) s => r.addService s) Fact.service (fun fs r x h => ok_addService h x) a _ _ h
  have h2 := ok_foldl (fun (r : ScanResult) (x : MacAddr × SocketAddr) => r.addService (.tcp x.1 x.2))
    (fun x => Fact.service (.tcp x.1 x.2)) (fun fs r x h => ok_addService h _) b _ _ h1
  have h3 := ok_foldl (fun (r : ScanResult) s => r.addService s) Fact.service (fun fs r x h => ok_addService h x) c _ _ h2
  have h4 := ok_foldl (fun (r : ScanResult) (x : MacAddr × SocketAddr) => r.addService (.http x.1 x.2))
    (fun x => Fact.service (.http x.1 x.2)) (fun fs r x h => ok_addService h _) d _ _ h3
  have e : ∀ (p q s t u : List Fact), p ++ q ++ s ++ t ++ u = p ++ (q ++ s ++ t ++ u) := by simp
  rw [e] at h4
  rw [List.map_append, List.map_append, List.map_append, List.map_map, List.map_map]
  exact h4

theorem last_exists (fs : List Fact) (s : Service) (hs : Fact.service s ∈ fs) :
    ∃ s', LastService fs s' ∧ s'.toIdentifier = s.toIdentifier := by
  obtain ⟨a, c, rfl⟩ := List.append_of_mem hs
  by_cases hb : ∃ s', LastService c s' ∧ s'.toIdentifier = s.toIdentifier
  · obtain ⟨s', ⟨x, y, he, hy⟩, hi⟩ := hb
    exact ⟨s', ⟨a ++ Fact.service s :: x, y, by rw [he]; simp, hy⟩, hi⟩
  · refine ⟨s, ?_, rfl⟩
    have : a ++ Fact.service s :: c = (a ++ [Fact.service s]) ++ c := by simp
    rw [this, lastService_append]
    refine Or.inr ⟨⟨a, [], rfl, fun s' h => absurd h List.not_mem_nil⟩, fun s' h1 h2 => hb ⟨s', h1, h2⟩⟩

/-- C86: the whole scan. The runs of the devices determine the hosts; `R` and `H` are the RTSP and the HTTP servers,
one for each IP address, on the most preferred port. The scan aborts if and only if one of the RTSP servers has a path
the client cannot digest, and it comes to this path. Otherwise the report has the hosts, and services: for every
selected server the server itself and the stream that was found, and nothing else; of the services with the same
identifier one is kept. -/
theorem C86_scan (E : Env) (N : Net) (whitelist rtspPaths mjpegPaths : List Bytes) (hE : E.Ok)
    (hr : ∀ p ∈ rtspPaths, Utf8.valid p = true) (hm : ∀ p ∈ mjpegPaths, Utf8.valid p = true) :
    ∃ runs R H, Each IsRun (scanned whitelist N) runs
      ∧ Selected rtspCandidates (RtspServer E N runs) R ∧ Selected httpCandidates (HttpServer E N runs) H
      ∧ scanNetwork E N whitelist rtspPaths mjpegPaths ≠ .err
      ∧ (scanNetwork E N whitelist rtspPaths mjpegPaths = .panic ↔
          ∃ x ∈ R, ∃ p, Comes (rtspVerdict E N x.1 x.2) rtspPaths p .crash)
      ∧ ∀ r, scanNetwork E N whitelist rtspPaths mjpegPaths = .ok r →
          r.hostRecords = (findOpenPorts whitelist N).hostRecords
          ∧ (∀ mac ip, (∃ h ∈ r.hostRecords, h.mac = mac ∧ h.ip = ip) ↔
              ByArp runs mac ip ∨ ByIcmp runs mac ip ∨ ∃ p, Open runs mac ⟨ip, p⟩)
          ∧ (∀ h ∈ r.hostRecords, ∀ p, p ∈ h.ports ↔ Open runs h.mac ⟨h.ip, p⟩)
          ∧ (r.serviceList.map (·.toIdentifier)).Nodup
          ∧ (∀ s ∈ r.serviceList, Reported E N rtspPaths mjpegPaths R H s)
          ∧ ∀ s, Reported E N rtspPaths mjpegPaths R H s → ∃ s' ∈ r.serviceList, s'.toIdentifier = s.toIdentifier := by
  obtain ⟨runs, h1, h2⟩ := devices_run whitelist N.devices [] _ ok_new
  rw [List.nil_append] at h2
  change Scan.Ok (factsOf runs) (findOpenPorts whitelist N) at h2
  have hso : ∀ x : MacAddr × SocketAddr, x ∈ E.order (findOpenPorts whitelist N).socketAddrs ↔ Open runs x.1 x.2 := by
    intro x
    rw [(hE.order _).mem_iff, h2.mem_socketAddrs, open_iff]
  obtain ⟨lr, e1, m1⟩ := findRtsp_ok hE.format N (E.order (findOpenPorts whitelist N).socketAddrs)
  obtain ⟨lh, e2, m2⟩ := findHttp_ok hE.format N (E.order (findOpenPorts whitelist N).socketAddrs)
  have s1 := selected rtspPorts rtspPorts_nodup (RtspServer E N runs) lr
    (fun x => by rw [m1, hso]; exact Iff.rfl) _ (hE.order _)
  have s2 := selected httpPorts httpPorts_nodup (HttpServer E N runs) lh
    (fun x => by rw [m2, hso]; exact Iff.rfl) _ (hE.order _)
  refine ⟨runs, _, _, h1, s1, s2, ?_⟩
  generalize hR : E.order (filterDuplicit lr (getPortPriorities rtspPorts)) = R
  generalize hH : E.order (filterDuplicit lh (getPortPriorities httpPorts)) = H
  have j1 := joinAll_cases (fun x => findRtspStream E N rtspPaths x.1 x.2) R
    (fun x _ => (C58_rtsp E N rtspPaths x.1 x.2 hE.format hr).2.2)
  have j2 := joinAll_cases (fun x => findMjpegPath E N mjpegPaths x.1 x.2) H
    (fun x _ => (C58_mjpeg E N mjpegPaths x.1 x.2 hE.format hm).2.2)
  unfold scanNetwork
  simp only [e1, e2, hR, hH]
  unfold findRtspStreams findMjpegStreams
  cases hj1 : joinAll (fun x => findRtspStream E N rtspPaths x.1 x.2) R with
  | err => exact absurd hj1 j1.1
  | panic =>
    refine ⟨nofun, ⟨fun _ => ?_, fun _ => rfl⟩, nofun⟩
    obtain ⟨x, hx, hp⟩ := j1.2.1.1 hj1
    exact ⟨x, hx, (C58_rtsp E N rtspPaths x.1 x.2 hE.format hr).2.1.1 hp⟩
  | ok streams =>
    cases hj2 : joinAll (fun x => findMjpegPath E N mjpegPaths x.1 x.2) H with
    | err => exact absurd hj2 j2.1
    | panic =>
      obtain ⟨x, _, hp⟩ := j2.2.1.1 hj2
      exact absurd hp (C58_mjpeg E N mjpegPaths x.1 x.2 hE.format hm).2.1
    | ok mstreams =>
      dsimp only
      refine ⟨nofun, ⟨nofun, ?_⟩, ?_⟩
      · rintro ⟨x, hx, hc⟩
        have := j1.2.1.2 ⟨x, hx, (C58_rtsp E N rtspPaths x.1 x.2 hE.format hr).2.1.2 hc⟩
        rw [hj1] at this
        cases this
      · intro r hok
        injection hok with hok
        have hA := addServices_ok h2 streams (mstreams.filterMap id) R H
        rw [hok] at hA
        obtain ⟨a1, a2⟩ := j1.2.2 _ hj1
        obtain ⟨b1, b2⟩ := j2.2.2 _ hj2
        -- the services that are added
        have hmem : ∀ s, s ∈ streams ++ R.map (fun x => Service.tcp x.1 x.2) ++ mstreams.filterMap id ++
            H.map (fun x => Service.http x.1 x.2) ↔ Reported E N rtspPaths mjpegPaths R H s := by
          intro s
          simp only [List.mem_append, List.mem_map, List.mem_filterMap]
          constructor
          · rintro (((h | ⟨x, hx, rfl⟩) | ⟨o, h, e⟩) | ⟨x, hx, rfl⟩)
            · obtain ⟨x, hx, e⟩ := a1 s h
              exact .inl ⟨x, hx, .inl (((C58_rtsp E N rtspPaths x.1 x.2 hE.format hr).1 s).1 e)⟩
            · exact .inl ⟨x, hx, .inr rfl⟩
            · obtain ⟨x, hx, e'⟩ := b1 o h
              have : o = some s := e
              subst this
              exact .inr ⟨x, hx, .inl (((C58_mjpeg E N mjpegPaths x.1 x.2 hE.format hm).1 _).1 e')⟩
            · exact .inr ⟨x, hx, .inr rfl⟩
          · rintro (⟨x, hx, h | rfl⟩ | ⟨x, hx, h | rfl⟩)
            · obtain ⟨y, hy, e⟩ := a2 x hx
              have := ((C58_rtsp E N rtspPaths x.1 x.2 hE.format hr).1 s).2 h
              rw [this] at e
              cases e
              exact .inl (.inl (.inl hy))
            · exact .inl (.inl (.inr ⟨x, hx, rfl⟩))
            · obtain ⟨y, hy, e⟩ := b2 x hx
              have := ((C58_mjpeg E N mjpegPaths x.1 x.2 hE.format hm).1 _).2 h
              rw [this] at e
              cases e
              exact .inl (.inr ⟨_, hy, rfl⟩)
            · exact .inr ⟨x, hx, rfl⟩
        have hnone : ∀ s, Fact.service s ∉ factsOf runs := by
          intro s hm
          obtain ⟨r, _, hm⟩ := mem_factsOf.1 hm
          unfold runFacts at hm
          simp at hm
        have hhosts : r.hostRecords = (findOpenPorts whitelist N).hostRecords := by
          have : ∀ (l : List Service) (r : ScanResult), (l.foldl (·.addService ·) r).hosts = r.hosts := by
            intro l
            induction l with
            | nil => intro r; rfl
            | cons s l ih => intro r; exact ih _
          have t1 : ∀ (l : List (MacAddr × SocketAddr)) (r : ScanResult),
              (l.foldl (fun r x => r.addService (.tcp x.1 x.2)) r).hosts = r.hosts := by
            intro l
            induction l with
            | nil => intro r; rfl
            | cons s l ih => intro r; exact ih _
          have t2 : ∀ (l : List (MacAddr × SocketAddr)) (r : ScanResult),
              (l.foldl (fun r x => r.addService (.http x.1 x.2)) r).hosts = r.hosts := by
            intro l
            induction l with
            | nil => intro r; rfl
            | cons s l ih => intro r; exact ih _
          unfold ScanResult.hostRecords
          rw [← hok]
          unfold addServices
          rw [t2, this, t1, this]
        refine ⟨hhosts, ?_, ?_, hA.services_nodup, ?_, ?_⟩
        · rw [hhosts]
          intro mac ip
          have := Scan.Ok.mem_pairs h2 mac ip
          rw [seen_iff, List.mem_map] at this
          refine Iff.trans ?_ this
          constructor
          · rintro ⟨x, hx, rfl, rfl⟩; exact ⟨x, hx, rfl⟩
          · rintro ⟨x, hx, e⟩
            injection e with e1 e2
            exact ⟨x, hx, e1, e2⟩
        · rw [hhosts]
          intro x hx p
          have hk := h2.host _ x ((h2.mem_hostRecords x).1 hx)
          exact (hk.ports p).trans (open_iff (addr := ⟨x.ip, p⟩))
        · intro s hs
          obtain ⟨a, b, e, _⟩ := (hA.mem_services s).1 hs
          have hm : Fact.service s ∈ a ++ Fact.service s :: b := by simp
          rw [← e, List.mem_append] at hm
          rcases hm with hm | hm
          · exact absurd hm (hnone s)
          · obtain ⟨s', hs', e'⟩ := List.mem_map.1 hm
            cases e'
            exact (hmem s).1 hs'
        · intro s hs
          obtain ⟨s', g1, g2⟩ := last_exists _ s (List.mem_append_right _ (List.mem_map.2 ⟨s, (hmem s).2 hs, rfl⟩))
          exact ⟨s', (hA.mem_services s').2 g1, g2⟩

/-- C86: without a whitelist all devices are scanned; with one, those whose name is in it. -/
theorem C86_whitelist (N : Net) (whitelist : List Bytes) (d : Device) :
    d ∈ scanned whitelist N ↔ d ∈ N.devices ∧ (whitelist ≠ [] → d.name ∈ whitelist) := by
  unfold scanned
  rw [List.mem_filter]
  by_cases h : whitelist = [] <;> simp [h]

/-- C86: if the scan of the ports of a device fails, the hosts found with ARP are not reported. -/
theorem C86_device_all_or_nothing (N : Net) (dev : Device) (h : N.devices = [dev])
    (hf : dev.icmp = none ∨ ∀ hosts ports, dev.tcp hosts ports = none) (whitelist : List Bytes) :
    (findOpenPorts whitelist N).hostRecords = [] := by
  unfold findOpenPorts
  rw [h, List.foldl_cons, List.foldl_nil, addDevice]
  have hn : findOpenPortsInNetwork dev = none := by
    unfold findOpenPortsInNetwork
    cases dev.arp with
    | none => rfl
    | some arp =>
      dsimp only
      cases hi : dev.icmp with
      | none => rfl
      | some icmp =>
        dsimp only
        rcases hf with hf | hf
        · rw [hi] at hf; cases hf
        · unfold findOpenPortsOnHosts
          rw [hf]
  split
  · rw [hn]; rfl
  · rfl

-- The concrete networks that meet the hypotheses are in Verif/Props/DiscoveryCases.lean.

end Verif.Discovery
