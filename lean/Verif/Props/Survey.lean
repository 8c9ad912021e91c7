import Verif.Spec.Survey
import Verif.Props.LocalScan
import Verif.Props.Origin
import Verif.Props.Found
/-!
# What scans of the local networks mean for the server: C123
-/
namespace Verif.Props.Survey
open Verif Verif.Control Verif.SvcTable Verif.Client Verif.Spec.Client Verif.Spec.Naming Verif.Spec.Origin Verif.Survey Verif.Spec.Survey
open Verif.Props.Client (hist)

/-- What a scan reports is what a client can be told. -/
theorem ends_sane {w : Nat} {D : Discovery.Env} (hD : D.Ok) {v : Survey} (hv : Texts v) {r : Scan.ScanResult}
    {op : Config.Op} (h : v.Ends w D r op) (hu : Usual op) : Spec.Config.Sane op := by
  cases op with
  | update l now o =>
    obtain ⟨hscan, hl⟩ := h
    refine ⟨hu, ?_⟩
    intro p hp
    obtain ⟨runs, R, H, -, -, -, -, -, hres⟩ :=
      Discovery.C86_scan D (v.net w) v.whitelist v.rtspPaths v.mjpegPaths hD hv.1 hv.2
    have hm : p.2 ∈ r.serviceList := by rw [← hl]; exact List.mem_map.mpr ⟨_, hp, rfl⟩
    have key : ∀ s, Spec.Discovery.Reported D (v.net w) v.rtspPaths v.mjpegPaths R H s →
        s.Constructible ∧ ¬ Spec.SvcTable.EmptyLockedPath s := by
      rintro s (⟨x, -, hx | rfl⟩ | ⟨x, -, hx | rfl⟩)
      · cases hx with
        | supported => exact ⟨.rtsp .., by rintro ⟨h | h, -⟩ <;> cases h⟩
        | locked => exact ⟨.lockedRtsp .., by rintro ⟨-, h⟩; cases h⟩
        | unsupported => exact ⟨.unsupportedRtsp .., by rintro ⟨h | h, -⟩ <;> cases h⟩
        | unknown => exact ⟨.unknownRtsp .., by rintro ⟨-, h⟩; cases h⟩
      · exact ⟨.tcp .., by rintro ⟨-, h⟩; cases h⟩
      · cases hx with
        | supported => exact ⟨.mjpeg .., by rintro ⟨h | h, -⟩ <;> cases h⟩
        | locked => exact ⟨.lockedMjpeg .., by rintro ⟨-, h⟩; cases h⟩
      · exact ⟨.http .., by rintro ⟨-, h⟩; cases h⟩
    exact key _ ((hres r hscan).2.2.2.2.1 p.2 hm)
  | start a => exact h.elim
  | reset o => exact h.elim
  | stop => exact h.elim

theorem onlyBy_sane {w : Nat} {D : Discovery.Env} (hD : D.Ok) {surveys : List Survey} {ops : List Config.Op}
    (hv : OnlyBy w D surveys ops) (hu : ∀ op ∈ ops, Usual op) : ∀ op ∈ ops, Spec.Config.Sane op := by
  intro op ho
  have h := hu op ho
  cases op with
  | update l now o =>
    obtain ⟨v, -, ht, r, he⟩ := hv _ ho ⟨l, now, o, rfl⟩
    exact ends_sane hD ht he h
  | start a => exact h
  | reset o => trivial
  | stop => trivial

/-- C123, only what was heard. Whatever the server sends, and whatever happens to the client in any number of
runs: if the client is told about services by scans only (besides its configuration), then every connection it
opens for the server goes to a configured service, or to an address whose candidate port has answered, with
that device address, in one of the scans on an interface that may be scanned. -/
theorem C123_connects_only_to_heard (w : Nat) (hw : w = 32 ∨ w = 64) (D : Discovery.Env) (hD : D.Ok)
    (E : Config.Env) (hE : Spec.Config.Faithful E) (S : Config.Setup)
    (w0 : Config.World) (h0 : Spec.Config.Fresh E w0) (hh : w0.heap = []) (wops : List Config.Op)
    (hu : ∀ op ∈ wops, Usual op) (surveys : List Survey) (hv : OnlyBy w D surveys wops)
    (cfg : Cfg) (env : Env) (ops : List COp)
    (hr : ∀ e ∈ env :: envs ops, ReadsIn (Ever E S w0 wops) e) (x : NEv) (hx : x ∈ (hist cfg env ops).2)
    (i : UInt16) (ty : ServiceType) (mac : MacAddr) (a : SocketAddr) (ho : Opens x i ty mac a) :
    (∃ s, Configured E w0 wops s ∧ s.svcType = ty ∧ s.mac.getD .zero = mac ∧ s.address = some a) ∨
    ∃ v ∈ surveys, Heard v mac a := by
  have hs := onlyBy_sane hD hv hu
  obtain ⟨s, hg, h1, h2, h3⟩ :=
    Origin.C120_connects_only_to_given E hE S w0 h0 hh wops hs cfg env ops hr x hx i ty mac a ho
  rcases hg with ⟨op, hop, hby⟩ | hf | hf
  · cases op with
    | start b => exact .inl ⟨s, .inl ⟨b, hop, hby⟩, h1, h2, h3⟩
    | update l now o =>
      obtain ⟨n, hm⟩ := hby
      obtain ⟨v, hvm, hvt, r, hscan, hl⟩ := hv _ hop ⟨l, now, o, rfl⟩
      have hsr : s ∈ r.serviceList := by rw [← hl]; exact List.mem_map.mpr ⟨_, hm, rfl⟩
      obtain ⟨m, b, e1, e2, hc, y, hy, hp, ha⟩ :=
        (C115_reported w hw D hD v.ifaces v.answer v.whitelist v.rtspPaths v.mjpegPaths hvt.1 hvt.2 r hscan).2 s hsr
      rw [h3] at e2
      injection e2 with e2
      rw [e1] at h2
      have h2 : m = mac := h2
      subst e2 h2
      exact .inr ⟨v, hvm, hc, y, hy, hp, ha⟩
    | reset o => exact hby.elim
    | stop => exact hby.elim
  · exact .inl ⟨s, .inr (.inl hf), h1, h2, h3⟩
  · exact .inl ⟨s, .inr (.inr hf), h1, h2, h3⟩

/-- C123, the local networks. If in addition nobody claims an address of another network in an ARP packet or TCP
segment on an interface that may be scanned, then all connections go to configured services or into the networks
of such interfaces. -/
theorem C123_connects_only_to_local (w : Nat) (hw : w = 32 ∨ w = 64) (D : Discovery.Env) (hD : D.Ok)
    (E : Config.Env) (hE : Spec.Config.Faithful E) (S : Config.Setup)
    (w0 : Config.World) (h0 : Spec.Config.Fresh E w0) (hh : w0.heap = []) (wops : List Config.Op)
    (hu : ∀ op ∈ wops, Usual op) (surveys : List Survey) (hv : OnlyBy w D surveys wops)
    (hhonest : ∀ v ∈ surveys, ∀ x ∈ v.ifaces, Spec.LocalScan.Permitted v.whitelist x → Spec.LocalScan.Honest x)
    (cfg : Cfg) (env : Env) (ops : List COp)
    (hr : ∀ e ∈ env :: envs ops, ReadsIn (Ever E S w0 wops) e) (x : NEv) (hx : x ∈ (hist cfg env ops).2)
    (i : UInt16) (ty : ServiceType) (mac : MacAddr) (a : SocketAddr) (ho : Opens x i ty mac a) :
    (∃ s, Configured E w0 wops s ∧ s.svcType = ty ∧ s.mac.getD .zero = mac ∧ s.address = some a) ∨
    ∃ v ∈ surveys, Spec.LocalScan.Local v.whitelist v.ifaces a.ip := by
  rcases C123_connects_only_to_heard w hw D hD E hE S w0 h0 hh wops hu surveys hv cfg env ops hr x hx i ty mac a ho with
    h | ⟨v, hvm, -, y, hy, hp, ha⟩
  · exact .inl h
  · exact .inr ⟨v, hvm, y, hy, hp, port_inNetwork y (hhonest v hvm y hy hp) mac a ha⟩

theorem latest_of_nodup {l : List (Int64 × Service)} (h : (l.map (·.2.toIdentifier)).Nodup) {n : Int64} {s : Service}
    (hm : (n, s) ∈ l) : Spec.Found.Latest l n s := by
  obtain ⟨a, b, rfl⟩ := List.append_of_mem hm
  refine ⟨a, b, rfl, ?_⟩
  intro p hp he
  rw [List.map_append, List.map_cons, List.nodup_append] at h
  exact (List.nodup_cons.mp h.2.1).1 (he ▸ List.mem_map.mpr ⟨p, hp, rfl⟩)

/-- C123, everything that was found. A client that was used in whatever way (`pre`) is told about a scan that
has ended. If it survives this and the services were seen at most 1200 s ago, then all of the following holds
of the servers `R` and `H` of the network (for every IP address that has an RTSP or HTTP server on an open
candidate port the one on the most preferred port): the server itself and the stream found on it are visible:
a service of the same type, device, port and path is, and it belongs to one of these servers. -/
theorem C123_found_is_visible (w : Nat) (D : Discovery.Env) (hD : D.Ok)
    (E : Config.Env) (hE : Spec.Config.Faithful E) (S : Config.Setup)
    (w0 : Config.World) (h0 : Spec.Config.Fresh E w0) (pre : List Config.Op) (v : Survey) (hv : Texts v)
    (r : Scan.ScanResult) (l : List (Int64 × Service)) (now : Int64) (o : Config.Out)
    (hend : v.Ends w D r (.update l now o))
    (hpre : ∀ op ∈ pre, Spec.Config.Sane op) (hlen : l.length + 65536 < 4294967296) (t : Table)
    (ht : Spec.Config.table (w0.run E S (pre ++ [.update l now o])).1 = some t)
    (hclock : ∀ p ∈ l, p.1.toInt + 1200 < 9223372036854775808 ∧ now.toInt ≤ p.1.toInt + 1200) :
    ∃ runs R H, Spec.Sdp.Each Spec.Discovery.IsRun (Spec.Discovery.scanned v.whitelist (v.net w)) runs ∧
      Spec.Discovery.Selected Spec.Discovery.rtspCandidates (Spec.Discovery.RtspServer D (v.net w) runs) R ∧
      Spec.Discovery.Selected Spec.Discovery.httpCandidates (Spec.Discovery.HttpServer D (v.net w) runs) H ∧
      ∀ s, Spec.Discovery.Reported D (v.net w) v.rtspPaths v.mjpegPaths R H s →
        ∃ i s', (i, s') ∈ t.visible ∧ s'.toIdentifier = s.toIdentifier ∧
          Spec.Discovery.Reported D (v.net w) v.rtspPaths v.mjpegPaths R H s' := by
  have hs : ∀ op ∈ pre ++ [.update l now o], Spec.Config.Sane op := by
    intro op ho
    rcases List.mem_append.mp ho with ho | ho
    · exact hpre op ho
    · rw [List.mem_singleton.mp ho]; exact ends_sane hD hv hend hlen
  obtain ⟨hscan, hl⟩ := hend
  obtain ⟨runs, R, H, h1, hR, hH, -, -, hres⟩ :=
    Discovery.C86_scan D (v.net w) v.whitelist v.rtspPaths v.mjpegPaths hD hv.1 hv.2
  obtain ⟨-, -, -, hnd, hsound, hcompl⟩ := hres r hscan
  refine ⟨runs, R, H, h1, hR, hH, ?_⟩
  intro s hrep
  obtain ⟨s', hs', hid⟩ := hcompl s hrep
  have hrep' := hsound s' hs'
  rw [← hl] at hs' hnd
  obtain ⟨⟨n, s''⟩, hm, rfl⟩ := List.mem_map.mp hs'
  rw [List.map_map] at hnd
  have hctl : s''.isControl = false := by
    rcases hrep' with ⟨x, -, hx | hx⟩ | ⟨x, -, hx | hx⟩
    · have : ∀ u, Spec.Discovery.RtspStream D (v.net w) v.rtspPaths x.1 x.2 u → u.isControl = false := by
        intro u hu; cases hu <;> rfl
      exact this _ hx
    · have : s'' = _ := hx
      rw [this]; rfl
    · have : ∀ u, Spec.Discovery.MjpegStream D (v.net w) v.mjpegPaths x.1 x.2 (some u) → u.isControl = false := by
        intro u hu; cases hu <;> rfl
      exact this _ hx
    · have : s'' = _ := hx
      rw [this]; rfl
  obtain ⟨i, hi⟩ := Found.C121_found_is_visible E hE S w0 h0 pre l now o hs t ht n s''
    (latest_of_nodup hnd hm) hctl (hclock _ hm).1 (hclock _ hm).2
  exact ⟨i, s'', hi, hid, hrep'⟩

/-! ### A network with a web server -/

open Verif.Props.Naming (demoEnv demoSetup demoCfg demoOps demoTable demoWorld envOf reads_envOf demo_table demo_inv
  demo_constructible demo_faithful demo_fresh envs_demoOps)

/-- The only interface is `eth0`, which may be scanned; a web server answers with the given address. -/
def demoSurvey (ip : Ip4) : Survey := ⟨[answering ip], sampleServer, [asc "eth0"], [], []⟩

def webServer (ip : Ip4) : Service := .http ⟨1, 1, 1, 1, 1, 9⟩ ⟨ip.toIp, 80⟩

/-- The client is started, and told about the scan. -/
def surveyed (ip : Ip4) : List Config.Op :=
  [.start (Props.Config.demoStart .ok), .update [(0, webServer ip)] 5 .ok]

def scanOf (v : Survey) : Wire.Res Scan.ScanResult := v.result 64 Discovery.demoEnv

theorem demo_ends {ip : Ip4}
    (h : (Discovery.servicesOf (scanOf (demoSurvey ip))).map (·.2) = some [webServer ip]) :
    ∃ r, (demoSurvey ip).Ends 64 Discovery.demoEnv r (.update [(0, webServer ip)] 5 .ok) := by
  show ∃ r, scanOf (demoSurvey ip) = .ok r ∧ [webServer ip] = r.serviceList
  generalize scanOf (demoSurvey ip) = x at h ⊢
  cases x with
  | ok r =>
    have h : some r.serviceList = some [webServer ip] := h
    injection h with h
    exact ⟨r, rfl, h.symm⟩
  | err => cases h
  | panic => cases h

theorem demo_usual (ip : Ip4) : ∀ op ∈ surveyed ip ++ [.stop], Usual op := by
  intro op ho
  rcases ho with _ | ⟨_, _ | ⟨_, _ | ⟨_, h⟩⟩⟩
  · exact demo_constructible.1
  · show 1 + 65536 < 4294967296; decide
  · trivial
  · cases h

theorem demo_onlyBy {ip : Ip4} (h : (Discovery.servicesOf (scanOf (demoSurvey ip))).map (·.2) = some [webServer ip]) :
    OnlyBy 64 Discovery.demoEnv [demoSurvey ip] (surveyed ip ++ [.stop]) := by
  rintro op ho ⟨l, now, o, rfl⟩
  rcases ho with _ | ⟨_, _ | ⟨_, _ | ⟨_, h⟩⟩⟩
  · exact ⟨demoSurvey ip, List.mem_singleton.mpr rfl, ⟨nofun, nofun⟩, demo_ends h⟩
  · cases h

theorem demo_reads {ip : Ip4} (h : (Discovery.servicesOf (scanOf (demoSurvey ip))).map (·.2) = some [webServer ip])
    (ht : (Spec.Config.table (demoWorld (surveyed ip))).isSome = true) :
    ∀ e ∈ envOf (demoTable (surveyed ip)) 0 :: envs (demoOps (demoTable (surveyed ip)) 1),
      ReadsIn (Ever demoEnv demoSetup Props.Config.emptyWorld (surveyed ip ++ [.stop])) e := by
  intro e he
  obtain ⟨n, rfl⟩ := envs_demoOps he
  refine reads_envOf ?_ (demo_inv (surveyed ip) .stop [] rfl
    (onlyBy_sane Discovery.demo_ok (demo_onlyBy h) (demo_usual ip)) ht) n
  have ht := demo_table ht
  unfold Spec.Config.table demoWorld at ht
  obtain ⟨c, hc, ht⟩ := Option.bind_eq_some_iff.mp ht
  exact ⟨c.cell, surveyed ip, .stop, [], c, _, rfl, hc, ht, .inl rfl⟩

/-- Non-vacuity of C123: the web server that was found is visible, and the client connects to it when the
server asks. -/
example :
    let ops := surveyed ⟨192, 168, 1, 5⟩
    let u := demoTable ops
    Spec.Config.table (demoWorld ops) = some u ∧ (1, webServer ⟨192, 168, 1, 5⟩) ∈ u.visible ∧
    (∀ op ∈ ops ++ [.stop], Usual op) ∧
    OnlyBy 64 Discovery.demoEnv [demoSurvey ⟨192, 168, 1, 5⟩] (ops ++ [.stop]) ∧
    (∀ e ∈ envOf u 0 :: envs (demoOps u 1),
      ReadsIn (Ever demoEnv demoSetup Props.Config.emptyWorld (ops ++ [.stop])) e) ∧
    ∃ y ∈ (hist demoCfg (envOf u 0) (demoOps u 1)).2,
      Opens y 1 .http ⟨1, 1, 1, 1, 1, 9⟩ ⟨.v4 192 168 1 5, 80⟩ := by
  intro ops u
  have h : (Discovery.servicesOf (scanOf (demoSurvey ⟨192, 168, 1, 5⟩))).map (·.2) =
      some [webServer ⟨192, 168, 1, 5⟩] := by decide +kernel
  have ht : (Spec.Config.table (demoWorld ops)).isSome = true := by decide +kernel
  exact ⟨demo_table ht, by decide +kernel, demo_usual _, demo_onlyBy h, demo_reads h ht,
    ⟨.ev (.mgr (.opened 7 1 .http ⟨1, 1, 1, 1, 1, 9⟩ ⟨.v4 192 168 1 5, 80⟩)), by decide +kernel, ⟨7, rfl⟩⟩⟩

/-- C123, another network. Without the assumption about the network this is false: one host in the local network can
answer with the address 8.8.8.8. The scan then makes the client connect there for the server, although no
configured service and no network of an interface has this address. -/
theorem C123_foreign_address : ∃ (v : Survey) (wops : List Config.Op) (env : Env) (ops : List COp) (x : NEv),
    (∀ op ∈ wops, Usual op) ∧ OnlyBy 64 Discovery.demoEnv [v] wops ∧
    (∀ e ∈ env :: envs ops, ReadsIn (Ever demoEnv demoSetup Props.Config.emptyWorld wops) e) ∧
    x ∈ (hist demoCfg env ops).2 ∧ Opens x 1 .http ⟨1, 1, 1, 1, 1, 9⟩ ⟨.v4 8 8 8 8, 80⟩ ∧
    (∀ s, Configured demoEnv Props.Config.emptyWorld wops s → s.address ≠ some ⟨.v4 8 8 8 8, 80⟩) ∧
    ¬ Spec.LocalScan.Local v.whitelist v.ifaces (.v4 8 8 8 8) := by
  have h : (Discovery.servicesOf (scanOf (demoSurvey ⟨8, 8, 8, 8⟩))).map (·.2) =
      some [webServer ⟨8, 8, 8, 8⟩] := by decide +kernel
  have ht : (Spec.Config.table (demoWorld (surveyed ⟨8, 8, 8, 8⟩))).isSome = true := by decide +kernel
  refine ⟨demoSurvey ⟨8, 8, 8, 8⟩, surveyed ⟨8, 8, 8, 8⟩ ++ [.stop], envOf (demoTable (surveyed ⟨8, 8, 8, 8⟩)) 0,
    demoOps (demoTable (surveyed ⟨8, 8, 8, 8⟩)) 1,
    .ev (.mgr (.opened 7 1 .http ⟨1, 1, 1, 1, 1, 9⟩ ⟨.v4 8 8 8 8, 80⟩)), demo_usual _, demo_onlyBy h,
    demo_reads h ht, by decide +kernel, ⟨7, rfl⟩, ?_, ?_⟩
  · rintro s (⟨a, ha, hs⟩ | ⟨data, l, tj, j, hf, -⟩ | ⟨data, l, tj, j, hf, -⟩)
    · rcases ha with _ | ⟨_, _ | ⟨_, _ | ⟨_, h⟩⟩⟩
      · rw [List.mem_singleton.mp hs]; decide
      · cases h
    · cases hf
    · cases hf
  · rintro ⟨x, hx, _, a, ha, hin⟩
    rw [List.mem_singleton.1 hx] at hin
    have : a = ⟨8, 8, 8, 8⟩ := Discovery.toIp_inj (y := ⟨8, 8, 8, 8⟩) ha
    rw [this] at hin
    have hnet : ¬ Spec.Raw.InNetwork sampleDev 134744072 := by unfold Spec.Raw.InNetwork; decide +kernel
    exact hnet hin

end Verif.Props.Survey
