import Verif.Lemmas.LocalScan
import Verif.Props.DiscoveryCases
/-!
# Who is contacted by a scan of the local networks (C115)
-/
namespace Verif.Props
open Verif Verif.Raw Verif.Discovery Verif.Spec Verif.Spec.Raw Verif.LocalScan Verif.Spec.LocalScan Verif.Scan

/-- Every frame a scan writes goes out on an interface that may be scanned. It is an ARP request or an ICMP echo request
for an address strictly inside the network of the interface, or a TCP SYN for one of the candidate ports of a host that
has answered on this interface. -/
theorem C115_frames (w : Nat) (hw : w = 32 ∨ w = 64) (whitelist : List Bytes) (x : Iface × Act) (l : List Bytes)
    (hn : networkAddr x.1.dev ≠ 4294967295) (h : Sent w whitelist x l) :
    ∀ f ∈ l, Permitted whitelist x ∧
      ((∃ n ∈ hostAddrs x.1.dev, f = arpRequest x.1.dev n ∨ IsEchoRequest x.1.dev n f) ∨
        ∃ host port, Answered x host ∧ Candidate port ∧ IsSyn x.1.dev host port f) := by
  intro f hf
  unfold Sent at h
  split at h
  · next hp =>
    refine ⟨fun hne => ?_, frames_kind w hw x l hn h f hf⟩
    rcases hp with hp | hp
    · exact absurd hp hne
    · exact hp
  · rw [h] at hf; cases hf

/-- Requests are only sent to candidate ports that have answered on an interface that may be scanned: what any other
server would answer makes no difference. -/
theorem C115_requests (w : Nat) (hw : w = 32 ∨ w = 64) (E : Env) (hE : E.Ok) (ifaces : List (Iface × Act))
    (answer answer' : Probe → Option (List Bytes)) (whitelist rtspPaths mjpegPaths : List Bytes)
    (h : ∀ p : Probe, (∃ x ∈ ifaces, Permitted whitelist x ∧ PortAnswered x (target p).1 (target p).2) →
      Candidate (target p).2.port → answer p = answer' p) :
    scan w E ifaces answer whitelist rtspPaths mjpegPaths = scan w E ifaces answer' whitelist rtspPaths mjpegPaths := by
  refine scan_congr E ⟨ifaces.map (device w), answer⟩ ⟨ifaces.map (device w), answer'⟩ _ _ _ hE rfl ?_
  intro p hp hc
  obtain ⟨runs, h1, h2⟩ := devices_run whitelist (ifaces.map (device w)) [] _ ok_new
  rw [List.nil_append] at h2
  have ho : Spec.Discovery.Open runs (target p).1 (target p).2 := by
    rw [← open_iff]
    exact (h2.mem_socketAddrs _ _).1 hp
  exact h p (open_answered w hw ifaces answer whitelist runs h1 _ _ ho) hc

/-- Everything a scan reports has answered on an interface that may be scanned: the hosts to one of the probes, the
services on their port, which is a candidate port. -/
theorem C115_reported (w : Nat) (hw : w = 32 ∨ w = 64) (E : Env) (hE : E.Ok) (ifaces : List (Iface × Act))
    (answer : Probe → Option (List Bytes)) (whitelist rtspPaths mjpegPaths : List Bytes)
    (hr : ∀ p ∈ rtspPaths, Utf8.valid p = true) (hm : ∀ p ∈ mjpegPaths, Utf8.valid p = true) (r : ScanResult)
    (h : scan w E ifaces answer whitelist rtspPaths mjpegPaths = .ok r) :
    (∀ k ∈ r.hostRecords, ∃ x ∈ ifaces, Permitted whitelist x ∧
      ((∃ a : Ip4, a.toIp = k.ip ∧ Answered x (k.mac, a)) ∨ ∃ p, PortAnswered x k.mac ⟨k.ip, p⟩)) ∧
    (∀ s ∈ r.serviceList, ∃ mac addr, s.mac = some mac ∧ s.address = some addr ∧ Candidate addr.port ∧
      ∃ x ∈ ifaces, Permitted whitelist x ∧ PortAnswered x mac addr) := by
  obtain ⟨runs, R, H, h1, sR, sH, _, _, hres⟩ :=
    C86_scan E ⟨ifaces.map (device w), answer⟩ whitelist rtspPaths mjpegPaths hE hr hm
  obtain ⟨_, k2, _, _, k5, _⟩ := hres r h
  refine ⟨fun k hk => ?_, fun s hs => ?_⟩
  · rcases (k2 k.mac k.ip).1 ⟨k, hk, rfl, rfl⟩ with ho | ho | ⟨p, ho⟩
    · obtain ⟨x, hx, hp, ha⟩ := host_answered w hw ifaces answer whitelist runs h1 _ _ (.inl ho)
      exact ⟨x, hx, hp, .inl ha⟩
    · obtain ⟨x, hx, hp, ha⟩ := host_answered w hw ifaces answer whitelist runs h1 _ _ (.inr ho)
      exact ⟨x, hx, hp, .inl ha⟩
    · obtain ⟨x, hx, hp, ha⟩ := open_answered w hw ifaces answer whitelist runs h1 _ _ ho
      exact ⟨x, hx, hp, .inr ⟨p, ha⟩⟩
  · rcases k5 s hs with ⟨y, hy, hst⟩ | ⟨y, hy, hst⟩
    · obtain ⟨ho, hc, _⟩ := sR.sound y hy
      refine ⟨y.1, y.2, ?_, ?_, .inl hc, open_answered w hw ifaces answer whitelist runs h1 _ _ ho⟩
      · rcases hst with hst | rfl
        · cases hst <;> rfl
        · rfl
      · rcases hst with hst | rfl
        · cases hst <;> rfl
        · rfl
    · obtain ⟨ho, hc, _⟩ := sH.sound y hy
      refine ⟨y.1, y.2, ?_, ?_, .inr hc, open_answered w hw ifaces answer whitelist runs h1 _ _ ho⟩
      · rcases hst with hst | rfl
        · cases hst <;> rfl
        · rfl
      · rcases hst with hst | rfl
        · cases hst <;> rfl
        · rfl

/-! ## Local networks -/

theorem natBE_ipBytes (n : Nat) (h : n < 4294967296) : natBE (ipBytes n) = n := by
  unfold ipBytes
  simp [natBE, UInt8.toNat_ofNat']
  omega

theorem hostAddrs_inNetwork (dev : EtherDev) (hm : PrefixMask dev) (n : Nat) (h : n ∈ hostAddrs dev) :
    InNetwork dev n := by
  obtain ⟨m, hm, he⟩ := hm
  have hlt := hostAddrs_lt dev n h
  rw [C69_prefix dev m hm he, List.mem_range'_1] at h
  have hx : ipNat dev.ip < 2 ^ 32 := by rw [← asU32_toNat]; exact (asU32 dev.ip).toNat_lt
  unfold InNetwork networkAddr
  rw [he, and_prefix _ _ hm (by omega), and_prefix _ _ hm hx]
  have h1 : 1 ≤ 2 ^ m := Nat.one_le_two_pow
  have : n / 2 ^ m = ipNat dev.ip / 2 ^ m := by
    rw [Nat.div_eq_iff (by omega)]
    omega
  rw [this]

theorem answered_inNetwork (x : Iface × Act) (h : Honest x) (host : MacAddr × Ip4) (ha : Answered x host) :
    InNetwork x.1.dev (ipNat host.2) := by
  rcases ha with ⟨f, hf, h1, h2⟩ | ⟨f, _, _, _, h4⟩
  · exact h.1 f hf h1 host h2
  · exact h4

theorem port_inNetwork (x : Iface × Act) (h : Honest x) (mac : MacAddr) (addr : SocketAddr)
    (ha : PortAnswered x mac addr) : ∃ a : Ip4, a.toIp = addr.ip ∧ InNetwork x.1.dev (ipNat a) := by
  obtain ⟨f, hf, h1, h2, ip, h3, h4⟩ := ha
  refine ⟨ip, h4, ?_⟩
  rw [← natBE_ip f ip h3.1.2]
  exact h.2 f hf h1 h2

/-- If nobody claims an address of another network in an ARP packet or a TCP segment, a scan asks for and sends to
addresses of the network of the interface only, reports hosts and services in the networks of the interfaces that may be
scanned only, and sends requests there only. -/
theorem C115_local_partial (w : Nat) (hw : w = 32 ∨ w = 64) (E : Env) (hE : E.Ok) (ifaces : List (Iface × Act))
    (answer : Probe → Option (List Bytes)) (whitelist rtspPaths mjpegPaths : List Bytes)
    (hr : ∀ p ∈ rtspPaths, Utf8.valid p = true) (hm : ∀ p ∈ mjpegPaths, Utf8.valid p = true)
    (hh : ∀ x ∈ ifaces, Permitted whitelist x → Honest x)
    (hd : ∀ x ∈ ifaces, networkAddr x.1.dev ≠ 4294967295 ∧ PrefixMask x.1.dev) :
    (∀ x ∈ ifaces, ∀ l, Sent w whitelist x l → ∀ f ∈ l, InNetwork x.1.dev (destination f)) ∧
    (∀ r, scan w E ifaces answer whitelist rtspPaths mjpegPaths = .ok r →
      (∀ k ∈ r.hostRecords, Local whitelist ifaces k.ip) ∧
      ∀ s ∈ r.serviceList, ∃ addr, s.address = some addr ∧ Local whitelist ifaces addr.ip) ∧
    ∀ answer', (∀ p : Probe, Local whitelist ifaces (target p).2.ip → answer p = answer' p) →
      scan w E ifaces answer whitelist rtspPaths mjpegPaths = scan w E ifaces answer' whitelist rtspPaths mjpegPaths := by
  refine ⟨fun x hx l h f hf => ?_, fun r h => ⟨fun k hk => ?_, fun s hs => ?_⟩, fun answer' ha => ?_⟩
  · obtain ⟨hp, hk⟩ := C115_frames w hw whitelist x l (hd x hx).1 h f hf
    rcases hk with ⟨n, hn, rfl | he⟩ | ⟨host, port, hans, _, hs⟩
    · have : destination (arpRequest x.1.dev n) = natBE (ipBytes n) := by
        have h1 : field (arpRequest x.1.dev n) 12 2 = 0x0806 := show natBE [0x08, 0x06] = 0x0806 by decide
        have h2 : slice (arpRequest x.1.dev n) 38 4 = ipBytes n := rfl
        unfold destination
        rw [if_pos h1, field, h2]
      rw [this, natBE_ipBytes n (hostAddrs_lt _ n hn)]
      exact hostAddrs_inNetwork _ (hd x hx).2 n hn
    · have : destination f = natBE (ipBytes n) := by
        unfold destination
        rw [he.ip.etherType, if_neg (by decide), field, he.ip.dst]
      rw [this, natBE_ipBytes n (hostAddrs_lt _ n hn)]
      exact hostAddrs_inNetwork _ (hd x hx).2 n hn
    · have : destination f = ipNat host.2 := by
        unfold destination
        rw [hs.ip.etherType, if_neg (by decide), field, hs.ip.dst]
        rfl
      rw [this]
      exact answered_inNetwork x (hh x hx hp) host hans
  · obtain ⟨x, hx, hp, ⟨a, he, hans⟩ | ⟨p, hans⟩⟩ :=
      (C115_reported w hw E hE ifaces answer whitelist rtspPaths mjpegPaths hr hm r h).1 k hk
    · exact ⟨x, hx, hp, a, he, answered_inNetwork x (hh x hx hp) (k.mac, a) hans⟩
    · exact ⟨x, hx, hp, port_inNetwork x (hh x hx hp) _ ⟨k.ip, p⟩ hans⟩
  · obtain ⟨mac, addr, _, he, _, x, hx, hp, hans⟩ :=
      (C115_reported w hw E hE ifaces answer whitelist rtspPaths mjpegPaths hr hm r h).2 s hs
    exact ⟨addr, he, x, hx, hp, port_inNetwork x (hh x hx hp) _ _ hans⟩
  · apply C115_requests w hw E hE
    rintro p ⟨x, hx, hp, hans⟩ _
    exact ha p ⟨x, hx, hp, port_inNetwork x (hh x hx hp) _ _ hans⟩

/-! ## An address of another network -/

/-- A run of a scanner that captures one frame. -/
def oneFrame (f : Bytes) : Raw.Run :=
  ⟨true, 0, 0, [⟨.packet f, 150, 150, 150⟩, ⟨.timeout, 0, 2151, 2151⟩], true, true⟩

/-- An ARP reply to the interface of `sampleDev` from the given address. -/
def replyFrom (ip : Ip4) : Bytes :=
  (Frame.arp ⟨1, 1, 1, 1, 1, 9⟩ sampleDev.mac (Arp.ipv4 .reply ⟨1, 1, 1, 1, 1, 9⟩ ip sampleDev.mac sampleDev.ip)).bytes

/-- A TCP segment with SYN and ACK from port 80 of the given address. -/
def synAckFrom (ip : Ip4) : Bytes :=
  (Frame.ipv4 ⟨1, 1, 1, 1, 1, 9⟩ sampleDev.mac (Ip.tcp ip sampleDev.ip 64 (Tcp.new 80 61234 0x12 []))).bytes

/-- An interface on which a host answers with the given address. -/
def answering (ip : Ip4) : Iface × Act :=
  (⟨asc "eth0", sampleDev⟩, ⟨oneFrame (replyFrom ip), oneFrame [], oneFrame (synAckFrom ip)⟩)

/-- Every request is answered in the same way. -/
def sampleServer : Probe → Option (List Bytes)
  | .root _ _ => some [asc "HTTP/1.1 200 OK\r\nContent-Length: 0\r\n\r\n"]
  | _ => none

/-- The network of the interface is 192.168.1.4/30. One host in it claims the address 8.8.8.8 in an ARP reply, which is
sent to the interface as the filter of the capture wants it. The client sends TCP segments to 8.8.8.8, connects to it and
reports the web server at 8.8.8.8 as a service of the local network. -/
theorem C115_foreign_address : ∃ (x : Iface × Act) (l : List Bytes) (r : ScanResult),
    Sent 64 [] x l ∧ (∃ f ∈ l, destination f = 134744072 ∧ ¬ InNetwork x.1.dev (destination f)) ∧
    scan 64 demoEnv [x] sampleServer [] [] [] = .ok r ∧
    Service.http ⟨1, 1, 1, 1, 1, 9⟩ ⟨.v4 8 8 8 8, 80⟩ ∈ r.serviceList ∧
    ¬ Local [] [x] (.v4 8 8 8 8) := by
  have hn : networkAddr sampleDev ≠ 4294967295 := by decide +kernel
  have hnet : ¬ InNetwork sampleDev 134744072 := by unfold InNetwork; decide +kernel
  have ha : got (arpScan 64 (oneFrame (replyFrom ⟨8, 8, 8, 8⟩))) = some [(⟨1, 1, 1, 1, 1, 9⟩, ⟨8, 8, 8, 8⟩)] := by
    decide +kernel
  have hi : got (icmpScan 64 sampleDev (oneFrame [])) = some [] := by decide +kernel
  obtain ⟨echo, _, he⟩ := C69_icmp sampleDev hn
  obtain ⟨syn, hp, hs⟩ := C70_frames sampleDev tcpPorts (tcpHosts [(⟨1, 1, 1, 1, 1, 9⟩, ⟨8, 8, 8, 8⟩)] [])
  obtain ⟨r, hr⟩ : ∃ r, scan 64 demoEnv [answering ⟨8, 8, 8, 8⟩] sampleServer [] [] [] = .ok r := by
    have : (match scan 64 demoEnv [answering ⟨8, 8, 8, 8⟩] sampleServer [] [] [] with | .ok _ => true | _ => false) = true := by
      decide +kernel
    cases h : scan 64 demoEnv [answering ⟨8, 8, 8, 8⟩] sampleServer [] [] [] with
    | ok r => exact ⟨r, rfl⟩
    | err => rw [h] at this; cases this
    | panic => rw [h] at this; cases this
  refine ⟨answering ⟨8, 8, 8, 8⟩, (hostAddrs sampleDev).map (arpRequest sampleDev) ++ echo ++ syn, r, ?_, ?_, hr, ?_, ?_⟩
  · unfold Sent
    rw [if_pos (.inl rfl)]
    refine ⟨_, echo, syn, rfl, ?_, ?_⟩
    · exact (C69_arp sampleDev hn _ _).2 (.inl ⟨rfl, rfl⟩)
    · rw [show (answering ⟨8, 8, 8, 8⟩).2.arp = oneFrame (replyFrom ⟨8, 8, 8, 8⟩) from rfl, ha]
      dsimp only
      refine ⟨(he _ _).2 (.inl ⟨rfl, rfl⟩), ?_⟩
      rw [show got (icmpScan 64 (answering ⟨8, 8, 8, 8⟩).1.dev (answering ⟨8, 8, 8, 8⟩).2.icmp) = some [] from hi]
      exact (hs _ _).2 (.inl ⟨rfl, rfl⟩)
  · have hex : ∃ f ∈ syn, IsSyn sampleDev (⟨1, 1, 1, 1, 1, 9⟩, ⟨8, 8, 8, 8⟩) 554 f := by
      rw [tcpPorts_eq] at hp
      rw [show probes (tcpHosts [(⟨1, 1, 1, 1, 1, 9⟩, ⟨8, 8, 8, 8⟩)] []) portCandidates =
        ((⟨1, 1, 1, 1, 1, 9⟩, ⟨8, 8, 8, 8⟩), 554) ::
          (probes (tcpHosts [(⟨1, 1, 1, 1, 1, 9⟩, ⟨8, 8, 8, 8⟩)] []) portCandidates).tail by decide +kernel] at hp
      cases hp with
      | cons h _ => exact ⟨_, List.mem_cons_self, h⟩
    obtain ⟨f, hf, hsyn⟩ := hex
    have e : destination f = 134744072 := by
      unfold destination
      rw [hsyn.ip.etherType, if_neg (by decide), field, hsyn.ip.dst]
      rfl
    exact ⟨f, List.mem_append_right _ hf, e, by rw [e]; exact hnet⟩
  · have : (servicesOf (scan 64 demoEnv [answering ⟨8, 8, 8, 8⟩] sampleServer [] [] [])).map (·.2) =
        some [Service.http ⟨1, 1, 1, 1, 1, 9⟩ ⟨.v4 8 8 8 8, 80⟩] := by decide +kernel
    rw [hr] at this
    injection this with this
    show _ ∈ r.serviceList
    rw [show r.serviceList = _ from this]
    exact List.mem_singleton.2 rfl
  · rintro ⟨x, hx, _, a, ha, hin⟩
    rw [List.mem_singleton.1 hx] at hin
    have : a = ⟨8, 8, 8, 8⟩ := toIp_inj (y := ⟨8, 8, 8, 8⟩) ha
    rw [this] at hin
    exact hnet hin

-- A host of the network that answers with its own address.
example : (servicesOf (scan 64 demoEnv [answering ⟨192, 168, 1, 5⟩] sampleServer [asc "eth0"] [] [])).map (·.2) =
    some [Service.http ⟨1, 1, 1, 1, 1, 9⟩ ⟨.v4 192 168 1 5, 80⟩] := by decide +kernel
example : (servicesOf (scan 64 demoEnv [answering ⟨192, 168, 1, 5⟩] sampleServer [asc "eth1"] [] [])).map (·.2) = some [] := by
  decide +kernel

example : networkAddr (answering ⟨192, 168, 1, 5⟩).1.dev ≠ 4294967295 ∧ PrefixMask (answering ⟨192, 168, 1, 5⟩).1.dev :=
  ⟨by decide +kernel, 2, by decide, by decide +kernel⟩

example : Honest (answering ⟨192, 168, 1, 5⟩) := by
  refine ⟨fun f hf _ host hs => ?_, fun f hf _ _ => ?_⟩
  · have hf : f = replyFrom ⟨192, 168, 1, 5⟩ := List.mem_singleton.1 hf
    have h1 := hs.2
    rw [hf, show slice (replyFrom ⟨192, 168, 1, 5⟩) 28 4 = [192, 168, 1, 5] by decide +kernel] at h1
    have : ipNat host.2 = natBE [192, 168, 1, 5] := by rw [h1]; rfl
    rw [this]
    unfold InNetwork
    decide +kernel
  · have hf : f = synAckFrom ⟨192, 168, 1, 5⟩ := List.mem_singleton.1 hf
    rw [hf]
    unfold InNetwork
    decide +kernel

end Verif.Props
