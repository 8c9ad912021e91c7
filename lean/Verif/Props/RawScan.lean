import Verif.Lemmas.RawPorts
/-!
# Network scans (C66, C69, C70, C89)
-/
namespace Verif.Props
open Verif Verif.Raw Verif.Spec Verif.Spec.Raw

theorem pairwise_map {α β : Type} {R : α → β → Prop} {g : α → β} (h : ∀ a, R a (g a)) (l : List α) :
    Pairwise R l (l.map g) := by
  induction l with
  | nil => exact .nil
  | cons a l ih => exact .cons (h a) ih

/-- Like `pairwise_map`, for the members only. -/
theorem pairwise_map_mem {α β : Type} {R : α → β → Prop} {g : α → β} (l : List α) (h : ∀ a ∈ l, R a (g a)) :
    Pairwise R l (l.map g) := by
  induction l with
  | nil => exact .nil
  | cons a l ih => exact .cons (h a List.mem_cons_self) (ih (fun x hx => h x (List.mem_cons_of_mem _ hx)))

theorem ofNat_toNat32 (n : Nat) (h : n < 4294967296) : (UInt32.ofNat n).toNat = n := by
  rw [UInt32.toNat_ofNat']; omega

/-! ## C69: hosts -/

/-- The ARP scanner sends one request for each address strictly between the network and the broadcast address, in
ascending order; if a write fails, a proper prefix of them. -/
theorem C69_arp (dev : EtherDev) (h : networkAddr dev ≠ 4294967295) (l : List Bytes) (r : Bool) :
    Sends (arpNext dev) (HostGen.start dev) l r ↔
      (r = true ∧ l = (hostAddrs dev).map (arpRequest dev)) ∨
      (r = false ∧ ∃ x rest, (hostAddrs dev).map (arpRequest dev) = l ++ x :: rest) := by
  have e : (hostAddrs dev).map (fun n => mkArp dev (UInt32.ofNat n)) = (hostAddrs dev).map (arpRequest dev) := by
    apply List.map_congr_left
    intro n hn
    rw [mkArp_eq, ofNat_toNat32 n (hostAddrs_lt dev n hn)]
  rw [arpNext_eq, sends_iff _ (hostAll (mkArp dev)) (hostNext_none _) (hostNext_some _), hostAll_start _ _ h, e]

/-- The ICMP scanner sends one echo request for each of them, in the same order; there is one sequence of frames it sends,
and if a write fails, a proper prefix of it. -/
theorem C69_icmp (dev : EtherDev) (h : networkAddr dev ≠ 4294967295) :
    ∃ frames, Pairwise (IsEchoRequest dev) (hostAddrs dev) frames ∧
      ∀ l r, Sends (icmpNext dev) (HostGen.start dev) l r ↔
        (r = true ∧ l = frames) ∨ (r = false ∧ ∃ x rest, frames = l ++ x :: rest) := by
  refine ⟨(hostAddrs dev).map (fun n => mkEcho dev (UInt32.ofNat n)), pairwise_map_mem _ ?_, ?_⟩
  · intro n hn
    have := mkEcho_is dev (UInt32.ofNat n)
    rw [ofNat_toNat32 n (hostAddrs_lt dev n hn)] at this
    exact this
  · intro l r
    rw [icmpNext_eq, sends_iff _ (hostAll (mkEcho dev)) (hostNext_none _) (hostNext_some _), hostAll_start _ _ h]

/-- Each address between the two is probed once and no other. -/
theorem C69_hosts (dev : EtherDev) :
    (hostAddrs dev).Nodup ∧ ∀ n, n ∈ hostAddrs dev ↔ networkAddr dev < n ∧ n < broadcastAddr dev := by
  refine ⟨List.nodup_range', fun n => ?_⟩
  rw [hostAddrs, List.mem_range'_1]
  omega

theorem and_prefix (x m : Nat) (hm : m ≤ 32) (hx : x < 2 ^ 32) : x &&& (2 ^ 32 - 2 ^ m) = x / 2 ^ m * 2 ^ m := by
  have hp : 2 ^ m ≤ 2 ^ 32 := Nat.pow_le_pow_right (by decide) hm
  have h1 : 1 ≤ 2 ^ m := Nat.one_le_two_pow
  apply Nat.eq_of_testBit_eq
  intro i
  rw [Nat.testBit_and, show 2 ^ 32 - 2 ^ m = 2 ^ 32 - ((2 ^ m - 1) + 1) by omega,
    Nat.testBit_two_pow_sub_succ (by omega), Nat.testBit_two_pow_sub_one, Nat.testBit_mul_two_pow, Nat.testBit_div_two_pow]
  by_cases hi : m ≤ i
  · rw [show i - m + m = i by omega]
    by_cases h32 : i < 32
    · simp [hi, h32]
    · have : x.testBit i = false :=
        Nat.testBit_lt_two_pow (Nat.lt_of_lt_of_le hx (Nat.pow_le_pow_right (by decide) (by omega)))
      simp [this]
  · have : i < m := by omega
    simp [this, hi]

theorem or_prefix (x m : Nat) : x ||| (2 ^ m - 1) = x / 2 ^ m * 2 ^ m + (2 ^ m - 1) := by
  have h1 : 1 ≤ 2 ^ m := Nat.one_le_two_pow
  rw [← or_low _ _ _ (by omega)]
  apply Nat.eq_of_testBit_eq
  intro i
  rw [Nat.testBit_or, Nat.testBit_or, Nat.testBit_two_pow_sub_one, Nat.testBit_mul_two_pow, Nat.testBit_div_two_pow]
  by_cases hi : m ≤ i
  · rw [show i - m + m = i by omega]
    simp [hi]
  · have : i < m := by omega
    simp [this]

/-- For a network mask with `m` host bits these are the `2 ^ m - 2` addresses of the network apart from the first and the
last one. -/
theorem C69_prefix (dev : EtherDev) (m : Nat) (hm : m ≤ 32) (h : ipNat dev.mask = 2 ^ 32 - 2 ^ m) :
    hostAddrs dev = List.range' (ipNat dev.ip / 2 ^ m * 2 ^ m + 1) (2 ^ m - 2) := by
  have hx : ipNat dev.ip < 2 ^ 32 := by rw [← asU32_toNat]; exact (asU32 dev.ip).toNat_lt
  have hp : 2 ^ m ≤ 2 ^ 32 := Nat.pow_le_pow_right (by decide) hm
  have h1 : 1 ≤ 2 ^ m := Nat.one_le_two_pow
  have hn : networkAddr dev = ipNat dev.ip / 2 ^ m * 2 ^ m := by rw [networkAddr, h, and_prefix _ _ hm hx]
  have hb : broadcastAddr dev = ipNat dev.ip / 2 ^ m * 2 ^ m + (2 ^ m - 1) := by
    rw [broadcastAddr, h, show 4294967295 - (2 ^ 32 - 2 ^ m) = 2 ^ m - 1 by omega, or_prefix]
  rw [hostAddrs, hn, hb]
  congr 1
  omega

/-- On an interface with the network address 255.255.255.255 the addition wraps and every address but the last one is
probed. -/
theorem C69_wrap (dev : EtherDev) (h : networkAddr dev = 4294967295) (l : List Bytes) :
    Sends (arpNext dev) (HostGen.start dev) l true ↔ l = (List.range' 0 4294967295).map (arpRequest dev) := by
  have hx : ipNat dev.ip < 2 ^ 32 := by rw [← asU32_toNat]; exact (asU32 dev.ip).toNat_lt
  have hip : ipNat dev.ip = 4294967295 := by
    have : networkAddr dev ≤ ipNat dev.ip := Nat.and_le_left
    omega
  have hb : broadcastAddr dev = 4294967295 := by
    have h1 : broadcastAddr dev < 4294967296 := by rw [← start_last]; exact (HostGen.start dev).last.toNat_lt
    have h2 : ipNat dev.ip ≤ broadcastAddr dev := Nat.left_le_or
    omega
  have e : hostAll (mkArp dev) (HostGen.start dev) = (List.range' 0 4294967295).map (arpRequest dev) := by
    unfold hostAll
    rw [start_current, start_last, h, hb, show (4294967295 + 1) % 4294967296 = 0 from rfl, Nat.sub_zero]
    apply List.map_congr_left
    intro n hn
    rw [List.mem_range'_1] at hn
    rw [mkArp_eq, ofNat_toNat32 n (by omega)]
  rw [arpNext_eq, sends_iff _ (hostAll (mkArp dev)) (hostNext_none _) (hostNext_some _), e]
  constructor
  · rintro (⟨_, h⟩ | ⟨h, _⟩)
    · exact h
    · cases h
  · exact fun h => .inl ⟨rfl, h⟩

/-- A host on a small network. -/
def sampleDev : EtherDev := ⟨⟨2, 3, 5, 7, 11, 13⟩, ⟨192, 168, 1, 6⟩, ⟨255, 255, 255, 252⟩⟩

example : hostAddrs sampleDev = [3232235781, 3232235782] := by
  rw [C69_prefix sampleDev 2 (by decide) (by decide +kernel)]; decide +kernel
example : networkAddr sampleDev ≠ 4294967295 := by decide +kernel
example : networkAddr ⟨⟨2, 3, 5, 7, 11, 13⟩, ⟨255, 255, 255, 255⟩, ⟨255, 255, 255, 255⟩⟩ = 4294967295 := by decide +kernel
example : Sends (arpNext sampleDev) (HostGen.start sampleDev) ((hostAddrs sampleDev).map (arpRequest sampleDev)) true :=
  (C69_arp sampleDev (by decide +kernel) _ _).mpr (.inl ⟨rfl, rfl⟩)

/-! ## C70: ports -/

/-- The probes of a TCP scan in order. -/
def probes (hosts : List (MacAddr × Ip4)) (ports : List UInt16) : List ((MacAddr × Ip4) × UInt16) :=
  hosts.flatMap (fun h => ports.map (fun p => (h, p)))

/-- A TCP scan sends one SYN for each port of the ranges, up to the first range that cannot be enumerated, to each host, in
order; there is one sequence of frames it sends, and if a write fails, a proper prefix of it. -/
theorem C70_frames (dev : EtherDev) (c : List PortRange) (hosts : List (MacAddr × Ip4)) :
    ∃ frames, Pairwise (fun (hp : (MacAddr × Ip4) × UInt16) f => IsSyn dev hp.1 hp.2 f) (probes hosts ((usablePrefix c).flatMap portsOf)) frames ∧
      ∀ l r, Sends (tcpNext dev scanPort c) (TcpGen.new hosts c) l r ↔
        (r = true ∧ l = frames) ∨ (r = false ∧ ∃ x rest, frames = l ++ x :: rest) := by
  refine ⟨(probes hosts ((usablePrefix c).flatMap portsOf)).map (fun hp => synFrame dev scanPort hp.1 hp.2),
    pairwise_map (fun (hp : (MacAddr × Ip4) × UInt16) => synFrame_is dev hp.1 hp.2) _, ?_⟩
  have e : (probes hosts ((usablePrefix c).flatMap portsOf)).map (fun hp => synFrame dev scanPort hp.1 hp.2) =
      hosts.flatMap (fun h => ((usablePrefix c).flatMap portsOf).map (synFrame dev scanPort h)) := by
    rw [probes, List.map_flatMap]
    congr 1
    funext h
    rw [List.map_map]
    rfl
  intro l r
  rw [e, tcp_sends]

/-- No port is left out if no range is empty and none is the single port 65535. -/
theorem C70_all (c : List PortRange) (h : ∀ r ∈ c, Usable r) : (usablePrefix c).flatMap portsOf = c.flatMap portsOf := by
  have e : usablePrefix c = c := by
    unfold usablePrefix
    induction c with
    | nil => rfl
    | cons r c ih =>
      rw [List.takeWhile_cons, if_pos (by simpa using h r List.mem_cons_self),
        ih (fun x hx => h x (List.mem_cons_of_mem _ hx))]
  rw [e]

/-- The ports of a range. -/
theorem C70_range (a b : UInt16) : (portsOf (.range a b)).Nodup ∧ ∀ p, p ∈ portsOf (.range a b) ↔ a ≤ p ∧ p < b := by
  have hb := b.toNat_lt
  constructor
  · unfold portsOf
    rw [List.nodup_iff_pairwise_ne, List.pairwise_map]
    refine List.Pairwise.imp_of_mem ?_ (List.nodup_iff_pairwise_ne.mp (List.nodup_range' (s := a.toNat) (n := b.toNat - a.toNat)))
    intro x y hx hy hne heq
    rw [List.mem_range'_1] at hx hy
    have := congrArg UInt16.toNat heq
    rw [UInt16.toNat_ofNat', UInt16.toNat_ofNat'] at this
    omega
  · intro p
    have hp := p.toNat_lt
    rw [UInt16.le_iff_toNat_le, UInt16.lt_iff_toNat_lt]
    unfold portsOf
    rw [List.mem_map]
    constructor
    · rintro ⟨n, hn, rfl⟩
      rw [List.mem_range'_1] at hn
      rw [UInt16.toNat_ofNat']
      omega
    · intro h
      exact ⟨p.toNat, by rw [List.mem_range'_1]; omega, UInt16.ofNat_toNat⟩

/-- A range that is empty, or the single port 65535, hides all ranges that follow. -/
theorem C70_hidden (a : List PortRange) (r : PortRange) (b b' : List PortRange) (h : ¬ Usable r) :
    (usablePrefix (a ++ r :: b)).flatMap portsOf = (usablePrefix (a ++ r :: b')).flatMap portsOf := by
  have e : ∀ b, usablePrefix (a ++ r :: b) = usablePrefix a := by
    intro b
    unfold usablePrefix
    induction a with
    | nil => rw [List.nil_append, List.takeWhile_cons, if_neg (by simpa using h)]; rfl
    | cons x a ih =>
      rw [List.cons_append, List.takeWhile_cons, List.takeWhile_cons, ih]
  rw [e, e]

/-- The port 65535 is never probed. -/
theorem C70_last_port (c : List PortRange) : (65535 : UInt16) ∉ (usablePrefix c).flatMap portsOf := by
  intro h
  obtain ⟨r, hr, hp⟩ := List.mem_flatMap.mp h
  have hu : Usable r := by
    have := List.all_takeWhile (p := fun r => decide (Usable r)) (l := c)
    rw [List.all_eq_true] at this
    simpa using this r hr
  cases r with
  | single p =>
    have : (65535 : UInt16) = p := List.mem_singleton.mp hp
    exact hu this.symm
  | range a b =>
    have := ((C70_range a b).2 65535).mp hp
    have hb := b.toNat_lt
    have h2 := this.2
    rw [UInt16.lt_iff_toNat_lt, show (65535 : UInt16).toNat = 65535 from rfl] at h2
    omega

example : (usablePrefix [.single 80, .range 8000 8003, .single 554]).flatMap portsOf = [80, 8000, 8001, 8002, 554] := by
  decide +kernel
example : (usablePrefix [.single 80, .range 7 7, .single 554]).flatMap portsOf = [80] := by decide +kernel
example : ∀ r ∈ [PortRange.single 80, .range 8000 8003, .single 554], Usable r := by decide

/-! ## C66: the probes -/

/-- All frames the scanners send carry valid checksums. -/
theorem C66_probes (dev : EtherDev) (c : List PortRange) (hosts : List (MacAddr × Ip4)) (l : List Bytes) (r : Bool) :
    (Sends (icmpNext dev) (HostGen.start dev) l r → ∀ f ∈ l, ChecksumOk (slice f 14 20) ∧ ChecksumOk (slice f 34 8)) ∧
    (Sends (tcpNext dev scanPort c) (TcpGen.new hosts c) l r → ∀ f ∈ l, ChecksumOk (slice f 14 20) ∧
      ∃ dst : Ip4, slice f 30 4 = [dst.a, dst.b, dst.c, dst.d] ∧
        ChecksumOk (pseudo dev.ip dst 6 (slice f 34 20) ++ slice f 34 20)) := by
  constructor
  · intro h f hf
    rw [icmpNext_eq, sends_iff _ (hostAll (mkEcho dev)) (hostNext_none _) (hostNext_some _)] at h
    have hm : f ∈ hostAll (mkEcho dev) (HostGen.start dev) := by
      rcases h with ⟨_, h⟩ | ⟨_, x, rest, h⟩
      · rw [← h]; exact hf
      · rw [h]; exact List.mem_append_left _ hf
    obtain ⟨n, _, rfl⟩ := List.mem_map.mp hm
    exact ⟨(mkEcho_is dev _).ip.checksum, (mkEcho_is dev _).checksum⟩
  · intro h f hf
    rw [tcp_sends] at h
    have hm : f ∈ hosts.flatMap (fun h => ((usablePrefix c).flatMap portsOf).map (synFrame dev scanPort h)) := by
      rcases h with ⟨_, h⟩ | ⟨_, x, rest, h⟩
      · rw [← h]; exact hf
      · rw [h]; exact List.mem_append_left _ hf
    obtain ⟨host, _, hm⟩ := List.mem_flatMap.mp hm
    obtain ⟨p, _, rfl⟩ := List.mem_map.mp hm
    exact ⟨(synFrame_is dev host p).ip.checksum, host.2, (synFrame_is dev host p).ip.dst, (synFrame_is dev host p).checksum⟩

/-! ## C89: results -/

section
open Classical

/-- An ARP scan whose packets were all sent reports the senders of the ARP packets captured until the listener ended, in
order; a frame that cannot be parsed without a panic, or an ARP packet with addresses of other lengths, aborts the
client. -/
theorem C89_arp (w : Nat) (hw : w = 32 ∨ w = 64) (run : Run) (before : List Round) (r : Round) (h : Ended run before r)
    (hs : run.sendOpened = true ∧ run.sent = true) :
    ((∃ f ∈ captured (before ++ [r]), Deadly f ∨ (IsArp f ∧ ¬ EtherArp f)) → arpScan w run = some .panic) ∧
    ((∀ f ∈ captured (before ++ [r]), ¬ (Deadly f ∨ (IsArp f ∧ ¬ EtherArp f))) →
      ∃ hosts, arpScan w run = some (.ok hosts) ∧
        Pairwise ArpSender ((captured (before ++ [r])).filter (fun f => decide (IsArp f))) hosts) := by
  obtain ⟨h1, h2⟩ := sr_ended w hw run before r h
  unfold arpScan
  by_cases hd : ∃ f ∈ captured (before ++ [r]), Deadly f
  · rw [h1 hd]
    refine ⟨fun _ => rfl, fun hn => ?_⟩
    obtain ⟨f, hf, hd⟩ := hd
    exact absurd (.inl hd) (hn f hf)
  · have hd' : ∀ f ∈ captured (before ++ [r]), ¬ Deadly f := fun f hf hx => hd ⟨f, hf, hx⟩
    obtain ⟨k1, k2⟩ := arpHosts_spec w hw _ hd'
    rw [h2 hd', hs.1, hs.2]
    rw [if_pos (show (true && true) = true from rfl)]
    dsimp only
    constructor
    · rintro ⟨f, hf, hx | hx⟩
      · exact absurd hx (hd' f hf)
      · rw [k1 ⟨f, hf, hx⟩]
    · intro hn
      obtain ⟨hosts, e, hp⟩ := k2 (fun f hf ha => Classical.byContradiction fun he => hn f hf (.inr ⟨ha, he⟩))
      exact ⟨hosts, by rw [e], hp⟩

/-- An ICMP scan reports the senders of the IPv4 packets that come from the network of the interface. -/
theorem C89_icmp (w : Nat) (hw : w = 32 ∨ w = 64) (dev : EtherDev) (run : Run) (before : List Round) (r : Round)
    (h : Ended run before r) (hs : run.sendOpened = true ∧ run.sent = true) :
    ((∃ f ∈ captured (before ++ [r]), Deadly f) → icmpScan w dev run = some .panic) ∧
    ((∀ f ∈ captured (before ++ [r]), ¬ Deadly f) →
      ∃ hosts, icmpScan w dev run = some (.ok hosts) ∧
        Pairwise IpSender ((captured (before ++ [r])).filter (fun f => decide (IsIp f ∧ InNetwork dev (field f 26 4))))
          hosts) := by
  obtain ⟨h1, h2⟩ := sr_ended w hw run before r h
  unfold icmpScan
  refine ⟨fun hd => by rw [h1 hd], fun hd => ?_⟩
  rw [h2 hd, hs.1, hs.2]
  exact ⟨_, rfl, icmpHosts_spec w hw dev _ hd⟩

/-- A TCP scan reports the senders of the TCP segments with their ports. -/
theorem C89_tcp (w : Nat) (hw : w = 32 ∨ w = 64) (run : Run) (before : List Round) (r : Round)
    (h : Ended run before r) (hs : run.sendOpened = true ∧ run.sent = true) :
    ((∃ f ∈ captured (before ++ [r]), Deadly f) → tcpScan w run = some .panic) ∧
    ((∀ f ∈ captured (before ++ [r]), ¬ Deadly f) →
      ∃ services, tcpScan w run = some (.ok services) ∧
        Pairwise TcpSender ((captured (before ++ [r])).filter (fun f => decide (IsIp f ∧ ipProtocol f = 6))) services) := by
  obtain ⟨h1, h2⟩ := sr_ended w hw run before r h
  unfold tcpScan
  refine ⟨fun hd => by rw [h1 hd], fun hd => ?_⟩
  rw [h2 hd, hs.1, hs.2]
  exact ⟨_, rfl, tcpServices_spec w hw _ hd⟩

end

/-- If a packet cannot be sent, the scan fails, whatever was captured, unless a frame aborted the client. -/
theorem C89_send_fails (w : Nat) (hw : w = 32 ∨ w = 64) (dev : EtherDev) (run : Run) (before : List Round) (r : Round)
    (h : Ended run before r) (hs : ¬ (run.sendOpened = true ∧ run.sent = true))
    (hd : ∀ f ∈ captured (before ++ [r]), ¬ Deadly f) :
    arpScan w run = some .err ∧ icmpScan w dev run = some .err ∧ tcpScan w run = some .err := by
  have e : (run.sendOpened && run.sent) = false := by
    cases h1 : run.sendOpened with
    | false => rfl
    | true =>
      cases h2 : run.sent with
      | false => rfl
      | true => exact absurd ⟨h1, h2⟩ hs
  have h2 := (sr_ended w hw run before r h).2 hd
  rw [e] at h2
  unfold arpScan icmpScan tcpScan
  rw [h2]
  exact ⟨rfl, rfl, rfl⟩

/-- If the device cannot be opened, the scan fails. -/
theorem C89_not_opened (w : Nat) (dev : EtherDev) (run : Run) (h : run.opened = false) :
    arpScan w run = some .err ∧ icmpScan w dev run = some .err ∧ tcpScan w run = some .err := by
  have e : sr w packetTimeout totalTimeout run = some .err := by
    unfold sr packetListener
    rw [h]
    rw [if_neg (by decide)]
    dsimp only
    split <;> rfl
  unfold arpScan icmpScan tcpScan
  rw [e]
  exact ⟨rfl, rfl, rfl⟩

theorem first_end (start : Nat) (rounds : List Round) (last : Nat) (hr : ∃ x ∈ rounds, x.total > start + 20000) :
    ∃ before r after, rounds = before ++ r :: after ∧ (∀ b x a, before = b ++ x :: a → ¬ EndsAt start last b x) ∧
      EndsAt start last before r := by
  induction rounds generalizing last with
  | nil => obtain ⟨x, hx, _⟩ := hr; exact absurd hx List.not_mem_nil
  | cons y rounds ih =>
    by_cases hy : EndsAt start last [] y
    · exact ⟨[], y, rounds, rfl, fun b x a hb => absurd hb (by simp), hy⟩
    · have hr' : ∃ x ∈ rounds, x.total > start + 20000 := by
        obtain ⟨x, hx, ht⟩ := hr
        rcases List.mem_cons.mp hx with rfl | hx
        · exact absurd (.inl ht) hy
        · exact ⟨x, hx, ht⟩
      obtain ⟨before, r, after, h1, h2, h3⟩ := ih (lastPacket last [y]) hr'
      refine ⟨y :: before, r, after, by rw [h1]; rfl, ?_, h3⟩
      intro b x a hb
      cases b with
      | nil =>
        have := List.cons.inj hb
        rw [← this.1]
        exact hy
      | cons z b =>
        have := List.cons.inj hb
        rw [← this.1, endsAt_cons]
        exact h2 b x a this.2

/-- A scan ends: at the latest with the first round that is over more than 20 seconds after the start. -/
theorem C89_ends (run : Run) (ho : run.opened = true) (hne : ∀ x ∈ run.rounds, x.read ≠ .error)
    (hr : ∃ x ∈ run.rounds, x.total > run.start + 20000) : ∃ before r, Ended run before r := by
  obtain ⟨before, r, after, h1, h2, h3⟩ := first_end run.start run.rounds run.last hr
  refine ⟨before, r, ho, ⟨after, h1⟩, ?_, h2, h3⟩
  intro x hx
  apply hne
  rw [h1]
  rcases List.mem_append.mp hx with hx | hx
  · exact List.mem_append_left _ hx
  · rw [List.mem_singleton.mp hx]
    exact List.mem_append_right _ List.mem_cons_self

/-- An ARP reply. -/
def sampleReply : Bytes :=
  (Frame.arp ⟨1, 1, 1, 1, 1, 9⟩ sampleDev.mac
    (Arp.ipv4 .reply ⟨1, 1, 1, 1, 1, 9⟩ ⟨192, 168, 1, 5⟩ sampleDev.mac sampleDev.ip)).bytes

/-- A run with a reply after 150 ms and another one that comes when the listener has ended. -/
def sampleRun : Run :=
  ⟨true, 0, 0, [⟨.timeout, 0, 100, 100⟩, ⟨.packet sampleReply, 150, 150, 150⟩, ⟨.timeout, 0, 2150, 2150⟩,
    ⟨.timeout, 0, 2151, 2151⟩, ⟨.packet sampleReply, 2500, 2500, 2500⟩], true, true⟩

example : arpScan 64 sampleRun = some (.ok [(⟨1, 1, 1, 1, 1, 9⟩, ⟨192, 168, 1, 5⟩)]) := by decide +kernel

example : Ended sampleRun [⟨.timeout, 0, 100, 100⟩, ⟨.packet sampleReply, 150, 150, 150⟩, ⟨.timeout, 0, 2150, 2150⟩]
    ⟨.timeout, 0, 2151, 2151⟩ := by
  refine ⟨rfl, ⟨[⟨.packet sampleReply, 2500, 2500, 2500⟩], rfl⟩, ?_, ?_, .inr (by decide +kernel)⟩
  · intro x hx
    simp only [List.cons_append, List.nil_append, List.mem_cons, List.not_mem_nil, or_false] at hx
    rcases hx with rfl | rfl | rfl | rfl <;> simp
  · intro b x a hb
    have key : ¬ EndsAt 0 0 [] ⟨.timeout, 0, 100, 100⟩ ∧
        ¬ EndsAt 0 0 [⟨.timeout, 0, 100, 100⟩] ⟨.packet sampleReply, 150, 150, 150⟩ ∧
        ¬ EndsAt 0 0 [⟨.timeout, 0, 100, 100⟩, ⟨.packet sampleReply, 150, 150, 150⟩] ⟨.timeout, 0, 2150, 2150⟩ := by
      unfold EndsAt
      decide +kernel
    match b, hb with
    | [], hb => injection hb with h1 h2; subst h1; exact key.1
    | [_], hb => injection hb with h1 h2; injection h2 with h2 h3; subst h1 h2; exact key.2.1
    | [_, _], hb =>
      injection hb with h1 h2; injection h2 with h2 h3; injection h3 with h3 h4; subst h1 h2 h3; exact key.2.2
    | _ :: _ :: _ :: b, hb => 
      have := congrArg List.length hb
      simp at this

/-- The two seconds of silence start when the listener does, not when the packets have been sent: an answer to a packet
that is sent later than that is lost. -/
theorem C89_late_answer : ∃ run : Run, (⟨.packet sampleReply, 2500, 2500, 2500⟩ : Round) ∈ run.rounds ∧
    arpScan 64 run = some (.ok []) :=
  ⟨⟨true, 0, 0, [⟨.timeout, 0, 1990, 1990⟩, ⟨.timeout, 0, 2090, 2090⟩, ⟨.packet sampleReply, 2500, 2500, 2500⟩], true, true⟩,
    by simp, by decide +kernel⟩

end Verif.Props
