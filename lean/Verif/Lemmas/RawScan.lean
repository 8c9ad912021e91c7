import Verif.Lemmas.RawKinds
import Verif.Spec.RawScan
namespace Verif.Raw
open Verif Verif.Spec Verif.Spec.Raw

/-! ## Sending -/

/-- What is sent by a generator whose packets are known. -/
theorem sends_iff {σ : Type} (next : σ → Option (Bytes × σ)) (all : σ → List Bytes)
    (hn : ∀ s, next s = none → all s = []) (hs : ∀ s p s', next s = some (p, s') → all s = p :: all s') (s : σ)
    (l : List Bytes) (r : Bool) :
    Sends next s l r ↔ (r = true ∧ l = all s) ∨ (r = false ∧ ∃ x rest, all s = l ++ x :: rest) := by
  constructor
  · intro h
    induction h with
    | done h => exact .inl ⟨rfl, (hn _ h).symm⟩
    | @written s s' p l r h hl ih =>
      rw [hs _ _ _ h]
      rcases ih with ⟨h1, h2⟩ | ⟨h1, x, rest, h2⟩
      · exact .inl ⟨h1, by rw [h2]⟩
      · exact .inr ⟨h1, x, rest, by rw [h2]; rfl⟩
    | @failed s s' p h => exact .inr ⟨rfl, p, all s', by rw [hs _ _ _ h]; rfl⟩
  · intro h
    induction l generalizing s with
    | nil =>
      rcases h with ⟨rfl, h2⟩ | ⟨rfl, x, rest, h2⟩
      · cases hx : next s with
        | none => exact .done hx
        | some y =>
          obtain ⟨p, s'⟩ := y
          rw [hs _ _ _ hx] at h2
          exact absurd h2 (by simp)
      · cases hx : next s with
        | none =>
          rw [hn _ hx] at h2
          exact absurd h2 (by simp)
        | some y => exact .failed (p := y.1) (s' := y.2) hx
    | cons p l ih =>
      have hne : ∃ t, all s = p :: t := by
        rcases h with ⟨_, h2⟩ | ⟨_, x, rest, h2⟩
        · exact ⟨_, h2.symm⟩
        · exact ⟨_, h2⟩
      cases hx : next s with
      | none =>
        rw [hn _ hx] at hne
        exact absurd hne (by simp)
      | some y =>
        obtain ⟨q, s'⟩ := y
        have e := hs _ _ _ hx
        rw [e] at h
        rcases h with ⟨h1, h2⟩ | ⟨h1, x, rest, h2⟩
        · have h3 := List.cons.inj h2
          rw [h3.1]
          exact .written hx (ih s' (.inl ⟨h1, h3.2⟩))
        · have h3 := List.cons.inj h2
          rw [← h3.1]
          exact .written hx (ih s' (.inr ⟨h1, x, rest, h3.2⟩))

/-! ## Hosts -/

/-- Both host generators. -/
def hostNext (mk : UInt32 → Bytes) (g : HostGen) : Option (Bytes × HostGen) :=
  if g.current < g.last then some (mk g.current, { g with current := g.current + 1 }) else none

/-- All packets of a host generator. -/
def hostAll (mk : UInt32 → Bytes) (g : HostGen) : List Bytes :=
  (List.range' g.current.toNat (g.last.toNat - g.current.toNat)).map (fun n => mk (UInt32.ofNat n))

theorem hostNext_none (mk : UInt32 → Bytes) (g : HostGen) (h : hostNext mk g = none) : hostAll mk g = [] := by
  unfold hostNext at h
  have hn : ¬ g.current < g.last := by
    intro hlt
    rw [if_pos hlt] at h
    exact absurd h (by simp)
  rw [UInt32.lt_iff_toNat_lt] at hn
  rw [hostAll, show g.last.toNat - g.current.toNat = 0 by omega]
  rfl

theorem hostNext_some (mk : UInt32 → Bytes) (g : HostGen) (p : Bytes) (g' : HostGen) (h : hostNext mk g = some (p, g')) :
    hostAll mk g = p :: hostAll mk g' := by
  unfold hostNext at h
  by_cases hlt : g.current < g.last
  · rw [if_pos hlt] at h
    have h2 := Prod.mk.inj (Option.some.inj h)
    rw [← h2.1, ← h2.2]
    rw [UInt32.lt_iff_toNat_lt] at hlt
    have := g.last.toNat_lt
    have e : (g.current + 1).toNat = g.current.toNat + 1 := by
      rw [UInt32.toNat_add, show (1 : UInt32).toNat = 1 from rfl]; omega
    unfold hostAll
    dsimp only
    rw [e, show g.last.toNat - g.current.toNat = (g.last.toNat - (g.current.toNat + 1)) + 1 by omega, List.range'_succ,
      List.map_cons, UInt32.ofNat_toNat]
  · rw [if_neg hlt] at h
    exact absurd h (by simp)

/-- The frame of the ARP scanner. -/
def mkArp (dev : EtherDev) (t : UInt32) : Bytes :=
  (Frame.arp dev.mac bcast (Arp.ipv4 .request dev.mac dev.ip ⟨0, 0, 0, 0, 0, 0⟩ (ofU32 t))).bytes

/-- The frame of the ICMP scanner. -/
def mkEcho (dev : EtherDev) (t : UInt32) : Bytes :=
  (Frame.ipv4 dev.mac bcast (Ip.icmp dev.ip (ofU32 t) 64
    (Icmp.echoRequest (t >>> 16).toUInt16 (t &&& 0xff).toUInt16 []))).bytes

theorem arpNext_eq (dev : EtherDev) : arpNext dev = hostNext (mkArp dev) := rfl

theorem icmpNext_eq (dev : EtherDev) : icmpNext dev = hostNext (mkEcho dev) := rfl

theorem ofNat_mod (n : Nat) : UInt8.ofNat (n % 256) = UInt8.ofNat n := by
  apply UInt8.toNat_inj.mp
  rw [UInt8.toNat_ofNat', UInt8.toNat_ofNat']
  omega

theorem octets_ofU32 (t : UInt32) : octets (ofU32 t) = ipBytes t.toNat := by
  unfold octets ofU32 ipBytes
  dsimp only
  rw [ofNat_mod, ofNat_mod, ofNat_mod]

theorem ether_ip (src dst : MacAddr) : (EtherHeader.new src dst .ipv4).bytes = dst.octets ++ src.octets ++ [0x08, 0x00] := by
  unfold EtherHeader.bytes EtherHeader.new EtherType.code
  dsimp only
  rw [show be16 0x0800 = [0x08, 0x00] from rfl]

theorem ether_arp (src dst : MacAddr) : (EtherHeader.new src dst .arp).bytes = dst.octets ++ src.octets ++ [0x08, 0x06] := by
  unfold EtherHeader.bytes EtherHeader.new EtherType.code
  dsimp only
  rw [show be16 0x0806 = [0x08, 0x06] from rfl]

theorem mkArp_eq (dev : EtherDev) (t : UInt32) : mkArp dev t = arpRequest dev t.toNat := by
  unfold mkArp Frame.bytes Frame.arp EtherBody.bytes Arp.bytes Arp.ipv4 arpRequest
  dsimp only
  rw [octets_ofU32, ether_arp, show be16 1 = [0, 1] from rfl, show be16 0x0800 = [0x08, 0x00] from rfl,
    show ArpOp.request.code = 1 from rfl, show be16 1 = [0, 1] from rfl]
  simp only [List.append_assoc]
  rfl

theorem asU32_toNat (x : Ip4) : (asU32 x).toNat = ipNat x := (natBE_four x.a x.b x.c x.d).symm

theorem start_last (dev : EtherDev) : (HostGen.start dev).last.toNat = broadcastAddr dev := by
  unfold HostGen.start broadcastAddr
  dsimp only
  rw [UInt32.toNat_or, UInt32.toNat_not, asU32_toNat, asU32_toNat]
  rfl

theorem networkAddr_lt (dev : EtherDev) : networkAddr dev < 4294967296 := by
  unfold networkAddr
  have h : ipNat dev.ip < 2 ^ 32 := by rw [← asU32_toNat]; exact (asU32 dev.ip).toNat_lt
  exact Nat.lt_of_le_of_lt Nat.and_le_left h

theorem start_current (dev : EtherDev) : (HostGen.start dev).current.toNat = (networkAddr dev + 1) % 4294967296 := by
  unfold HostGen.start networkAddr
  dsimp only
  rw [UInt32.toNat_add, UInt32.toNat_and, asU32_toNat, asU32_toNat]
  rfl

theorem hostAll_start (mk : UInt32 → Bytes) (dev : EtherDev) (h : networkAddr dev ≠ 4294967295) :
    hostAll mk (HostGen.start dev) = (hostAddrs dev).map (fun n => mk (UInt32.ofNat n)) := by
  have hl := networkAddr_lt dev
  unfold hostAll hostAddrs
  rw [start_last, start_current, Nat.mod_eq_of_lt (by omega), Nat.sub_sub]

theorem hostAddrs_lt (dev : EtherDev) : ∀ n ∈ hostAddrs dev, n < 4294967296 := by
  intro n hn
  unfold hostAddrs at hn
  rw [List.mem_range'_1] at hn
  have : broadcastAddr dev < 4294967296 := by
    rw [← start_last]; exact (HostGen.start dev).last.toNat_lt
  omega

/-! ## The frames -/

theorem slice_right (a b : Bytes) (i n : Nat) : slice (a ++ b) (a.length + i) n = slice b i n := by
  unfold slice
  rw [List.drop_length_add_append]

theorem slice_all (a b : Bytes) : slice (a ++ b) 0 a.length = a := by
  unfold slice
  rw [List.drop_zero, List.take_left]

theorem field_be16 (a b : Bytes) (v : UInt16) (i : Nat) (h : a.length = i) : field (a ++ (be16 v ++ b)) i 2 = v.toNat := by
  subst h
  unfold field
  rw [show a.length = a.length + 0 from rfl, slice_right, show (2 : Nat) = (be16 v).length from rfl, slice_all,
    natBE_be16]

/-- A frame with an IPv4 packet without options. -/
theorem isIpFrame (dev : EtherDev) (mac : MacAddr) (dst : Ip4) (proto : Proto) (body : IpBody)
    (hl : bodySize body = (body.bytes (IpHeader.new dev.ip dst proto 64)).length) (hs : bodySize body < 65000) :
    IsIpFrame dev mac.octets (octets dst) proto.code.toNat
      (Frame.ipv4 dev.mac mac ⟨IpHeader.new dev.ip dst proto 64, body⟩).bytes := by
  have e : (Frame.ipv4 dev.mac mac ⟨IpHeader.new dev.ip dst proto 64, body⟩).bytes =
      mac.octets ++ dev.mac.octets ++ [0x08, 0x00] ++
      ((IpHeader.new dev.ip dst proto 64).bytes (bodySize body) ++ body.bytes (IpHeader.new dev.ip dst proto 64)) := by
    unfold Frame.bytes Frame.ipv4 EtherBody.bytes Ip.bytes
    dsimp only
    rw [ether_ip, show body.len = bodySize body by cases body <;> rfl]
  have hlen : (IpHeader.new dev.ip dst proto 64).bytes (bodySize body) =
      [0x45, 0] ++ be16 (UInt16.ofNat (20 + bodySize body)) ++ [0, 0, 0, 0, 64, proto.code] ++
      be16 (ipChecksum (IpHeader.new dev.ip dst proto 64) (bodySize body)) ++ octets dev.ip ++ octets dst := by
    unfold IpHeader.bytes ipRaw IpHeader.new
    dsimp only
    rw [show (20 + ([] : List Word).length * 4 + bodySize body) = 20 + bodySize body by simp]
    simp only [wordBytes, List.flatMap_nil, List.append_nil]
    rfl
  have hck := ip_checksum (IpHeader.new dev.ip dst proto 64) (bodySize body) (by simp [IpHeader.new])
  have hhl := ip_header_length (IpHeader.new dev.ip dst proto 64) (bodySize body)
  generalize (IpHeader.new dev.ip dst proto 64).bytes (bodySize body) = hb at *
  generalize ipChecksum (IpHeader.new dev.ip dst proto 64) (bodySize body) = c at *
  rw [e]
  generalize body.bytes (IpHeader.new dev.ip dst proto 64) = bb at *
  have hsl : slice (mac.octets ++ dev.mac.octets ++ [0x08, 0x00] ++ (hb ++ bb)) 14 20 = hb := by
    rw [show (14 : Nat) = (mac.octets ++ dev.mac.octets ++ [0x08, 0x00] : Bytes).length + 0 from rfl, slice_right,
      show 20 = hb.length by rw [hhl]; rfl, slice_all]
  refine ⟨rfl, rfl, rfl, ?_, ?_, ?_, ?_, ?_, ?_, ?_, ?_⟩
  · rw [hlen]; rfl
  · rw [hlen, show (mac.octets ++ dev.mac.octets ++ [0x08, 0x00] ++ ([0x45, 0] ++
      be16 (UInt16.ofNat (20 + bodySize body)) ++ [0, 0, 0, 0, 64, proto.code] ++ be16 c ++ octets dev.ip ++ octets dst ++
      bb) : Bytes) = (mac.octets ++ dev.mac.octets ++ [0x08, 0x00] ++ [0x45, 0] : Bytes) ++
      (be16 (UInt16.ofNat (20 + bodySize body)) ++ ([0, 0, 0, 0, 64, proto.code] ++ be16 c ++ octets dev.ip ++ octets dst ++
      bb)) by simp only [List.append_assoc]]
    rw [field_be16 _ _ _ 16 rfl, UInt16.toNat_ofNat']
    simp only [List.length_append, be16_length, octets, MacAddr.octets, List.length_cons, List.length_nil, ← hl]
    omega
  · rw [hlen]; rfl
  · rw [hlen]; rfl
  · rw [hlen]
    show 0 * 256 + proto.code.toNat = _
    omega
  · rw [hsl]; exact hck
  · rw [hlen]; rfl
  · rw [hlen]; rfl

theorem mkEcho_is (dev : EtherDev) (t : UInt32) : IsEchoRequest dev t.toNat (mkEcho dev t) := by
  have ht := t.toNat_lt
  have hb := isIpFrame dev bcast (ofU32 t) .icmp
    (.icmp (Icmp.echoRequest (t >>> 16).toUInt16 (t &&& 0xff).toUInt16 [])) rfl (by simp [bodySize, Icmp.echoRequest])
  rw [octets_ofU32] at hb
  have hid : (t >>> 16).toUInt16.toNat = t.toNat / 65536 := by
    rw [UInt32.toNat_toUInt16, shr16]; omega
  have hsq : (t &&& 0xff).toUInt16.toNat = t.toNat % 256 := by
    rw [UInt32.toNat_toUInt16, and_byte]; omega
  have hr := echo_rest (t >>> 16).toUInt16 (t &&& 0xff).toUInt16
  have hck : ChecksumOk (Icmp.echoRequest (t >>> 16).toUInt16 (t &&& 0xff).toUInt16 []).bytes := by
    rw [icmp_checksum _ (by simp [Icmp.echoRequest])]
    unfold Icmp.echoRequest
    dsimp only
    rw [hr, hsq]; omega
  have e : mkEcho dev t = (bcast.octets ++ dev.mac.octets ++ ([0x08, 0x00] : Bytes) ++
      (IpHeader.new dev.ip (ofU32 t) .icmp 64).bytes 8) ++
      (Icmp.echoRequest (t >>> 16).toUInt16 (t &&& 0xff).toUInt16 []).bytes := by
    unfold mkEcho Frame.bytes Frame.ipv4 EtherBody.bytes Ip.bytes Ip.icmp
    dsimp only
    rw [← List.append_assoc, ether_ip]
    rfl
  have hpl : (bcast.octets ++ dev.mac.octets ++ ([0x08, 0x00] : Bytes) ++
      (IpHeader.new dev.ip (ofU32 t) .icmp 64).bytes 8 : Bytes).length = 34 := by
    rw [List.length_append, ip_header_length]; rfl
  have hs : ∀ i n, slice (mkEcho dev t) (34 + i) n =
      slice (Icmp.echoRequest (t >>> 16).toUInt16 (t &&& 0xff).toUInt16 []).bytes i n := by
    intro i n
    rw [e, ← hpl, slice_right]
  rw [show bcast.octets = [255, 255, 255, 255, 255, 255] from rfl] at hb
  change IsIpFrame dev [255, 255, 255, 255, 255, 255] (ipBytes t.toNat) 1 (mkEcho dev t) at hb
  generalize hx : (Icmp.echoRequest (t >>> 16).toUInt16 (t &&& 0xff).toUInt16 []) = x at *
  have hxb : x.bytes = [8, 0] ++ be16 x.checksum ++ be32 x.rest := by
    have h1 : x.type = .echo := by rw [← hx]; rfl
    have h2 : x.code = 0 := by rw [← hx]; rfl
    have h3 : x.body = [] := by rw [← hx]; rfl
    unfold Icmp.bytes
    rw [h1, h2, h3, List.append_nil]
    rfl
  have hxr : x.rest.toNat = t.toNat / 65536 * 65536 + t.toNat % 256 := by
    rw [← hx, ← hid, ← hsq]; exact hr
  refine ⟨hb, ?_, ?_, ?_, ?_, ?_, ?_⟩
  · rw [e, List.length_append, hpl, hxb]; rfl
  · unfold field; rw [hs 0 1, hxb]; rfl
  · unfold field; rw [hs 1 1, hxb]; rfl
  · unfold field
    rw [hs 4 2, hxb]
    show natBE [UInt8.ofNat (x.rest.toNat / 16777216), UInt8.ofNat (x.rest.toNat / 65536 % 256)] = _
    rw [natBE_two, rd16_toNat, UInt8.toNat_ofNat', UInt8.toNat_ofNat']
    omega
  · unfold field
    rw [hs 6 2, hxb]
    show natBE [UInt8.ofNat (x.rest.toNat / 256 % 256), UInt8.ofNat (x.rest.toNat % 256)] = _
    rw [natBE_two, rd16_toNat, UInt8.toNat_ofNat', UInt8.toNat_ofNat']
    omega
  · rw [hs 0 8, hxb]
    rw [hxb] at hck
    exact hck

theorem synFrame_is (dev : EtherDev) (host : MacAddr × Ip4) (port : UInt16) :
    IsSyn dev host port (synFrame dev scanPort host port) := by
  have hb := isIpFrame dev host.1 host.2 .tcp (.tcp (Tcp.new scanPort port 2 [])) rfl (by simp [bodySize, Tcp.new])
  have hck := tcp_checksum (IpHeader.new dev.ip host.2 .tcp 64) (Tcp.new scanPort port 2 []) (by simp [Tcp.new])
    (by rw [tcp_bytes_length]; simp [Tcp.new])
  have e : synFrame dev scanPort host port = (host.1.octets ++ dev.mac.octets ++ ([0x08, 0x00] : Bytes) ++
      (IpHeader.new dev.ip host.2 .tcp 64).bytes 20) ++
      (Tcp.new scanPort port 2 []).bytes (IpHeader.new dev.ip host.2 .tcp 64) := by
    unfold synFrame Frame.bytes Frame.ipv4 EtherBody.bytes Ip.bytes Ip.tcp
    dsimp only
    rw [← List.append_assoc, ether_ip]
    rfl
  have hpl : (host.1.octets ++ dev.mac.octets ++ ([0x08, 0x00] : Bytes) ++
      (IpHeader.new dev.ip host.2 .tcp 64).bytes 20 : Bytes).length = 34 := by
    rw [List.length_append, ip_header_length]; rfl
  have hs : ∀ i n, slice (synFrame dev scanPort host port) (34 + i) n =
      slice ((Tcp.new scanPort port 2 []).bytes (IpHeader.new dev.ip host.2 .tcp 64)) i n := by
    intro i n
    rw [e, ← hpl, slice_right]
  have hx : (Tcp.new scanPort port 2 []).bytes (IpHeader.new dev.ip host.2 .tcp 64) =
      be16 scanPort ++ (be16 port ++ ([0, 0, 0, 0, 0, 0, 0, 0, 0x50, 2] ++ be16 8192 ++
      be16 (tcpChecksum (IpHeader.new dev.ip host.2 .tcp 64) (Tcp.new scanPort port 2 [])) ++ [0, 0])) := by
    unfold Tcp.bytes tcpRaw
    rw [show (Tcp.new scanPort port 2 []).options = [] from rfl, show (Tcp.new scanPort port 2 []).data = [] from rfl]
    simp only [wordBytes, List.flatMap_nil, List.append_nil]
    unfold Tcp.doffset Tcp.new
    dsimp only
    rw [show be32 0 = [0, 0, 0, 0] from rfl, show be16 0 = [0, 0] from rfl,
      show be16 ((5 + UInt16.ofNat ([] : List Word).length) <<< 12 ||| 2 &&& 511) = [0x50, 2] by decide]
    simp only [List.append_assoc]
    rfl
  generalize tcpChecksum (IpHeader.new dev.ip host.2 .tcp 64) (Tcp.new scanPort port 2 []) = c at hx
  generalize hg : (Tcp.new scanPort port 2 []).bytes (IpHeader.new dev.ip host.2 .tcp 64) = x at *
  have hxl : x.length = 20 := by rw [hx]; rfl
  have hxs : slice x 0 20 = x := by unfold slice; rw [List.drop_zero, ← hxl, List.take_length]
  refine ⟨hb, ?_, ?_, ?_, ?_, ?_, ?_⟩
  · rw [e, List.length_append, hpl, hxl]
  · unfold field
    rw [hs 0 2, hx]
    exact natBE_be16 scanPort
  · unfold field
    rw [hs 2 2, hx]
    exact natBE_be16 port
  · unfold field; rw [hs 12 1, hx]; rfl
  · unfold field; rw [hs 13 1, hx]; rfl
  · rw [hs 0 20, hxs]
    exact hck

end Verif.Raw
