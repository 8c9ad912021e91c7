import Verif.Lemmas.RawFrame
namespace Verif.Raw
open Verif Verif.Spec Verif.Spec.Raw

theorem at8_drop (bs : Bytes) (k i : Nat) : at8 (bs.drop k) i = at8 bs (k + i) := by
  unfold at8
  rw [List.getD_eq_getElem?_getD, List.getD_eq_getElem?_getD, List.getElem?_drop]

theorem at16_drop (bs : Bytes) (k i : Nat) : at16 (bs.drop k) i = at16 bs (k + i) := by
  rw [at16, at16, at8_drop, at8_drop, Nat.add_assoc]

theorem at32_drop (bs : Bytes) (k i : Nat) : at32 (bs.drop k) i = at32 bs (k + i) := by
  rw [at32, at32, at8_drop, at8_drop, at8_drop, at8_drop, Nat.add_assoc, Nat.add_assoc, Nat.add_assoc]

theorem atIp_drop (bs : Bytes) (k i : Nat) : atIp (bs.drop k) i = atIp bs (k + i) := by
  rw [atIp, atIp, at32_drop]

theorem at8_take (bs : Bytes) (k i : Nat) (h : i < k) : at8 (bs.take k) i = at8 bs i := by
  unfold at8
  rw [List.getD_eq_getElem?_getD, List.getD_eq_getElem?_getD, List.getElem?_take_of_lt h]

theorem drop_cons_at8 (bs : Bytes) (i : Nat) (h : i < bs.length) : bs.drop i = at8 bs i :: bs.drop (i + 1) := by
  rw [List.drop_eq_getElem_cons h]
  unfold at8
  rw [List.getD_eq_getElem?_getD, List.getElem?_eq_getElem h]
  rfl

theorem at8_field (bs : Bytes) (i : Nat) : (at8 bs i).toNat = field bs i 1 := by
  unfold field slice
  by_cases h : i < bs.length
  · rw [drop_cons_at8 bs i h]
    simp [natBE]
  · rw [List.drop_eq_nil_of_le (by omega)]
    unfold at8
    rw [List.getD_eq_getElem?_getD, List.getElem?_eq_none (by omega)]
    rfl

theorem at16_field (bs : Bytes) (i : Nat) (h : i + 2 ≤ bs.length) : (at16 bs i).toNat = field bs i 2 := by
  unfold field slice
  rw [drop_cons_at8 bs i (by omega), drop_cons_at8 bs (i + 1) (by omega)]
  simp only [List.take_succ_cons, List.take_zero]
  rw [natBE_two]; rfl

theorem atMac_field (bs : Bytes) (i : Nat) (h : i + 6 ≤ bs.length) : macNat (atMac bs i) = field bs i 6 := by
  unfold field slice
  rw [drop_cons_at8 bs i (by omega), drop_cons_at8 bs (i + 1) (by omega), drop_cons_at8 bs (i + 2) (by omega),
    drop_cons_at8 bs (i + 3) (by omega), drop_cons_at8 bs (i + 4) (by omega), drop_cons_at8 bs (i + 5) (by omega)]
  simp only [List.take_succ_cons, List.take_zero]
  rfl

theorem atIp_field (bs : Bytes) (i : Nat) (h : i + 4 ≤ bs.length) : ipNat (atIp bs i) = field bs i 4 := by
  unfold field slice
  rw [drop_cons_at8 bs i (by omega), drop_cons_at8 bs (i + 1) (by omega), drop_cons_at8 bs (i + 2) (by omega),
    drop_cons_at8 bs (i + 3) (by omega)]
  simp only [List.take_succ_cons, List.take_zero]
  rw [atIp, at32, ofU32_rd32]
  rfl

/-! ## What a frame is parsed to -/

/-- The header length of an IPv4 packet in words. -/
theorem ihl_field (f : Bytes) (k : Nat) : ((at8 (f.drop k) 0) &&& 0x0f).toNat * 4 = field f k 1 % 16 * 4 := by
  rw [and_15, at8_drop, at8_field]; rfl

/-- The parts of a frame an accepted IPv4 header is made of. -/
structure HeaderIs (f : Bytes) (h : IpHeader) : Prop where
  protocol : h.protocol = Proto.ofCode (at8 f 23)
  src : h.src = atIp f 26
  dst : h.dst = atIp f 30
  options : 20 + h.options.length * 4 = ipHeaderSize f

theorem ip_header_cases (w : Nat) (hw : w = 32 ∨ w = 64) (f : Bytes) (hl : 34 ≤ f.length) :
    (ipHeaderSize f < 20 ∧ IpHeader.parse w (f.drop 14) = .panic) ∨
    (20 ≤ ipHeaderSize f ∧ f.length < ipPayload f ∧ IpHeader.parse w (f.drop 14) = .err) ∨
    (20 ≤ ipHeaderSize f ∧ ipPayload f ≤ f.length ∧ ∃ h, IpHeader.parse w (f.drop 14) = .ok h ∧ HeaderIs f h) := by
  have hi := ihl_field f 14
  have hlt : ((at8 (f.drop 14) 0) &&& 0x0f).toNat < 16 := by rw [and_15]; omega
  have hd : (f.drop 14).length = f.length - 14 := List.length_drop
  unfold ipPayload ipHeaderSize
  unfold IpHeader.parse
  rw [if_neg (by omega)]
  dsimp only
  generalize hn : ((at8 (f.drop 14) 0) &&& 0x0f).toNat = n at *
  by_cases h5 : n < 5
  · obtain ⟨e1, e2⟩ := optionsLen_bad w hw n h5
    refine .inl ⟨by omega, ?_⟩
    rw [e1, if_neg (by omega), e2]
  · obtain ⟨e1, e2, e3⟩ := optionsLen_ok w hw n (by omega) hlt
    rw [e1, e2, e3]
    by_cases hs : f.length < 14 + field f 14 1 % 16 * 4
    · refine .inr (.inl ⟨by omega, hs, ?_⟩)
      rw [if_pos (by omega)]
    · refine .inr (.inr ⟨by omega, by omega, _, by rw [if_neg (by omega)], ?_⟩)
      refine ⟨?_, ?_, ?_, ?_⟩
      · dsimp only; rw [at8_drop]
      · dsimp only; rw [atIp_drop]
      · dsimp only; rw [atIp_drop]
      · dsimp only; rw [readWords_length]; unfold ipHeaderSize; omega

theorem icmp_cases (f : Bytes) :
    (f.length < 8 ∧ Icmp.parse f = .err) ∨ (8 ≤ f.length ∧ ∃ p, Icmp.parse f = .ok p) := by
  unfold Icmp.parse
  by_cases h : f.length < 8
  · exact .inl ⟨h, if_pos h⟩
  · exact .inr ⟨by omega, _, if_neg h⟩

theorem shr12_field (f : Bytes) (i : Nat) : (at16 f i >>> 12).toNat = field f i 1 / 16 := by
  rw [shr12, at16, rd16_toNat, ← at8_field]
  have := (at8 f (i + 1)).toNat_lt
  omega

theorem tcp_cases (w : Nat) (hw : w = 32 ∨ w = 64) (f : Bytes) (k : Nat) :
    (f.length < k + 20 ∧ Tcp.parse w (f.drop k) = .err) ∨
    (k + 20 ≤ f.length ∧ field f (k + 12) 1 / 16 * 4 < 20 ∧ Tcp.parse w (f.drop k) = .panic) ∨
    (k + 20 ≤ f.length ∧ 20 ≤ field f (k + 12) 1 / 16 * 4 ∧ f.length < k + field f (k + 12) 1 / 16 * 4 ∧
      Tcp.parse w (f.drop k) = .err) ∨
    (k + 20 ≤ f.length ∧ 20 ≤ field f (k + 12) 1 / 16 * 4 ∧ k + field f (k + 12) 1 / 16 * 4 ≤ f.length ∧
      ∃ p, Tcp.parse w (f.drop k) = .ok p ∧ p.sport = at16 f k ∧ p.dport = at16 f (k + 2)) := by
  have hd : (f.drop k).length = f.length - k := List.length_drop
  unfold Tcp.parse
  by_cases hl : f.length < k + 20
  · refine .inl ⟨hl, ?_⟩
    rw [if_pos (by omega)]
  · rw [if_neg (by omega)]
    have hn : (at16 (f.drop k) 12 >>> 12).toNat = field f (k + 12) 1 / 16 := by rw [at16_drop, shr12_field]
    have hlt : (at16 (f.drop k) 12 >>> 12).toNat < 16 := by
      rw [shr12]
      have := (at16 (f.drop k) 12).toNat_lt
      omega
    dsimp only
    generalize (at16 (f.drop k) 12 >>> 12).toNat = n at *
    by_cases h5 : n < 5
    · obtain ⟨e1, e2⟩ := optionsLen_bad w hw n h5
      refine .inr (.inl ⟨by omega, by omega, ?_⟩)
      rw [e1, if_neg (by omega), e2]
    · obtain ⟨e1, e2, e3⟩ := optionsLen_ok w hw n (by omega) hlt
      rw [e1, e2, e3]
      by_cases hs : f.length < k + 4 * n
      · refine .inr (.inr (.inl ⟨by omega, by omega, by omega, ?_⟩))
        rw [if_pos (by omega)]
      · refine .inr (.inr (.inr ⟨by omega, by omega, by omega, _, by rw [if_neg (by omega)], ?_, ?_⟩))
        · dsimp only; rw [at16_drop]; rfl
        · dsimp only; rw [at16_drop]

theorem proto_ofCode (c : UInt8) :
    (c.toNat = 1 ∧ Proto.ofCode c = .icmp) ∨ (c.toNat = 6 ∧ Proto.ofCode c = .tcp) ∨
    (c.toNat ≠ 1 ∧ c.toNat ≠ 6 ∧ (Proto.ofCode c = .udp ∨ Proto.ofCode c = .unknown c)) := by
  unfold Proto.ofCode
  have key : ∀ d : UInt8, (c = d) ↔ c.toNat = d.toNat := fun d => UInt8.toNat_inj.symm
  by_cases h1 : c = 1
  · exact .inl ⟨(key 1).mp h1, if_pos h1⟩
  · rw [if_neg h1]
    by_cases h2 : c = 6
    · exact .inr (.inl ⟨(key 6).mp h2, if_pos h2⟩)
    · rw [if_neg h2]
      refine .inr (.inr ⟨fun h => h1 ((key 1).mpr h), fun h => h2 ((key 6).mpr h), ?_⟩)
      split
      · exact .inl rfl
      · exact .inr rfl

theorem ether_ofCode (c : UInt16) :
    (c.toNat = 0x0806 ∧ EtherType.ofCode c = .arp) ∨ (c.toNat = 0x0800 ∧ EtherType.ofCode c = .ipv4) ∨
    (c.toNat ≠ 0x0806 ∧ c.toNat ≠ 0x0800 ∧ EtherType.ofCode c = .unknown c) := by
  unfold EtherType.ofCode
  have key : ∀ d : UInt16, (c = d) ↔ c.toNat = d.toNat := fun d => UInt16.toNat_inj.symm
  by_cases h1 : c = 0x0806
  · exact .inl ⟨(key _).mp h1, if_pos h1⟩
  · rw [if_neg h1]
    by_cases h2 : c = 0x0800
    · exact .inr (.inl ⟨(key _).mp h2, if_pos h2⟩)
    · rw [if_neg h2]
      exact .inr (.inr ⟨fun h => h1 ((key _).mpr h), fun h => h2 ((key _).mpr h), rfl⟩)

/-- What an accepted frame contains. -/
def BodyIs (f : Bytes) : EtherBody → Prop
  | .arp p => HasType f 0x0806 ∧ p.hlen = at8 f 18 ∧ p.plen = at8 f 19 ∧ p.oper = ArpOp.ofCode (at16 f 20) ∧
      p.sha = slice f 22 (at8 f 18).toNat ∧ p.spa = slice f (22 + (at8 f 18).toNat) (at8 f 19).toNat ∧
      22 + 2 * (at8 f 18).toNat + 2 * (at8 f 19).toNat ≤ f.length
  | .ip p => GoodIp f ∧ p.header.src = atIp f 26 ∧ p.header.dst = atIp f 30 ∧
      match p.body with
      | .tcp t => ipProtocol f = 6 ∧ ipPayload f + 20 ≤ f.length ∧ t.sport = at16 f (ipPayload f) ∧
          t.dport = at16 f (ipPayload f + 2)
      | .icmp _ => ipProtocol f = 1
      | .raw _ => ipProtocol f ≠ 1 ∧ ipProtocol f ≠ 6
  | .raw bs => etherType f ≠ 0x0806 ∧ etherType f ≠ 0x0800 ∧ bs = f.drop 14

/-- The three outcomes of parsing a frame. -/
def Outcome (w : Nat) (f : Bytes) : Prop :=
  (Truncated f ∧ ¬ (BadIpHeaderLength f ∨ BadTcpDataOffset f) ∧ Frame.parse w f = .err) ∨
  (¬ Truncated f ∧ (BadIpHeaderLength f ∨ BadTcpDataOffset f) ∧ Frame.parse w f = .panic) ∨
  (¬ Truncated f ∧ ¬ (BadIpHeaderLength f ∨ BadTcpDataOffset f) ∧ ∃ fr, Frame.parse w f = .ok fr ∧
    fr.header = ⟨atMac f 6, atMac f 0, at16 f 12⟩ ∧ BodyIs f fr.body)

theorem header_take (f : Bytes) : EtherHeader.parse (f.take 14) = ⟨atMac f 6, atMac f 0, at16 f 12⟩ := by
  unfold EtherHeader.parse atMac at16
  simp only [at8_take f 14 _ (by decide : 0 < 14), at8_take f 14 _ (by decide : 1 < 14),
    at8_take f 14 _ (by decide : 2 < 14), at8_take f 14 _ (by decide : 3 < 14), at8_take f 14 _ (by decide : 4 < 14),
    at8_take f 14 _ (by decide : 5 < 14), at8_take f 14 _ (by decide : 6 < 14), at8_take f 14 _ (by decide : 7 < 14),
    at8_take f 14 _ (by decide : 8 < 14), at8_take f 14 _ (by decide : 9 < 14), at8_take f 14 _ (by decide : 10 < 14),
    at8_take f 14 _ (by decide : 11 < 14), at8_take f 14 _ (by decide : 12 < 14), at8_take f 14 _ (by decide : 13 < 14)]

theorem arp_outcome (w : Nat) (f : Bytes) (ht : HasType f 0x0806)
    (he : Frame.parse w f = (match Arp.parse (f.drop 14) with
      | .ok p => .ok ⟨⟨atMac f 6, atMac f 0, at16 f 12⟩, .arp p⟩
      | .err => .err
      | .panic => .panic)) : Outcome w f := by
  have hd : (f.drop 14).length = f.length - 14 := List.length_drop
  have hnb : ¬ (BadIpHeaderLength f ∨ BadTcpDataOffset f) := by
    rintro (⟨⟨_, h⟩, _⟩ | ⟨⟨⟨_, h⟩, _⟩, _⟩)
    · exact absurd (ht.2.symm.trans h) (by decide)
    · exact absurd (ht.2.symm.trans h) (by decide)
  have e18 : (at8 (f.drop 14) 4).toNat = field f 18 1 := by rw [at8_drop, at8_field]
  have e19 : (at8 (f.drop 14) 5).toNat = field f 19 1 := by rw [at8_drop, at8_field]
  unfold Arp.parse at he
  by_cases h1 : f.length < 22
  · rw [if_pos (by have := ht.1; omega)] at he
    exact .inl ⟨.arpHeader ht h1, hnb, he⟩
  · rw [if_neg (by omega)] at he
    dsimp only at he
    by_cases h2 : f.length < 22 + 2 * field f 18 1 + 2 * field f 19 1
    · rw [if_pos (by omega)] at he
      exact .inl ⟨.arpAddresses ht h2, hnb, he⟩
    · rw [if_neg (by omega)] at he
      refine .inr (.inr ⟨?_, hnb, _, he, rfl, ?_⟩)
      · intro hT
        cases hT with
        | ethernet h => omega
        | arpHeader _ h => omega
        | arpAddresses _ h => omega
        | ipHeader h _ => exact absurd (ht.2.symm.trans h.2) (by decide)
        | ipOptions h _ _ => exact absurd (ht.2.symm.trans h.2) (by decide)
        | icmp h _ _ => exact absurd (ht.2.symm.trans h.1.2) (by decide)
        | tcp h _ _ => exact absurd (ht.2.symm.trans h.1.2) (by decide)
        | tcpOptions h _ _ _ => exact absurd (ht.2.symm.trans h.1.2) (by decide)
      · refine ⟨ht, ?_, ?_, ?_, ?_, ?_, ?_⟩
        · dsimp only; rw [at8_drop]
        · dsimp only; rw [at8_drop]
        · dsimp only; rw [at16_drop]
        · dsimp only; rw [List.drop_drop, at8_drop]; rfl
        · dsimp only
          rw [List.drop_drop, at8_drop, at8_drop, slice]
          rw [show 14 + (8 + (at8 f (14 + 4)).toNat) = 22 + (at8 f 18).toNat by
            rw [show 14 + 4 = 18 from rfl]; omega]
        · rw [at8_field, at8_field]; omega

theorem not_truncated_ip (f : Bytes) (ht : HasType f 0x0800) (hl : 34 ≤ f.length)
    (ho : 20 ≤ ipHeaderSize f → ipPayload f ≤ f.length)
    (hi : GoodIp f → ipProtocol f = 1 → ipPayload f + 8 ≤ f.length)
    (hc : GoodIp f → ipProtocol f = 6 → ipPayload f + 20 ≤ f.length ∧
      (20 ≤ tcpHeaderSize f → ipPayload f + tcpHeaderSize f ≤ f.length)) : ¬ Truncated f := by
  intro hT
  cases hT with
  | ethernet h => omega
  | arpHeader h _ => exact absurd (ht.2.symm.trans h.2) (by decide)
  | arpAddresses h _ => exact absurd (ht.2.symm.trans h.2) (by decide)
  | ipHeader _ h => omega
  | ipOptions _ h1 h2 => have := ho h1; omega
  | icmp h1 h2 h3 => have := hi h1 h2; omega
  | tcp h1 h2 h3 => have := (hc h1 h2).1; omega
  | tcpOptions h1 h2 h3 h4 => have := (hc h1 h2).2 h3; omega

theorem ip_outcome (w : Nat) (hw : w = 32 ∨ w = 64) (f : Bytes) (ht : HasType f 0x0800)
    (he : Frame.parse w f = (match Ip.parse w (f.drop 14) with
      | .ok p => .ok ⟨⟨atMac f 6, atMac f 0, at16 f 12⟩, .ip p⟩
      | .err => .err
      | .panic => .panic)) : Outcome w f := by
  have hd : (f.drop 14).length = f.length - 14 := List.length_drop
  have h14 := ht.1
  unfold Ip.parse at he
  by_cases hl : f.length < 34
  · rw [if_pos (by omega)] at he
    refine .inl ⟨.ipHeader ht hl, ?_, he⟩
    rintro (⟨_, h, _⟩ | ⟨⟨_, h, _⟩, _⟩) <;> omega
  rw [if_neg (by omega)] at he
  rcases ip_header_cases w hw f (by omega) with ⟨hs, hp⟩ | ⟨hs, hs', hp⟩ | ⟨hs, hs', h, hp, hh⟩
  · rw [hp] at he
    dsimp only at he
    refine .inr (.inl ⟨?_, .inl ⟨ht, by omega, hs⟩, he⟩)
    exact not_truncated_ip f ht (by omega) (fun h => by omega) (fun h => absurd h.2.2.1 (by omega))
      (fun h => absurd h.2.2.1 (by omega))
  · rw [hp] at he
    dsimp only at he
    refine .inl ⟨.ipOptions ht hs hs', ?_, he⟩
    rintro (⟨_, _, h⟩ | ⟨⟨_, _, _, h⟩, _⟩) <;> omega
  · rw [hp] at he
    dsimp only at he
    have hg : GoodIp f := ⟨ht, by omega, hs, hs'⟩
    have hnb : ¬ BadIpHeaderLength f := fun h => absurd h.2.2 (by omega)
    have eo : 14 + (20 + h.options.length * 4) = ipPayload f := by have := hh.options; unfold ipPayload; omega
    rw [List.drop_drop, eo] at he
    unfold parseIpBody at he
    have h23 : (at8 f 23).toNat = ipProtocol f := at8_field f 23
    rw [hh.protocol] at he
    have hdp : (f.drop (ipPayload f)).length = f.length - ipPayload f := List.length_drop
    rcases proto_ofCode (at8 f 23) with ⟨hn, hpr⟩ | ⟨hn, hpr⟩ | ⟨hn1, hn6, hpr⟩
    · rw [h23] at hn
      have hnt : ¬ BadTcpDataOffset f := fun h => absurd (h.2.1.symm.trans hn) (by decide)
      rw [hpr] at he
      dsimp only at he
      rcases icmp_cases (f.drop (ipPayload f)) with ⟨hi, hie⟩ | ⟨hi, p, hie⟩
      · rw [hie] at he
        dsimp only at he
        exact .inl ⟨.icmp hg hn (by omega), fun h => h.elim hnb hnt, he⟩
      · rw [hie] at he
        dsimp only at he
        refine .inr (.inr ⟨?_, fun h => h.elim hnb hnt, _, he, rfl, hg, hh.src, hh.dst, hn⟩)
        exact not_truncated_ip f ht (by omega) (fun _ => hs') (fun _ _ => by omega)
          (fun _ h => absurd (h.symm.trans hn) (by decide))
    · rw [h23] at hn
      rw [hpr] at he
      dsimp only at he
      have hni : GoodIp f → ipProtocol f = 1 → ipPayload f + 8 ≤ f.length :=
        fun _ h => absurd (h.symm.trans hn) (by decide)
      rcases tcp_cases w hw f (ipPayload f) with ⟨h1, ht1⟩ | ⟨h1, h2, ht1⟩ | ⟨h1, h2, h3, ht1⟩ | ⟨h1, h2, h3, p, ht1, h4⟩
      · rw [ht1] at he
        dsimp only at he
        exact .inl ⟨.tcp hg hn h1, fun h => h.elim hnb (fun h => absurd h.2.2.1 (by omega)), he⟩
      · rw [ht1] at he
        dsimp only at he
        refine .inr (.inl ⟨?_, .inr ⟨hg, hn, h1, h2⟩, he⟩)
        exact not_truncated_ip f ht (by omega) (fun _ => hs') hni
          (fun _ _ => ⟨h1, fun h => absurd (show tcpHeaderSize f < 20 from h2) (by omega)⟩)
      · rw [ht1] at he
        dsimp only at he
        refine .inl ⟨.tcpOptions hg hn h2 h3, fun h => h.elim hnb (fun h => ?_), he⟩
        have h5 : tcpHeaderSize f < 20 := h.2.2.2
        have h6 : 20 ≤ tcpHeaderSize f := h2
        omega
      · rw [ht1] at he
        dsimp only at he
        refine .inr (.inr ⟨?_, fun h => h.elim hnb (fun h => ?_), _, he, rfl, hg, hh.src, hh.dst, hn, h1, h4⟩)
        · exact not_truncated_ip f ht (by omega) (fun _ => hs') hni (fun _ _ => ⟨h1, fun _ => h3⟩)
        · have h5 : tcpHeaderSize f < 20 := h.2.2.2
          have h6 : 20 ≤ tcpHeaderSize f := h2
          omega
    · rw [h23] at hn1 hn6
      have hnt : ¬ BadTcpDataOffset f := fun h => hn6 h.2.1
      have he' : Frame.parse w f = .ok ⟨⟨atMac f 6, atMac f 0, at16 f 12⟩, .ip ⟨h, .raw (f.drop (ipPayload f))⟩⟩ := by
        rcases hpr with hpr | hpr <;> rw [hpr] at he <;> exact he
      refine .inr (.inr ⟨?_, fun h => h.elim hnb hnt, _, he', rfl, hg, hh.src, hh.dst, hn1, hn6⟩)
      exact not_truncated_ip f ht (by omega) (fun _ => hs') (fun _ h => absurd h hn1) (fun _ h => absurd h hn6)

theorem frame_outcome (w : Nat) (hw : w = 32 ∨ w = 64) (f : Bytes) : Outcome w f := by
  by_cases h14 : f.length < 14
  · have he : Frame.parse w f = .err := by rw [Frame.parse, if_pos h14]
    refine .inl ⟨.ethernet h14, ?_, he⟩
    rintro (⟨⟨h, _⟩, _⟩ | ⟨⟨⟨h, _⟩, _⟩, _⟩) <;> omega
  have he : Frame.parse w f = parseEtherBody w ⟨atMac f 6, atMac f 0, at16 f 12⟩ (f.drop 14) := by
    rw [Frame.parse, if_neg h14, header_take]
  have ht : (at16 f 12).toNat = etherType f := at16_field f 12 (by omega)
  unfold parseEtherBody at he
  dsimp only at he
  rcases ether_ofCode (at16 f 12) with ⟨h1, h2⟩ | ⟨h1, h2⟩ | ⟨h1, h1', h2⟩
  · rw [h2] at he
    exact arp_outcome w f ⟨by omega, ht.symm.trans h1⟩ he
  · rw [h2] at he
    exact ip_outcome w hw f ⟨by omega, ht.symm.trans h1⟩ he
  · rw [h2] at he
    rw [ht] at h1 h1'
    refine .inr (.inr ⟨?_, ?_, _, he, rfl, h1, h1', rfl⟩)
    · intro hT
      cases hT with
      | ethernet h => omega
      | arpHeader h _ => exact h1 h.2
      | arpAddresses h _ => exact h1 h.2
      | ipHeader h _ => exact h1' h.2
      | ipOptions h _ _ => exact h1' h.2
      | icmp h _ _ => exact h1' h.1.2
      | tcp h _ _ => exact h1' h.1.2
      | tcpOptions h _ _ _ => exact h1' h.1.2
    · rintro (⟨h, _⟩ | ⟨⟨h, _⟩, _⟩)
      · exact h1' h.2
      · exact h1' h.2

end Verif.Raw
