import Verif.Lemmas.RawSums
namespace Verif.Raw
open Verif Verif.Spec Verif.Spec.Raw

theorem readWords_wordBytes (ws : List Word) (rest : Bytes) : readWords ws.length (wordBytes ws ++ rest) = ws := by
  induction ws with
  | nil => rfl
  | cons x ws ih =>
    rw [wordBytes, List.flatMap_cons, ← wordBytes, List.length_cons, readWords]
    simp only [List.cons_append, List.nil_append, List.drop_succ_cons, List.drop_zero, at8, List.getD_cons_zero,
      List.getD_cons_succ, ih]

theorem readWords_length (n : Nat) : ∀ bs, (readWords n bs).length = n := by
  induction n with
  | zero => intro bs; rfl
  | succ n ih => intro bs; rw [readWords, List.length_cons, ih]

theorem ofU32_rd32 (a b c d : UInt8) : ofU32 (rd32 a b c d) = ⟨a, b, c, d⟩ := by
  have := be32_rd32 a b c d
  simp only [be32, List.cons.injEq, and_true] at this
  simp only [ofU32, this]

theorem ArpOp.code_inv (o : ArpOp) (h : ArpOpOk o) : ArpOp.ofCode o.code = o := by
  cases o with
  | request => rfl
  | reply => rfl
  | unknown op =>
    obtain ⟨h1, h2⟩ := h
    rw [ArpOp.code, ArpOp.ofCode, if_neg h1, if_neg h2]

/-- The four addresses of an ARP packet. -/
theorem slices (a b c d pad : Bytes) (h : Nat) (p : Nat) (ha : a.length = h) (hb : b.length = p) (hc : c.length = h)
    (hd : d.length = p) :
    let l := a ++ (b ++ (c ++ (d ++ pad)))
    l.take h = a ∧ (l.drop h).take p = b ∧ (l.drop (h + p)).take h = c ∧ (l.drop (h + p + h)).take p = d := by
  subst ha hb
  refine ⟨?_, ?_, ?_, ?_⟩
  · simp
  · simp
  · rw [← List.drop_drop, List.drop_left, List.drop_left, ← hc, List.take_left]
  · rw [← List.drop_drop, ← List.drop_drop, List.drop_left, List.drop_left, ← hc, List.drop_left, ← hd, List.take_left]

theorem arp_roundtrip (p : Arp) (h : ArpOk p) (pad : Bytes) : Arp.parse (p.bytes ++ pad) = .ok p := by
  obtain ⟨h1, h2, h3, h4⟩ := slices p.sha p.spa p.tha p.tpa pad _ _ h.sha h.spa h.tha h.tpa
  have e : p.bytes ++ pad = UInt8.ofNat (p.htype.toNat / 256) :: UInt8.ofNat (p.htype.toNat % 256) ::
      UInt8.ofNat (p.ptype.toNat / 256) :: UInt8.ofNat (p.ptype.toNat % 256) :: p.hlen :: p.plen ::
      UInt8.ofNat (p.oper.code.toNat / 256) :: UInt8.ofNat (p.oper.code.toNat % 256) ::
      (p.sha ++ (p.spa ++ (p.tha ++ (p.tpa ++ pad)))) := by
    simp only [Arp.bytes, be16, List.append_assoc, List.cons_append, List.nil_append]
  have hl : (p.bytes ++ pad).length = 8 + p.hlen.toNat * 2 + p.plen.toNat * 2 + pad.length := by
    rw [e]
    simp only [List.length_cons, List.length_append, h.sha, h.spa, h.tha, h.tpa]
    omega
  unfold Arp.parse
  rw [if_neg (by omega)]
  rw [e] at hl ⊢
  generalize hg : p.sha ++ (p.spa ++ (p.tha ++ (p.tpa ++ pad))) = l at *
  simp only [at8, at16, List.getD_cons_zero, List.getD_cons_succ]
  rw [if_neg (by omega), rd16_be16, rd16_be16, rd16_be16, p.oper.code_inv h.op]
  have d8 : ∀ n, (UInt8.ofNat (p.htype.toNat / 256) :: UInt8.ofNat (p.htype.toNat % 256) ::
      UInt8.ofNat (p.ptype.toNat / 256) :: UInt8.ofNat (p.ptype.toNat % 256) :: p.hlen :: p.plen ::
      UInt8.ofNat (p.oper.code.toNat / 256) :: UInt8.ofNat (p.oper.code.toNat % 256) :: l).drop (8 + n) = l.drop n := by
    intro n
    rw [← List.drop_drop]
    rfl
  rw [show (8 : Nat) = 8 + 0 from rfl, d8, show 8 + 0 + p.hlen.toNat = 8 + p.hlen.toNat from rfl, d8,
    Nat.add_assoc 8, d8, Nat.add_assoc 8, d8]
  rw [List.drop_zero, h1, h2, h3, h4]

/-! ## ICMP -/

theorem IcmpType.code_inv (p : Icmp) (h : IcmpOk p) : IcmpType.ofCode p.type.code = p.type := by
  unfold IcmpOk at h
  cases ht : p.type with
  | echo => rfl
  | echoReply => rfl
  | unknown t =>
    rw [ht] at h
    rw [IcmpType.code, IcmpType.ofCode, if_neg h.1, if_neg h.2]

theorem icmp_roundtrip (p : Icmp) (h : IcmpOk p) (pad : Bytes) :
    Icmp.parse (p.bytes ++ pad) = .ok { p with body := p.body ++ pad } := by
  have e : p.bytes ++ pad = p.type.code :: p.code :: UInt8.ofNat (p.checksum.toNat / 256) ::
      UInt8.ofNat (p.checksum.toNat % 256) :: UInt8.ofNat (p.rest.toNat / 16777216) ::
      UInt8.ofNat (p.rest.toNat / 65536 % 256) :: UInt8.ofNat (p.rest.toNat / 256 % 256) ::
      UInt8.ofNat (p.rest.toNat % 256) :: (p.body ++ pad) := by
    simp only [Icmp.bytes, be16, be32, List.append_assoc, List.cons_append, List.nil_append]
  unfold Icmp.parse
  rw [e, if_neg (by simp only [List.length_cons]; omega)]
  simp only [at8, at32, List.getD_cons_zero, List.getD_cons_succ, List.drop_succ_cons, List.drop_zero]
  rw [rd32_be32, IcmpType.code_inv p h]

/-! ## Option lengths -/

theorem width (w : Nat) (hw : w = 32 ∨ w = 64) : 4294967296 ≤ 2 ^ w ∧ 2147483648 ≤ 2 ^ (w - 1) ∧ 2 * 2 ^ (w - 1) = 2 ^ w := by
  rcases hw with rfl | rfl <;> decide

/-- A header length of at least five words. -/
theorem optionsLen_ok (w : Nat) (hw : w = 32 ∨ w = 64) (n : Nat) (h5 : 5 ≤ n) (h : n < 16) :
    (2 ^ w + n - 5) % 2 ^ w = n - 5 ∧ (20 + (n - 5) * 4) % 2 ^ w = 4 * n ∧
      ∀ bs, vecWords w bs (n - 5) = .ok (readWords (n - 5) bs) := by
  obtain ⟨h1, h2, h3⟩ := width w hw
  refine ⟨?_, ?_, ?_⟩
  · rw [show 2 ^ w + n - 5 = (n - 5) + 2 ^ w by omega, Nat.add_mod_right, Nat.mod_eq_of_lt (by omega)]
  · rw [Nat.mod_eq_of_lt (by omega)]; omega
  · intro bs
    rw [vecWords, if_neg (by omega)]

/-- A shorter header length: the number of options wraps around to a number that cannot be allocated. -/
theorem optionsLen_bad (w : Nat) (hw : w = 32 ∨ w = 64) (n : Nat) (h5 : n < 5) :
    (20 + (2 ^ w + n - 5) % 2 ^ w * 4) % 2 ^ w = 4 * n ∧ ∀ bs, vecWords w bs ((2 ^ w + n - 5) % 2 ^ w) = .panic := by
  obtain ⟨h1, h2, h3⟩ := width w hw
  rw [Nat.mod_eq_of_lt (show 2 ^ w + n - 5 < 2 ^ w by omega)]
  constructor
  · rw [show 20 + (2 ^ w + n - 5) * 4 = 4 * n + 2 ^ w * 4 by omega, Nat.add_mul_mod_self_left,
      Nat.mod_eq_of_lt (by omega)]
  · intro bs
    rw [vecWords, if_pos (by omega)]

/-! ## TCP -/

theorem shr12 (v : UInt16) : (v >>> 12).toNat = v.toNat / 4096 := by
  rw [UInt16.toNat_shiftRight, show ((12 : UInt16).toNat % 16) = 12 from rfl, Nat.shiftRight_eq_div_pow]

theorem and_511 (v : UInt16) : (v &&& 0x01ff).toNat = v.toNat % 512 := by
  rw [UInt16.toNat_and]; exact Nat.and_two_pow_sub_one_eq_mod v.toNat 9

theorem tcp_roundtrip (w : Nat) (hw : w = 32 ∨ w = 64) (iph : IpHeader) (p : Tcp) (h : TcpOk p) (pad : Bytes) :
    Tcp.parse w (p.bytes iph ++ pad) = .ok { p with uptr := 0, data := p.data ++ pad } := by
  obtain ⟨hf, ho⟩ := h
  have hd := doffset_toNat p ho
  have hx := doffset_flags_toNat p.doffset p.flags
  generalize hg : (p.doffset <<< 12) ||| (p.flags &&& 0x01ff) = x at hx
  have e : p.bytes iph ++ pad = UInt8.ofNat (p.sport.toNat / 256) :: UInt8.ofNat (p.sport.toNat % 256) ::
      UInt8.ofNat (p.dport.toNat / 256) :: UInt8.ofNat (p.dport.toNat % 256) ::
      UInt8.ofNat (p.seq.toNat / 16777216) :: UInt8.ofNat (p.seq.toNat / 65536 % 256) ::
      UInt8.ofNat (p.seq.toNat / 256 % 256) :: UInt8.ofNat (p.seq.toNat % 256) ::
      UInt8.ofNat (p.ack.toNat / 16777216) :: UInt8.ofNat (p.ack.toNat / 65536 % 256) ::
      UInt8.ofNat (p.ack.toNat / 256 % 256) :: UInt8.ofNat (p.ack.toNat % 256) ::
      UInt8.ofNat (x.toNat / 256) :: UInt8.ofNat (x.toNat % 256) ::
      UInt8.ofNat (p.wsize.toNat / 256) :: UInt8.ofNat (p.wsize.toNat % 256) ::
      UInt8.ofNat ((tcpChecksum iph p).toNat / 256) :: UInt8.ofNat ((tcpChecksum iph p).toNat % 256) ::
      UInt8.ofNat ((0 : UInt16).toNat / 256) :: UInt8.ofNat ((0 : UInt16).toNat % 256) ::
      (wordBytes p.options ++ (p.data ++ pad)) := by
    simp only [Tcp.bytes, tcpRaw, hg, be16, be32, List.append_assoc, List.cons_append, List.nil_append]
  generalize tcpChecksum iph p = c at e
  have hl : (p.bytes iph ++ pad).length = 20 + 4 * p.options.length + p.data.length + pad.length := by
    rw [List.length_append, tcp_bytes_length]
  have hdo : (x >>> 12).toNat = 5 + p.options.length := by rw [shr12]; omega
  obtain ⟨h1, h2, h3⟩ := optionsLen_ok w hw (5 + p.options.length) (by omega) (by omega)
  rw [show 5 + p.options.length - 5 = p.options.length by omega] at h1 h2 h3
  have hfl : x &&& 0x01ff = p.flags := by
    apply UInt16.toNat_inj.mp
    rw [and_511, hx]; omega
  unfold Tcp.parse
  rw [if_neg (by omega)]
  have ea : at16 (p.bytes iph ++ pad) 12 = x := by
    rw [e]
    simp only [at8, at16, List.getD_cons_zero, List.getD_cons_succ]
    rw [rd16_be16]
  dsimp only
  rw [ea, hdo, h1, h2, if_neg (by omega), h3]
  dsimp only
  rw [e, hfl]
  simp only [at8, at16, at32, List.getD_cons_zero, List.getD_cons_succ]
  simp only [rd16_be16, rd32_be32]
  congr 2
  · rw [show (20 : Nat) = 20 from rfl]
    simp only [List.drop_succ_cons, List.drop_zero]
    exact readWords_wordBytes _ _
  · rw [show 4 * (5 + p.options.length) = 20 + 4 * p.options.length by omega, ← List.drop_drop]
    simp only [List.drop_succ_cons, List.drop_zero]
    rw [← wordBytes_length, List.drop_left]

end Verif.Raw
