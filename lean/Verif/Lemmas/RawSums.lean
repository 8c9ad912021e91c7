import Verif.Lemmas.RawSum
namespace Verif.Raw
open Verif Verif.Spec Verif.Spec.Raw

/-! ## Bit fields -/

theorem or_low (a b k : Nat) (h : b < 2 ^ k) : (a * 2 ^ k) ||| b = a * 2 ^ k + b := by
  rw [← Nat.shiftLeft_eq, Nat.shiftLeft_add_eq_or_of_lt h]

theorem and_mask (a k : Nat) : a &&& (2 ^ k - 1) = a % 2 ^ k := Nat.and_two_pow_sub_one_eq_mod a k

theorem vihl_toNat (v i : UInt8) : ((v <<< 4) ||| (i &&& 0x0f)).toNat = v.toNat % 16 * 16 + i.toNat % 16 := by
  have := v.toNat_lt
  rw [UInt8.toNat_or, UInt8.toNat_shiftLeft, UInt8.toNat_and, show ((4 : UInt8).toNat % 8) = 4 from rfl,
    show (0x0f : UInt8).toNat = 2 ^ 4 - 1 from rfl, and_mask, Nat.shiftLeft_eq,
    show v.toNat * 2 ^ 4 % 2 ^ 8 = v.toNat % 16 * 2 ^ 4 by omega, or_low _ _ _ (by omega)]

theorem dscp_toNat (v i : UInt8) : ((v <<< 2) ||| (i &&& 0x03)).toNat = v.toNat % 64 * 4 + i.toNat % 4 := by
  have := v.toNat_lt
  rw [UInt8.toNat_or, UInt8.toNat_shiftLeft, UInt8.toNat_and, show ((2 : UInt8).toNat % 8) = 2 from rfl,
    show (0x03 : UInt8).toNat = 2 ^ 2 - 1 from rfl, and_mask, Nat.shiftLeft_eq,
    show v.toNat * 2 ^ 2 % 2 ^ 8 = v.toNat % 64 * 2 ^ 2 by omega, or_low _ _ _ (by omega)]

theorem foffset_toNat (f : UInt8) (o : UInt16) :
    ((f.toUInt16 <<< 13) ||| (o &&& 0x1fff)).toNat = f.toNat % 8 * 8192 + o.toNat % 8192 := by
  have := f.toNat_lt
  rw [UInt16.toNat_or, UInt16.toNat_shiftLeft, UInt16.toNat_and, UInt8.toNat_toUInt16,
    show ((13 : UInt16).toNat % 16) = 13 from rfl,
    show (0x1fff : UInt16).toNat = 2 ^ 13 - 1 from rfl, and_mask, Nat.shiftLeft_eq,
    show f.toNat * 2 ^ 13 % 2 ^ 16 = f.toNat % 8 * 2 ^ 13 by omega, or_low _ _ _ (by omega)]

theorem doffset_flags_toNat (d f : UInt16) :
    ((d <<< 12) ||| (f &&& 0x01ff)).toNat = d.toNat % 16 * 4096 + f.toNat % 512 := by
  have := d.toNat_lt
  rw [UInt16.toNat_or, UInt16.toNat_shiftLeft, UInt16.toNat_and,
    show ((12 : UInt16).toNat % 16) = 12 from rfl,
    show (0x01ff : UInt16).toNat = 2 ^ 9 - 1 from rfl, and_mask, Nat.shiftLeft_eq,
    show d.toNat * 2 ^ 12 % 2 ^ 16 = d.toNat % 16 * 2 ^ 12 by omega, or_low _ _ _ (by omega)]

theorem doffset_toNat (p : Tcp) (h : p.options.length ≤ 10) : p.doffset.toNat = 5 + p.options.length := by
  rw [Tcp.doffset, UInt16.toNat_add, UInt16.toNat_ofNat', show (5 : UInt16).toNat = 5 from rfl]
  omega

/-! ## IPv4 -/

theorem ipRaw_length (ip : IpHeader) (d : Nat) (c : UInt16) : (ipRaw ip d c).length = 20 := rfl

/-- The words of the header apart from the checksum. -/
theorem ipRaw_wsum (ip : IpHeader) (d : Nat) (c : UInt16) : wsum (ipRaw ip d c) = wsum (ipRaw ip d 0) + c.toNat := by
  unfold ipRaw
  rw [wsum_append _ (octets ip.dst) (by simp [octets]), wsum_append _ (octets ip.src) (by simp [octets]), wsum_append _ (be16 c) (by simp [octets]),
    wsum_append _ (octets ip.dst) (by simp [octets]), wsum_append _ (octets ip.src) (by simp [octets]), wsum_append _ (be16 0) (by simp [octets]), wsum_be16,
    wsum_be16, show (0 : UInt16).toNat = 0 from rfl]
  omega

theorem ip_checksum (ip : IpHeader) (d : Nat) (h : ip.options.length ≤ 10) : ChecksumOk (ip.bytes d) := by
  apply checksum_valid (sumBe (ipRaw ip d 0) + sumBe (wordBytes ip.options))
  rw [IpHeader.bytes, wsum_append _ _ (by rw [ipRaw_length]), ipRaw_wsum]
  rw [show checksumOf (sumBe (ipRaw ip d 0) + sumBe (wordBytes ip.options)) = ipChecksum ip d from rfl]
  have h1 := wsum_le (ipRaw ip d 0)
  have h2 := wsum_le (wordBytes ip.options)
  rw [ipRaw_length] at h1
  rw [wordBytes_length] at h2
  rw [UInt32.toNat_add, sumBe_toNat, sumBe_toNat]
  omega

/-! ## TCP -/

theorem tcpRaw_length (p : Tcp) (c : UInt16) : (tcpRaw p c).length = 20 := rfl

theorem tcpRaw_wsum (p : Tcp) (c : UInt16) : wsum (tcpRaw p c) = wsum (tcpRaw p 0) + c.toNat := by
  unfold tcpRaw
  rw [wsum_append _ (be16 0) (by simp [octets]), wsum_append _ (be16 c) (by simp [octets]), wsum_append _ (be16 0) (by simp [octets]), wsum_append _ (be16 0) (by simp [octets]),
    wsum_be16 c, wsum_be16 0, show (0 : UInt16).toNat = 0 from rfl]
  omega

theorem tcp_bytes_length (iph : IpHeader) (p : Tcp) : (p.bytes iph).length = 20 + 4 * p.options.length + p.data.length := by
  rw [Tcp.bytes, List.length_append, List.length_append, tcpRaw_length, wordBytes_length]

theorem tcp_checksum (iph : IpHeader) (p : Tcp) (h : p.options.length ≤ 10) (hl : (p.bytes iph).length < 65536) :
    ChecksumOk (pseudo iph.src iph.dst iph.protocol.code (p.bytes iph) ++ p.bytes iph) := by
  have hlen := tcp_bytes_length iph p
  have hd := doffset_toNat p h
  have e4 : ((p.doffset <<< 2) + UInt16.ofNat p.data.length).toNat = (p.bytes iph).length := by
    rw [UInt16.toNat_add, UInt16.toNat_shiftLeft, UInt16.toNat_ofNat', show ((2 : UInt16).toNat % 16) = 2 from rfl,
      Nat.shiftLeft_eq, hlen]
    omega
  have ep : pseudoHeader iph ((p.doffset <<< 2) + UInt16.ofNat p.data.length) =
      pseudo iph.src iph.dst iph.protocol.code (p.bytes iph) := by
    simp only [pseudoHeader, pseudo, octets, be16, e4, List.cons_append, List.nil_append]
  apply checksum_valid (sumBe (pseudoHeader iph ((p.doffset <<< 2) + UInt16.ofNat p.data.length)) + sumBe (tcpRaw p 0) +
    sumBe (wordBytes p.options) + sumBe p.data)
  rw [show checksumOf (sumBe (pseudoHeader iph ((p.doffset <<< 2) + UInt16.ofNat p.data.length)) + sumBe (tcpRaw p 0) +
    sumBe (wordBytes p.options) + sumBe p.data) = tcpChecksum iph p from rfl]
  rw [ep]
  have h0 := wsum_le (pseudo iph.src iph.dst iph.protocol.code (p.bytes iph))
  have h1 := wsum_le (tcpRaw p 0)
  have h2 := wsum_le (wordBytes p.options)
  have h3 := wsum_le p.data
  rw [show (pseudo iph.src iph.dst iph.protocol.code (p.bytes iph)).length = 12 from rfl] at h0
  rw [tcpRaw_length] at h1
  rw [wordBytes_length] at h2
  rw [wsum_append _ _ (by rw [show (pseudo iph.src iph.dst iph.protocol.code (p.bytes iph)).length = 12 from rfl])]
  generalize hg : pseudo iph.src iph.dst iph.protocol.code (p.bytes iph) = g at *
  rw [Tcp.bytes, wsum_append _ _ (by rw [List.length_append, tcpRaw_length, wordBytes_length]; omega),
    wsum_append _ _ (by rw [tcpRaw_length]), tcpRaw_wsum]
  rw [UInt32.toNat_add, UInt32.toNat_add, UInt32.toNat_add, sumBe_toNat, sumBe_toNat, sumBe_toNat, sumBe_toNat]
  omega

/-! ## ICMP -/

theorem typecode_toNat (a b : UInt8) : ((a.toUInt16 <<< 8) ||| b.toUInt16).toUInt32.toNat = a.toNat * 256 + b.toNat := by
  have := a.toNat_lt
  have := b.toNat_lt
  rw [UInt16.toNat_toUInt32, UInt16.toNat_or, UInt16.toNat_shiftLeft, UInt8.toNat_toUInt16, UInt8.toNat_toUInt16,
    show ((8 : UInt16).toNat % 16) = 8 from rfl, Nat.shiftLeft_eq,
    show a.toNat * 2 ^ 8 % 2 ^ 16 = a.toNat * 2 ^ 8 by omega, or_low _ _ _ (by omega)]

theorem and_byte (c : UInt32) : (c &&& 0xff).toNat = c.toNat % 256 := by
  rw [UInt32.toNat_and]; exact Nat.and_two_pow_sub_one_eq_mod c.toNat 8

theorem icmp_wsum (p : Icmp) : wsum p.bytes =
    p.type.code.toNat * 256 + p.code.toNat + p.checksum.toNat + wsum (be32 p.rest) + wsum p.body := by
  rw [Icmp.bytes, wsum_append _ p.body (by simp), wsum_append _ (be32 p.rest) (by simp [octets]), wsum_append _ (be16 p.checksum) (by simp [octets]),
    wsum_be16]
  simp only [List.cons_append, List.nil_append, wsum]
  omega

theorem icmp_checksum (p : Icmp) (h : p.body.length < 65536) :
    ChecksumOk p.bytes ↔ p.rest.toNat / 256 % 256 = 0 := by
  have hr := p.rest.toNat_lt
  have hb := wsum_le p.body
  have ht := p.type.code.toNat_lt
  have hc := p.code.toNat_lt
  have es : (((((p.type.code.toUInt16 <<< 8) ||| p.code.toUInt16).toUInt32 + (p.rest >>> 16) + (p.rest &&& 0xff)) +
    sumBe p.body : UInt32)).toNat = p.type.code.toNat * 256 + p.code.toNat + p.rest.toNat / 65536 + p.rest.toNat % 256 +
      wsum p.body := by
    rw [UInt32.toNat_add, UInt32.toNat_add, UInt32.toNat_add, typecode_toNat, shr16, and_byte, sumBe_toNat]
    omega
  rw [checksum_valid_iff (((((p.type.code.toUInt16 <<< 8) ||| p.code.toUInt16).toUInt32 + (p.rest >>> 16) +
    (p.rest &&& 0xff)) + sumBe p.body : UInt32)) p.bytes (p.rest.toNat % 65536 - p.rest.toNat % 256)]
  · omega
  · rw [icmp_wsum, wsum_be32, es]
    show _ = _ + p.checksum.toNat
    omega

theorem echo_rest (id seq : UInt16) : ((id.toUInt32 <<< 16) ||| seq.toUInt32).toNat = id.toNat * 65536 + seq.toNat := by
  have := id.toNat_lt
  have := seq.toNat_lt
  rw [UInt32.toNat_or, UInt32.toNat_shiftLeft, UInt16.toNat_toUInt32, UInt16.toNat_toUInt32,
    show ((16 : UInt32).toNat % 32) = 16 from rfl, Nat.shiftLeft_eq,
    show id.toNat * 2 ^ 16 % 2 ^ 32 = id.toNat * 2 ^ 16 by omega, or_low _ _ _ (by omega)]

end Verif.Raw
