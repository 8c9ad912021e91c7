import Verif.Lemmas.RawScan
namespace Verif.Raw
open Verif Verif.Spec Verif.Spec.Raw

/-- A part of a concatenation. -/
theorem slice_mid (bs a b c : Bytes) (i n : Nat) (e : bs = a ++ (b ++ c)) (hi : a.length = i) (hn : b.length = n) :
    slice bs i n = b := by
  subst hi hn e
  rw [show a.length = a.length + 0 from rfl, slice_right, slice_all]

theorem field_mid16 (bs a c : Bytes) (v : UInt16) (i : Nat) (e : bs = a ++ (be16 v ++ c)) (hi : a.length = i) :
    field bs i 2 = v.toNat := by
  rw [field, slice_mid bs a (be16 v) c i 2 e hi rfl, natBE_be16]

theorem field_mid32 (bs a c : Bytes) (v : UInt32) (i : Nat) (e : bs = a ++ (be32 v ++ c)) (hi : a.length = i) :
    field bs i 4 = v.toNat := by
  rw [field, slice_mid bs a (be32 v) c i 4 e hi rfl, natBE_be32]

theorem field_mid8 (bs a c : Bytes) (v : UInt8) (i : Nat) (e : bs = a ++ ([v] ++ c)) (hi : a.length = i) :
    field bs i 1 = v.toNat := by
  rw [field, slice_mid bs a [v] c i 1 e hi rfl]
  show 0 * 256 + v.toNat = v.toNat
  omega

theorem optionBytes_eq (ws : List Word) : wordBytes ws = optionBytes ws := by
  rw [wordBytes, optionBytes, List.flatMap_def]

theorem ether_layout (f : Frame) : EtherLayout f.header f.body.bytes f.bytes := by
  have e : f.bytes = f.header.dst.octets ++ (f.header.src.octets ++ (be16 f.header.etype ++ f.body.bytes)) := by
    rw [Frame.bytes, EtherHeader.bytes]; simp only [List.append_assoc]
  refine ⟨?_, ?_, ?_, ?_⟩
  · rw [field, slice_mid f.bytes [] f.header.dst.octets _ 0 6 e rfl rfl]; rfl
  · rw [field, slice_mid f.bytes f.header.dst.octets f.header.src.octets _ 6 6 e rfl rfl]; rfl
  · exact field_mid16 _ (f.header.dst.octets ++ f.header.src.octets) f.body.bytes _ 12
      (by rw [e]; simp only [List.append_assoc] <;> rfl) rfl
  · rw [e]; rfl

theorem arp_code (o : ArpOp) : o.code.toNat = arpOpNumber o := by cases o <;> rfl

theorem proto_code (o : Proto) : o.code.toNat = protocolNumber o := by cases o <;> rfl

theorem icmp_code (o : IcmpType) : o.code.toNat = icmpTypeNumber o := by cases o <;> rfl

theorem arp_layout (p : Arp) (h : ArpOk p) : ArpLayout p p.bytes := by
  have e : p.bytes = be16 p.htype ++ (be16 p.ptype ++ ([p.hlen] ++ ([p.plen] ++ (be16 p.oper.code ++
      (p.sha ++ (p.spa ++ (p.tha ++ (p.tpa ++ [])))))))) := by
    rw [Arp.bytes]; simp only [List.append_assoc, List.append_nil]
  have h1 := h.sha
  have h2 := h.spa
  have h3 := h.tha
  have h4 := h.tpa
  refine ⟨?_, ?_, ?_, ?_, ?_, ?_, ?_, ?_, ?_, ?_⟩
  · exact field_mid16 _ [] _ _ 0 e rfl
  · exact field_mid16 _ (be16 p.htype) _ _ 2 e rfl
  · exact field_mid8 _ (be16 p.htype ++ be16 p.ptype) _ _ 4 (by rw [e]; simp only [List.append_assoc] <;> rfl) rfl
  · exact field_mid8 _ (be16 p.htype ++ be16 p.ptype ++ [p.hlen]) _ _ 5 (by rw [e]; simp only [List.append_assoc] <;> rfl) rfl
  · rw [← arp_code]
    exact field_mid16 _ (be16 p.htype ++ be16 p.ptype ++ [p.hlen] ++ [p.plen]) _ _ 6
      (by rw [e]; simp only [List.append_assoc] <;> rfl) rfl
  · exact slice_mid _ (be16 p.htype ++ be16 p.ptype ++ [p.hlen] ++ [p.plen] ++ be16 p.oper.code) _ _ 8 _
      (by rw [e]; simp only [List.append_assoc] <;> rfl) rfl h1
  · exact slice_mid _ (be16 p.htype ++ be16 p.ptype ++ [p.hlen] ++ [p.plen] ++ be16 p.oper.code ++ p.sha) _ _ _ _
      (by rw [e]; simp only [List.append_assoc] <;> rfl) (by rw [List.length_append, h1]; rfl) h2
  · exact slice_mid _ (be16 p.htype ++ be16 p.ptype ++ [p.hlen] ++ [p.plen] ++ be16 p.oper.code ++ p.sha ++ p.spa) _ _ _ _
      (by rw [e]; simp only [List.append_assoc] <;> rfl) (by rw [List.length_append, List.length_append, h1, h2]; rfl) h3
  · exact slice_mid _ (be16 p.htype ++ be16 p.ptype ++ [p.hlen] ++ [p.plen] ++ be16 p.oper.code ++ p.sha ++ p.spa ++ p.tha)
      _ _ _ _ (by rw [e]; simp only [List.append_assoc] <;> rfl)
      (by
        rw [List.length_append, List.length_append, List.length_append, h1, h2, h3]
        show 8 + p.hlen.toNat + p.plen.toNat + p.hlen.toNat = _
        omega) h4
  · rw [Arp.bytes, List.length_append, List.length_append, List.length_append, List.length_append, h1, h2, h3, h4]
    show 8 + p.hlen.toNat + p.plen.toNat + p.hlen.toNat + p.plen.toNat = _
    omega

theorem icmp_layout (p : Icmp) : IcmpLayout p p.bytes := by
  have e : p.bytes = [p.type.code] ++ ([p.code] ++ (be16 p.checksum ++ (be32 p.rest ++ p.body))) := by
    rw [Icmp.bytes]; simp only [List.append_assoc]
  refine ⟨?_, ?_, ?_, ?_⟩
  · rw [← icmp_code]; exact field_mid8 _ [] _ _ 0 e rfl
  · exact field_mid8 _ [p.type.code] _ _ 1 e rfl
  · exact field_mid32 _ ([p.type.code] ++ [p.code] ++ be16 p.checksum) _ _ 4 (by rw [e]; simp only [List.append_assoc] <;> rfl) rfl
  · rw [e]; rfl

theorem tcp_layout (iph : IpHeader) (p : Tcp) (h : TcpOk p) : TcpLayout p (p.bytes iph) := by
  have hd := doffset_toNat p h.options
  have hx := doffset_flags_toNat p.doffset p.flags
  have hf := h.flags
  have ho := h.options
  generalize hg : (p.doffset <<< 12) ||| (p.flags &&& 0x01ff) = x at hx
  have e : p.bytes iph = be16 p.sport ++ (be16 p.dport ++ (be32 p.seq ++ (be32 p.ack ++ (be16 x ++ (be16 p.wsize ++
      (be16 (tcpChecksum iph p) ++ (be16 0 ++ (wordBytes p.options ++ p.data)))))))) := by
    rw [Tcp.bytes, tcpRaw, hg]; simp only [List.append_assoc]
  have e12 : field (p.bytes iph) 12 2 = x.toNat :=
    field_mid16 _ (be16 p.sport ++ be16 p.dport ++ be32 p.seq ++ be32 p.ack) _ _ 12
      (by rw [e]; simp only [List.append_assoc] <;> rfl) rfl
  have el : (be16 p.sport ++ be16 p.dport ++ be32 p.seq ++ be32 p.ack ++ be16 x ++ be16 p.wsize ++
      be16 (tcpChecksum iph p) ++ be16 0).length = 20 := rfl
  refine ⟨?_, ?_, ?_, ?_, ?_, ?_, ?_, ?_, ?_⟩
  · exact field_mid16 _ [] _ _ 0 e rfl
  · exact field_mid16 _ (be16 p.sport) _ _ 2 e rfl
  · exact field_mid32 _ (be16 p.sport ++ be16 p.dport) _ _ 4 (by rw [e]; simp only [List.append_assoc] <;> rfl) rfl
  · exact field_mid32 _ (be16 p.sport ++ be16 p.dport ++ be32 p.seq) _ _ 8 (by rw [e]; simp only [List.append_assoc] <;> rfl) rfl
  · rw [e12]; omega
  · rw [e12]; omega
  · exact field_mid16 _ (be16 p.sport ++ be16 p.dport ++ be32 p.seq ++ be32 p.ack ++ be16 x) _ _ 14
      (by rw [e]; simp only [List.append_assoc] <;> rfl) rfl
  · rw [← optionBytes_eq]
    exact slice_mid _ (be16 p.sport ++ be16 p.dport ++ be32 p.seq ++ be32 p.ack ++ be16 x ++ be16 p.wsize ++
      be16 (tcpChecksum iph p) ++ be16 0) _ p.data 20 _ (by rw [e]; simp only [List.append_assoc] <;> rfl) el
      (wordBytes_length _)
  · rw [show p.bytes iph = (be16 p.sport ++ be16 p.dport ++ be32 p.seq ++ be32 p.ack ++ be16 x ++ be16 p.wsize ++
      be16 (tcpChecksum iph p) ++ be16 0 ++ wordBytes p.options) ++ p.data by rw [e]; simp only [List.append_assoc]]
    rw [List.drop_left' (by rw [List.length_append, el, wordBytes_length])]

theorem body_length (iph : IpHeader) (b : IpBody) : (b.bytes iph).length = bodySize b := by
  cases b with
  | icmp p => 
    show p.bytes.length = 8 + p.body.length
    rw [Icmp.bytes, List.length_append]; rfl
  | tcp p => exact tcp_bytes_length iph p
  | raw bs => rfl

theorem ip_layout (p : Ip) (h : IpOk p) : IpLayout p (p.body.bytes p.header) p.bytes := by
  obtain ⟨hv, hds, he, hfl, hfo, ho, hb, htl⟩ := h
  have hbl := body_length p.header p.body
  have x1 := vihl_toNat p.header.version (5 + UInt8.ofNat p.header.options.length)
  have x2 := dscp_toNat p.header.dscp p.header.ecn
  have x3 := foffset_toNat p.header.flags p.header.foffset
  have x4 : (5 + UInt8.ofNat p.header.options.length).toNat = 5 + p.header.options.length := by
    rw [UInt8.toNat_add, UInt8.toNat_ofNat', show (5 : UInt8).toNat = 5 from rfl]; omega
  have x5 : (UInt16.ofNat (20 + p.header.options.length * 4 + p.body.len)).toNat = totalLength p := by
    rw [UInt16.toNat_ofNat', bodyLen]
    unfold totalLength at *
    omega
  have hlen : p.bytes.length = totalLength p := by
    rw [Ip.bytes, List.length_append, ip_header_length, hbl, totalLength]
  generalize g1 : (p.header.version <<< 4 ||| ((5 + UInt8.ofNat p.header.options.length) &&& 0x0f)) = a at x1
  generalize g2 : (p.header.dscp <<< 2) ||| (p.header.ecn &&& 0x03) = b at x2
  generalize g3 : (p.header.flags.toUInt16 <<< 13) ||| (p.header.foffset &&& 0x1fff) = c at x3
  generalize g5 : UInt16.ofNat (20 + p.header.options.length * 4 + p.body.len) = l at x5
  generalize hc : ipChecksum p.header p.body.len = ck
  have e : p.bytes = [a] ++ ([b] ++ (be16 l ++ (be16 p.header.ident ++ (be16 c ++ ([p.header.ttl] ++
      ([p.header.protocol.code] ++ (be16 ck ++ (octets p.header.src ++ (octets p.header.dst ++
      (wordBytes p.header.options ++ p.body.bytes p.header)))))))))) := by
    rw [Ip.bytes, IpHeader.bytes, ipRaw, hc]
    rw [g1, g2, g3, g5]; simp only [List.append_assoc]
  generalize hpre : [a] ++ [b] ++ be16 l ++ be16 p.header.ident ++ be16 c ++ [p.header.ttl] ++
      [p.header.protocol.code] ++ be16 ck = pre
  have ep : pre.length = 12 := by rw [← hpre]; rfl
  have e2 : p.bytes = pre ++ (octets p.header.src ++ (octets p.header.dst ++
      (wordBytes p.header.options ++ p.body.bytes p.header))) := by
    rw [e, ← hpre]; simp only [List.append_assoc]
  have f0 : field p.bytes 0 1 = a.toNat := field_mid8 _ [] _ _ 0 e rfl
  have f1 : field p.bytes 1 1 = b.toNat := field_mid8 _ [a] _ _ 1 e rfl
  have f6 : field p.bytes 6 2 = c.toNat := field_mid16 _ ([a] ++ [b] ++ be16 l ++ be16 p.header.ident) _ _ 6
    (by rw [e]; simp only [List.append_assoc] <;> rfl) rfl
  have el : (pre ++ octets p.header.src ++ octets p.header.dst).length = 20 := by
    rw [List.length_append, List.length_append, ep]; rfl
  refine ⟨?_, ?_, ?_, ?_, ?_, ?_, ?_, ?_, ?_, ?_, ?_, ?_, ?_, ?_⟩
  · rw [f0]; omega
  · rw [f0]; omega
  · rw [f1]; omega
  · rw [f1]; omega
  · rw [hlen, ← x5]
    exact field_mid16 _ ([a] ++ [b]) _ _ 2 (by rw [e]; simp only [List.append_assoc] <;> rfl) rfl
  · exact field_mid16 _ ([a] ++ [b] ++ be16 l) _ _ 4 (by rw [e]; simp only [List.append_assoc] <;> rfl) rfl
  · rw [f6]; omega
  · rw [f6]; omega
  · exact field_mid8 _ ([a] ++ [b] ++ be16 l ++ be16 p.header.ident ++ be16 c) _ _ 8
      (by rw [e]; simp only [List.append_assoc] <;> rfl) rfl
  · rw [← proto_code]
    exact field_mid8 _ ([a] ++ [b] ++ be16 l ++ be16 p.header.ident ++ be16 c ++ [p.header.ttl]) _ _ 9
      (by rw [e]; simp only [List.append_assoc] <;> rfl) rfl
  · rw [field, slice_mid _ pre _ _ 12 4 e2 ep rfl]; rfl
  · rw [field, slice_mid p.bytes (pre ++ octets p.header.src) (octets p.header.dst)
      (wordBytes p.header.options ++ p.body.bytes p.header) 16 4 (by rw [e2]; simp only [List.append_assoc])
      (by rw [List.length_append, ep]; rfl) rfl]; rfl
  · rw [← optionBytes_eq]
    exact slice_mid _ (pre ++ octets p.header.src ++ octets p.header.dst) _ (p.body.bytes p.header) 20 _
      (by rw [e2]; simp only [List.append_assoc]) el (wordBytes_length _)
  · rw [show p.bytes = (pre ++ octets p.header.src ++ octets p.header.dst ++ wordBytes p.header.options) ++
      p.body.bytes p.header by rw [e2]; simp only [List.append_assoc]]
    rw [List.drop_left' (by rw [List.length_append, el, wordBytes_length])]

end Verif.Raw
