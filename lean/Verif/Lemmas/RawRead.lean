import Verif.Spec.RawRead
/-!
# Lemmas: reads through raw pointers

Each parser over memory does what the parser over the byte list does, whatever the memory around the data.
-/
namespace Verif.RawRead

open Wire (Res)
open Raw (Word at8 at16 at32 atMac atIp)
open Spec.RawRead

@[simp] theorem bind_ok {α β : Type} (a : α) (f : α → Out β) : (Out.ok a >>= f) = f a := rfl
@[simp] theorem bind_err {α β : Type} (f : α → Out β) : ((Out.err : Out α) >>= f) = .err := rfl
@[simp] theorem bind_panic {α β : Type} (f : α → Out β) : ((Out.panic : Out α) >>= f) = .panic := rfl
@[simp] theorem pure_eq {α : Type} (a : α) : (pure a : Out α) = .ok a := rfl

/-- A slice that holds the data. -/
structure Is (s : Slice) (data : Bytes) : Prop where
  len : s.len = data.length
  holds : Holds s.mem s.ptr data

theorem only_holds (p : Nat) (data : Bytes) : Holds (only p data) p data := by
  intro i b h
  simp [only, h]

theorem is_slice {m : Mem} {p : Nat} {data : Bytes} (h : Holds m p data) : Is (slice m p data) data := ⟨rfl, h⟩

theorem _root_.Verif.Spec.RawRead.Holds.drop {m : Mem} {p : Nat} {data : Bytes} (h : Holds m p data) (k : Nat) :
    Holds m (p + k) (data.drop k) := by
  intro i b hi
  rw [List.getElem?_drop] at hi
  have := h (k + i) b hi
  rwa [← Nat.add_assoc] at this

theorem _root_.Verif.Spec.RawRead.Holds.take {m : Mem} {p : Nat} {data : Bytes} (h : Holds m p data) (k : Nat) : Holds m p (data.take k) := by
  intro i b hi
  rw [List.getElem?_take] at hi
  split at hi
  · exact h i b hi
  · simp at hi

theorem peek_ok {m : Mem} : ∀ (n p : Nat) (data : Bytes), Holds m p data → n ≤ data.length →
    peek m p n = .ok (data.take n)
  | 0, _, _, _, _ => by simp [peek]
  | n + 1, p, [], _, hn => by simp at hn
  | n + 1, p, b :: rest, h, hn => by
    have h0 : m p = some b := h 0 b rfl
    have hr : Holds m (p + 1) rest := h.drop 1
    simp only [List.length_cons] at hn
    simp [peek, h0, peek_ok n (p + 1) rest hr (by omega)]

theorem Is.peek {s : Slice} {data : Bytes} (h : Is s data) {n : Nat} (hn : n ≤ data.length) :
    RawRead.peek s.mem s.ptr n = .ok (data.take n) := peek_ok n _ _ h.holds hn

theorem Is.toVec {s : Slice} {data : Bytes} (h : Is s data) : s.toVec = .ok data := by
  unfold Slice.toVec
  rw [h.len, h.peek (Nat.le_refl _), List.take_length]

theorem Is.tail {s : Slice} {data : Bytes} (h : Is s data) {i : Nat} (hi : i ≤ data.length) :
    ∃ t, s.tail i = .ok t ∧ Is t (data.drop i) := by
  refine ⟨⟨s.mem, s.ptr + i, s.len - i⟩, ?_, ⟨?_, h.holds.drop i⟩⟩
  · unfold Slice.tail
    rw [if_neg (by rw [h.len]; omega)]
  · simp [h.len]

theorem Is.range {s : Slice} {data : Bytes} (h : Is s data) {i j : Nat} (hij : i ≤ j) (hj : j ≤ data.length) :
    ∃ t, s.range i j = .ok t ∧ Is t ((data.drop i).take (j - i)) := by
  refine ⟨⟨s.mem, s.ptr + i, j - i⟩, ?_, ⟨?_, (h.holds.drop i).take _⟩⟩
  · unfold Slice.range
    rw [if_neg (by rw [h.len]; omega)]
  · simp; omega

/-! ## Fields -/

theorem at8_take {data : Bytes} {n i : Nat} (h : i < n) : at8 (data.take n) i = at8 data i := by
  simp [at8, List.getD_eq_getElem?_getD, h]

theorem at16_take {data : Bytes} {n i : Nat} (h : i + 1 < n) : at16 (data.take n) i = at16 data i := by
  simp only [at16, at8_take (show i < n by omega), at8_take h]

theorem at32_take {data : Bytes} {n i : Nat} (h : i + 3 < n) : at32 (data.take n) i = at32 data i := by
  simp only [at32, at8_take (show i < n by omega), at8_take (show i + 1 < n by omega),
    at8_take (show i + 2 < n by omega), at8_take h]

theorem atIp_take {data : Bytes} {n i : Nat} (h : i + 3 < n) : atIp (data.take n) i = atIp data i := by
  simp only [atIp, at32_take h]

theorem at8_drop (data : Bytes) (k i : Nat) : at8 (data.drop k) i = at8 data (k + i) := by
  simp [at8, List.getD_eq_getElem?_getD]

/-! ## Option words -/

theorem wordLoop_ok {m : Mem} {p : Nat} {data : Bytes} (h : Holds m p data) : ∀ n idx, (idx + n) * 4 ≤ data.length →
    wordLoop m p idx n = .ok (Raw.readWords n (data.drop (idx * 4)))
  | 0, _, _ => rfl
  | n + 1, idx, hn => by
    have hp := peek_ok 4 _ _ (h.drop (idx * 4)) (by rw [List.length_drop]; omega)
    have ih := wordLoop_ok h n (idx + 1) (by omega)
    simp only [wordLoop, hp, bind_ok, ih, Raw.readWords, pure_eq, List.drop_drop]
    rw [at8_take (by omega), at8_take (by omega), at8_take (by omega), at8_take (by omega)]
    rw [show (idx + 1) * 4 = idx * 4 + 4 by omega]

theorem readWords_length : ∀ n bs, (Raw.readWords n bs).length = n
  | 0, _ => rfl
  | n + 1, bs => by simp [Raw.readWords, readWords_length n]

/-- The number of option words of a header whose length field is `k` words: either it is the real one, or it is so large
that the allocation is refused. -/
theorem words_cases {w k : Nat} (hw : w = 32 ∨ w = 64) (hk : k < 16) :
    (5 ≤ k ∧ (2 ^ w + k - 5) % 2 ^ w = k - 5 ∧ (20 + (k - 5) * 4) % 2 ^ w = 20 + (k - 5) * 4 ∧
      ¬ 2 ^ (w - 1) ≤ (k - 5) * 4) ∨
    (k < 5 ∧ 2 ^ (w - 1) ≤ (2 ^ w + k - 5) % 2 ^ w * 4) := by
  rcases hw with rfl | rfl
  · rw [show (2:Nat) ^ 32 = 4294967296 from rfl, show (2:Nat) ^ (32 - 1) = 2147483648 from rfl]
    omega
  · rw [show (2:Nat) ^ 64 = 18446744073709551616 from rfl, show (2:Nat) ^ (64 - 1) = 9223372036854775808 from rfl]
    omega

theorem vecWords_ok {w k : Nat} (hw : w = 32 ∨ w = 64) (hk : k < 16) {m : Mem} {p : Nat} {data : Bytes}
    (h : Holds m p data) (hl : ¬ data.length < (20 + (2 ^ w + k - 5) % 2 ^ w * 4) % 2 ^ w) :
    vecWords w m (p + 20) ((2 ^ w + k - 5) % 2 ^ w) =
      Out.of (Raw.vecWords w (data.drop 20) ((2 ^ w + k - 5) % 2 ^ w)) := by
  rcases words_cases hw hk with ⟨h5, he, hm, hc⟩ | ⟨_, hc⟩
  · rw [he] at hl ⊢
    rw [hm] at hl
    unfold vecWords Raw.vecWords
    rw [if_neg hc, if_neg hc, wordLoop_ok (h.drop 20) (k - 5) 0 (by rw [List.length_drop]; omega)]
    simp [Out.of]
  · unfold vecWords Raw.vecWords
    rw [if_pos hc, if_pos hc]
    rfl

theorem and15_lt (b : UInt8) : (b &&& 0x0f).toNat < 16 := by
  rw [UInt8.toNat_and]
  exact Nat.lt_of_le_of_lt (Nat.and_le_right) (by decide)

theorem shr12_lt (v : UInt16) : (v >>> 12).toNat < 16 := by
  have := v.toNat_lt
  rw [UInt16.toNat_shiftRight]
  simp [Nat.shiftRight_eq_div_pow]
  omega

/-! ## Frames -/

theorem arp_eq {s : Slice} {data : Bytes} (h : Is s data) : arp s = Out.of (Raw.Arp.parse data) := by
  unfold arp Raw.Arp.parse
  rw [h.len]
  split
  · rfl
  · rename_i h8
    rw [h.peek (by omega), bind_ok]
    simp only [at8_take (show 4 < 8 by omega), at8_take (show 5 < 8 by omega), at16_take (show 0 + 1 < 8 by omega),
      at16_take (show 2 + 1 < 8 by omega), at16_take (show 6 + 1 < 8 by omega)]
    split
    · rfl
    · obtain ⟨a, ha, ha'⟩ := h.range (i := 8) (j := 8 + (at8 data 4).toNat) (by omega) (by omega)
      obtain ⟨b, hb, hb'⟩ := h.range (i := 8 + (at8 data 4).toNat)
        (j := 8 + (at8 data 4).toNat + (at8 data 5).toNat) (by omega) (by omega)
      obtain ⟨c, hc, hc'⟩ := h.range (i := 8 + (at8 data 4).toNat + (at8 data 5).toNat)
        (j := 8 + (at8 data 4).toNat + (at8 data 5).toNat + (at8 data 4).toNat) (by omega) (by omega)
      obtain ⟨d, hd, hd'⟩ := h.range (i := 8 + (at8 data 4).toNat + (at8 data 5).toNat + (at8 data 4).toNat)
        (j := 8 + (at8 data 4).toNat + (at8 data 5).toNat + (at8 data 4).toNat + (at8 data 5).toNat) (by omega)
        (by omega)
      simp only [ha, hb, hc, hd, bind_ok, ha'.toVec, hb'.toVec, hc'.toVec, hd'.toVec, pure_eq, Out.of,
        Nat.add_sub_cancel_left]

theorem ipHeader_eq {w : Nat} (hw : w = 32 ∨ w = 64) {s : Slice} {data : Bytes} (h : Is s data) :
    ipHeader w s = Out.of (Raw.IpHeader.parse w data) := by
  unfold ipHeader Raw.IpHeader.parse
  rw [h.len]
  split
  · rfl
  · rename_i h20
    rw [h.peek (by omega), bind_ok]
    simp only [at8_take (show 0 < 20 by omega), at8_take (show 1 < 20 by omega), at8_take (show 8 < 20 by omega),
      at8_take (show 9 < 20 by omega), at16_take (show 6 + 1 < 20 by omega), at16_take (show 4 + 1 < 20 by omega),
      at16_take (show 2 + 1 < 20 by omega), atIp_take (show 12 + 3 < 20 by omega),
      atIp_take (show 16 + 3 < 20 by omega)]
    split
    · rfl
    · rename_i hl
      rw [vecWords_ok hw (and15_lt _) h.holds hl]
      cases Raw.vecWords w (data.drop 20) _ <;> rfl

theorem icmp_eq {s : Slice} {data : Bytes} (h : Is s data) : icmp s = Out.of (Raw.Icmp.parse data) := by
  unfold icmp Raw.Icmp.parse
  rw [h.len]
  split
  · rfl
  · obtain ⟨t, ht, ht'⟩ := h.tail (i := 8) (by omega)
    rw [h.peek (by omega), bind_ok, ht, bind_ok, ht'.toVec]
    simp only [bind_ok, pure_eq, Out.of, at8_take (show 0 < 8 by omega), at8_take (show 1 < 8 by omega),
      at32_take (show 4 + 3 < 8 by omega)]

theorem tcp_eq {w : Nat} (hw : w = 32 ∨ w = 64) {s : Slice} {data : Bytes} (h : Is s data) :
    tcp w s = Out.of (Raw.Tcp.parse w data) := by
  unfold tcp Raw.Tcp.parse
  rw [h.len]
  split
  · rfl
  · rename_i h20
    rw [h.peek (by omega), bind_ok]
    simp only [at16_take (show 12 + 1 < 20 by omega), at16_take (show 0 + 1 < 20 by omega),
      at16_take (show 2 + 1 < 20 by omega), at32_take (show 4 + 3 < 20 by omega), at32_take (show 8 + 3 < 20 by omega),
      at16_take (show 14 + 1 < 20 by omega), at16_take (show 18 + 1 < 20 by omega)]
    split
    · rfl
    · rename_i hl
      obtain ⟨t, ht, ht'⟩ := h.tail (Nat.le_of_not_lt hl)
      rw [vecWords_ok hw (shr12_lt _) h.holds hl]
      cases Raw.vecWords w (data.drop 20) _ with
      | ok o => simp only [Out.of, bind_ok, ht, ht'.toVec, pure_eq]
      | err => rfl
      | panic => rfl

theorem ipHeader_options {w : Nat} (hw : w = 32 ∨ w = 64) {data : Bytes} {x : Raw.IpHeader}
    (h : Raw.IpHeader.parse w data = .ok x) : 20 + x.options.length * 4 ≤ data.length := by
  unfold Raw.IpHeader.parse at h
  split at h
  · simp at h
  · dsimp only at h
    split at h
    · simp at h
    · rename_i hl
      split at h
      · rename_i o ho
        simp only [Res.ok.injEq] at h
        subst h
        unfold Raw.vecWords at ho
        split at ho
        · simp at ho
        · rename_i hc
          simp only [Res.ok.injEq] at ho
          subst ho
          rw [readWords_length]
          rcases words_cases hw (and15_lt (at8 data 0)) with ⟨_, he, hm, _⟩ | ⟨_, hc'⟩
          · rw [he] at hl ⊢
            rw [hm] at hl
            omega
          · exact absurd hc' hc
      · simp at h
      · simp at h

theorem ip_eq {w : Nat} (hw : w = 32 ∨ w = 64) {s : Slice} {data : Bytes} (h : Is s data) :
    ip w s = Out.of (Raw.Ip.parse w data) := by
  unfold ip Raw.Ip.parse
  rw [h.len]
  split
  · rfl
  · rw [ipHeader_eq hw h]
    cases hx : Raw.IpHeader.parse w data with
    | err => rfl
    | panic => rfl
    | ok x =>
      obtain ⟨t, ht, ht'⟩ := h.tail (ipHeader_options hw hx)
      simp only [Out.of, bind_ok, ht, Raw.parseIpBody]
      cases x.protocol with
      | icmp =>
        simp only [icmp_eq ht']
        cases Raw.Icmp.parse (data.drop (20 + x.options.length * 4)) <;> rfl
      | tcp =>
        simp only [tcp_eq hw ht']
        cases Raw.Tcp.parse w (data.drop (20 + x.options.length * 4)) <;> rfl
      | udp => simp only [ht'.toVec, bind_ok, pure_eq]
      | unknown c => simp only [ht'.toVec, bind_ok, pure_eq]

theorem etherHeader_eq {s : Slice} {data : Bytes} (h : Is s data) (h14 : data.length = 14) :
    etherHeader s = .ok (Raw.EtherHeader.parse data) := by
  unfold etherHeader Raw.EtherHeader.parse
  rw [h.len, if_neg (by simp [h14]), h.peek (by omega), bind_ok, ← h14, List.take_length]
  rfl

theorem frame_eq {w : Nat} (hw : w = 32 ∨ w = 64) {s : Slice} {data : Bytes} (h : Is s data) :
    frame w s = Out.of (Raw.Frame.parse w data) := by
  unfold frame Raw.Frame.parse
  rw [h.len]
  split
  · rfl
  · obtain ⟨a, ha, ha'⟩ := h.range (i := 0) (j := 14) (by omega) (by omega)
    obtain ⟨t, ht, ht'⟩ := h.tail (i := 14) (by omega)
    simp only [List.drop_zero, Nat.sub_zero] at ha'
    rw [ha, bind_ok, etherHeader_eq ha' (by simp; omega), bind_ok, ht, bind_ok]
    unfold Raw.parseEtherBody
    cases Raw.EtherType.ofCode (Raw.EtherHeader.parse (data.take 14)).etype with
    | arp =>
      simp only [arp_eq ht']
      cases Raw.Arp.parse (data.drop 14) <;> rfl
    | ipv4 =>
      simp only [ip_eq hw ht']
      cases Raw.Ip.parse w (data.drop 14) <;> rfl
    | unknown c => simp only [ht'.toVec, bind_ok, pure_eq, Out.of]

/-! ## Checksums -/

theorem sumLoop_ok {m : Mem} {p : Nat} {data : Bytes} (h : Holds m p data) : ∀ n idx sum, (idx + n) * 2 ≤ data.length →
    sumLoop m p idx sum n = .ok (Raw.sumFrom sum ((data.drop (idx * 2)).take (n * 2)))
  | 0, _, _, _ => by simp [sumLoop, Raw.sumFrom]
  | n + 1, idx, sum, hn => by
    have hl : 2 ≤ (data.drop (idx * 2)).length := by rw [List.length_drop]; omega
    have hp := peek_ok 2 _ _ (h.drop (idx * 2)) hl
    have ih := sumLoop_ok h n (idx + 1)
    rw [show (idx + 1) * 2 = idx * 2 + 2 by omega, ← List.drop_drop] at ih
    simp only [sumLoop, hp, bind_ok]
    match hd : data.drop (idx * 2), hl with
    | a :: b :: rest, _ =>
      rw [hd] at ih
      rw [ih _ (by omega), show (n + 1) * 2 = n * 2 + 2 by omega]
      rfl

theorem sumFrom_append_even : ∀ (k : Nat) (xs ys : Bytes) (sum : UInt32), xs.length = 2 * k →
    Raw.sumFrom sum (xs ++ ys) = Raw.sumFrom (Raw.sumFrom sum xs) ys
  | 0, [], _, _, _ => rfl
  | k + 1, a :: b :: rest, ys, sum, h => by
    simp only [List.cons_append, Raw.sumFrom]
    exact sumFrom_append_even k rest ys _ (by simpa [Nat.mul_succ] using h)
  | k + 1, [], _, _, h => by simp at h
  | k + 1, [_], _, _, h => by simp at h; omega
  | 0, _ :: _, _, _, h => by simp at h

theorem sumRaw_eq {m : Mem} {p : Nat} {data : Bytes} (h : Holds m p data) :
    sumRaw m p data.length = .ok (Raw.sumBe data) := by
  unfold sumRaw Raw.sumBe
  dsimp only
  rw [sumLoop_ok h _ 0 0 (by omega)]
  simp only [bind_ok, Nat.zero_mul, List.drop_zero]
  split
  · rename_i hodd
    have hl : 1 ≤ (data.drop (data.length - 1)).length := by rw [List.length_drop]; omega
    rw [peek_ok 1 _ _ (h.drop (data.length - 1)) hl]
    have hd : data.drop (data.length - 1) = [at8 data (data.length - 1)] := by
      apply List.ext_getElem?
      intro i
      rw [List.getElem?_drop]
      cases i with
      | zero =>
        have : data.length - 1 < data.length := by omega
        simp [at8, List.getD_eq_getElem?_getD, this]
      | succ i => simp; omega
    have hs : data.length / 2 * 2 = data.length - 1 := by omega
    rw [hs]
    conv => rhs; rw [← List.take_append_drop (data.length - 1) data]
    rw [sumFrom_append_even (data.length / 2) _ _ _ (by simp; omega), hd]
    rfl
  · rw [show data.length / 2 * 2 = data.length by omega, List.take_length]
    rfl

/-! ## Arrow messages -/

theorem header_eq {s : Slice} {data : Bytes} (h : Is s data) : header s = Out.of (Wire.Header.fromBytes data) := by
  unfold header
  rw [h.len]
  split
  · rename_i hl
    unfold Wire.Header.fromBytes
    split
    · simp at hl
    · rfl
  · rename_i hl
    have hl : data.length = 11 := by omega
    rw [h.peek (by omega), ← hl, List.take_length]
    match data, hl with
    | [v, s0, s1, e0, e1, e2, e3, z0, z1, z2, z3], _ =>
      simp only [bind_ok, Wire.Header.fromBytes, pure_eq]
      show (if v = _ then _ else _) = Out.of (if v = _ then _ else _)
      split <;> rfl

theorem controlHeader_eq {s : Slice} {a b c d : UInt8} (h : Is s [a, b, c, d]) :
    controlHeader s = .ok (rd16 a b, rd16 c d) := by
  unfold controlHeader
  rw [h.len, if_neg (by simp), h.peek (by simp)]
  rfl

theorem ack_eq {s : Slice} {data : Bytes} (h : Is s data) : ack s = Out.of (Control.decodeAck data) := by
  unfold ack
  rw [h.len]
  split
  · rename_i hl
    unfold Control.decodeAck
    split
    · simp at hl
    · rfl
  · rename_i hl
    have hl : data.length = 4 := by omega
    rw [h.peek (by omega)]
    match data, hl with
    | [a, b, c, d], _ => rfl

theorem connect_eq {s : Slice} {data : Bytes} (h : Is s data) : connect s = Out.of (Control.decodeConnect data) := by
  unfold connect
  rw [h.len]
  split
  · rename_i hl
    unfold Control.decodeConnect
    split
    · simp at hl
    · rfl
  · rename_i hl
    have hl : data.length = 6 := by omega
    rw [h.peek (by omega)]
    match data, hl with
    | [a, b, c, d, e, f], _ => rfl

theorem dataAck_eq {s : Slice} {data : Bytes} (h : Is s data) : dataAck s = Out.of (Control.decodeDataAck data) := by
  unfold dataAck
  rw [h.len]
  split
  · rename_i hl
    unfold Control.decodeDataAck
    split
    · simp at hl
    · rfl
  · rename_i hl
    have hl : data.length = 8 := by omega
    rw [h.peek (by omega)]
    match data, hl with
    | [a, b, c, d, e, f, g, i], _ => rfl

theorem hup_eq {s : Slice} {data : Bytes} (h : Is s data) : hup s = Out.of (Control.decodeHup data) := by
  unfold hup
  rw [h.len]
  split
  · rename_i hl
    unfold Control.decodeHup
    split
    · simp at hl
    · rfl
  · rename_i hl
    have hl : data.length = 8 := by omega
    rw [h.peek (by omega)]
    match data, hl with
    | [a, b, c, d, e, f, g, i], _ => rfl

theorem body_eq {s : Slice} {data : Bytes} (h : Is s data) (t : Control.MsgType) :
    body t s = Out.of (Control.decodeBody t data) := by
  cases t <;>
    simp only [body, Control.decodeBody, ack_eq h, connect_eq h, dataAck_eq h, hup_eq h, h.toVec, bind_ok] <;> rfl

theorem control_eq {s : Slice} {data : Bytes} (h : Is s data) :
    control s = Out.of (Control.ControlMessage.fromBytes data) := by
  unfold control
  rw [h.len]
  split
  · rename_i hl
    unfold Control.ControlMessage.fromBytes
    split
    · simp only [List.length_cons] at hl
      omega
    · rfl
  · match data, h with
    | a :: b :: c :: d :: rest, h =>
      obtain ⟨x, hx, hx'⟩ := h.range (i := 0) (j := 4) (by omega) (by simp)
      obtain ⟨t, ht, ht'⟩ := h.tail (i := 4) (by simp)
      rw [hx, bind_ok, controlHeader_eq (a := a) (b := b) (c := c) (d := d) (by simpa using hx'), bind_ok, ht, bind_ok,
        body_eq ht']
      simp only [List.drop_succ_cons, List.drop_zero, Control.ControlMessage.fromBytes]
      cases Control.decodeBody (Control.MsgType.ofCode (rd16 c d)) rest <;> rfl
    | [], _ => simp at *
    | [_], _ => simp at *
    | [_, _], _ => simp at *
    | [_, _, _], _ => simp at *

end Verif.RawRead
