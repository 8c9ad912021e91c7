import Verif.Lemmas.Wire
/-!
# Properties C01, C02, C03: Arrow message framing
-/
namespace Verif.Props.Wire
open Verif.Wire Verif.Spec

/-- Layout of an encoded message, stated on the bytes: version 2, service id, 24-bit session id,
payload size, payload (big-endian). Together with the round trip this pins the wire format. -/
theorem C01_layout (svc : UInt16) (sess : UInt32) (payload : Bytes) (h : payload.length < 2 ^ 32) :
    let e := (Message.new svc sess payload).encode
    e.length = 11 + payload.length ∧ e[0]? = some 2 ∧ field e 1 2 = svc.toNat ∧
      field e 3 4 = sess.toNat % 2 ^ 24 ∧ field e 7 4 = payload.length ∧ e.drop 11 = payload := by
  have hsz : (UInt32.ofNat payload.length).toNat = payload.length := by
    rw [UInt32.toNat_ofNat']; omega
  have h16 := natBE_be16 svc
  have h32 := natBE_be32 (mask24 (mask24 sess))
  have hs := natBE_be32 (UInt32.ofNat payload.length)
  have hmod : (mask24 (mask24 sess)).toNat = sess.toNat % 2 ^ 24 := by
    rw [mask24_idem, mask24_toNat]
  rw [hmod] at h32
  rw [hsz] at hs
  simp only [Message.encode, Message.new, Header.new, Header.encode, protocolVersion]
  generalize mask24 (mask24 sess) = m at h32 ⊢
  generalize UInt32.ofNat payload.length = l at hs ⊢
  simp only [be16, be32] at h16 h32 hs ⊢
  refine ⟨?_, ?_, ?_, ?_, ?_, ?_⟩
  · simp only [List.cons_append, List.nil_append, List.length_cons]; omega
  · simp
  · simpa [field, slice] using h16
  · simpa [field, slice] using h32
  · simpa [field, slice] using hs
  · simp

/-- C01: encoding followed by decoding returns the message and leaves the following bytes. -/
theorem C01_message_round_trip (svc : UInt16) (sess : UInt32) (payload rest : Bytes)
    (h : payload.length < 2 ^ 32) :
    ∃ m, decode 64 ((Message.new svc sess payload).encode ++ rest) = (.ok (some m), rest) ∧
      m.header.service = svc ∧ m.header.session.toNat = sess.toNat % 2 ^ 24 ∧
      m.payload = payload := by
  have hsz : (UInt32.ofNat payload.length).toNat = payload.length := by
    rw [UInt32.toNat_ofNat']; omega
  simp only [Message.encode, Message.new, Header.new, Header.encode, protocolVersion, be16, be32,
    List.cons_append, List.nil_append]
  rw [decode_cons]
  rw [rd16_be16, rd32_be32, rd32_be32, if_pos rfl, hsz, mask24_idem, mask24_idem,
    if_neg (by simp only [List.length_append]; omega)]
  refine ⟨{ header := ⟨2, svc, mask24 sess, UInt32.ofNat payload.length⟩, payload := payload },
    ?_, rfl, mask24_toNat sess, rfl⟩
  rw [List.take_left, List.drop_left]

/-- Non-vacuity of C01. -/
example : decode 64 ((Message.new 7 0xAB000001 [1, 2, 3]).encode ++ [9]) =
    (.ok (some ⟨⟨2, 7, 1, 3⟩, [1, 2, 3]⟩), [9]) := by decide +kernel

/-- C02 (general): cutting the stream differently changes neither the decoded messages nor whether
it fails, and as long as it does not fail the unconsumed bytes are the same. -/
theorem C02_chunking_irrelevant (cs ds : List Bytes) (h : cs.flatten = ds.flatten) :
    (feedAll Reader.init cs).1 = (feedAll Reader.init ds).1 ∧
    (feedAll Reader.init cs).2.failed = (feedAll Reader.init ds).2.failed ∧
    ((feedAll Reader.init cs).2.failed = false →
      (feedAll Reader.init cs).2.buf = (feedAll Reader.init ds).2.buf) := by
  have h0 : drain ⟨[], false⟩ = ([], ⟨[], false⟩) := drain_none (decode_short (by simp))
  have h1 := feedAll_flatten cs [] h0
  have h2 := feedAll_flatten ds [] h0
  rw [h] at h1
  have h3 := h1.2.trans h2.2.symm
  exact ⟨h1.1.trans h2.1.symm, h3.1, h3.2⟩

/-- What the receiver sees of a message. -/
def seen (m : Message) : UInt16 × Nat × Bytes :=
  (m.header.service, m.header.session.toNat, m.payload)

/-- What it should see of a sent (service, session, payload) triple. -/
def expected (x : UInt16 × UInt32 × Bytes) : UInt16 × Nat × Bytes :=
  (x.1, x.2.1.toNat % 2 ^ 24, x.2.2)

theorem drain_messages (xs : List (UInt16 × UInt32 × Bytes)) (tail : Bytes)
    (h : ∀ x ∈ xs, x.2.2.length < 2 ^ 32) :
    ∃ ms, ms.map seen = xs.map expected ∧
      drain ⟨xs.flatMap (fun x => (Message.new x.1 x.2.1 x.2.2).encode) ++ tail, false⟩ =
        (ms ++ (drain ⟨tail, false⟩).1, (drain ⟨tail, false⟩).2) := by
  induction xs with
  | nil => exact ⟨[], rfl, by simp⟩
  | cons x xs ih =>
    obtain ⟨ms, hms, hd⟩ := ih (fun y hy => h y (List.mem_cons_of_mem _ hy))
    obtain ⟨m, hm, h1, h2, h3⟩ := C01_message_round_trip x.1 x.2.1 x.2.2
      (xs.flatMap (fun x => (Message.new x.1 x.2.1 x.2.2).encode) ++ tail)
      (h x List.mem_cons_self)
    refine ⟨m :: ms, by simp only [List.map_cons, hms, seen, expected, h1, h2, h3], ?_⟩
    rw [List.flatMap_cons, List.append_assoc, drain_some hm, hd]
    rfl

/-- C02 (encoded stream): the concatenation of encoded messages, cut into arbitrary chunks, is
received as exactly those messages in order, with nothing left over. -/
theorem C02_stream_of_messages (xs : List (UInt16 × UInt32 × Bytes)) (cs : List Bytes)
    (hlen : ∀ x ∈ xs, x.2.2.length < 2 ^ 32)
    (hcs : cs.flatten = xs.flatMap (fun x => (Message.new x.1 x.2.1 x.2.2).encode)) :
    ∃ ms, ms.map seen = xs.map expected ∧ feedAll Reader.init cs = (ms, Reader.init) := by
  obtain ⟨ms, hms, hd⟩ := drain_messages xs [] hlen
  have h0 : drain ⟨[], false⟩ = ([], ⟨[], false⟩) := drain_none (decode_short (by simp))
  have h1 := feedAll_flatten cs [] h0
  rw [h0, List.append_nil, List.append_nil] at hd
  simp only [feed, Bool.false_eq_true, if_false, List.nil_append, hcs, hd] at h1
  refine ⟨ms, hms, ?_⟩
  obtain ⟨ha, hb, hc⟩ := h1
  simp only at hb
  have hc' := hc hb
  apply Prod.ext
  · exact ha
  · change (feedAll ⟨[], false⟩ cs).2 = ⟨[], false⟩
    generalize (feedAll ⟨[], false⟩ cs).2 = r at hb hc'
    cases r; simp_all

/-- Non-vacuity of C02: two messages cut in the middle of a header and of a payload. -/
example : let s := (Message.new 1 2 [10, 11]).encode ++ (Message.new 3 4 []).encode
    (feedAll Reader.init [s.take 5, (s.drop 5).take 7, s.drop 12]).1.length = 2 := by
  decide +kernel

/-- C03: complete description of one call of the decoder on any buffer. -/
theorem C03_decode_exact (buf : Bytes) :
    (buf.length < 11 → decode 64 buf = (.ok none, buf)) ∧
    (11 ≤ buf.length → buf[0]? ≠ some 2 → decode 64 buf = (.err, buf)) ∧
    (11 ≤ buf.length → buf[0]? = some 2 → buf.length < 11 + field buf 7 4 →
      decode 64 buf = (.ok none, buf)) ∧
    (11 ≤ buf.length → buf[0]? = some 2 → 11 + field buf 7 4 ≤ buf.length →
      ∃ m, decode 64 buf = (.ok (some m), buf.drop (11 + field buf 7 4)) ∧
        m.header.service.toNat = field buf 1 2 ∧
        m.header.session.toNat = field buf 3 4 % 2 ^ 24 ∧
        m.payload = slice buf 11 (field buf 7 4)) := by
  refine ⟨decode_short, ?_, ?_, ?_⟩
  · intro hl h0
    obtain ⟨v, s0, s1, e0, e1, e2, e3, z0, z1, z2, z3, r, rfl⟩ := take_eleven hl
    rw [decode_cons, if_neg]
    simpa using h0
  · intro hl h0 hs
    obtain ⟨v, s0, s1, e0, e1, e2, e3, z0, z1, z2, z3, r, rfl⟩ := take_eleven hl
    simp only [field, slice, List.drop_succ_cons, List.drop_zero, List.take_succ_cons,
      List.take_zero, natBE_four, List.length_cons] at hs
    rw [decode_cons, if_pos (by simpa using h0), if_pos (by omega)]
  · intro hl h0 hs
    obtain ⟨v, s0, s1, e0, e1, e2, e3, z0, z1, z2, z3, r, rfl⟩ := take_eleven hl
    have hf : field (v :: s0 :: s1 :: e0 :: e1 :: e2 :: e3 :: z0 :: z1 :: z2 :: z3 :: r) 7 4
        = (rd32 z0 z1 z2 z3).toNat := by
      simp only [field, slice, List.drop_succ_cons, List.drop_zero, List.take_succ_cons,
        List.take_zero, natBE_four]
    rw [hf] at hs ⊢
    simp only [List.length_cons] at hs
    rw [decode_cons, if_pos (by simpa using h0), if_neg (by omega)]
    generalize hn : (rd32 z0 z1 z2 z3).toNat = n
    have hd := drop_prefix [v, s0, s1, e0, e1, e2, e3, z0, z1, z2, z3] r 11 n rfl
    rw [Nat.add_comm n 11] at hd
    refine ⟨_, by rw [← hd]; rfl, ?_, ?_, ?_⟩
    · simp only [field, slice, List.drop_succ_cons, List.drop_zero, List.take_succ_cons,
        List.take_zero, natBE_two]
    · simp only [field, slice, List.drop_succ_cons, List.drop_zero, List.take_succ_cons,
        List.take_zero, natBE_four, mask24_toNat]
    · simp only [slice, List.drop_succ_cons, List.drop_zero]

/-- C03: a 64-bit client never panics in the message decoder. -/
theorem C03_decode_never_panics (buf : Bytes) : (decode 64 buf).1 ≠ .panic := by
  intro h
  exact decode_not_panic buf (decode 64 buf).2 (Prod.ext h rfl)

/-- Non-vacuity of C03: all four situations occur. -/
example : decode 64 [2, 0] = (.ok none, [2, 0]) ∧
    decode 64 [1, 0,0, 0,0,0,0, 0,0,0,0] = (.err, [1, 0,0, 0,0,0,0, 0,0,0,0]) ∧
    (decode 64 [2, 0,1, 0,0,0,2, 0,0,0,1]).1 = .ok none ∧
    (decode 64 [2, 0,1, 0,0,0,2, 0,0,0,1, 42, 43]).2 = [43] := by decide +kernel

/-- Defect: on a target with 32-bit `usize` the size computation wraps, and a peer can make the
decoder panic with an 11-byte header announcing a payload of `2^32 - 1` bytes. -/
theorem C03_decode_panics_on_32_bit :
    (decode 32 [2, 0,0, 0,0,0,0, 0xff,0xff,0xff,0xff]).1 = .panic := by decide +kernel

end Verif.Props.Wire
