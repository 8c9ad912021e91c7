import Verif.Lemmas.Control
import Verif.Props.Wire
/-!
# Properties C04–C10: control messages
-/
namespace Verif.Props.Control
open Verif.Control Verif.Spec
open Verif.Wire (Res)

/-! ## C04 -/

/-- Evaluates fields at literal offsets of a literal list. -/
macro "fields" : tactic => `(tactic| simp [field, slice, natBE_four, natBE_two])

theorem code_of_ofCode (c : UInt16) (h : MsgType.ofCode c ≠ .unknown) :
    (MsgType.ofCode c).code = some c := by
  by_cases h0 : c = 0x0; · subst h0; rfl
  by_cases h1 : c = 0x1; · subst h1; rfl
  by_cases h2 : c = 0x2; · subst h2; rfl
  by_cases h3 : c = 0x3; · subst h3; rfl
  by_cases h4 : c = 0x4; · subst h4; rfl
  by_cases h5 : c = 0x5; · subst h5; rfl
  by_cases h6 : c = 0x6; · subst h6; rfl
  by_cases h7 : c = 0x7; · subst h7; rfl
  by_cases h8 : c = 0x8; · subst h8; rfl
  by_cases h9 : c = 0x9; · subst h9; rfl
  by_cases ha : c = 0xa; · subst ha; rfl
  by_cases hb : c = 0xb; · subst hb; rfl
  by_cases hc : c = 0xc; · subst hc; rfl
  by_cases hd : c = 0xd; · subst hd; rfl
  exfalso
  apply h
  rw [MsgType.ofCode, if_neg h0, if_neg h1, if_neg h2, if_neg h3, if_neg h4, if_neg h5, if_neg h6,
    if_neg h7, if_neg h8, if_neg h9, if_neg ha, if_neg hb, if_neg hc, if_neg hd]

theorem decodeEmpty_ok {rest : Bytes} {b : Body} (h : decodeEmpty rest = .ok b) :
    rest = [] ∧ b = .empty := by
  unfold decodeEmpty at h
  split at h
  · cases h; exact ⟨‹_›, rfl⟩
  · cases h

theorem decodeBody_sound (i0 i1 t0 t1 : UInt8) (rest : Bytes) (b : Body)
    (h : decodeBody (MsgType.ofCode (rd16 t0 t1)) rest = .ok b) :
    ∃ c, WellFormed (i0 :: i1 :: t0 :: t1 :: rest) c ∧ Denotes b c := by
  have hty : field (i0 :: i1 :: t0 :: t1 :: rest) 2 2 = (rd16 t0 t1).toNat := by
    simp [field, slice, natBE_two]
  generalize rd16 t0 t1 = c at h hty
  have hcode := code_of_ofCode c
  generalize MsgType.ofCode c = t at h hcode
  cases t <;> simp only [MsgType.code, ne_eq, reduceCtorEq, not_false_eq_true, forall_const,
    not_true, Option.some.injEq] at hcode <;> try subst hcode
  case ack =>
    simp only [decodeBody] at h
    unfold decodeAck at h; split at h <;> cases h
    exact ⟨.ack _, ⟨rfl, hty, by fields⟩, .ack _⟩
  case redirect =>
    obtain ⟨cs, rfl, rfl⟩ := decodeRedirect_ok.mp h
    exact ⟨.redirect _, ⟨by simp, hty, rfl⟩, .redirect _ cs rfl⟩
  case hup =>
    simp only [decodeBody] at h
    unfold decodeHup at h; split at h <;> cases h
    exact ⟨.hup _ _, ⟨rfl, hty, by fields, by fields⟩,
      .hup _ _⟩
  case dataAck =>
    simp only [decodeBody] at h
    unfold decodeDataAck at h; split at h <;> cases h
    exact ⟨.dataAck _ _, ⟨rfl, hty, by fields, by fields⟩,
      .dataAck _ _⟩
  case connect =>
    simp only [decodeBody] at h
    unfold decodeConnect at h; split at h <;> cases h
    exact ⟨.connect _ _, ⟨rfl, hty, by fields, by fields⟩,
      .connect _ _⟩
  all_goals first
    | (simp only [decodeBody, reduceCtorEq] at h; done)
    | (simp only [decodeBody] at h
       obtain ⟨rfl, rfl⟩ := decodeEmpty_ok h
       exact ⟨.empty, ⟨rfl, by rw [hty]; decide⟩, .empty⟩)

/-- C04 (soundness): whatever is accepted is a well-formed payload, and the decoded message carries
exactly its big-endian fields. -/
theorem C04_accepted_fields (bs : Bytes) (m : ControlMessage)
    (h : ControlMessage.fromBytes bs = .ok m) :
    4 ≤ bs.length ∧ m.msgId.toNat = field bs 0 2 ∧ m.msgType.toNat = field bs 2 2 ∧
      ∃ c, WellFormed bs c ∧ Denotes m.body c := by
  unfold ControlMessage.fromBytes at h
  split at h
  · rename_i i0 i1 t0 t1 rest
    split at h
    · rename_i b hb
      cases h
      refine ⟨by simp, by simp [field, slice, natBE_two], by simp [field, slice, natBE_two], ?_⟩
      exact decodeBody_sound i0 i1 t0 t1 rest b hb
    · cases h
    · cases h
  · cases h

theorem wellFormed_length {bs : Bytes} {c : Ctl} (h : WellFormed bs c) : 4 ≤ bs.length := by
  cases c <;> simp only [WellFormed] at h <;> omega

theorem six_of_length {bs : Bytes} (h : bs.length = 6) : ∃ a b c d e f, bs = [a, b, c, d, e, f] := by
  match bs, h with
  | [a, b, c, d, e, f], _ => exact ⟨a, b, c, d, e, f, rfl⟩

theorem eight_of_length {bs : Bytes} (h : bs.length = 8) :
    ∃ a b c d e f g i, bs = [a, b, c, d, e, f, g, i] := by
  match bs, h with
  | [a, b, c, d, e, f, g, i], _ => exact ⟨a, b, c, d, e, f, g, i, rfl⟩

theorem four_exact {bs : Bytes} (h : bs.length = 4) : ∃ a b c d, bs = [a, b, c, d] := by
  match bs, h with
  | [a, b, c, d], _ => exact ⟨a, b, c, d, rfl⟩

theorem ofCode_of_toNat {c : UInt16} {n : Nat} (hn : n < 65536) (h : c.toNat = n) :
    c = UInt16.ofNat n := by
  apply UInt16.toNat_inj.mp
  rw [UInt16.toNat_ofNat', h]
  omega

/-- C04 (completeness): every well-formed payload is accepted. -/
theorem C04_wellformed_accepted (bs : Bytes) (c : Ctl) (h : WellFormed bs c) :
    ∃ m, ControlMessage.fromBytes bs = .ok m ∧ Denotes m.body c := by
  obtain ⟨i0, i1, t0, t1, rest, rfl⟩ := four_of_length (wellFormed_length h)
  have hty : field (i0 :: i1 :: t0 :: t1 :: rest) 2 2 = (rd16 t0 t1).toNat := by
    simp [field, slice, natBE_two]
  suffices ∃ b, decodeBody (MsgType.ofCode (rd16 t0 t1)) rest = .ok b ∧ Denotes b c by
    obtain ⟨b, hb, hd⟩ := this
    exact ⟨⟨rd16 i0 i1, rd16 t0 t1, b⟩, by simp only [ControlMessage.fromBytes, hb], hd⟩
  cases c with
  | ack e =>
    obtain ⟨hl, ht, he⟩ := h
    rw [hty] at ht
    rw [ofCode_of_toNat (by omega) ht]
    obtain ⟨a, b, c, d, rfl⟩ := four_exact (bs := rest) (by simpa using hl)
    refine ⟨.ack (rd32 a b c d), rfl, ?_⟩
    rw [he]
    have := Denotes.ack (rd32 a b c d)
    simpa [field, slice, natBE_four] using this
  | connect svc s =>
    obtain ⟨hl, ht, h1, h2⟩ := h
    rw [hty] at ht
    rw [ofCode_of_toNat (by omega) ht]
    obtain ⟨a, b, c, d, e, f, rfl⟩ := six_of_length (bs := rest) (by simpa using hl)
    refine ⟨.connect (rd16 a b) (rd32 c d e f), rfl, ?_⟩
    rw [h1, h2]
    have := Denotes.connect (rd16 a b) (rd32 c d e f)
    simpa [field, slice, natBE_four, natBE_two] using this
  | dataAck s l =>
    obtain ⟨hl, ht, h1, h2⟩ := h
    rw [hty] at ht
    rw [ofCode_of_toNat (by omega) ht]
    obtain ⟨a, b, c, d, e, f, g, i, rfl⟩ := eight_of_length (bs := rest) (by simpa using hl)
    refine ⟨.dataAck (rd32 a b c d) (rd32 e f g i), rfl, ?_⟩
    rw [h1, h2]
    have := Denotes.dataAck (rd32 a b c d) (rd32 e f g i)
    simpa [field, slice, natBE_four, natBE_two] using this
  | hup s l =>
    obtain ⟨hl, ht, h1, h2⟩ := h
    rw [hty] at ht
    rw [ofCode_of_toNat (by omega) ht]
    obtain ⟨a, b, c, d, e, f, g, i, rfl⟩ := eight_of_length (bs := rest) (by simpa using hl)
    refine ⟨.hup (rd32 a b c d) (rd32 e f g i), rfl, ?_⟩
    rw [h1, h2]
    have := Denotes.hup (rd32 a b c d) (rd32 e f g i)
    simpa [field, slice, natBE_four, natBE_two] using this
  | redirect cs =>
    obtain ⟨hl, ht, h1⟩ := h
    rw [hty] at ht
    rw [ofCode_of_toNat (by omega) ht]
    exact ⟨_, decodeRedirect_ok.mpr ⟨cs, by simpa using h1, rfl⟩, .redirect _ cs rfl⟩
  | empty =>
    obtain ⟨hl, ht⟩ := h
    have hr : rest = [] := List.length_eq_zero_iff.mp (by simpa using hl)
    subst hr
    rw [hty] at ht
    simp only [List.mem_cons, List.not_mem_nil, or_false] at ht
    refine ⟨.empty, ?_, .empty⟩
    rcases ht with h | h | h | h | h <;> rw [ofCode_of_toNat (by omega) h] <;> rfl

/-- C04: a payload is accepted iff it is well-formed. -/
theorem C04_accepts_iff (bs : Bytes) :
    (∃ m, ControlMessage.fromBytes bs = .ok m) ↔ ∃ c, WellFormed bs c := by
  constructor
  · rintro ⟨m, h⟩
    obtain ⟨_, _, _, c, hc, _⟩ := C04_accepted_fields bs m h
    exact ⟨c, hc⟩
  · rintro ⟨c, hc⟩
    obtain ⟨m, hm, _⟩ := C04_wellformed_accepted bs c hc
    exact ⟨m, hm⟩

theorem decodeBody_ne_panic (t : MsgType) (bs : Bytes) : decodeBody t bs ≠ .panic := by
  cases t <;> simp only [decodeBody, ne_eq, reduceCtorEq, not_false_eq_true] <;>
    first
    | (unfold decodeAck; split <;> simp)
    | (unfold decodeEmpty; split <;> simp)
    | (unfold decodeHup; split <;> simp)
    | (unfold decodeDataAck; split <;> simp)
    | (unfold decodeConnect; split <;> simp)
    | (unfold decodeRedirect; dsimp only; split <;> (try split) <;> simp)

/-- C04: every other payload is an error, never a panic. -/
theorem C04_otherwise_error (bs : Bytes) (h : ¬ ∃ c, WellFormed bs c) :
    ControlMessage.fromBytes bs = .err := by
  match hr : ControlMessage.fromBytes bs with
  | .ok m => exact absurd ((C04_accepts_iff bs).mp ⟨m, hr⟩) h
  | .err => rfl
  | .panic =>
    unfold ControlMessage.fromBytes at hr
    split at hr
    · split at hr
      · cases hr
      · cases hr
      · rename_i hp; exact absurd hp (decodeBody_ne_panic _ _)
    · cases hr

/-- Non-vacuity of C04: an accepted HUP, a rejected HUP with a short body, a rejected REGISTER, a
rejected redirect with invalid UTF-8. -/
example : ControlMessage.fromBytes [0, 9, 0, 5, 0, 0, 0, 1, 0, 0, 0, 3] = .ok ⟨9, 5, .hup 1 3⟩ ∧
    WellFormed [0, 9, 0, 5, 0, 0, 0, 1, 0, 0, 0, 3] (.hup 1 3) ∧
    ControlMessage.fromBytes [0, 9, 0, 5, 0, 0, 0, 1] = .err ∧
    ControlMessage.fromBytes [0, 9, 0, 2] = .err ∧
    ControlMessage.fromBytes [0, 9, 0, 3, 0xff, 0] = .err ∧
    ControlMessage.fromBytes [0, 9, 0, 3, 97, 0] = .ok ⟨9, 3, .redirect [97]⟩ := by
  refine ⟨by decide +kernel, ⟨by decide, by decide +kernel, by decide +kernel, by decide +kernel⟩,
    by decide +kernel, by decide +kernel, by decide +kernel, by decide +kernel⟩

/-! ## C05 -/

theorem fromBytes_encode (m : ControlMessage) :
    ControlMessage.fromBytes m.encode =
      match decodeBody (MsgType.ofCode m.msgType) m.body.encode with
      | .ok b => .ok ⟨m.msgId, m.msgType, b⟩
      | .err => .err
      | .panic => .panic := by
  obtain ⟨id, ty, body⟩ := m
  simp only [ControlMessage.encode, be16, List.cons_append, List.nil_append,
    ControlMessage.fromBytes, rd16_be16]
  rfl

/-- C05: ACK, DATA_ACK, HUP, PING built by the client decode to the same id, type and fields. -/
theorem C05_round_trip_built (id : UInt16) (err sess len : UInt32) :
    ControlMessage.fromBytes (mkAck id err).encode = .ok ⟨id, 0x0, .ack err⟩ ∧
    ControlMessage.fromBytes (mkDataAck id sess len).encode =
      .ok ⟨id, 0xc, .dataAck (UInt32.ofNat (sess.toNat % 2 ^ 24)) len⟩ ∧
    ControlMessage.fromBytes (mkHup id sess err).encode =
      .ok ⟨id, 0x5, .hup (UInt32.ofNat (sess.toNat % 2 ^ 24)) err⟩ ∧
    ControlMessage.fromBytes (mkPing id).encode = .ok ⟨id, 0x1, .empty⟩ := by
  have hm : UInt32.ofNat (sess.toNat % 2 ^ 24) = mask24 sess := by
    rw [← mask24_toNat]; exact UInt32.ofNat_toNat
  rw [hm]
  generalize hm' : mask24 sess = s
  refine ⟨?_, ?_, ?_, ?_⟩ <;> rw [fromBytes_encode]
  · have : decodeBody (MsgType.ofCode 0x0) (be32 err) = .ok (.ack err) := by
      change decodeAck (be32 err) = _
      simp only [be32, decodeAck, rd32_be32]
    simp only [mkAck, Body.encode, this]
  · have : decodeBody (MsgType.ofCode 0xc) (be32 s ++ be32 len) = .ok (.dataAck s len) := by
      change decodeDataAck (be32 s ++ be32 len) = _
      simp only [be32, List.cons_append, List.nil_append, decodeDataAck, rd32_be32]
    simp only [mkDataAck, Body.encode]
    rw [hm']
    simp only [this]
  · have : decodeBody (MsgType.ofCode 0x5) (be32 s ++ be32 err) = .ok (.hup s err) := by
      change decodeHup (be32 s ++ be32 err) = _
      simp only [be32, List.cons_append, List.nil_append, decodeHup, rd32_be32]
    simp only [mkHup, Body.encode]
    rw [hm']
    simp only [this]
  · rfl

/-- C05: CONNECT and REDIRECT messages, as a server encodes them with the same encoder. -/
theorem C05_round_trip_server (id svc : UInt16) (sess : UInt32) (target : List Char) :
    ControlMessage.fromBytes (ControlMessage.encode ⟨id, 0xd, .connect svc sess⟩) =
      .ok ⟨id, 0xd, .connect svc sess⟩ ∧
    ControlMessage.fromBytes
        (ControlMessage.encode ⟨id, 0x3, .redirect (target.flatMap String.utf8EncodeChar)⟩) =
      .ok ⟨id, 0x3, .redirect (target.flatMap String.utf8EncodeChar)⟩ := by
  constructor <;> rw [fromBytes_encode]
  · have : decodeBody (MsgType.ofCode 0xd) (be16 svc ++ be32 sess) = .ok (.connect svc sess) := by
      change decodeConnect (be16 svc ++ be32 sess) = _
      simp only [be16, be32, List.cons_append, List.nil_append, decodeConnect, rd16_be16, rd32_be32]
    simp only [Body.encode, this]
  · have h : decodeBody (MsgType.ofCode 0x3) (target.flatMap String.utf8EncodeChar ++ [0]) =
        .ok (.redirect (target.flatMap String.utf8EncodeChar)) :=
      decodeRedirect_ok.mpr ⟨target, rfl, rfl⟩
    simp only [Body.encode, h]

/-- C05 (layout): the bytes of the messages the client builds, read field by field. -/
theorem C05_layout (id req : UInt16) (err sess len flags : UInt32) :
    WellFormed (mkAck id err).encode (.ack err.toNat) ∧
    WellFormed (mkDataAck id sess len).encode (.dataAck (sess.toNat % 2 ^ 24) len.toNat) ∧
    WellFormed (mkHup id sess err).encode (.hup (sess.toNat % 2 ^ 24) err.toNat) ∧
    WellFormed (mkPing id).encode .empty ∧ field (mkPing id).encode 2 2 = 1 ∧
    (let e := (mkStatus id req flags sess).encode
     e.length = 14 ∧ field e 2 2 = 9 ∧ field e 4 2 = req.toNat ∧ field e 6 4 = flags.toNat ∧
      field e 10 4 = sess.toNat) ∧
    field (mkAck id err).encode 0 2 = id.toNat ∧ field (mkDataAck id sess len).encode 0 2 = id.toNat ∧
    field (mkHup id sess err).encode 0 2 = id.toNat ∧ field (mkPing id).encode 0 2 = id.toNat ∧
    field (mkStatus id req flags sess).encode 0 2 = id.toNat := by
  have hi := natBE_be16 id
  have hr := natBE_be16 req
  have he := natBE_be32 err
  have hl := natBE_be32 len
  have hs := natBE_be32 sess
  have hf := natBE_be32 flags
  have hm := natBE_be32 (mask24 sess)
  rw [mask24_toNat] at hm
  simp only [be16, be32] at hi hr he hl hs hf hm
  have h1 : natBE [0, 0] = 0 := rfl
  simp only [mkAck, mkDataAck, mkHup, mkPing, mkStatus, ControlMessage.encode, Body.encode, be16,
    be32, List.cons_append, List.nil_append, List.append_nil, WellFormed, field, slice,
    List.drop_succ_cons, List.drop_zero, List.take_succ_cons, List.take_zero, List.length_cons,
    List.length_nil, hi, hr, he, hl, hs, hf, hm, true_and, and_true]
  refine ⟨rfl, rfl, rfl, ?_, rfl, rfl⟩
  decide

/-- Non-vacuity of C05: an over-long session id is cut to 24 bits. -/
example : ControlMessage.fromBytes (mkHup 3 0x5000007 3).encode = .ok ⟨3, 5, .hup 7 3⟩ := by
  decide +kernel

/-! ## C06 -/

/-- C06: the declared length is the encoded length, for every message body. -/
theorem C06_declared_length (m : ControlMessage) : m.encode.length = m.len := by
  simp only [ControlMessage.encode, ControlMessage.len, List.length_append, be16_length,
    Body.encode_length]

/-- C06 for the whole Arrow message: it goes to service 0, session 0, its size field is the declared
length, and the total length is 11 more. -/
theorem C06_arrow_size (m : ControlMessage) (h : m.len < 2 ^ 32) :
    field m.toArrow.encode 7 4 = m.len ∧ m.toArrow.encode.length = 11 + m.len ∧
    field m.toArrow.encode 1 2 = 0 ∧ field m.toArrow.encode 3 4 = 0 ∧
    m.toArrow.encode.drop 11 = m.encode := by
  have hl := C06_declared_length m
  obtain ⟨h1, -, h3, h4, h5, h6⟩ := Verif.Props.Wire.C01_layout 0 0 m.encode (by omega)
  rw [hl] at h1 h5
  exact ⟨h5, h1, h3, h4, h6⟩

/-- Non-vacuity of C06: a scan report with two hosts and a service is 1 + ... bytes long. -/
example : (ControlMessage.encode (mkScanReport 1 2
    [⟨1, ⟨1,2,3,4,5,6⟩, .v4 10 0 0 1, [80, 554]⟩, ⟨0, ⟨1,2,3,4,5,7⟩, .v6 1 2 3 4 5 6 7 8, []⟩]
    [.rtsp ⟨1,2,3,4,5,6⟩ ⟨.v4 10 0 0 1, 554⟩ [47, 97]] (fun _ => some 7))).length = 128 := by
  decide +kernel

/-! ## C07 -/

/-- C07: a layout-only reader recovers the table and stops right behind it. -/
theorem C07_table_readable (t : SimpleTable) (rest : Bytes)
    (h : ∀ e ∈ t.elems, (0 : UInt8) ∉ e.service.path.getD [] ∧
      e.service.svcType ≠ .controlProtocol) :
    readSvcTable (t.encode ++ rest) =
      some (t.elems.map (fun e => svcRecord e.id e.service), rest) :=
  readSvcTable_encode t rest h

/-- C07: the UPDATE message body is exactly such a table. -/
theorem C07_update_readable (id : UInt16) (t : SimpleTable)
    (h : ∀ e ∈ t.elems, (0 : UInt8) ∉ e.service.path.getD [] ∧
      e.service.svcType ≠ .controlProtocol) :
    readSvcTable ((mkUpdate id t).encode.drop 4) =
      some (t.elems.map (fun e => svcRecord e.id e.service), []) ∧
    field (mkUpdate id t).encode 0 2 = id.toNat ∧ field (mkUpdate id t).encode 2 2 = 4 := by
  have hd : (mkUpdate id t).encode.drop 4 = t.encode ++ [] := by
    simp [mkUpdate, ControlMessage.encode, Body.encode, be16]
  refine ⟨hd ▸ readSvcTable_encode t [] h, ?_, ?_⟩
  · rw [mkUpdate, ControlMessage.encode, List.append_assoc, field, slice_append_left _ _ 2 rfl,
      natBE_be16]
  · rw [mkUpdate, ControlMessage.encode, List.append_assoc, field,
      slice_append_right _ _ 2 _ _ rfl (by omega), slice_append_left _ _ 2 rfl, natBE_be16]
    rfl

/-- Non-vacuity of C07. -/
example : readSvcTable (SimpleTable.encode ⟨[⟨7, .rtsp ⟨1,2,3,4,5,6⟩ ⟨.v4 10 0 0 1, 554⟩ [47, 97]⟩,
      ⟨9, .tcp ⟨1,2,3,4,5,6⟩ ⟨.v6 0 0 0 0 0 0 0 1, 23⟩⟩]⟩) =
    some ([⟨7, 1, [1,2,3,4,5,6], 4, 0x0a000001 * 2 ^ 96, 554, [47, 97]⟩,
      ⟨9, 65535, [1,2,3,4,5,6], 6, 1, 23, []⟩], []) := by decide +kernel

/-- C07 (defect): a NUL byte in a path makes the written table unreadable. -/
theorem C07_nul_path_breaks_table :
    ∃ t : SimpleTable, (∀ e ∈ t.elems, e.service.Constructible ∧ ¬ e.service.isControl) ∧
      readSvcTable t.encode ≠
        some (t.elems.map (fun e => svcRecord e.id e.service), []) := by
  refine ⟨⟨[⟨7, .rtsp ⟨1,2,3,4,5,6⟩ ⟨.v4 10 0 0 1, 554⟩ [97, 0, 98]⟩]⟩, ?_, by decide +kernel⟩
  intro e he
  simp only [List.mem_singleton] at he
  subst he
  exact ⟨.rtsp _ _ _, by decide⟩

/-! ## C08 -/

theorem readRegister_encode (uuid key : Vector UInt8 16) (mac : MacAddr) (w : UInt16)
    (gw : Bool) (info : Bytes) (t : SimpleTable) (hi : (0 : UInt8) ∉ info) (ht : Clean t) :
    readRegister (Body.encode (.register uuid key mac w (if gw then 1 else 0) info t)) =
      some { uuid := uuid.toList, key := key.toList, mac := macBytes mac, window := w.toNat + 1,
             gateway := gw, info := info,
             services := t.elems.map (fun e => svcRecord e.id e.service) } := by
  have hu : uuid.toList.length = 16 := by simp
  have hk : key.toList.length = 16 := by simp
  have hm : mac.octets.length = 6 := rfl
  generalize huu : uuid.toList = u at *
  generalize hkk : key.toList = k at *
  simp only [Body.encode, huu, hkk, List.append_assoc]
  rw [readRegister, if_neg (by simp only [List.length_append, hu, hk, hm, be16_length, be32_length]; omega)]
  have hd : List.drop 44 (u ++ (k ++ (mac.octets ++ (be16 w ++ (be32 (if gw then 1 else 0) ++
      (info ++ ([0] ++ t.encode))))))) = info ++ 0 :: t.encode := by
    have : (u ++ (k ++ (mac.octets ++ (be16 w ++ (be32 (if gw then 1 else 0) ++
      (info ++ ([0] ++ t.encode))))))) = (u ++ k ++ mac.octets ++ be16 w ++ be32 (if gw then 1 else 0)) ++
      (info ++ 0 :: t.encode) := by simp
    rw [this]
    apply List.drop_left'
    simp [hu, hk, hm]
  have htab : readSvcTable t.encode = some (t.elems.map (fun e => svcRecord e.id e.service), []) := by
    have := readSvcTable_encode t [] ht
    rwa [List.append_nil] at this
  rw [hd, readCString_append _ _ hi]
  dsimp only
  rw [htab]
  simp only [Option.some.injEq, RegisterRecord.mk.injEq, and_true]
  refine ⟨?_, ?_, ?_, ?_, ?_⟩
  · rw [slice_append_left _ _ 16 hu]
  · rw [slice_append_right _ _ 16 _ _ hu (by omega), slice_append_left _ _ 16 hk]
  · rw [slice_append_right _ _ 16 _ _ hu (by omega), slice_append_right _ _ 16 _ _ hk (by omega),
      slice_append_left _ _ 6 hm]; rfl
  · rw [field, slice_append_right _ _ 16 _ _ hu (by omega), slice_append_right _ _ 16 _ _ hk (by omega),
      slice_append_right _ _ 6 _ _ hm (by omega), slice_append_left _ _ 2 rfl, natBE_be16]
  · rw [field, slice_append_right _ _ 16 _ _ hu (by omega), slice_append_right _ _ 16 _ _ hk (by omega),
      slice_append_right _ _ 6 _ _ hm (by omega), slice_append_right _ _ 2 _ _ rfl (by omega),
      slice_append_left _ _ 4 rfl, natBE_be32]
    cases gw <;> decide

/-- C08: for every window in 1..65536 the REGISTER message is built, and a layout-only reader
recovers every item, the window being the session window itself. -/
theorem C08_register_content (id : UInt16) (uuid key : Vector UInt8 16) (mac : MacAddr)
    (window : Nat) (gw : Bool) (t : SimpleTable) (info : Bytes)
    (hw : 0 < window ∧ window ≤ 65536) (hi : (0 : UInt8) ∉ info)
    (ht : ∀ e ∈ t.elems, (0 : UInt8) ∉ e.service.path.getD [] ∧
      e.service.svcType ≠ .controlProtocol) :
    ∃ m, mkRegister id uuid key mac window gw t info = some m ∧
      field m.encode 0 2 = id.toNat ∧ field m.encode 2 2 = 2 ∧
      readRegister (m.encode.drop 4) =
        some { uuid := uuid.toList, key := key.toList, mac := macBytes mac, window := window,
               gateway := gw, info := info,
               services := t.elems.map (fun e => svcRecord e.id e.service) } := by
  rw [mkRegister, if_pos hw]
  refine ⟨_, rfl, ?_, ?_, ?_⟩
  · rw [ControlMessage.encode, List.append_assoc, field, slice_append_left _ _ 2 rfl,
      natBE_be16]
  · rw [ControlMessage.encode, List.append_assoc, field,
      slice_append_right _ _ 2 _ _ rfl (by omega), slice_append_left _ _ 2 rfl, natBE_be16]
    rfl
  · have hd : ∀ (b : Body), (ControlMessage.encode ⟨id, 0x2, b⟩).drop 4 = b.encode := by
      intro b; rw [ControlMessage.encode]; exact List.drop_left' rfl
    rw [hd, readRegister_encode _ _ _ _ _ _ _ hi ht]
    have : (UInt16.ofNat (window - 1)).toNat + 1 = window := by
      rw [UInt16.toNat_ofNat']; omega
    rw [this]

/-- C08: any other window is rejected by the assertion (a panic). -/
theorem C08_other_windows_rejected (id : UInt16) (uuid key : Vector UInt8 16) (mac : MacAddr)
    (window : Nat) (gw : Bool) (t : SimpleTable) (info : Bytes)
    (hw : window = 0 ∨ 65536 < window) : mkRegister id uuid key mac window gw t info = none := by
  rw [mkRegister, if_neg (by omega)]

/-- Non-vacuity of C08: the session window used by the client, 65536, is advertised as such. -/
example : ((mkRegister 0 (Vector.replicate 16 1) (Vector.replicate 16 2) ⟨1,2,3,4,5,6⟩ 65536 true
    ⟨[]⟩ [97]).bind (fun m => readRegister (m.encode.drop 4))).map (·.window) = some 65536 := by
  decide +kernel

/-! ## C09 -/

theorem readScanReport_encode (req : UInt16) (hs : List HostRecord) (t : SimpleTable)
    (hp : ∀ h ∈ hs, h.ports.length < 65536) (hn : hs.length < 2 ^ 32) (ht : Clean t) :
    readScanReport (Body.encode (.scanReport req hs t)) =
      some (req.toNat, hs.map hostRec, t.elems.map (fun e => svcRecord e.id e.service)) := by
  have hcnt : (UInt32.ofNat hs.length).toNat = hs.length := by
    rw [UInt32.toNat_ofNat']; omega
  simp only [Body.encode, encodeHosts, List.append_assoc]
  rw [readScanReport, if_neg (by simp only [List.length_append, be16_length, be32_length]; omega)]
  have hd : List.drop 6 (be16 req ++ (be32 (UInt32.ofNat hs.length) ++
      (hs.flatMap HostRecord.encode ++ t.encode))) = hs.flatMap HostRecord.encode ++ t.encode := by
    rw [← List.append_assoc]
    exact List.drop_left' rfl
  have hf : field (be16 req ++ (be32 (UInt32.ofNat hs.length) ++
      (hs.flatMap HostRecord.encode ++ t.encode))) 2 4 = hs.length := by
    rw [field, slice_append_right _ _ 2 _ _ rfl (by omega), slice_append_left _ _ 4 rfl, natBE_be32,
      hcnt]
  have htab : readSvcTable t.encode = some (t.elems.map (fun e => svcRecord e.id e.service), []) := by
    have := readSvcTable_encode t [] ht
    rwa [List.append_nil] at this
  rw [hd, hf, readHosts_encode hs _ hp]
  dsimp only
  rw [htab]
  simp only [Option.some.injEq, Prod.mk.injEq, and_true]
  rw [field, slice_append_left _ _ 2 rfl, natBE_be16]

/-- C09: a layout-only reader recovers request id and hosts; the services read are exactly reported
services under the id the service table gives them, one record per id, and no id is missing. -/
theorem C09_scan_report_content (id req : UInt16) (hosts : List HostRecord)
    (services : List Service) (getId : ServiceIdentifier → Option UInt16)
    (hp : ∀ h ∈ hosts, h.ports.length < 65536) (hn : hosts.length < 2 ^ 32)
    (hs : ∀ s ∈ services, (0 : UInt8) ∉ s.path.getD [] ∧ s.svcType ≠ .controlProtocol) :
    let e := (mkScanReport id req hosts services getId).encode
    field e 0 2 = id.toNat ∧ field e 2 2 = 0xb ∧
    ∃ svcs, readScanReport (e.drop 4) = some (req.toNat, hosts.map hostRec, svcs) ∧
      (svcs.map (·.id)).Nodup ∧
      (∀ r ∈ svcs, ∃ s ∈ services, ∃ i, getId s.toIdentifier = some i ∧ r = svcRecord i s) ∧
      (∀ s ∈ services, ∀ i, getId s.toIdentifier = some i →
        ∃ s' ∈ services, getId s'.toIdentifier = some i ∧ svcRecord i s' ∈ svcs) := by
  intro e
  refine ⟨?_, ?_, ?_⟩
  · simp only [e, mkScanReport]
    rw [ControlMessage.encode, List.append_assoc, field, slice_append_left _ _ 2 rfl, natBE_be16]
  · simp only [e, mkScanReport]
    rw [ControlMessage.encode, List.append_assoc, field,
      slice_append_right _ _ 2 _ _ rfl (by omega), slice_append_left _ _ 2 rfl, natBE_be16]
    rfl
  · have hd : ∀ (b : Body), (ControlMessage.encode ⟨id, 0xb, b⟩).drop 4 = b.encode := by
      intro b; rw [ControlMessage.encode]; exact List.drop_left' rfl
    simp only [e, mkScanReport, hd]
    generalize hl : services.filterMap (fun s => (getId s.toIdentifier).map (fun i => (i, s))) = listed
    have hmem : ∀ i s, (i, s) ∈ listed ↔ s ∈ services ∧ getId s.toIdentifier = some i := by
      intro i s
      rw [← hl, List.mem_filterMap]
      constructor
      · rintro ⟨a, ha, h⟩
        rw [Option.map_eq_some_iff] at h
        obtain ⟨j, hj, he⟩ := h
        cases he
        exact ⟨ha, hj⟩
      · rintro ⟨ha, h⟩
        exact ⟨s, ha, by rw [h]; rfl⟩
    obtain ⟨h1, h2, -, h4⟩ := foldInsert_spec listed [] (by simp)
    have hclean : Clean (SimpleTable.ofServices listed) := by
      intro x hx
      rcases h2 x hx with h | h
      · cases h
      · exact hs _ ((hmem _ _).mp h).1
    refine ⟨_, readScanReport_encode req hosts _ hp hn hclean, ?_, ?_, ?_⟩
    · have : (List.map (fun e => svcRecord e.id e.service) (SimpleTable.ofServices listed).elems).map
          (·.id) = ((SimpleTable.ofServices listed).elems.map (·.id)).map UInt16.toNat := by
        simp [svcRecord]
      rw [this]
      exact List.Pairwise.map _ (fun a b hab h => hab (UInt16.toNat_inj.mp h)) h1
    · intro r hr
      rw [List.mem_map] at hr
      obtain ⟨x, hx, rfl⟩ := hr
      rcases h2 x hx with h | h
      · cases h
      · exact ⟨_, ((hmem _ _).mp h).1, _, ((hmem _ _).mp h).2, rfl⟩
    · intro s hsm i hi
      obtain ⟨s', hs', hr⟩ := h4 (i, s) ((hmem i s).mpr ⟨hsm, hi⟩)
      refine ⟨s', ((hmem _ _).mp hs').1, ((hmem _ _).mp hs').2, ?_⟩
      rw [List.mem_map]
      exact ⟨_, hr, rfl⟩

/-- C09: when no two reported services share an id, every reported service that has an id is in the
report under that id. -/
theorem C09_every_service_reported (id req : UInt16) (hosts : List HostRecord)
    (services : List Service) (getId : ServiceIdentifier → Option UInt16)
    (hp : ∀ h ∈ hosts, h.ports.length < 65536) (hn : hosts.length < 2 ^ 32)
    (hs : ∀ s ∈ services, (0 : UInt8) ∉ s.path.getD [] ∧ s.svcType ≠ .controlProtocol)
    (hinj : ∀ s ∈ services, ∀ s' ∈ services, ∀ i, getId s.toIdentifier = some i →
      getId s'.toIdentifier = some i → s = s') :
    ∃ svcs, readScanReport ((mkScanReport id req hosts services getId).encode.drop 4) =
        some (req.toNat, hosts.map hostRec, svcs) ∧
      ∀ s ∈ services, ∀ i, getId s.toIdentifier = some i → svcRecord i s ∈ svcs := by
  obtain ⟨-, -, svcs, h1, -, -, h4⟩ := C09_scan_report_content id req hosts services getId hp hn hs
  refine ⟨svcs, h1, fun s hsm i hi => ?_⟩
  obtain ⟨s', hs', hi', hr⟩ := h4 s hsm i hi
  rw [hinj s hsm s' hs' i hi hi']
  exact hr

/-- Non-vacuity of C09. -/
example : readScanReport ((mkScanReport 1 2
    [⟨1, ⟨1,2,3,4,5,6⟩, .v4 10 0 0 1, [80, 554]⟩]
    [.rtsp ⟨1,2,3,4,5,6⟩ ⟨.v4 10 0 0 1, 554⟩ [47], .http ⟨1,2,3,4,5,6⟩ ⟨.v4 10 0 0 1, 80⟩]
    (fun i => if i.svcType = .rtsp then some 7 else none)).encode.drop 4) =
    some (2, [⟨1, [1,2,3,4,5,6], 4, 0x0a000001 * 2 ^ 96, [80, 554]⟩],
      [⟨7, 1, [1,2,3,4,5,6], 4, 0x0a000001 * 2 ^ 96, 554, [47]⟩]) := by decide +kernel

/-- C09 (defect): for any host with exactly 65536 ports the record is not read back: the count field
says 0 ports. -/
theorem C09_65536_ports_lost (h : HostRecord) (rest : Bytes) (hp : h.ports.length = 65536) :
    ∃ rest', readHost (h.encode ++ rest) = some ({ hostRec h with ports := [] }, rest') ∧
      rest'.length = 131072 + rest.length := by
  have hl : ¬ (h.encode ++ rest).length < 26 := by
    simp only [List.length_append, HostRecord.encode_length, HostRecord.len]; omega
  have hcnt : (UInt16.ofNat h.ports.length).toNat = 0 := by
    rw [UInt16.toNat_ofNat', hp]
  have hdrop : (h.encode ++ rest).drop 26 = h.ports.flatMap be16 ++ rest := by
    rw [HostRecord.encode, List.append_assoc]
    apply List.drop_left'
    simp [IpAddr.bytes_length, MacAddr.octets]
  have hmac : h.mac.octets.length = 6 := rfl
  have hf : field (h.encode ++ rest) 24 2 = 0 := by
    simp only [HostRecord.encode, List.append_assoc]
    rw [field, slice_append_right _ _ 1 _ _ rfl (by omega), slice_append_right _ _ 6 _ _ hmac (by omega),
      slice_append_right _ _ 1 _ _ rfl (by omega),
      slice_append_right _ _ 16 _ _ (IpAddr.bytes_length _) (by omega),
      slice_append_left _ _ 2 rfl, natBE_be16, hcnt]
  rw [readHost, if_neg hl, hdrop, hf]
  refine ⟨h.ports.flatMap be16 ++ rest, ?_, ?_⟩
  · simp only [readPorts, Option.map_some, Option.some.injEq, Prod.mk.injEq, and_true, hostRec,
      HostRec.mk.injEq]
    simp only [HostRecord.encode, List.append_assoc]
    refine ⟨?_, ?_, ?_, ?_⟩
    · rw [field, slice_append_left _ _ 1 rfl]; simp [natBE]
    · rw [slice_append_right _ _ 1 _ _ rfl (by omega), slice_append_left _ _ 6 hmac]; rfl
    · rw [field, slice_append_right _ _ 1 _ _ rfl (by omega), slice_append_right _ _ 6 _ _ hmac (by omega),
        slice_append_left _ _ 1 rfl]
      simp [natBE, ip_version_eq]
    · rw [field, slice_append_right _ _ 1 _ _ rfl (by omega), slice_append_right _ _ 6 _ _ hmac (by omega),
        slice_append_right _ _ 1 _ _ rfl (by omega), slice_append_left _ _ 16 (IpAddr.bytes_length _),
        natBE_ip]
  · rw [List.length_append, ports_length, hp]

/-! ## C10 -/

/-- Does the request take an id from the counter? Everything but an ACK reply does. -/
def isAckReply : FactoryOp → Bool
  | .ack .. => true
  | _ => false

/-- The id an ACK reply has to carry. -/
def ackedId : FactoryOp → Option UInt16
  | .ack id _ => some id
  | _ => none

theorem factoryRun_append (n : Nat) (a b : List FactoryOp) :
    factoryRun n (a ++ b) = ((factoryRun (factoryRun n a).1 b).1,
      (factoryRun n a).2 ++ (factoryRun (factoryRun n a).1 b).2) := by
  induction a generalizing n with
  | nil => rfl
  | cons x a ih => simp [factoryRun, ih]

theorem factoryRun_counter (n : Nat) (ops : List FactoryOp) :
    (factoryRun n ops).1 = n + ops.countP (fun o => !isAckReply o) := by
  induction ops generalizing n with
  | nil => rfl
  | cons o ops ih =>
    simp only [factoryRun, ih, List.countP_cons]
    cases o <;> simp [factoryStep, isAckReply] <;> omega

theorem factoryStep_id (n : Nat) (o : FactoryOp) (m : ControlMessage)
    (h : (factoryStep n o).2 = some m) :
    m.msgId = (ackedId o).getD (UInt16.ofNat n) := by
  cases o <;> simp only [factoryStep, Option.some.injEq, mkAck, mkDataAck, mkHup, mkStatus, mkPing,
    mkUpdate, mkScanReport, mkRegister] at h
  case register =>
    split at h
    · cases h; rfl
    · cases h
  all_goals (subst h; rfl)

/-- C10: in every history of message creations the message created by a request carries the number of
earlier id-consuming requests modulo 65536; an ACK reply carries the id it acknowledges and consumes
nothing. -/
theorem C10_message_ids (before : List FactoryOp) (o : FactoryOp) (after : List FactoryOp) :
    ∃ r, (factoryRun 0 (before ++ o :: after)).2[before.length]? = some r ∧
      ∀ m, r = some m →
        (∀ id, ackedId o = some id → m.msgId = id) ∧
        (isAckReply o = false →
          m.msgId.toNat = before.countP (fun o => !isAckReply o) % 65536) := by
  have hlen : ∀ n (l : List FactoryOp), (factoryRun n l).2.length = l.length := by
    intro n l
    induction l generalizing n with
    | nil => rfl
    | cons x l ih => simp [factoryRun, ih]
  rw [factoryRun_append]
  simp only [factoryRun, factoryRun_counter]
  refine ⟨(factoryStep (0 + before.countP (fun o => !isAckReply o)) o).2, ?_, ?_⟩
  · rw [List.getElem?_append_right (by rw [hlen]; omega), hlen]
    simp
  · intro m hm
    have := factoryStep_id _ _ _ hm
    constructor
    · intro id hid; rw [this, hid]; rfl
    · intro hn
      have hnone : ackedId o = none := by cases o <;> simp_all [ackedId, isAckReply]
      rw [this, hnone, Option.getD_none, UInt16.toNat_ofNat', Nat.zero_add]

/-- C10: two id-consuming requests with fewer than 65536 id-consuming requests from the first to the
second get different ids. -/
theorem C10_distinct_within_65536 (before : List FactoryOp) (o : FactoryOp)
    (between : List FactoryOp) (o' : FactoryOp) (after : List FactoryOp) (m m' : ControlMessage)
    (ho : isAckReply o = false) (ho' : isAckReply o' = false)
    (hb : between.countP (fun o => !isAckReply o) + 1 < 65536)
    (hm : (factoryRun 0 (before ++ o :: (between ++ o' :: after))).2[before.length]? = some (some m))
    (hm' : (factoryRun 0 (before ++ o :: (between ++ o' :: after))).2[
      (before ++ o :: between).length]? = some (some m')) :
    m.msgId ≠ m'.msgId := by
  obtain ⟨r, h1, h2⟩ := C10_message_ids before o (between ++ o' :: after)
  obtain ⟨r', h1', h2'⟩ := C10_message_ids (before ++ o :: between) o' after
  rw [hm] at h1
  have he : before ++ o :: (between ++ o' :: after) = (before ++ o :: between) ++ o' :: after := by simp
  rw [he] at hm'
  rw [hm'] at h1'
  have e1 := (h2 m (Option.some.inj h1).symm).2 ho
  have e2 := (h2' m' (Option.some.inj h1').symm).2 ho'
  intro h
  rw [h, e2, List.countP_append, List.countP_cons, ho] at e1
  simp at e1
  omega

/-- Non-vacuity of C10: REGISTER first (id 0), an ACK reply to message 500, then PING with id 1. -/
example : (factoryRun 0 [.register (Vector.replicate 16 0) (Vector.replicate 16 0) ⟨0,0,0,0,0,0⟩ 65536
      false ⟨[]⟩ [], .ack 500 0, .ping]).2.map (Option.map (·.msgId)) =
    [some 0, some 500, some 1] := by decide +kernel

end Verif.Props.Control
