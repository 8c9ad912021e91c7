import Verif.Model.Control
import Verif.Lemmas.Wire
import Verif.Lemmas.Utf8
import Verif.Spec.ControlView
namespace Verif.Control
open Verif.Spec
open Verif.Wire (Res)

theorem foldl_add_len {α : Type} (f : α → Nat) (l : List α) (n : Nat) :
    l.foldl (fun n e => n + f e) n = n + (l.map f).sum := by
  induction l generalizing n with
  | nil => simp
  | cons a l ih => simp [ih, Nat.add_assoc]

theorem IpAddr.bytes_length (a : IpAddr) : a.bytes.length = 16 := by
  cases a <;> rfl

theorem encodeHeader_length (e : SvcElement) : e.encodeHeader.length = 29 := by
  simp [SvcElement.encodeHeader, MacAddr.octets, IpAddr.bytes_length]

theorem SvcElement.encode_length (e : SvcElement) : e.encode.length = e.len := by
  simp [SvcElement.encode, encodeHeader_length, SvcElement.len]

theorem flatMap_length {α : Type} (f : α → Bytes) (g : α → Nat) (h : ∀ a, (f a).length = g a)
    (l : List α) : (l.flatMap f).length = (l.map g).sum := by
  induction l with
  | nil => rfl
  | cons a l ih => simp [h, ih]

theorem SimpleTable.encode_length (t : SimpleTable) : t.encode.length = t.len := by
  simp only [SimpleTable.encode, List.length_append, SvcElement.encode_length, SimpleTable.len,
    foldl_add_len, flatMap_length _ _ SvcElement.encode_length]
  omega

theorem ports_length (l : List UInt16) : (l.flatMap be16).length = l.length * 2 := by
  induction l with
  | nil => rfl
  | cons a l ih => simp [ih]; omega

theorem HostRecord.encode_length (h : HostRecord) : h.encode.length = h.len := by
  simp only [HostRecord.encode, HostRecord.len, List.length_append, IpAddr.bytes_length,
    ports_length, be16_length, MacAddr.octets, List.length_cons, List.length_nil]

theorem encodeHosts_length (hs : List HostRecord) : (encodeHosts hs).length = hostsLen hs := by
  simp only [encodeHosts, hostsLen, List.length_append, be32_length, foldl_add_len,
    flatMap_length _ _ HostRecord.encode_length]

theorem Body.encode_length (b : Body) : b.encode.length = b.len := by
  cases b <;> simp [Body.encode, Body.len, SimpleTable.encode_length, encodeHosts_length,
    MacAddr.octets] <;> omega

theorem readCString_append (p rest : Bytes) (h : (0 : UInt8) ∉ p) :
    readCString (p ++ 0 :: rest) = some (p, rest) := by
  induction p with
  | nil => simp [readCString]
  | cons b p ih =>
    simp only [List.mem_cons, not_or] at h
    simp only [List.cons_append, readCString, if_neg (Ne.symm h.1), ih h.2, Option.map_some]

theorem natBE_append (a b : Bytes) : natBE (a ++ b) = natBE a * 256 ^ b.length + natBE b := by
  simp only [natBE, List.foldl_append]
  generalize a.foldl (fun acc b => acc * 256 + b.toNat) 0 = x
  suffices ∀ (b : Bytes) (x y : Nat), b.foldl (fun acc b => acc * 256 + b.toNat) (x * 1 + y) =
      x * 256 ^ b.length + b.foldl (fun acc b => acc * 256 + b.toNat) y by
    have := this b x 0; simpa using this
  intro b
  induction b with
  | nil => intro x y; simp
  | cons c b ih =>
    intro x y
    simp only [List.foldl_cons, List.length_cons]
    have h : (x * 1 + y) * 256 + c.toNat = (x * 256) * 1 + (y * 256 + c.toNat) := by omega
    rw [h, ih, Nat.pow_succ, Nat.mul_assoc, Nat.mul_comm 256]

theorem natBE_ip (a : IpAddr) : natBE a.bytes = ipNumber a := by
  cases a with
  | v4 a b c d =>
    simp only [IpAddr.bytes, natBE, List.foldl, ipNumber, UInt8.toNat_ofNat]
    omega
  | v6 s0 s1 s2 s3 s4 s5 s6 s7 =>
    simp only [IpAddr.bytes, natBE_append, natBE_be16, be16_length, ipNumber, List.foldl]
    omega

theorem typeCode_eq (t : ServiceType) : t.code.toNat = typeCode t := by cases t <;> rfl

theorem ip_version_eq (a : IpAddr) : a.version.toNat = ipVersion a := by cases a <;> rfl

/-- Slicing a concatenation of blocks of known length. -/
theorem slice_append_right (a b : Bytes) (n off len : Nat) (h : a.length = n) (ho : n ≤ off) :
    slice (a ++ b) off len = slice b (off - n) len := by
  subst h
  simp only [slice, List.drop_append]
  rw [List.drop_eq_nil_of_le ho, List.nil_append]

theorem slice_append_left (a b : Bytes) (len : Nat) (h : a.length = len) :
    slice (a ++ b) 0 len = a := by
  subst h; simp [slice]

theorem readSvcRecord_encode (e : SvcElement) (rest : Bytes)
    (h : (0 : UInt8) ∉ e.service.path.getD []) :
    readSvcRecord (e.encode ++ rest) = some (svcRecord e.id e.service, rest) := by
  have hl : ¬ (e.encode ++ rest).length < 29 := by
    simp only [List.length_append, SvcElement.encode_length, SvcElement.len]; omega
  rw [readSvcRecord, if_neg hl]
  have hdrop : (e.encode ++ rest).drop 29 = (e.service.path.getD []) ++ 0 :: rest := by
    simp only [SvcElement.encode, List.append_assoc, List.singleton_append]
    exact List.drop_left' (encodeHeader_length e)
  rw [hdrop, readCString_append _ _ h]
  simp only [Option.map_some, Option.some.injEq, Prod.mk.injEq, and_true]
  obtain ⟨id, ⟨ty, mac, addr, path⟩⟩ := e
  simp only [svcRecord, SvcElement.encode, SvcElement.encodeHeader, List.append_assoc, SvcRecord.mk.injEq]
  generalize hm : mac.getD ⟨0, 0, 0, 0, 0, 0⟩ = m
  generalize ha : addr.getD ⟨.v4 0 0 0 0, 0⟩ = a
  have hmac : m.octets.length = 6 := rfl
  refine ⟨?_, ?_, ?_, ?_, ?_, ?_, ?_⟩
  · rw [field, slice_append_left _ _ 2 rfl, natBE_be16]
  · rw [field, slice_append_right _ _ 2 _ _ rfl (by omega), slice_append_left _ _ 2 rfl, natBE_be16,
      typeCode_eq]
  · rw [slice_append_right _ _ 2 _ _ rfl (by omega), slice_append_right _ _ 2 _ _ rfl (by omega),
      slice_append_left _ _ 6 rfl]
    cases mac with
    | none => simp at hm; subst hm; rfl
    | some x => simp at hm; subst hm; rfl
  · rw [field, slice_append_right _ _ 2 _ _ rfl (by omega), slice_append_right _ _ 2 _ _ rfl (by omega),
      slice_append_right _ _ 6 _ _ hmac (by omega), slice_append_left _ _ 1 rfl]
    cases addr with
    | none => simp at ha; subst ha; rfl
    | some x => simp at ha; subst ha; simp [natBE, ip_version_eq]
  · rw [field, slice_append_right _ _ 2 _ _ rfl (by omega), slice_append_right _ _ 2 _ _ rfl (by omega),
      slice_append_right _ _ 6 _ _ hmac (by omega), slice_append_right _ _ 1 _ _ rfl (by omega),
      slice_append_left _ _ 16 (IpAddr.bytes_length _)]
    cases addr with
    | none => simp at ha; subst ha; rfl
    | some x => simp at ha; subst ha; exact natBE_ip _
  · rw [field, slice_append_right _ _ 2 _ _ rfl (by omega), slice_append_right _ _ 2 _ _ rfl (by omega),
      slice_append_right _ _ 6 _ _ hmac (by omega), slice_append_right _ _ 1 _ _ rfl (by omega),
      slice_append_right _ _ 16 _ _ (IpAddr.bytes_length _) (by omega),
      slice_append_left _ _ 2 rfl, natBE_be16]
    cases addr with
    | none => simp at ha; subst ha; rfl
    | some x => simp at ha; subst ha; rfl
  · cases path <;> rfl

theorem typeCode_ne {t : ServiceType} (h : t ≠ .controlProtocol) : typeCode t ≠ 0 := by
  cases t <;> simp [typeCode] at *

theorem readSvcRecords_encode (es : List SvcElement) (rest : Bytes) (fuel : Nat)
    (hf : es.length < fuel)
    (h : ∀ e ∈ es, (0 : UInt8) ∉ e.service.path.getD [] ∧ e.service.svcType ≠ .controlProtocol) :
    readSvcRecords fuel (es.flatMap SvcElement.encode ++ (controlElem.encode ++ rest)) =
      some (es.map (fun e => svcRecord e.id e.service), rest) := by
  induction es generalizing fuel with
  | nil =>
    obtain ⟨n, rfl⟩ : ∃ n, fuel = n + 1 := ⟨fuel - 1, by simp at hf; omega⟩
    simp only [List.flatMap_nil, List.nil_append, readSvcRecords]
    rw [readSvcRecord_encode _ _ (by simp [controlElem, Service.control])]
    simp [svcRecord, controlElem, Service.control, typeCode]
  | cons e es ih =>
    obtain ⟨n, rfl⟩ : ∃ n, fuel = n + 1 := ⟨fuel - 1, by simp at hf; omega⟩
    obtain ⟨h1, h2⟩ := h e List.mem_cons_self
    simp only [List.flatMap_cons, List.append_assoc, readSvcRecords]
    rw [readSvcRecord_encode _ _ h1]
    have : ¬ (svcRecord e.id e.service).svcType = 0 := typeCode_ne h2
    simp only [this, if_false]
    rw [ih n (by simp at hf; omega) (fun x hx => h x (List.mem_cons_of_mem _ hx))]
    rfl

theorem sum_ge_length (es : List SvcElement) : es.length ≤ (es.map SvcElement.len).sum := by
  induction es with
  | nil => simp
  | cons e es ih => simp [SvcElement.len] at *; omega

theorem readSvcTable_encode (t : SimpleTable) (rest : Bytes) (h : Clean t) :
    readSvcTable (t.encode ++ rest) = some (t.elems.map (fun e => svcRecord e.id e.service), rest) := by
  rw [readSvcTable, SimpleTable.encode, List.append_assoc]
  apply readSvcRecords_encode _ _ _ _ h
  simp only [List.length_append, flatMap_length _ _ SvcElement.encode_length, SvcElement.encode_length]
  have := sum_ge_length t.elems
  have : controlElem.len = 30 := rfl
  omega

theorem readPorts_encode (ps : List UInt16) (rest : Bytes) :
    readPorts ps.length (ps.flatMap be16 ++ rest) = some (ps.map UInt16.toNat, rest) := by
  induction ps with
  | nil => rfl
  | cons p ps ih =>
    simp only [List.length_cons, readPorts, List.flatMap_cons, List.append_assoc]
    rw [if_neg (by simp), List.drop_left' (be16_length p), ih]
    simp only [field, slice_append_left _ _ 2 (be16_length p), natBE_be16, Option.map_some,
      List.map_cons]

theorem readHost_encode (h : HostRecord) (rest : Bytes) (hp : h.ports.length < 65536) :
    readHost (h.encode ++ rest) = some (hostRec h, rest) := by
  have hl : ¬ (h.encode ++ rest).length < 26 := by
    simp only [List.length_append, HostRecord.encode_length, HostRecord.len]; omega
  have hcnt : (UInt16.ofNat h.ports.length).toNat = h.ports.length := by
    rw [UInt16.toNat_ofNat']; omega
  have hdrop : (h.encode ++ rest).drop 26 = h.ports.flatMap be16 ++ rest := by
    rw [HostRecord.encode, List.append_assoc]
    apply List.drop_left'
    simp [IpAddr.bytes_length, MacAddr.octets]
  have hmac : h.mac.octets.length = 6 := rfl
  rw [readHost, if_neg hl, hdrop]
  have hf : field (h.encode ++ rest) 24 2 = h.ports.length := by
    simp only [HostRecord.encode, List.append_assoc]
    rw [field, slice_append_right _ _ 1 _ _ rfl (by omega), slice_append_right _ _ 6 _ _ hmac (by omega),
      slice_append_right _ _ 1 _ _ rfl (by omega),
      slice_append_right _ _ 16 _ _ (IpAddr.bytes_length _) (by omega),
      slice_append_left _ _ 2 rfl, natBE_be16, hcnt]
  rw [hf, readPorts_encode]
  simp only [Option.map_some, Option.some.injEq, Prod.mk.injEq, and_true, hostRec, HostRec.mk.injEq]
  simp only [HostRecord.encode, List.append_assoc]
  refine ⟨?_, ?_, ?_, ?_⟩
  · rw [field, slice_append_left _ _ 1 rfl]; simp [natBE]
  · rw [slice_append_right _ _ 1 _ _ rfl (by omega), slice_append_left _ _ 6 hmac]; rfl
  · rw [field, slice_append_right _ _ 1 _ _ rfl (by omega), slice_append_right _ _ 6 _ _ hmac (by omega),
      slice_append_left _ _ 1 rfl]
    simp [natBE, ip_version_eq]
  · rw [field, slice_append_right _ _ 1 _ _ rfl (by omega), slice_append_right _ _ 6 _ _ hmac (by omega),
      slice_append_right _ _ 1 _ _ rfl (by omega), slice_append_left _ _ 16 (IpAddr.bytes_length _),
      natBE_ip]

theorem readHosts_encode (hs : List HostRecord) (rest : Bytes)
    (hp : ∀ h ∈ hs, h.ports.length < 65536) :
    readHosts hs.length (hs.flatMap HostRecord.encode ++ rest) = some (hs.map hostRec, rest) := by
  induction hs with
  | nil => rfl
  | cons h hs ih =>
    simp only [List.length_cons, readHosts, List.flatMap_cons, List.append_assoc]
    rw [readHost_encode _ _ (hp h List.mem_cons_self)]
    dsimp only
    rw [ih (fun x hx => hp x (List.mem_cons_of_mem _ hx))]
    rfl

/-! ### `SimpleTable.ofServices` -/

theorem insertElem_mem {l : List SvcElement} {e x : SvcElement} (h : x ∈ insertElem l e) :
    x = e ∨ (x ∈ l ∧ x.id ≠ e.id) := by
  unfold insertElem at h
  split at h
  · rw [List.mem_map] at h
    obtain ⟨y, hy, rfl⟩ := h
    split
    · exact .inl rfl
    · exact .inr ⟨hy, ‹_›⟩
  · rename_i hn
    rw [List.mem_append, List.mem_singleton] at h
    rcases h with h | h
    · refine .inr ⟨h, fun he => hn ?_⟩
      rw [List.any_eq_true]
      exact ⟨x, h, by simpa using he⟩
    · exact .inl h

theorem insertElem_self (l : List SvcElement) (e : SvcElement) : e ∈ insertElem l e := by
  unfold insertElem
  split
  · rename_i h
    rw [List.any_eq_true] at h
    obtain ⟨y, hy, he⟩ := h
    rw [List.mem_map]
    exact ⟨y, hy, if_pos (by simpa using he)⟩
  · simp

theorem insertElem_other {l : List SvcElement} {e x : SvcElement} (h : x ∈ l) (hne : x.id ≠ e.id) :
    x ∈ insertElem l e := by
  unfold insertElem
  split
  · rw [List.mem_map]
    exact ⟨x, h, if_neg hne⟩
  · simp [h]

theorem insertElem_ids (l : List SvcElement) (e : SvcElement) (h : (l.map (·.id)).Nodup) :
    ((insertElem l e).map (·.id)).Nodup := by
  unfold insertElem
  split
  · have : (l.map (fun x => if x.id = e.id then e else x)).map (·.id) = l.map (·.id) := by
      rw [List.map_map]
      apply List.map_congr_left
      intro x _
      simp only [Function.comp]
      split
      · exact (Eq.symm ‹_›)
      · rfl
    rw [this]; exact h
  · rename_i hn
    rw [List.map_append, List.nodup_append]
    refine ⟨h, by simp, ?_⟩
    intro a ha b hb hab
    simp only [List.map_cons, List.map_nil, List.mem_singleton] at hb
    rw [List.mem_map] at ha
    obtain ⟨x, hx, rfl⟩ := ha
    apply hn
    rw [List.any_eq_true]
    exact ⟨x, hx, by simp [hab, hb]⟩

/-- The fold of `ofServices`, from any start. -/
theorem foldInsert_spec (svcs : List (UInt16 × Service)) (l : List SvcElement)
    (hl : (l.map (·.id)).Nodup) :
    let r := svcs.foldl (fun l p => insertElem l ⟨p.1, p.2⟩) l
    (r.map (·.id)).Nodup ∧
    (∀ x ∈ r, x ∈ l ∨ (x.id, x.service) ∈ svcs) ∧
    (∀ x ∈ l, x ∈ r ∨ ∃ s, (x.id, s) ∈ svcs ∧ ⟨x.id, s⟩ ∈ r) ∧
    (∀ p ∈ svcs, ∃ s, (p.1, s) ∈ svcs ∧ ⟨p.1, s⟩ ∈ r) := by
  induction svcs generalizing l with
  | nil => exact ⟨hl, fun x hx => .inl hx, fun x hx => .inl hx, by simp⟩
  | cons p svcs ih =>
    obtain ⟨h1, h2, h3, h4⟩ := ih (insertElem l ⟨p.1, p.2⟩) (insertElem_ids _ _ hl)
    simp only [List.foldl_cons]
    refine ⟨h1, ?_, ?_, ?_⟩
    · intro x hx
      rcases h2 x hx with h | h
      · rcases insertElem_mem h with rfl | h
        · exact .inr List.mem_cons_self
        · exact .inl h.1
      · exact .inr (List.mem_cons_of_mem _ h)
    · intro x hx
      by_cases he : x.id = p.1
      · rcases h3 _ (insertElem_self l ⟨p.1, p.2⟩) with h | ⟨s, hs, hr⟩
        · right; rw [he]; exact ⟨p.2, List.mem_cons_self, h⟩
        · right; rw [he]; exact ⟨s, List.mem_cons_of_mem _ hs, hr⟩
      · rcases h3 _ (insertElem_other (e := ⟨p.1, p.2⟩) hx he) with h | ⟨s, hs, hr⟩
        · exact .inl h
        · exact .inr ⟨s, List.mem_cons_of_mem _ hs, hr⟩
    · intro q hq
      rcases List.mem_cons.mp hq with rfl | hq
      · rcases h3 _ (insertElem_self l ⟨q.1, q.2⟩) with h | ⟨s, hs, hr⟩
        · exact ⟨q.2, List.mem_cons_self, h⟩
        · exact ⟨s, List.mem_cons_of_mem _ hs, hr⟩
      · obtain ⟨s, hs, hr⟩ := h4 q hq
        exact ⟨s, List.mem_cons_of_mem _ hs, hr⟩

/-! ### decoding -/

theorem four_of_length {bs : Bytes} (h : 4 ≤ bs.length) :
    ∃ a b c d r, bs = a :: b :: c :: d :: r := by
  match bs, h with
  | a :: b :: c :: d :: r, _ => exact ⟨a, b, c, d, r, rfl⟩

theorem decodeRedirect_ok {bs : Bytes} {b : Body} :
    decodeRedirect bs = .ok b ↔
      ∃ cs : List Char, bs = cs.flatMap String.utf8EncodeChar ++ [0] ∧
        b = .redirect (cs.flatMap String.utf8EncodeChar) := by
  unfold decodeRedirect
  constructor
  · intro h
    split at h
    · cases h
    · rename_i hn
      simp only [not_or, Decidable.not_not] at hn
      dsimp only at h
      split at h
      · rename_i hv
        obtain ⟨cs, hcs⟩ := (Utf8.valid_iff _).mp hv
        cases h
        refine ⟨cs, ?_, by rw [hcs]⟩
        obtain ⟨ys, hys⟩ := List.getLast?_eq_some_iff.mp hn.2
        subst hys
        simp at hcs
        rw [hcs]
      · cases h
  · rintro ⟨cs, rfl, rfl⟩
    rw [if_neg (by simp)]
    have : (List.take ((cs.flatMap String.utf8EncodeChar ++ [0]).length - 1)
        (cs.flatMap String.utf8EncodeChar ++ [0])) = cs.flatMap String.utf8EncodeChar := by simp
    simp only [this]
    rw [if_pos ((Utf8.valid_iff _).mpr ⟨cs, rfl⟩)]

end Verif.Control
