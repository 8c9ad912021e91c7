import Verif.Spec.Sdp
import Verif.Lemmas.Reader
import Verif.Lemmas.Url
/-! # Lemmas about the entries of session descriptions -/
namespace Verif.Sdp
open Verif Spec.Text Spec.Sdp

/-! ## White space -/

theorem allWhite_append {a b : Bytes} (ha : AllWhite a) (hb : AllWhite b) : AllWhite (a ++ b) := by
  obtain ⟨x, hx, rfl⟩ := ha
  obtain ⟨y, hy, rfl⟩ := hb
  refine ⟨x ++ y, fun w hw => ?_, by rw [List.flatten_append]⟩
  rcases List.mem_append.1 hw with h | h
  · exact hx w h
  · exact hy w h

/-- A byte that is in no white-space character. -/
def Solid (c : UInt8) : Prop := ∀ w ∈ white, c ∉ w

theorem solid_of_ascii : Solid 58 ∧ Solid 61 ∧ Solid 47 ∧ Solid 97 ∧ Solid 109 ∧ Solid 118 := by
  unfold Solid
  decide

theorem solid_digit : ∀ c : UInt8, 48 ≤ c.toNat ∧ c.toNat ≤ 57 → Solid c := by
  intro c hc w hw hm
  have h : ∀ w ∈ white, ∀ b ∈ w, ¬(48 ≤ b.toNat ∧ b.toNat ≤ 57) := by decide
  exact h w hw c hm hc

theorem solid_not_mem {c : UInt8} (h : Solid c) {a : Bytes} (ha : AllWhite a) : c ∉ a := by
  obtain ⟨ws, hw, rfl⟩ := ha
  intro hm
  obtain ⟨w, h1, h2⟩ := List.mem_flatten.1 hm
  exact h w (hw w h1) h2

theorem solid_starts {c : UInt8} (h : Solid c) (s : Bytes) : ¬StartsWhite (c :: s) := by
  rintro ⟨w, hw, hp⟩
  cases w with
  | nil => exact white_ne _ hw rfl
  | cons b w =>
    rw [List.cons_prefix_cons] at hp
    exact h _ hw (by rw [hp.1]; simp)

theorem skipped_iff {s r : Bytes} : Skipped s r ↔ Reader.skipWhitespace s = r := by
  unfold Reader.skipWhitespace
  constructor
  · rintro ⟨w, hw, rfl, hr⟩
    exact trimStart_eq hw hr
  · rintro rfl
    exact trimStart_spec s

theorem trim_skip (s : Bytes) : trim (Reader.skipWhitespace s) = trim s := by
  obtain ⟨w, hw, h1, -⟩ := skipped_iff.2 (rfl : Reader.skipWhitespace s = _)
  obtain ⟨⟨a, b, ha, hb, h2⟩, h3⟩ := trim_spec (Reader.skipWhitespace s)
  symm
  apply trim_eq
  refine ⟨⟨w ++ a, b, allWhite_append hw ha, hb, ?_⟩, h3⟩
  calc s = w ++ Reader.skipWhitespace s := h1
    _ = w ++ (a ++ trim (Reader.skipWhitespace s) ++ b) := congrArg (w ++ ·) h2
    _ = _ := by simp only [List.append_assoc]

/-! ## Numbers -/

theorem digits_append (ds r : Bytes) (hd : ∀ d ∈ ds, 48 ≤ d.toNat ∧ d.toNat ≤ 57)
    (hr : ∀ d x, r = d :: x → ¬(48 ≤ d.toNat ∧ d.toNat ≤ 57)) : ∀ (n cnt : Nat),
    Reader.digits (UInt32.ofNat n) cnt (ds ++ r)
      = (UInt32.ofNat (ds.foldl (fun a d => a * 10 + (d.toNat - 48)) n), cnt + ds.length, r) := by
  induction ds with
  | nil =>
    intro n cnt
    cases r with
    | nil => rfl
    | cons d x =>
      rw [List.nil_append, Reader.digits, if_neg (hr d x rfl)]
      rfl
  | cons d ds ih =>
    intro n cnt
    rw [List.cons_append, Reader.digits, if_pos (hd d (by simp))]
    have : UInt32.ofNat n * 10 + UInt32.ofNat (d.toNat - 48) = UInt32.ofNat (n * 10 + (d.toNat - 48)) := by
      rw [UInt32.ofNat_add, UInt32.ofNat_mul]
      rfl
    rw [this, ih (fun x hx => hd x (by simp [hx]))]
    simp only [List.foldl_cons, List.length_cons, Prod.mk.injEq, true_and, and_true]
    omega

theorem digits_split (s : Bytes) : ∃ ds r : Bytes, s = ds ++ r ∧ (∀ d ∈ ds, 48 ≤ d.toNat ∧ d.toNat ≤ 57)
    ∧ ∀ d x, r = d :: x → ¬(48 ≤ d.toNat ∧ d.toNat ≤ 57) := by
  induction s with
  | nil => exact ⟨[], [], rfl, fun _ h => absurd h List.not_mem_nil, fun _ _ h => by cases h⟩
  | cons b s ih =>
    by_cases hb : 48 ≤ b.toNat ∧ b.toNat ≤ 57
    · obtain ⟨ds, r, rfl, h1, h2⟩ := ih
      refine ⟨b :: ds, r, rfl, ?_, h2⟩
      intro d hd
      rcases List.mem_cons.1 hd with rfl | hd
      · exact hb
      · exact h1 d hd
    · refine ⟨[], b :: s, rfl, fun _ h => absurd h List.not_mem_nil, ?_⟩
      intro d x h
      injection h with h _
      subst h
      exact hb

theorem readDecimal_iff {s r : Bytes} {v : UInt32} :
    Reader.readDecimal s = some (v, r) ↔ ∃ n, Number s n r ∧ v = UInt32.ofNat n := by
  constructor
  · intro h
    obtain ⟨w, hw, h1, h2⟩ := skipped_iff.2 (rfl : Reader.skipWhitespace s = _)
    obtain ⟨ds, r', h3, h4, h5⟩ := digits_split (Reader.skipWhitespace s)
    unfold Reader.readDecimal at h
    have hz : (0 : UInt32) = UInt32.ofNat 0 := rfl
    rw [h3, hz, digits_append ds r' h4 h5 0 0] at h
    dsimp only at h
    by_cases he : ds = []
    · subst he
      simp at h
    · have hl : ¬ (0 + ds.length = 0) := by
        rw [Nat.zero_add, List.length_eq_zero_iff]; exact he
      rw [if_neg hl, Option.some.injEq, Prod.mk.injEq] at h
      obtain ⟨rfl, rfl⟩ := h
      refine ⟨_, ⟨w, ds, hw, ?_, he, h4, h5, rfl⟩, rfl⟩
      rw [List.append_assoc, ← h3]
      exact h1
  · rintro ⟨n, ⟨w, ds, hw, rfl, he, h4, h5, rfl⟩, rfl⟩
    unfold Reader.readDecimal Reader.skipWhitespace
    have hz : (0 : UInt32) = UInt32.ofNat 0 := rfl
    have hns : ¬StartsWhite (ds ++ r) := by
      cases ds with
      | nil => exact absurd rfl he
      | cons d ds => exact solid_starts (solid_digit d (h4 d (by simp))) _
    rw [List.append_assoc, trimStart_eq hw hns, hz, digits_append ds r h4 h5 0 0]
    dsimp only
    have hl : ¬ (0 + ds.length = 0) := by
      rw [Nat.zero_add, List.length_eq_zero_iff]; exact he
    rw [if_neg hl]

/-! ## Entries -/

theorem matchChar_iff {c : UInt8} {s r : Bytes} : Reader.matchChar c s = some r ↔ s = c :: r := by
  cases s with
  | nil => simp [Reader.matchChar]
  | cons b s =>
    rw [Reader.matchChar]
    by_cases h : b = c
    · subst h; simp
    · simp [h]

theorem afterEq_iff {T : Txt} {c : UInt8} (hc : Solid c) {t r : Bytes} :
    afterEq T c t = some r ↔ Entry T c t r := by
  have h61 := solid_of_ascii.2.1
  unfold afterEq
  constructor
  · intro h
    cases hm : Reader.matchChar c (Reader.skipWhitespace (T.lossy t)) with
    | none => rw [hm] at h; cases h
    | some s =>
      rw [hm] at h
      dsimp only at h
      rw [matchChar_iff] at h hm
      obtain ⟨w, hw, h1, _⟩ := skipped_iff.2 hm
      obtain ⟨v, hv, h2, _⟩ := skipped_iff.2 h
      refine ⟨w, v, hw, hv, ?_⟩
      rw [h1, h2]
      simp
  · rintro ⟨w, v, hw, hv, h⟩
    have h1 : Reader.skipWhitespace (T.lossy t) = c :: (v ++ 61 :: r) := by
      rw [h, List.append_assoc]
      exact trimStart_eq hw (solid_starts hc _)
    rw [h1, matchChar_iff.2 rfl]
    dsimp only
    have h2 : Reader.skipWhitespace (v ++ 61 :: r) = 61 :: r := trimStart_eq hv (solid_starts h61 _)
    rw [h2, matchChar_iff.2 rfl]

/-! ## Attributes -/

theorem attr_iff {t : Bytes} {a : Attr} : AttrIs t a ↔ a = Attr.parse t := by
  unfold Attr.parse
  have hd : ∀ x y : Bytes, (x ++ 58 :: y).drop (x.length + 1) = y := by
    intro x y
    rw [← List.drop_drop, List.drop_left]; rfl
  constructor
  · rintro (⟨x, y, v, rfl, hx, h1, h2, h3⟩ | ⟨hn, h1, h2⟩)
    · rw [Url.find_mid y hx]
      dsimp only
      rw [List.take_left, hd, trim_eq h1, trim_eq h3, ← h2]
    · rw [Url.find_none hn]
      dsimp only
      rw [trim_eq h1, ← h2]
  · rintro rfl
    rcases Url.find_cases 58 t with h | ⟨x, y, rfl, h⟩
    · rw [Url.find_none h]
      exact .inr ⟨h, trim_spec t, rfl⟩
    · rw [Url.find_mid y h]
      dsimp only
      rw [List.take_left, hd]
      exact .inl ⟨x, y, trim y, rfl, h, trim_spec x, rfl, trim_spec y⟩

theorem attr_skip (s : Bytes) : Attr.parse (Reader.skipWhitespace s) = Attr.parse s := by
  symm
  rw [← attr_iff]
  obtain ⟨w, hw, h1, -⟩ := skipped_iff.2 (rfl : Reader.skipWhitespace s = _)
  have hm : 58 ∉ w := solid_not_mem solid_of_ascii.1 hw
  have htr : ∀ x v, Trimmed (w ++ x) v → Trimmed x v := by
    intro x v h
    have h2 : trim (w ++ x) = v := trim_eq h
    rw [trim_iff, ← h2]
    rw [← trim_skip (w ++ x), ← trim_skip x]
    congr 1
    unfold Reader.skipWhitespace
    obtain ⟨u, hu, h3, h4⟩ := trimStart_spec x
    have : trimStart (w ++ x) = trimStart x := by
      have h5 : w ++ x = (w ++ u) ++ trimStart x := by rw [List.append_assoc, ← h3]
      exact (congrArg trimStart h5).trans (trimStart_eq (allWhite_append hw hu) h4)
    rw [this]
  have hs : AttrIs s (Attr.parse s) := attr_iff.2 rfl
  generalize hr : Reader.skipWhitespace s = r at h1 ⊢
  rcases hs with ⟨x, y, v, he, hx, g1, g2, g3⟩ | ⟨hn, g1, g2⟩
  · rw [he] at h1
    rcases List.append_eq_append_iff.1 h1 with ⟨z, h2, h3⟩ | ⟨z, h2, h3⟩
    · -- the colon would be white space
      cases z with
      | nil =>
        simp only [List.append_nil] at h2
        subst h2
        refine .inl ⟨[], y, v, by simpa using h3.symm, by simp, ?_, g2, g3⟩
        have := htr [] _ (by simpa using g1)
        exact this
      | cons b z =>
        simp only [List.cons_append, List.cons.injEq] at h3
        exact absurd (by rw [h2, ← h3.1]; simp) hm
    · subst h2
      refine .inl ⟨z, y, v, h3, fun hz => hx (List.mem_append_right _ hz), htr z _ g1, g2, g3⟩
  · refine .inr ⟨fun h => hn ?_, htr r _ (by rw [← h1]; exact g1), g2⟩
    rw [h1]
    exact List.mem_append_right _ h

theorem attrLine_iff {T : Txt} {t : Bytes} {a : Attr} :
    AttrLine T t a ↔ ∃ s, afterEq T 97 t = some s ∧ a = Attr.parse (Reader.skipWhitespace s) := by
  unfold AttrLine
  constructor
  · rintro ⟨r, h1, h2⟩
    exact ⟨r, (afterEq_iff solid_of_ascii.2.2.2.1).2 h1, by rw [attr_skip]; exact attr_iff.1 h2⟩
  · rintro ⟨r, h1, h2⟩
    rw [attr_skip] at h2
    exact ⟨r, (afterEq_iff solid_of_ascii.2.2.2.1).1 h1, attr_iff.2 h2⟩

/-! ## Media descriptions -/

theorem firstWord_shorter {s w r : Bytes} (hs : s ≠ []) (h : FirstWord s w r) : r.length < s.length := by
  obtain ⟨a, _, rfl, h1, _, h3⟩ := h
  simp only [List.length_append]
  by_cases hw : w = []
  · subst hw
    by_cases ha : a = []
    · subst ha
      rcases h3 with rfl | h3
      · exact absurd rfl hs
      · exact absurd (by simpa using h3) h1
    · have := List.length_pos_iff.2 ha; omega
  · have := List.length_pos_iff.2 hw; omega

theorem readFormats_iff : ∀ (n : Nat) (s : Bytes), s.length ≤ n → ∀ ws, Words s ws ↔ readFormats n s = ws := by
  intro n
  induction n with
  | zero =>
    intro s hs ws
    have : s = [] := List.length_eq_zero_iff.1 (by omega)
    subst this
    rw [readFormats]
    constructor
    · intro h
      cases h with
      | nil => rfl
      | cons h => exact absurd rfl h
    · rintro rfl; exact .nil
  | succ n ih =>
    intro s hs ws
    rw [readFormats]
    by_cases h : s = []
    · subst h
      rw [if_pos rfl]
      constructor
      · intro h
        cases h with
        | nil => rfl
        | cons h => exact absurd rfl h
      · rintro rfl; exact .nil
    · rw [if_neg h]
      have hw : FirstWord s (Reader.readWord s).1 (Reader.readWord s).2 := Reader.readWord_iff.1 rfl
      have hl := firstWord_shorter h hw
      show _ ↔ (Reader.readWord s).1 :: readFormats n (Reader.readWord s).2 = ws
      constructor
      · intro hws
        cases hws with
        | nil => exact absurd rfl h
        | cons h1 h2 h3 =>
          rw [← Reader.readWord_iff] at h2
          rw [h2] at hl ⊢
          rw [(ih _ (by dsimp only at hl; omega) _).1 h3]
      · rintro rfl
        exact .cons h hw ((ih _ (by omega) _).2 rfl)

theorem readPorts_iff {s r : Bytes} {np : Option UInt16} : readPorts s = some (np, r) ↔
    ∃ r3, Skipped s r3 ∧ r3 ≠ [] ∧
      ((∃ x n, r3 = 47 :: x ∧ Number x n r ∧ np = some (UInt16.ofNat n))
        ∨ (r3.head? ≠ some 47 ∧ r = r3 ∧ np = none)) := by
  have h16 : ∀ n, UInt16.ofNat (UInt32.ofNat n).toNat = UInt16.ofNat n := by
    intro n
    apply UInt16.toNat_inj.1
    simp only [UInt16.toNat_ofNat', UInt32.toNat_ofNat']
    omega
  unfold readPorts
  simp only [skipped_iff]
  constructor
  · intro h
    cases hk : Reader.skipWhitespace s with
    | nil => rw [hk] at h; cases h
    | cons c x =>
      rw [hk] at h
      dsimp only at h
      refine ⟨c :: x, rfl, nofun, ?_⟩
      by_cases hc : c = 47
      · subst hc
        rw [if_pos rfl] at h
        cases hd : Reader.readDecimal x with
        | none => rw [hd] at h; cases h
        | some p =>
          obtain ⟨v, r'⟩ := p
          rw [hd] at h
          dsimp only at h
          rw [Option.some.injEq, Prod.mk.injEq] at h
          obtain ⟨rfl, rfl⟩ := h
          obtain ⟨n, hn, rfl⟩ := readDecimal_iff.1 hd
          exact .inl ⟨x, n, rfl, hn, by rw [h16]⟩
      · rw [if_neg hc, Option.some.injEq, Prod.mk.injEq] at h
        refine .inr ⟨?_, h.2.symm, h.1.symm⟩
        rw [List.head?_cons]
        exact fun h => hc (Option.some.inj h)
  · rintro ⟨r3, hk, hne, ⟨x, n, rfl, hn, rfl⟩ | ⟨h1, rfl, rfl⟩⟩
    · rw [hk]
      dsimp only
      rw [if_pos rfl, readDecimal_iff.2 ⟨n, hn, rfl⟩]
      dsimp only
      rw [h16]
    · rw [hk]
      cases r with
      | nil => exact absurd rfl hne
      | cons c x =>
        dsimp only
        rw [if_neg]
        intro h
        exact h1 (by rw [h]; rfl)

theorem typeIs_iff {T : Txt} {s : Bytes} {x : MediaType} : TypeIs T s x ↔ x = MediaType.ofText T s := by
  unfold MediaType.ofText
  dsimp only
  have n1 : asc "audio" ≠ asc "video" ∧ asc "audio" ≠ asc "text" ∧ asc "audio" ≠ asc "application" ∧
      asc "audio" ≠ asc "message" ∧ asc "video" ≠ asc "text" ∧ asc "video" ≠ asc "application" ∧
      asc "video" ≠ asc "message" ∧ asc "text" ≠ asc "application" ∧ asc "text" ≠ asc "message" ∧
      asc "application" ≠ asc "message" := by decide +kernel
  obtain ⟨a1, a2, a3, a4, a5, a6, a7, a8, a9, a10⟩ := n1
  have b1 := a1.symm
  have b2 := a2.symm
  have b3 := a3.symm
  have b4 := a4.symm
  have b5 := a5.symm
  have b6 := a6.symm
  have b7 := a7.symm
  have b8 := a8.symm
  have b9 := a9.symm
  have b10 := a10.symm
  cases x <;> simp only [TypeIs, List.mem_cons, List.not_mem_nil, or_false, not_or] <;>
    generalize asc "audio" = A at * <;> generalize asc "video" = V at * <;>
    generalize asc "text" = X at * <;> generalize asc "application" = P at * <;>
    generalize asc "message" = M at * <;> generalize T.lower s = l at * <;>
    constructor <;> intro h <;> (repeat' split at h) <;> (try subst h) <;> simp_all

theorem media_iff {T : Txt} {t : Bytes} {m : Media} : MediaIs T t m ↔ Media.parse T t = some m := by
  have h16 : ∀ n, (UInt16.ofNat (UInt32.ofNat n).toNat).toNat = n % 65536 := by
    intro n
    simp only [UInt16.toNat_ofNat', UInt32.toNat_ofNat']
    omega
  unfold Media.parse
  constructor
  · rintro ⟨t', ty, r1, port, r2, r3, r4, r5, h1, h2, h3, h4, h5, h6, h7, h8, h9, h10, h11⟩
    rw [trim_eq h1, Reader.readWord_iff.2 h2]
    dsimp only
    rw [readDecimal_iff.2 ⟨port, h4, rfl⟩]
    dsimp only
    rw [readPorts_iff.2 ⟨r3, h6, h7, h8⟩]
    dsimp only
    rw [Reader.readWord_iff.2 h9]
    dsimp only
    rw [(readFormats_iff r5.length r5 (Nat.le_refl _) _).1 h10]
    obtain ⟨m1, m2, m3, m4, m5, m6⟩ := m
    dsimp only at *
    rw [typeIs_iff] at h3
    subst h3 h11
    congr
    apply UInt16.toNat_inj.1
    rw [h16, h5]
  · intro h
    have hw : FirstWord (trim t) (Reader.readWord (trim t)).1 (Reader.readWord (trim t)).2 := Reader.readWord_iff.1 rfl
    generalize Reader.readWord (trim t) = p at h hw
    obtain ⟨ty, r1⟩ := p
    dsimp only at h hw
    cases hd : Reader.readDecimal r1 with
    | none => rw [hd] at h; cases h
    | some p =>
      obtain ⟨v, r2⟩ := p
      rw [hd] at h
      dsimp only at h
      obtain ⟨n, hn, rfl⟩ := readDecimal_iff.1 hd
      cases hp : readPorts r2 with
      | none => rw [hp] at h; cases h
      | some p =>
        obtain ⟨np, r4⟩ := p
        rw [hp] at h
        dsimp only at h
        obtain ⟨r3, g1, g2, g3⟩ := readPorts_iff.1 hp
        have hw2 : FirstWord r4 (Reader.readWord r4).1 (Reader.readWord r4).2 := Reader.readWord_iff.1 rfl
        generalize Reader.readWord r4 = p at h hw2
        obtain ⟨proto, r5⟩ := p
        dsimp only at h hw2
        injection h with h
        subst h
        exact ⟨_, ty, r1, n, r2, r3, r4, r5, trim_spec t, hw, typeIs_iff.2 rfl, hn, h16 n, g1, g2, g3, hw2,
          (readFormats_iff _ _ (Nat.le_refl _) _).2 rfl, rfl⟩

theorem mediaLine_iff {T : Txt} {t : Bytes} {m : Media} :
    MediaLine T t m ↔ ∃ s, afterEq T 109 t = some s ∧ Media.parse T (Reader.skipWhitespace s) = some m := by
  have hs : ∀ s, Media.parse T (Reader.skipWhitespace s) = Media.parse T s := by
    intro s
    unfold Media.parse
    rw [trim_skip]
  simp only [hs]
  unfold MediaLine
  constructor
  · rintro ⟨r, h1, h2⟩
    exact ⟨r, (afterEq_iff solid_of_ascii.2.2.2.2.1).2 h1, media_iff.1 h2⟩
  · rintro ⟨r, h1, h2⟩
    exact ⟨r, (afterEq_iff solid_of_ascii.2.2.2.2.1).1 h1, media_iff.2 h2⟩

theorem versionLine_iff {T : Txt} {t : Bytes} {v : Int32} :
    VersionLine T t v ↔ ∃ s x r, afterEq T 118 t = some s ∧ Reader.readDecimal s = some (x, r) ∧ v = x.toInt32 := by
  unfold VersionLine
  constructor
  · rintro ⟨r, n, x, h1, h2, h3⟩
    exact ⟨r, _, x, (afterEq_iff solid_of_ascii.2.2.2.2.2).2 h1, readDecimal_iff.2 ⟨n, h2, rfl⟩, h3⟩
  · rintro ⟨s, x, r, h1, h2, h3⟩
    obtain ⟨n, hn, rfl⟩ := readDecimal_iff.1 h2
    exact ⟨s, n, r, (afterEq_iff solid_of_ascii.2.2.2.2.2).1 h1, hn, h3⟩

/-! ## The rtpmap attribute -/

theorem rtpMap_iff {t : Bytes} {m : RtpMap} : RtpMapIs t m ↔ RtpMap.parse t = some m := by
  have h32 : ∀ n, (UInt32.ofNat n).toNat = n % 4294967296 := fun n => UInt32.toNat_ofNat'
  unfold RtpMap.parse
  constructor
  · rintro ⟨t', pt, r1, e, r2, cr, r3, r4, h1, h2, h3, rfl, h5, h6, h7, h8, h9, h10⟩
    rw [trim_eq h1, readDecimal_iff.2 ⟨pt, h2, rfl⟩]
    dsimp only
    rw [Reader.readUntil_char.2 ⟨rfl, h5, Or.inr rfl⟩]
    dsimp only
    rw [matchChar_iff.2 rfl]
    dsimp only
    rw [readDecimal_iff.2 ⟨cr, h7, rfl⟩]
    dsimp only
    rw [skipped_iff.1 h9]
    obtain ⟨m1, m2, m3, m4⟩ := m
    dsimp only at *
    have e1 : UInt32.ofNat pt = m1 := by apply UInt32.toNat_inj.1; rw [h32, h3]
    have e2 : UInt32.ofNat cr = m3 := by apply UInt32.toNat_inj.1; rw [h32, h8]
    rw [trim_eq h6, e1, e2]
    rcases h10 with ⟨rfl, rfl⟩ | ⟨x, p, rfl, hx, rfl⟩
    · rw [if_pos rfl]
    · rw [if_neg nofun, matchChar_iff.2 rfl]
      dsimp only
      rw [skipped_iff.1 hx]
  · intro h
    cases hd : Reader.readDecimal (trim t) with
    | none => rw [hd] at h; cases h
    | some p =>
      obtain ⟨v, r1⟩ := p
      rw [hd] at h
      dsimp only at h
      obtain ⟨pt, hpt, rfl⟩ := readDecimal_iff.1 hd
      have hu := Reader.readUntil_char.1 (rfl : Reader.readUntil (Reader.isChar 47) r1
        = ((Reader.readUntil (Reader.isChar 47) r1).1, (Reader.readUntil (Reader.isChar 47) r1).2))
      generalize Reader.readUntil (Reader.isChar 47) r1 = p at h hu
      obtain ⟨e, s⟩ := p
      dsimp only at h hu
      cases hm : Reader.matchChar 47 s with
      | none => rw [hm] at h; cases h
      | some r2 =>
        rw [hm] at h
        dsimp only at h
        rw [matchChar_iff] at hm
        subst hm
        cases hd2 : Reader.readDecimal r2 with
        | none => rw [hd2] at h; cases h
        | some p =>
          obtain ⟨v, r3⟩ := p
          rw [hd2] at h
          dsimp only at h
          obtain ⟨cr, hcr, rfl⟩ := readDecimal_iff.1 hd2
          have hsk := skipped_iff.2 (rfl : Reader.skipWhitespace r3 = _)
          generalize Reader.skipWhitespace r3 = r4 at h hsk
          by_cases h4 : r4 = []
          · subst h4
            rw [if_pos rfl, Option.some.injEq] at h
            subst h
            exact ⟨_, pt, r1, e, r2, cr, r3, [], trim_spec t, hpt, h32 pt, hu.1, hu.2.1, trim_spec e, hcr, h32 cr, hsk,
              .inl ⟨rfl, rfl⟩⟩
          · rw [if_neg h4] at h
            cases hm : Reader.matchChar 47 r4 with
            | none => rw [hm] at h; cases h
            | some x =>
              rw [hm] at h
              dsimp only at h
              rw [matchChar_iff] at hm
              injection h with h
              subst h
              exact ⟨_, pt, r1, e, r2, cr, r3, r4, trim_spec t, hpt, h32 pt, hu.1, hu.2.1, trim_spec e, hcr, h32 cr, hsk,
                .inr ⟨x, _, hm, skipped_iff.2 rfl, rfl⟩⟩

end Verif.Sdp
