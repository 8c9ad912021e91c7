import Verif.Lemmas.HttpText
/-!
# Lemmas about bodies and complete responses
-/
namespace Verif.Http
open Verif Verif.Spec.Http Verif.Spec.Text

variable {L : Bytes → Bytes} {P : Proto}

/-! ## Chunk sizes -/

theorem hexfold_ge (ds : Bytes) (a : Nat) : a ≤ ds.foldl (fun a c => a * 16 + (digitVal 16 c).getD 0) a := by
  induction ds generalizing a with
  | nil => exact Nat.le_refl _
  | cons c ds ih =>
    rw [List.foldl_cons]
    exact Nat.le_trans (by omega) (ih _)

theorem parseHex_iff (max : Nat) (ds : Bytes) (a n : Nat) (ha : a ≤ max) :
    parseDigits 16 max ds a = some n ↔
      (∀ c ∈ ds, digitVal 16 c ≠ none) ∧
        n = ds.foldl (fun a c => a * 16 + (digitVal 16 c).getD 0) a ∧ n ≤ max := by
  induction ds generalizing a with
  | nil =>
    constructor
    · intro h
      simp only [parseDigits, Option.some.injEq] at h
      subst h
      exact ⟨fun c hc => absurd hc List.not_mem_nil, rfl, ha⟩
    · rintro ⟨-, h, -⟩
      rw [h]; rfl
  | cons c ds ih =>
    simp only [parseDigits, List.foldl_cons, List.forall_mem_cons]
    cases hd : digitVal 16 c with
    | none =>
      constructor
      · intro h; cases h
      · rintro ⟨⟨h, -⟩, -⟩; exact absurd rfl h
    | some v =>
      dsimp only
      by_cases hm : a * 16 + v ≤ max
      · rw [if_pos hm, ih _ hm]
        exact ⟨fun ⟨h1, h2⟩ => ⟨⟨nofun, h1⟩, h2⟩, fun ⟨⟨_, h1⟩, h2⟩ => ⟨h1, h2⟩⟩
      · rw [if_neg hm]
        constructor
        · intro h; cases h
        · rintro ⟨-, h, h'⟩
          have := hexfold_ge ds (a * 16 + v)
          rw [Option.getD_some] at h
          omega

theorem parseUInt_hex_iff (max : Nat) (t : Bytes) (n : Nat) : parseUInt 16 max t = some n ↔ IsHex t n ∧ n ≤ max := by
  constructor
  · intro h
    unfold parseUInt at h
    split at h
    · cases h
    · rename_i c
      split at h
      · cases h
      · obtain ⟨h1, h2, h3⟩ := (parseHex_iff _ _ _ _ (Nat.zero_le _)).mp h
        exact ⟨⟨[c], Or.inl rfl, by simp, h1, h2⟩, h3⟩
    · rename_i c cs hne
      split at h
      · rename_i hc
        obtain ⟨h1, h2, h3⟩ := (parseHex_iff _ _ _ _ (Nat.zero_le _)).mp h
        exact ⟨⟨cs, Or.inr (by rw [hc]), (by rintro rfl; exact hne rfl), h1, h2⟩, h3⟩
      · obtain ⟨h1, h2, h3⟩ := (parseHex_iff _ _ _ _ (Nat.zero_le _)).mp h
        exact ⟨⟨c :: cs, Or.inl rfl, by simp, h1, h2⟩, h3⟩
  · rintro ⟨⟨ds, h1, h2, h3, h4⟩, h5⟩
    have hp := (parseHex_iff max ds 0 n (Nat.zero_le _)).mpr ⟨h3, h4, h5⟩
    rcases h1 with rfl | rfl
    · unfold parseUInt
      split
      · exact absurd rfl h2
      · rename_i c
        have := h3 c (by simp)
        rw [if_neg]
        · exact hp
        · rintro (rfl | rfl) <;> revert this <;> decide
      · rename_i c cs hne
        have := h3 c (by simp)
        rw [if_neg]
        · exact hp
        · rintro rfl; revert this; decide
    · unfold parseUInt
      split
      · rename_i h; cases h
      · rename_i c h; injection h with _ h; exact absurd h h2
      · rename_i c cs hne h
        injection h with h h'
        rw [if_pos h.symm, ← h']
        exact hp

theorem size_iff {t : Bytes} {n : Nat} :
    parseUInt 16 18446744073709551615 (Reader.readUntil (Reader.isChar 59) t).1 = some n ↔ SizeIs t n := by
  obtain ⟨a, b, hab⟩ : ∃ a b, Reader.readUntil (Reader.isChar 59) t = (a, b) := ⟨_, _, rfl⟩
  obtain ⟨g1, g2, g3⟩ := Reader.readUntil_char.mp hab
  rw [hab, parseUInt_hex_iff]
  constructor
  · rintro ⟨h1, h2⟩
    exact ⟨a, b, g1, g2, g3, h1, h2⟩
  · rintro ⟨a', b', k1, k2, k3, k4, k5⟩
    have := Reader.readUntil_char.mpr ⟨k1, k2, k3⟩
    rw [hab] at this
    injection this with e1 e2
    rw [e1]
    exact ⟨k4, k5⟩

/-! ## The body after the end of the stream -/

/-- What a body decoder makes of everything behind the header. -/
def final (r : Dec Body Bytes) : Wire.Res Bytes :=
  match r with
  | .ok (some b) _ _ => .ok b
  | .ok none b _ =>
    match b.decodeEof [] with
    | .ok (some b) _ _ => .ok b
    | .ok none _ _ => .err
    | .err => .err
    | .panic => .panic
  | .err => .err
  | .panic => .panic

theorem final_chunked {st : CState} (h : st ≠ .completed) (l : Line) (b : Bytes) (ex : Nat) (ig : Bool) (r : Bytes) :
    final (.ok none (.chunked st l b ex ig) r) = .ok b := by
  unfold final
  dsimp only
  unfold Body.decodeEof Body.decode
  dsimp only
  rw [chunked_nil]
  cases st with
  | completed => exact absurd rfl h
  | _ => rfl

theorem final_simple (b : Bytes) (ig : Bool) (x : Bytes) :
    final (Body.decode (.simple b ig) x) = .ok (if ig then b else b ++ x) := by
  unfold final Body.decode
  dsimp only
  unfold Body.decodeEof Body.decode
  cases ig with
  | true => rfl
  | false => simp

theorem final_fixed (n : Nat) (ig : Bool) (x : Bytes) :
    final (Body.decode (.fixed (some []) n ig) x) = .ok (if ig then [] else x.take n) := by
  unfold Body.decode
  dsimp only
  by_cases h : n ≤ x.length
  · rw [fixed_eq _ _ _ _ h]
    rfl
  · rw [fixed_eq_more _ _ _ _ (by omega)]
    unfold final
    dsimp only
    unfold Body.decodeEof Body.decode
    dsimp only
    rw [fixed_eq_more _ _ _ _ (by rw [List.length_nil]; omega)]
    dsimp only
    rw [List.take_of_length_le (by omega)]
    cases ig with
    | true => rfl
    | false => simp

/-- The chunked decoder in a state, with everything that is left. -/
def rest (st : CState) (acc : Bytes) (ex : Nat) (ig : Bool) (x : Bytes) : Wire.Res Bytes :=
  final (decodeChunked x.length st fresh acc ex ig x)

theorem rest_nil {st : CState} (h : st ≠ .completed) (acc : Bytes) (ex : Nat) (ig : Bool) :
    rest st acc ex ig [] = .ok acc := by
  unfold rest
  rw [chunked_nil]
  exact final_chunked h _ _ _ _ _

theorem rest_step {st st' : CState} {acc acc' x r : Bytes} {ex ex' : Nat} {ig : Bool} (hx : x ≠ [])
    (hi : CInv st fresh ex)
    (e : decodeChunk st fresh acc ex ig x = .ok none (.chunked st' fresh acc' ex' ig) r) :
    rest st acc ex ig x = rest st' acc' ex' ig r := by
  obtain ⟨st1, l1, body1, ex1, h1, h2, h3, -⟩ := chunk_more hi hx e
  injection h1 with e1 e2 e3 e4 e5
  subst e1 e2 e3 e4
  unfold rest
  cases hn : x.length with
  | zero => exact absurd (List.length_eq_zero_iff.mp hn) hx
  | succ n =>
    rw [chunked_succ _ _ _ _ _ _ hx, e]
    dsimp only
    rw [chunked_fuel n r.length _ _ _ _ _ _ h2 (by omega) (Nat.le_refl _)]

theorem rest_final {st : CState} {acc x : Bytes} {ex : Nat} {ig : Bool} (hx : x ≠ [])
    (e : ∀ st' l' b' ex' ig' r, decodeChunk st fresh acc ex ig x ≠ .ok none (.chunked st' l' b' ex' ig') r) :
    rest st acc ex ig x = final (decodeChunk st fresh acc ex ig x) := by
  unfold rest
  cases hn : x.length with
  | zero => exact absurd (List.length_eq_zero_iff.mp hn) hx
  | succ n =>
    rw [chunked_succ _ _ _ _ _ _ hx]
    split
    · rename_i h
      exact absurd h (e _ _ _ _ _ _)
    · rfl

theorem rest_stop {st st' : CState} {acc acc' x r : Bytes} {ex ex' : Nat} {ig : Bool} {l : Line} (hx : x ≠ [])
    (hi : CInv st fresh ex) (hst : st' ≠ .completed) (hr : r = [])
    (e : decodeChunk st fresh acc ex ig x = .ok none (.chunked st' l acc' ex' ig) r) :
    rest st acc ex ig x = .ok acc' := by
  subst hr
  unfold rest
  cases hn : x.length with
  | zero => exact absurd (List.length_eq_zero_iff.mp hn) hx
  | succ n =>
    rw [chunked_succ _ _ _ _ _ _ hx, e]
    dsimp only
    rw [chunked_nil]
    exact final_chunked hst _ _ _ _ _

/-! ### Trailers -/

theorem trailer_fwd {x : Bytes} (h : Trailer x) (acc : Bytes) (ex : Nat) (ig : Bool) :
    ∀ n, x.length < n → final (decodeTrailer n fresh acc ex ig x) = .ok acc := by
  induction h with
  | cut h =>
    intro n hn
    cases n with
    | zero => omega
    | succ n =>
      rw [trailer_succ, line_cut h]
      exact final_chunked (by nofun) _ _ _ _ _
  | last h =>
    intro n hn
    cases n with
    | zero => omega
    | succ n =>
      rw [trailer_succ, line_first h]
      rfl
  | line h ht _ ih =>
    intro n hn
    cases n with
    | zero => omega
    | succ n =>
      rw [trailer_succ, line_first h]
      dsimp only
      rw [if_neg ht]
      have := congrArg List.length h.1
      simp only [List.length_append, List.length_cons, List.length_nil] at this
      exact ih n (by omega)

theorem trailer_bwd (acc : Bytes) (ex : Nat) (ig : Bool) : ∀ (n : Nat) (x c : Bytes), x.length < n →
    final (decodeTrailer n fresh acc ex ig x) = .ok c → Trailer x ∧ c = acc := by
  intro n
  induction n with
  | zero => intro x c h; omega
  | succ n ih =>
    intro x c hn e
    rw [trailer_succ] at e
    cases hd : fresh.decode x with
    | err => rw [hd] at e; cases e
    | panic => rw [hd] at e; cases e
    | ok item line data =>
      rw [hd] at e
      cases item with
      | none =>
        obtain ⟨h1, h2, h3⟩ := line_cut_of hd
        dsimp only at e
        rw [final_chunked (by nofun)] at e
        injection e with e
        exact ⟨.cut h3, e.symm⟩
      | some t =>
        obtain ⟨rfl, hF⟩ := line_first_of hd
        dsimp only at e
        by_cases ht : t = []
        · subst ht
          rw [if_pos rfl] at e
          injection e with e
          exact ⟨.last hF, e.symm⟩
        · rw [if_neg ht] at e
          have := congrArg List.length hF.1
          simp only [List.length_append, List.length_cons, List.length_nil] at this
          obtain ⟨g1, g2⟩ := ih data c (by omega) e
          exact ⟨.line hF ht g1, g2⟩

theorem cut_nil : Cut [] := ⟨fun h => by have := h.length_le; simp at this, by decide⟩

theorem firstLine_ne {s t r : Bytes} (h : FirstLine s t r) : s ≠ [] := by
  rintro rfl
  have := congrArg List.length h.1
  simp at this

theorem rest_trailer (acc : Bytes) (ex : Nat) (ig : Bool) (x c : Bytes) :
    rest .trailer acc ex ig x = .ok c ↔ Trailer x ∧ c = acc := by
  by_cases hx : x = []
  · subst hx
    rw [rest_nil (by nofun)]
    constructor
    · intro e; injection e with e; exact ⟨.cut cut_nil, e.symm⟩
    · rintro ⟨-, rfl⟩; rfl
  · have key : rest .trailer acc ex ig x = final (decodeTrailer (x.length + 1) fresh acc ex ig x) := by
      cases hd : decodeTrailer (x.length + 1) fresh acc ex ig x with
      | err => rw [rest_final hx (by intro _ _ _ _ _ _ h; rw [show decodeChunk .trailer fresh acc ex ig x = _ from hd] at h; cases h),
          show decodeChunk .trailer fresh acc ex ig x = _ from hd]
      | panic => rw [rest_final hx (by intro _ _ _ _ _ _ h; rw [show decodeChunk .trailer fresh acc ex ig x = _ from hd] at h; cases h),
          show decodeChunk .trailer fresh acc ex ig x = _ from hd]
      | ok item s r =>
        cases item with
        | some a => rw [rest_final hx (by intro _ _ _ _ _ _ h; rw [show decodeChunk .trailer fresh acc ex ig x = _ from hd] at h; cases h),
            show decodeChunk .trailer fresh acc ex ig x = _ from hd]
        | none =>
          obtain ⟨h1, l', h2, h3, -⟩ := trailer_more _ fresh_inv (Nat.lt_succ_self _) hd
          subst h2
          rw [final_chunked (by nofun)]
          exact rest_stop hx ⟨fresh_inv, nofun⟩ (by nofun) h1 hd
    rw [key]
    constructor
    · intro e
      exact trailer_bwd acc ex ig _ x c (Nat.lt_succ_self _) e
    · rintro ⟨h, rfl⟩
      exact trailer_fwd h _ ex ig _ (Nat.lt_succ_self _)

/-! ### Chunks -/

theorem step_header_cut {x : Bytes} (h : Cut x) (acc : Bytes) (ex : Nat) (ig : Bool) : rest .header acc ex ig x = .ok acc := by
  by_cases hx : x = []
  · subst hx; exact rest_nil (by nofun) _ _ _
  · refine rest_stop hx ⟨fresh_inv, nofun⟩ (st' := .header) (l := { fresh with buffer := x }) (ex' := ex) (by nofun) rfl ?_
    unfold decodeChunk
    dsimp only
    rw [line_cut h]

theorem step_header {x t r : Bytes} {n : Nat} (h : FirstLine x t r) (hs : SizeIs t n) (acc : Bytes) (ex : Nat) (ig : Bool) :
    rest .header acc ex ig x = rest (if n > 0 then .body else .trailer) acc n ig r := by
  refine rest_step (firstLine_ne h) ⟨fresh_inv, nofun⟩ ?_
  unfold decodeChunk
  dsimp only
  rw [line_first h]
  dsimp only
  rw [size_iff.mpr hs]

theorem step_body_short {x : Bytes} {n : Nat} (hn : x.length < n) (acc : Bytes) (ig : Bool) :
    rest .body acc n ig x = .ok (if ig then acc else acc ++ x) := by
  by_cases hx : x = []
  · subst hx
    rw [rest_nil (by nofun), List.append_nil]
    cases ig <;> rfl
  · exact rest_stop hx ⟨fresh_inv, fun _ => by omega⟩ (by nofun) rfl (chunkbody_part _ _ _ _ _ hn)

theorem step_body {x : Bytes} {n : Nat} (h0 : 0 < n) (hn : n ≤ x.length) (acc : Bytes) (ig : Bool) :
    rest .body acc n ig x = rest .delimiter (if ig then acc else acc ++ x.take n) 0 ig (x.drop n) := by
  refine rest_step ?_ ⟨fresh_inv, fun _ => h0⟩ (chunkbody_full _ _ _ _ _ hn)
  rintro rfl
  rw [List.length_nil] at hn
  omega

theorem step_delim_cut {x : Bytes} (h : Cut x) (acc : Bytes) (ex : Nat) (ig : Bool) : rest .delimiter acc ex ig x = .ok acc := by
  by_cases hx : x = []
  · subst hx; exact rest_nil (by nofun) _ _ _
  · refine rest_stop hx ⟨fresh_inv, nofun⟩ (st' := .delimiter) (l := { fresh with buffer := x }) (ex' := ex) (by nofun) rfl ?_
    unfold decodeChunk
    dsimp only
    rw [line_cut h]

theorem step_delim {x t r : Bytes} (h : FirstLine x t r) (acc : Bytes) (ex : Nat) (ig : Bool) :
    rest .delimiter acc ex ig x = rest .header acc ex ig r := by
  refine rest_step (firstLine_ne h) ⟨fresh_inv, nofun⟩ ?_
  unfold decodeChunk
  dsimp only
  rw [line_first h]

theorem chunks_fwd {x body : Bytes} (h : Chunks x body) : ∀ (acc : Bytes) (ex : Nat) (ig : Bool),
    rest .header acc ex ig x = .ok (if ig then acc else acc ++ body) := by
  induction h with
  | cut h =>
    intro acc ex ig
    rw [step_header_cut h, List.append_nil]
    cases ig <;> rfl
  | last h hs ht =>
    intro acc ex ig
    rw [step_header h hs, if_neg (by decide), (rest_trailer acc 0 ig _ acc).mpr ⟨ht, rfl⟩, List.append_nil]
    cases ig <;> rfl
  | short h hs hn =>
    intro acc ex ig
    rw [step_header h hs, if_pos (by omega), step_body_short hn]
  | «open» h hs h0 hn hc =>
    intro acc ex ig
    rw [step_header h hs, if_pos (by omega), step_body h0 hn, step_delim_cut hc]
  | chunk h hs h0 hn hd _ ih =>
    intro acc ex ig
    rw [step_header h hs, if_pos (by omega), step_body h0 hn, step_delim hd, ih]
    cases ig with
    | true => rfl
    | false => simp

theorem chunks_bwd : ∀ (n : Nat) (x : Bytes), x.length ≤ n → ∀ (acc : Bytes) (ex : Nat) (ig : Bool) (c : Bytes),
    rest .header acc ex ig x = .ok c → ∃ body, Chunks x body ∧ c = if ig then acc else acc ++ body := by
  intro n
  induction n with
  | zero =>
    intro x hn acc ex ig c e
    rw [List.length_eq_zero_iff.mp (Nat.le_zero.mp hn)] at e ⊢
    rw [rest_nil (by nofun)] at e
    injection e with e
    refine ⟨[], .cut cut_nil, ?_⟩
    rw [← e, List.append_nil]
    cases ig <;> rfl
  | succ n ih =>
    intro x hn acc ex ig c e
    cases hd : fresh.decode x with
    | err =>
      have hx : x ≠ [] := by rintro rfl; rw [line_nil fresh_inv] at hd; cases hd
      have hde : decodeChunk .header fresh acc ex ig x = .err := by unfold decodeChunk; dsimp only; rw [hd]
      rw [rest_final hx (by intro _ _ _ _ _ _ h; rw [hde] at h; cases h), hde] at e
      cases e
    | panic => exact absurd hd (line_no_panic fresh_inv x)
    | ok item line data =>
      cases item with
      | none =>
        obtain ⟨-, -, h3⟩ := line_cut_of hd
        rw [step_header_cut h3] at e
        injection e with e
        refine ⟨[], .cut h3, ?_⟩
        rw [← e, List.append_nil]
        cases ig <;> rfl
      | some t =>
        obtain ⟨rfl, hF⟩ := line_first_of hd
        have hlen := congrArg List.length hF.1
        simp only [List.length_append, List.length_cons, List.length_nil] at hlen
        cases hs : parseUInt 16 18446744073709551615 (Reader.readUntil (Reader.isChar 59) t).1 with
        | none =>
          have hx : x ≠ [] := firstLine_ne hF
          have hde : decodeChunk .header fresh acc ex ig x = .err := by
            unfold decodeChunk; dsimp only; rw [hd]; dsimp only; rw [hs]
          rw [rest_final hx (by intro _ _ _ _ _ _ h; rw [hde] at h; cases h), hde] at e
          cases e
        | some size =>
          have hS := size_iff.mp hs
          rw [step_header hF hS] at e
          by_cases h0 : size > 0
          · rw [if_pos h0] at e
            by_cases hle : size ≤ data.length
            · rw [step_body h0 hle] at e
              have hdl : (data.drop size).length = data.length - size := List.length_drop
              cases hd2 : fresh.decode (data.drop size) with
              | err =>
                have hx : data.drop size ≠ [] := by intro h; rw [h, line_nil fresh_inv] at hd2; cases hd2
                have hde : decodeChunk .delimiter fresh (if ig then acc else acc ++ data.take size) 0 ig (data.drop size) = .err := by
                  unfold decodeChunk; dsimp only; rw [hd2]
                rw [rest_final hx (by intro _ _ _ _ _ _ h; rw [hde] at h; cases h), hde] at e
                cases e
              | panic => exact absurd hd2 (line_no_panic fresh_inv _)
              | ok item2 line2 data2 =>
                cases item2 with
                | none =>
                  obtain ⟨-, -, h3⟩ := line_cut_of hd2
                  rw [step_delim_cut h3] at e
                  injection e with e
                  exact ⟨_, .open hF hS h0 hle h3, e.symm⟩
                | some t2 =>
                  obtain ⟨rfl, hF2⟩ := line_first_of hd2
                  rw [step_delim hF2] at e
                  have hlen2 := congrArg List.length hF2.1
                  simp only [List.length_append, List.length_cons, List.length_nil] at hlen2
                  obtain ⟨body, k1, k2⟩ := ih data2 (by omega) _ _ _ _ e
                  refine ⟨_, .chunk hF hS h0 hle hF2 k1, ?_⟩
                  rw [k2]
                  cases ig with
                  | true => rfl
                  | false => simp
            · rw [step_body_short (by omega)] at e
              injection e with e
              exact ⟨_, .short hF hS (by omega), e.symm⟩
          · rw [if_neg h0] at e
            obtain ⟨k1, k2⟩ := (rest_trailer acc size ig data c).mp e
            have hz : size = 0 := by omega
            subst hz
            refine ⟨[], .last hF hS k1, ?_⟩
            rw [k2, List.append_nil]
            cases ig <;> rfl

/-- What is left out of the result is never a panic. -/
theorem final_no_panic {b : Body} (hi : BInv b) (x : Bytes) : final (b.decode x) ≠ .panic := by
  intro e
  cases hd : b.decode x with
  | err => rw [hd] at e; cases e
  | panic => exact body_no_panic hi x hd
  | ok item b' r =>
    rw [hd] at e
    cases item with
    | some a => cases e
    | none =>
      obtain ⟨h1, h2, h3⟩ := body_streams.more hi hd
      subst h1
      have hq : b'.decode [] = .ok none b' [] := by rw [← h3 [], List.append_nil, hd]
      unfold final at e
      dsimp only at e
      unfold Body.decodeEof at e
      rw [hq] at e
      cases b' with
      | simple b ig => cases e
      | fixed b ex ig =>
        cases b with
        | none => cases e
        | some b => cases e
      | chunked st l b ex ig =>
        cases st <;> cases e

/-! ## Whole responses -/

theorem bodiless_iff {x : Header} {h : Head} (hx : HeadShows L x h) :
    ((100 ≤ x.status.toNat ∧ x.status.toNat < 200) ∨ x.status = 204 ∨ x.status = 304) ↔ Bodiless h := by
  unfold Bodiless
  rw [← hx.status]
  have e1 : x.status = 204 ↔ x.status.toNat = 204 := ⟨fun e => by rw [e]; rfl, fun e => UInt16.toNat_inj.mp e⟩
  have e2 : x.status = 304 ↔ x.status.toNat = 304 := ⟨fun e => by rw [e]; rfl, fun e => UInt16.toNat_inj.mp e⟩
  rw [e1, e2]

theorem last_some {x : Header} {h : Head} (hx : HeadShows L x h) {name : Bytes} {v : Option Bytes} (e : h.last L name = some v) :
    ∃ f, x.field L name = some f ∧ f.value = v := by
  rw [← last_field hx] at e
  obtain ⟨f, h1, h2⟩ := Option.map_eq_some_iff.mp e
  exact ⟨f, h1, h2⟩

theorem last_none {x : Header} {h : Head} (hx : HeadShows L x h) {name : Bytes} (e : h.last L name = none) :
    x.field L name = none := by
  rw [← last_field hx] at e
  exact Option.map_eq_none_iff.mp e

theorem last_of_some {x : Header} {h : Head} (hx : HeadShows L x h) {name : Bytes} {f : Field} (e : x.field L name = some f) :
    h.last L name = some f.value := by rw [← last_field hx, e]; rfl

theorem last_of_none {x : Header} {h : Head} (hx : HeadShows L x h) {name : Bytes} (e : x.field L name = none) :
    h.last L name = none := by rw [← last_field hx, e]; rfl

theorem lengthBody_eq {f : Field} {v : Bytes} {n : Nat} {ig : Bool} (hf : f.value = some v) (hn : IsDecimal v n)
    (hle : n ≤ limit ig) : lengthBody f ig = .ok (.fixed (some []) n ig) := by
  unfold lengthBody
  rw [hf]
  dsimp only
  have hle' : n ≤ 18446744073709551615 := by unfold limit at hle; split at hle <;> omega
  rw [(parseUInt_iff _ _ _).mpr ⟨hn, hle'⟩]
  dsimp only
  unfold Body.newFixed
  rw [if_neg]
  rintro ⟨rfl, h⟩
  exact absurd hle (by show ¬n ≤ 9223372036854775807; omega)

theorem lengthBody_ok {f : Field} {b : Body} {ig : Bool} (e : lengthBody f ig = .ok b) :
    ∃ v n, f.value = some v ∧ IsDecimal v n ∧ n ≤ limit ig ∧ b = .fixed (some []) n ig := by
  unfold lengthBody at e
  split at e
  · cases e
  · rename_i v hv
    split at e
    · cases e
    · rename_i n hn
      obtain ⟨h1, h2⟩ := (parseUInt_iff _ _ _).mp hn
      unfold Body.newFixed at e
      split at e
      · rename_i b' hb
        split at hb
        · cases hb
        · rename_i hc
          injection hb with hb
          injection e with e
          refine ⟨v, n, hv, h1, ?_, by rw [← e, ← hb]⟩
          cases ig with
          | true => exact h2
          | false =>
            show n ≤ 9223372036854775807
            by_cases hl : n > 9223372036854775807
            · exact absurd ⟨rfl, hl⟩ hc
            · omega
      · cases e

theorem lengthBody_panic {f : Field} {ig : Bool} : lengthBody f ig = .panic ↔
    ∃ v n, f.value = some v ∧ IsDecimal v n ∧ ig = false ∧ 9223372036854775807 < n ∧ n ≤ 18446744073709551615 := by
  constructor
  · intro e
    unfold lengthBody at e
    split at e
    · cases e
    · rename_i v hv
      split at e
      · cases e
      · rename_i n hn
        obtain ⟨h1, h2⟩ := (parseUInt_iff _ _ _).mp hn
        unfold Body.newFixed at e
        split at e
        · cases e
        · rename_i hb
          split at hb
          · rename_i hc
            exact ⟨v, n, hv, h1, hc.1, hc.2, h2⟩
          · cases hb
  · rintro ⟨v, n, h1, h2, h3, h4, h5⟩
    unfold lengthBody
    rw [h1]
    dsimp only
    rw [(parseUInt_iff _ _ _).mpr ⟨h2, h5⟩]
    dsimp only
    unfold Body.newFixed
    rw [if_pos ⟨h3, h4⟩]

theorem body_fwd {x : Header} {h : Head} (hx : HeadShows L x h) {ig : Bool} {rest body : Bytes}
    (hb : BodyIs L P (limit ig) h rest body) :
    ∃ b, bodyFor L P 4096 ig x = .ok b ∧ final (b.decode rest) = .ok (if ig then [] else body) := by
  cases hb with
  | length hl hle =>
    rename_i n
    obtain ⟨hp, v, h1, h2⟩ := hl
    obtain ⟨f, hf, hfv⟩ := last_some hx h1
    refine ⟨.fixed (some []) n ig, ?_, final_fixed n ig rest⟩
    unfold bodyFor
    cases P with
    | http =>
      obtain ⟨h3, h4⟩ := hp rfl
      dsimp only
      rw [if_neg (fun hc => h3 ((bodiless_iff hx).mp hc)), last_none hx h4]
      dsimp only
      rw [hf]
      exact lengthBody_eq hfv h2 hle
    | rtsp =>
      dsimp only
      rw [hf]
      exact lengthBody_eq hfv h2 hle
  | bodiless hb =>
    refine ⟨.fixed (some []) 0 ig, ?_, ?_⟩
    · unfold bodyFor
      dsimp only
      rw [if_pos ((bodiless_iff hx).mpr hb)]
    · rw [final_fixed, List.take_zero]
  | chunked h1 h2 h3 h4 =>
    obtain ⟨f, hf, hfv⟩ := last_some hx h2
    refine ⟨Body.newChunked 4096 ig, ?_, ?_⟩
    · unfold bodyFor
      dsimp only
      rw [if_neg (fun hc => h1 ((bodiless_iff hx).mp hc)), hf]
      dsimp only
      rw [hfv, if_pos h3]
    · have := chunks_fwd h4 [] 0 ig
      rw [List.nil_append] at this
      exact this
  | encoded h1 h2 h3 =>
    obtain ⟨f, hf, hfv⟩ := last_some hx h2
    refine ⟨.simple [] ig, ?_, ?_⟩
    · unfold bodyFor
      dsimp only
      rw [if_neg (fun hc => h1 ((bodiless_iff hx).mp hc)), hf]
      dsimp only
      rw [hfv, if_neg h3]
    · rw [final_simple, List.nil_append]
  | unknown h1 h2 h3 =>
    refine ⟨.simple [] ig, ?_, ?_⟩
    · unfold bodyFor
      dsimp only
      rw [if_neg (fun hc => h1 ((bodiless_iff hx).mp hc)), last_none hx h2]
      dsimp only
      rw [last_none hx h3]
    · rw [final_simple, List.nil_append]
  | none h1 =>
    refine ⟨.fixed (some []) 0 ig, ?_, ?_⟩
    · unfold bodyFor
      dsimp only
      rw [last_none hx h1]
    · rw [final_fixed, List.take_zero]

theorem body_bwd {x : Header} {h : Head} (hx : HeadShows L x h) {ig : Bool} {rest c : Bytes} {b : Body}
    (hb : bodyFor L P 4096 ig x = .ok b) (hf : final (b.decode rest) = .ok c) :
    ∃ body, BodyIs L P (limit ig) h rest body ∧ c = if ig then [] else body := by
  unfold bodyFor at hb
  cases P with
  | http =>
    dsimp only at hb
    split at hb
    · rename_i hc
      injection hb with hb
      subst hb
      rw [final_fixed, List.take_zero] at hf
      injection hf with hf
      exact ⟨[], .bodiless ((bodiless_iff hx).mp hc), hf.symm⟩
    · rename_i hc
      have hnb : ¬Bodiless h := fun e => hc ((bodiless_iff hx).mpr e)
      split at hb
      · rename_i f hte
        split at hb
        · rename_i hch
          injection hb with hb
          subst hb
          obtain ⟨body, k1, k2⟩ := chunks_bwd _ rest (Nat.le_refl _) [] 0 ig c hf
          rw [List.nil_append] at k2
          exact ⟨body, .chunked hnb (last_of_some hx hte) hch k1, k2⟩
        · rename_i hch
          injection hb with hb
          subst hb
          rw [final_simple, List.nil_append] at hf
          injection hf with hf
          exact ⟨rest, .encoded hnb (last_of_some hx hte) hch, hf.symm⟩
      · rename_i hte
        split at hb
        · rename_i f hcl
          obtain ⟨v, n, h1, h2, h3, rfl⟩ := lengthBody_ok hb
          rw [final_fixed] at hf
          injection hf with hf
          exact ⟨_, .length ⟨fun _ => ⟨hnb, last_of_none hx hte⟩, v, by rw [← h1]; exact last_of_some hx hcl, h2⟩ h3, hf.symm⟩
        · rename_i hcl
          injection hb with hb
          subst hb
          rw [final_simple, List.nil_append] at hf
          injection hf with hf
          exact ⟨rest, .unknown hnb (last_of_none hx hte) (last_of_none hx hcl), hf.symm⟩
  | rtsp =>
    dsimp only at hb
    split at hb
    · rename_i f hcl
      obtain ⟨v, n, h1, h2, h3, rfl⟩ := lengthBody_ok hb
      rw [final_fixed] at hf
      injection hf with hf
      exact ⟨_, .length ⟨nofun, v, by rw [← h1]; exact last_of_some hx hcl, h2⟩ h3, hf.symm⟩
    · rename_i hcl
      injection hb with hb
      subst hb
      rw [final_fixed, List.take_zero] at hf
      injection hf with hf
      exact ⟨[], .none (last_of_none hx hcl), hf.symm⟩

theorem body_panic {x : Header} {h : Head} (hx : HeadShows L x h) {ig : Bool} :
    bodyFor L P 4096 ig x = .panic ↔
      ig = false ∧ ∃ n, LengthIs L P h n ∧ 9223372036854775807 < n ∧ n ≤ 18446744073709551615 := by
  constructor
  · intro hb
    unfold bodyFor at hb
    cases P with
    | http =>
      dsimp only at hb
      split at hb
      · cases hb
      · rename_i hc
        have hnb : ¬Bodiless h := fun e => hc ((bodiless_iff hx).mpr e)
        split at hb
        · split at hb <;> cases hb
        · rename_i hte
          split at hb
          · rename_i f hcl
            obtain ⟨v, n, h1, h2, h3, h4, h5⟩ := lengthBody_panic.mp hb
            exact ⟨h3, n, ⟨fun _ => ⟨hnb, last_of_none hx hte⟩, v, by rw [← h1]; exact last_of_some hx hcl, h2⟩, h4, h5⟩
          · cases hb
    | rtsp =>
      dsimp only at hb
      split at hb
      · rename_i f hcl
        obtain ⟨v, n, h1, h2, h3, h4, h5⟩ := lengthBody_panic.mp hb
        exact ⟨h3, n, ⟨nofun, v, by rw [← h1]; exact last_of_some hx hcl, h2⟩, h4, h5⟩
      · cases hb
  · rintro ⟨hig, n, ⟨hp, v, h1, h2⟩, h3, h4⟩
    obtain ⟨f, hf, hfv⟩ := last_some hx h1
    have hL : lengthBody f ig = .panic := lengthBody_panic.mpr ⟨v, n, hfv, h2, hig, h3, h4⟩
    unfold bodyFor
    cases P with
    | http =>
      obtain ⟨k1, k2⟩ := hp rfl
      dsimp only
      rw [if_neg (fun hc => k1 ((bodiless_iff hx).mp hc)), last_none hx k2]
      dsimp only
      rw [hf]
      exact hL
    | rtsp =>
      dsimp only
      rw [hf]
      exact hL

/-- The response, once the header is complete. -/
def respond (L : Bytes → Bytes) (P : Proto) (ig : Bool) (x : Header) (data : Bytes) : Wire.Res Response :=
  match bodyFor L P 4096 ig x with
  | .err => .err
  | .panic => .panic
  | .ok b =>
    match final (b.decode data) with
    | .err => .err
    | .panic => .panic
    | .ok body =>
      match Response.new P x body with
      | none => .err
      | some r => .ok r

theorem whole_head {ig : Bool} {x data : Bytes} {hd : Header} {d : HDec}
    (e : (HDec.new 4096 1024).decode L x = .ok (some hd) d data) :
    whole L P (Codec.new ig) x = respond L P ig hd data := by
  unfold whole
  rw [decode_none rfl rfl, show (Codec.new ig).hdec.decode L x = _ from e]
  dsimp only
  unfold respond
  rw [show bodyFor L P (Codec.new ig).maxLine (Codec.new ig).ignore hd = bodyFor L P 4096 ig hd from rfl]
  cases hb : bodyFor L P 4096 ig hd with
  | err => rfl
  | panic => rfl
  | ok b =>
    dsimp only
    rw [finish_eq rfl rfl]
    cases hr : b.decode data with
    | err => rfl
    | panic => rfl
    | ok item b' r =>
      cases item with
      | some a =>
        dsimp only [final]
        cases hn : Response.new P hd a <;> rfl
      | none =>
        dsimp only [final]
        rw [finish_eq rfl rfl]
        cases he : b'.decodeEof [] with
        | err => rfl
        | panic => rfl
        | ok item2 b2 r2 =>
          cases item2 with
          | none => rfl
          | some a =>
            dsimp only
            cases hn : Response.new P hd a <;> rfl

theorem whole_nohead {ig : Bool} {x : Bytes} (e : ∀ hd d data, (HDec.new 4096 1024).decode L x ≠ .ok (some hd) d data) :
    whole L P (Codec.new ig) x = .err := by
  unfold whole
  rw [decode_none rfl rfl]
  cases hd : (HDec.new 4096 1024).decode L x with
  | err => rw [show (Codec.new ig).hdec.decode L x = _ from hd]
  | panic => exact absurd hd (hloop_no_panic _ (hdec_new_inv (by decide)) (Nat.lt_succ_self _))
  | ok item d data =>
    cases item with
    | some a => exact absurd hd (e _ _ _)
    | none =>
      rw [show (Codec.new ig).hdec.decode L x = _ from hd]
      rfl

theorem new_response {x : Header} {h : Head} (hx : HeadShows L x h) (body : Bytes) :
    (Accepted P h → Response.new P x body = some ⟨x, body⟩) ∧ (¬Accepted P h → Response.new P x body = none) := by
  unfold Accepted Response.new
  rw [← hx.protocol, ← hx.version]
  cases P with
  | http =>
    dsimp only
    by_cases h1 : x.protocol = asc "HTTP"
    · by_cases h2 : x.version = asc "1.0"
      · simp [h1, h2]
      · by_cases h3 : x.version = asc "1.1"
        · simp [h1, h3]
        · simp [h1, h2, h3]
    · simp [h1]
  | rtsp =>
    dsimp only
    by_cases h1 : x.protocol = asc "RTSP"
    · by_cases h2 : x.version = asc "1.0"
      · simp [h1, h2]
      · simp [h1, h2]
    · simp [h1]

end Verif.Http
