import Verif.Lemmas.HttpHeader
/-!
# Lemmas about the body decoders
-/
namespace Verif.Http
open Verif

/-! ## Trailers -/

theorem trailer_succ (n : Nat) (line : Line) (body : Bytes) (ex : Nat) (ig : Bool) (x : Bytes) :
    decodeTrailer (n + 1) line body ex ig x =
    match line.decode x with
    | .err => .err
    | .panic => .panic
    | .ok none line data => .ok none (.chunked .trailer line body ex ig) data
    | .ok (some text) line data =>
      if text = [] then .ok (some body) (.chunked .completed line [] ex ig) data
      else decodeTrailer n line body ex ig data := rfl

theorem trailer_fuel : ∀ (n m : Nat) (l : Line) (body : Bytes) (ex : Nat) (ig : Bool) (x : Bytes), LInv l →
    x.length < n → x.length < m → decodeTrailer n l body ex ig x = decodeTrailer m l body ex ig x := by
  intro n
  induction n with
  | zero => intro m d _ _ _ x _ h; omega
  | succ n ih =>
    intro m l body ex ig x hi hn hm
    cases m with
    | zero => omega
    | succ m =>
      rw [trailer_succ, trailer_succ]
      cases e : l.decode x with
      | err => rfl
      | panic => rfl
      | ok item line data =>
        cases item with
        | none => rfl
        | some t =>
          obtain ⟨h1, h2, h3, -⟩ := line_found hi e
          dsimp only
          split
          · rfl
          · exact ih m line body ex ig data h2 (by omega) (by omega)

theorem trailer_more : ∀ (n : Nat) {l : Line} {body : Bytes} {ex : Nat} {ig : Bool} {x r : Bytes} {s : Body}, LInv l →
    x.length < n → decodeTrailer n l body ex ig x = .ok none s r →
      r = [] ∧ ∃ l', s = .chunked .trailer l' body ex ig ∧ LInv l' ∧
        ∀ (m m' : Nat) (y : Bytes), (x ++ y).length < m → y.length < m' →
          decodeTrailer m l body ex ig (x ++ y) = decodeTrailer m' l' body ex ig y := by
  intro n
  induction n with
  | zero => intro l _ _ _ x r s _ h; omega
  | succ n ih =>
    intro l body ex ig x r s hi hn e
    rw [trailer_succ] at e
    cases hd : l.decode x with
    | err => rw [hd] at e; cases e
    | panic => rw [hd] at e; cases e
    | ok item line data =>
      rw [hd] at e
      cases item with
      | none =>
        dsimp only at e
        injection e with _ e1 e2
        subst e1 e2
        obtain ⟨h1, h2, h3, h4⟩ := line_more hi hd
        refine ⟨h1, line, rfl, h2, fun m m' y hm hm' => ?_⟩
        rw [trailer_fuel m (m + m' + 1) l body ex ig _ hi hm (by omega),
          trailer_fuel m' (m + m' + 1) line body ex ig y h2 hm' (by omega), trailer_succ, trailer_succ, h4 y]
      | some t =>
        dsimp only at e
        obtain ⟨h1, h2, h3, h4, h5, h6⟩ := line_found hi hd
        split at e
        · cases e
        · rename_i ht
          obtain ⟨g1, l', g2, g3, g4⟩ := ih h2 (by omega) e
          refine ⟨g1, l', g2, g3, fun m m' y hm hm' => ?_⟩
          cases m with
          | zero => omega
          | succ m =>
            rw [trailer_succ, h6 y]
            dsimp only
            rw [if_neg ht]
            refine g4 m m' y ?_ hm'
            rw [List.length_append] at hm ⊢
            omega

theorem trailer_item : ∀ (n : Nat) {l : Line} {body : Bytes} {ex : Nat} {ig : Bool} {x r a : Bytes} {s : Body}, LInv l →
    x.length < n → decodeTrailer n l body ex ig x = .ok (some a) s r →
      ∀ (m : Nat) (y : Bytes), (x ++ y).length < m → decodeTrailer m l body ex ig (x ++ y) = .ok (some a) s (r ++ y) := by
  intro n
  induction n with
  | zero => intro l _ _ _ x r a s _ h; omega
  | succ n ih =>
    intro l body ex ig x r a s hi hn e m y hm
    rw [trailer_succ] at e
    cases m with
    | zero => omega
    | succ m =>
      cases hd : l.decode x with
      | err => rw [hd] at e; cases e
      | panic => rw [hd] at e; cases e
      | ok item line data =>
        rw [hd] at e
        cases item with
        | none => cases e
        | some t =>
          dsimp only at e
          obtain ⟨h1, h2, h3, h4, h5, h6⟩ := line_found hi hd
          rw [trailer_succ, h6 y]
          dsimp only
          split at e
          · rename_i ht
            rw [if_pos ht]
            injection e with e0 e1 e2
            rw [e0, e1, e2]
          · rename_i ht
            rw [if_neg ht]
            refine ih h2 (by omega) e m y ?_
            rw [List.length_append] at hm ⊢
            omega

theorem trailer_err : ∀ (n : Nat) {l : Line} {body : Bytes} {ex : Nat} {ig : Bool} {x : Bytes}, LInv l →
    x.length < n → decodeTrailer n l body ex ig x = .err →
      ∀ (m : Nat) (y : Bytes), (x ++ y).length < m → decodeTrailer m l body ex ig (x ++ y) = .err := by
  intro n
  induction n with
  | zero => intro l _ _ _ x _ h; omega
  | succ n ih =>
    intro l body ex ig x hi hn e m y hm
    rw [trailer_succ] at e
    cases m with
    | zero => omega
    | succ m =>
      rw [trailer_succ]
      cases hd : l.decode x with
      | err => rw [line_err hi hd]
      | panic => exact absurd hd (line_no_panic hi x)
      | ok item line data =>
        rw [hd] at e
        cases item with
        | none => cases e
        | some t =>
          dsimp only at e
          obtain ⟨h1, h2, h3, h4, h5, h6⟩ := line_found hi hd
          rw [h6 y]
          dsimp only
          split at e
          · cases e
          · rename_i ht
            rw [if_neg ht]
            refine ih h2 (by omega) e m y ?_
            rw [List.length_append] at hm ⊢
            omega

theorem trailer_no_panic : ∀ (n : Nat) {l : Line} {body : Bytes} {ex : Nat} {ig : Bool} {x : Bytes}, LInv l →
    x.length < n → decodeTrailer n l body ex ig x ≠ .panic := by
  intro n
  induction n with
  | zero => intro l _ _ _ x _ h; omega
  | succ n ih =>
    intro l body ex ig x hi hn e
    rw [trailer_succ] at e
    cases hd : l.decode x with
    | err => rw [hd] at e; cases e
    | panic => exact absurd hd (line_no_panic hi x)
    | ok item line data =>
      rw [hd] at e
      cases item with
      | none => cases e
      | some t =>
        dsimp only at e
        obtain ⟨h1, h2, h3, -⟩ := line_found hi hd
        split at e
        · cases e
        · exact ih h2 (by omega) e

/-! ## Chunks -/

/-- The states of the chunked decoder. -/
structure CInv (st : CState) (l : Line) (ex : Nat) : Prop where
  line : LInv l
  body : st = .body → 0 < ex

theorem chunkbody_full (l : Line) (b : Bytes) (ex : Nat) (ig : Bool) (x : Bytes) (h : ex ≤ x.length) :
    decodeChunk .body l b ex ig x =
      .ok none (.chunked .delimiter l (if ig then b else b ++ x.take ex) 0 ig) (x.drop ex) := by
  have ht : (if ex < x.length then ex else x.length) = ex := by split <;> omega
  show Dec.ok none (Body.chunked (if ex - (if ex < x.length then ex else x.length) = 0 then .delimiter else .body) l
    (if ig then b else b ++ x.take (if ex < x.length then ex else x.length))
    (ex - (if ex < x.length then ex else x.length)) ig) (x.drop (if ex < x.length then ex else x.length)) = _
  rw [ht, Nat.sub_self, if_pos rfl]

theorem chunkbody_part (l : Line) (b : Bytes) (ex : Nat) (ig : Bool) (x : Bytes) (h : x.length < ex) :
    decodeChunk .body l b ex ig x =
      .ok none (.chunked .body l (if ig then b else b ++ x) (ex - x.length) ig) [] := by
  have ht : (if ex < x.length then ex else x.length) = x.length := by split <;> omega
  show Dec.ok none (Body.chunked (if ex - (if ex < x.length then ex else x.length) = 0 then .delimiter else .body) l
    (if ig then b else b ++ x.take (if ex < x.length then ex else x.length))
    (ex - (if ex < x.length then ex else x.length)) ig) (x.drop (if ex < x.length then ex else x.length)) = _
  rw [ht, if_neg (by omega), List.take_length, List.drop_length]

/-- One step that wants more data. -/
theorem chunk_more {st : CState} {l : Line} {body : Bytes} {ex : Nat} {ig : Bool} {x r : Bytes} {s : Body}
    (hi : CInv st l ex) (hx : x ≠ []) (e : decodeChunk st l body ex ig x = .ok none s r) :
    ∃ st' l' body' ex', s = .chunked st' l' body' ex' ig ∧ CInv st' l' ex' ∧ r.length < x.length ∧
      ∀ y, decodeChunk st l body ex ig (x ++ y) = .ok none s (r ++ y) ∨
        r = [] ∧ decodeChunk st l body ex ig (x ++ y) = decodeChunk st' l' body' ex' ig y := by
  have hxl : 0 < x.length := List.length_pos_iff.mpr hx
  cases st with
  | header =>
    unfold decodeChunk at e
    dsimp only at e
    cases hd : l.decode x with
    | err => rw [hd] at e; cases e
    | panic => rw [hd] at e; cases e
    | ok item line data =>
      rw [hd] at e
      cases item with
      | none =>
        dsimp only at e
        injection e with _ e1 e2
        obtain ⟨h1, h2, h3, h4⟩ := line_more hi.line hd
        subst e1 e2
        refine ⟨_, _, _, _, rfl, ⟨h2, nofun⟩, by rw [h1]; exact hxl, fun y => .inr ⟨h1, ?_⟩⟩
        unfold decodeChunk
        dsimp only
        rw [h4 y]
      | some t =>
        dsimp only at e
        obtain ⟨h1, h2, h3, h4, h5, h6⟩ := line_found hi.line hd
        split at e
        · cases e
        · rename_i size hp
          injection e with _ e1 e2
          subst e1 e2
          refine ⟨_, _, _, _, rfl, ⟨h2, ?_⟩, h3, fun y => .inl ?_⟩
          · intro hst
            split at hst
            · assumption
            · cases hst
          · unfold decodeChunk
            dsimp only
            rw [h6 y]
            dsimp only
            rw [hp]
  | body =>
    have hex := hi.body rfl
    by_cases hle : ex ≤ x.length
    · rw [chunkbody_full _ _ _ _ _ hle] at e
      injection e with _ e1 e2
      subst e1 e2
      refine ⟨_, _, _, _, rfl, ⟨hi.line, nofun⟩, by rw [List.length_drop]; omega, fun y => .inl ?_⟩
      rw [chunkbody_full _ _ _ _ _ (by rw [List.length_append]; omega), List.take_append_of_le_length hle,
        List.drop_append_of_le_length hle]
    · rw [chunkbody_part _ _ _ _ _ (by omega)] at e
      injection e with _ e1 e2
      subst e1 e2
      refine ⟨_, _, _, _, rfl, ⟨hi.line, fun _ => by omega⟩, hxl, fun y => .inr ⟨rfl, ?_⟩⟩
      by_cases hy : ex ≤ (x ++ y).length
      · rw [chunkbody_full _ _ _ _ _ hy, chunkbody_full _ _ _ _ _ (by rw [List.length_append] at hy; omega),
          List.take_append, List.take_of_length_le (by omega), List.drop_append, List.drop_of_length_le (by omega),
          List.nil_append]
        cases ig with
        | true => rfl
        | false => simp only [Bool.false_eq_true, if_false, List.append_assoc]
      · rw [chunkbody_part _ _ _ _ _ (by omega), chunkbody_part _ _ _ _ _ (by rw [List.length_append] at hy; omega),
          List.length_append, Nat.sub_sub]
        cases ig with
        | true => rfl
        | false => simp only [Bool.false_eq_true, if_false, List.append_assoc]
  | delimiter =>
    unfold decodeChunk at e
    dsimp only at e
    cases hd : l.decode x with
    | err => rw [hd] at e; cases e
    | panic => rw [hd] at e; cases e
    | ok item line data =>
      rw [hd] at e
      cases item with
      | none =>
        dsimp only at e
        injection e with _ e1 e2
        obtain ⟨h1, h2, h3, h4⟩ := line_more hi.line hd
        subst e1 e2
        refine ⟨_, _, _, _, rfl, ⟨h2, nofun⟩, by rw [h1]; exact hxl, fun y => .inr ⟨h1, ?_⟩⟩
        unfold decodeChunk
        dsimp only
        rw [h4 y]
      | some t =>
        dsimp only at e
        obtain ⟨h1, h2, h3, h4, h5, h6⟩ := line_found hi.line hd
        injection e with _ e1 e2
        subst e1 e2
        refine ⟨_, _, _, _, rfl, ⟨h2, nofun⟩, h3, fun y => .inl ?_⟩
        unfold decodeChunk
        dsimp only
        rw [h6 y]
  | trailer =>
    unfold decodeChunk at e
    dsimp only at e
    obtain ⟨h1, l', h2, h3, h4⟩ := trailer_more _ hi.line (Nat.lt_succ_self _) e
    refine ⟨_, _, _, _, h2, ⟨h3, nofun⟩, by rw [h1]; exact hxl, fun y => .inr ⟨h1, ?_⟩⟩
    unfold decodeChunk
    dsimp only
    exact h4 _ _ y (Nat.lt_succ_self _) (Nat.lt_succ_self _)
  | completed =>
    unfold decodeChunk at e
    cases e

theorem chunk_item {st : CState} {l : Line} {body : Bytes} {ex : Nat} {ig : Bool} {x r a : Bytes} {s : Body}
    (hi : CInv st l ex) (e : decodeChunk st l body ex ig x = .ok (some a) s r) (y : Bytes) :
    decodeChunk st l body ex ig (x ++ y) = .ok (some a) s (r ++ y) := by
  cases st with
  | header =>
    unfold decodeChunk at e
    dsimp only at e
    split at e <;> try cases e
    split at e <;> cases e
  | body =>
    unfold decodeChunk at e
    cases e
  | delimiter =>
    unfold decodeChunk at e
    dsimp only at e
    split at e <;> cases e
  | trailer =>
    unfold decodeChunk at e ⊢
    exact trailer_item _ hi.line (Nat.lt_succ_self _) e _ y (Nat.lt_succ_self _)
  | completed => cases e

theorem chunk_err {st : CState} {l : Line} {body : Bytes} {ex : Nat} {ig : Bool} {x : Bytes}
    (hi : CInv st l ex) (e : decodeChunk st l body ex ig x = .err) (y : Bytes) :
    decodeChunk st l body ex ig (x ++ y) = .err := by
  cases st with
  | header =>
    unfold decodeChunk at e ⊢
    dsimp only at e ⊢
    cases hd : l.decode x with
    | err => rw [line_err hi.line hd]
    | panic => exact absurd hd (line_no_panic hi.line x)
    | ok item line data =>
      rw [hd] at e
      cases item with
      | none => cases e
      | some t =>
        obtain ⟨h1, h2, h3, h4, h5, h6⟩ := line_found hi.line hd
        rw [h6 y]
        dsimp only at e ⊢
        split at e
        · rfl
        · cases e
  | body =>
    unfold decodeChunk at e
    cases e
  | delimiter =>
    unfold decodeChunk at e ⊢
    dsimp only at e ⊢
    cases hd : l.decode x with
    | err => rw [line_err hi.line hd]
    | panic => exact absurd hd (line_no_panic hi.line x)
    | ok item line data =>
      rw [hd] at e
      cases item with
      | none => cases e
      | some t => cases e
  | trailer =>
    unfold decodeChunk at e ⊢
    exact trailer_err _ hi.line (Nat.lt_succ_self _) e _ y (Nat.lt_succ_self _)
  | completed => rfl

theorem chunk_no_panic {st : CState} {l : Line} {body : Bytes} {ex : Nat} {ig : Bool} {x : Bytes}
    (hi : CInv st l ex) : decodeChunk st l body ex ig x ≠ .panic := by
  intro e
  cases st with
  | header =>
    unfold decodeChunk at e
    dsimp only at e
    cases hd : l.decode x with
    | err => rw [hd] at e; cases e
    | panic => exact absurd hd (line_no_panic hi.line x)
    | ok item line data =>
      rw [hd] at e
      cases item with
      | none => cases e
      | some t =>
        dsimp only at e
        split at e <;> cases e
  | body =>
    unfold decodeChunk at e
    cases e
  | delimiter =>
    unfold decodeChunk at e
    dsimp only at e
    cases hd : l.decode x with
    | err => rw [hd] at e; cases e
    | panic => exact absurd hd (line_no_panic hi.line x)
    | ok item line data =>
      rw [hd] at e
      cases item with
      | none => cases e
      | some t => cases e
  | trailer => exact trailer_no_panic _ hi.line (Nat.lt_succ_self _) e
  | completed => cases e

theorem chunked_nil (n : Nat) (st : CState) (l : Line) (body : Bytes) (ex : Nat) (ig : Bool) :
    decodeChunked n st l body ex ig [] = .ok none (.chunked st l body ex ig) [] := by
  unfold decodeChunked
  rfl

theorem chunked_succ (n : Nat) (st : CState) (l : Line) (body : Bytes) (ex : Nat) (ig : Bool) {x : Bytes} (hx : x ≠ []) :
    decodeChunked (n + 1) st l body ex ig x =
      match decodeChunk st l body ex ig x with
      | .ok none (.chunked state line body expected ignore) data =>
        decodeChunked n state line body expected ignore data
      | r => r := by
  rw [decodeChunked, if_neg hx]
  rfl

theorem chunked_fuel : ∀ (n m : Nat) (st : CState) (l : Line) (body : Bytes) (ex : Nat) (ig : Bool) (x : Bytes),
    CInv st l ex → x.length ≤ n → x.length ≤ m →
    decodeChunked n st l body ex ig x = decodeChunked m st l body ex ig x := by
  intro n
  induction n with
  | zero =>
    intro m st l body ex ig x hi hn hm
    rw [List.length_eq_zero_iff.mp (Nat.le_zero.mp hn), chunked_nil, chunked_nil]
  | succ n ih =>
    intro m st l body ex ig x hi hn hm
    by_cases hx : x = []
    · rw [hx, chunked_nil, chunked_nil]
    · have hxl : 0 < x.length := List.length_pos_iff.mpr hx
      cases m with
      | zero => omega
      | succ m =>
        rw [chunked_succ _ _ _ _ _ _ hx, chunked_succ _ _ _ _ _ _ hx]
        cases hd : decodeChunk st l body ex ig x with
        | err => rfl
        | panic => rfl
        | ok item s r =>
          cases item with
          | some a => rfl
          | none =>
            obtain ⟨st', l', body', ex', h1, h2, h3, -⟩ := chunk_more hi hx hd
            subst h1
            exact ih m st' l' body' ex' ig r h2 (by omega) (by omega)

theorem chunked_more : ∀ (n : Nat) {st : CState} {l : Line} {body : Bytes} {ex : Nat} {ig : Bool} {x r : Bytes} {s : Body},
    CInv st l ex → x.length ≤ n → decodeChunked n st l body ex ig x = .ok none s r →
      r = [] ∧ ∃ st' l' body' ex', s = .chunked st' l' body' ex' ig ∧ CInv st' l' ex' ∧
        ∀ (m m' : Nat) (y : Bytes), (x ++ y).length ≤ m → y.length ≤ m' →
          decodeChunked m st l body ex ig (x ++ y) = decodeChunked m' st' l' body' ex' ig y := by
  intro n
  induction n with
  | zero =>
    intro st l body ex ig x r s hi hn e
    have := List.length_eq_zero_iff.mp (Nat.le_zero.mp hn)
    subst this
    rw [chunked_nil] at e
    injection e with _ e1 e2
    refine ⟨e2.symm, _, _, _, _, e1.symm, hi, fun m m' y hm hm' => chunked_fuel m m' _ _ _ _ _ _ hi hm hm'⟩
  | succ n ih =>
    intro st l body ex ig x r s hi hn e
    by_cases hx : x = []
    · subst hx
      rw [chunked_nil] at e
      injection e with _ e1 e2
      refine ⟨e2.symm, _, _, _, _, e1.symm, hi, fun m m' y hm hm' => chunked_fuel m m' _ _ _ _ _ _ hi hm hm'⟩
    · have hxl : 0 < x.length := List.length_pos_iff.mpr hx
      rw [chunked_succ _ _ _ _ _ _ hx] at e
      cases hd : decodeChunk st l body ex ig x with
      | err => rw [hd] at e; cases e
      | panic => rw [hd] at e; cases e
      | ok item s1 r1 =>
        cases item with
        | some a => rw [hd] at e; cases e
        | none =>
          obtain ⟨st1, l1, body1, ex1, h1, h2, h3, h4⟩ := chunk_more hi hx hd
          subst h1
          rw [hd] at e
          dsimp only at e
          obtain ⟨g1, st', l', body', ex', g2, g3, g4⟩ := ih h2 (by omega) e
          refine ⟨g1, st', l', body', ex', g2, g3, fun m m' y hm hm' => ?_⟩
          have hxy : x ++ y ≠ [] := by simp [hx]
          rw [List.length_append] at hm
          rw [← g4 (m + y.length) m' y (by rw [List.length_append]; omega) hm',
            chunked_fuel m (m + y.length + 1) _ _ _ _ _ _ hi (by rw [List.length_append]; omega)
              (by rw [List.length_append]; omega), chunked_succ _ _ _ _ _ _ hxy]
          rcases h4 y with h5 | ⟨h5, h6⟩
          · rw [h5]
          · subst h5
            rw [h6, List.nil_append]
            by_cases hy : y = []
            · subst hy
              rw [List.append_nil] at h6
              rw [← h6, hd]
            · rw [chunked_fuel (m + y.length) (m + y.length + 1) _ _ _ _ _ _ h2 (by omega) (by omega),
                chunked_succ _ _ _ _ _ _ hy]

theorem chunked_item : ∀ (n : Nat) {st : CState} {l : Line} {body : Bytes} {ex : Nat} {ig : Bool} {x r a : Bytes} {s : Body},
    CInv st l ex → x.length ≤ n → decodeChunked n st l body ex ig x = .ok (some a) s r →
      ∀ (m : Nat) (y : Bytes), (x ++ y).length ≤ m →
        decodeChunked m st l body ex ig (x ++ y) = .ok (some a) s (r ++ y) := by
  intro n
  induction n with
  | zero =>
    intro st l body ex ig x r a s hi hn e
    have := List.length_eq_zero_iff.mp (Nat.le_zero.mp hn)
    subst this
    rw [chunked_nil] at e
    cases e
  | succ n ih =>
    intro st l body ex ig x r a s hi hn e m y hm
    by_cases hx : x = []
    · subst hx
      rw [chunked_nil] at e
      cases e
    · have hxl : 0 < x.length := List.length_pos_iff.mpr hx
      have hxy : x ++ y ≠ [] := by simp [hx]
      rw [chunked_succ _ _ _ _ _ _ hx] at e
      rw [List.length_append] at hm
      cases m with
      | zero => omega
      | succ m =>
        rw [chunked_succ _ _ _ _ _ _ hxy]
        cases hd : decodeChunk st l body ex ig x with
        | err => rw [hd] at e; cases e
        | panic => rw [hd] at e; cases e
        | ok item s1 r1 =>
          cases item with
          | some b =>
            rw [hd] at e
            dsimp only at e
            rw [chunk_item hi hd y]
            injection e with e0 e1 e2
            rw [e0, e1, e2]
          | none =>
            obtain ⟨st1, l1, body1, ex1, h1, h2, h3, h4⟩ := chunk_more hi hx hd
            subst h1
            rw [hd] at e
            dsimp only at e
            rcases h4 y with h5 | ⟨h5, h6⟩
            · rw [h5]
              exact ih h2 (by omega) e m y (by rw [List.length_append]; omega)
            · subst h5
              rw [chunked_nil] at e
              cases e

theorem chunked_err : ∀ (n : Nat) {st : CState} {l : Line} {body : Bytes} {ex : Nat} {ig : Bool} {x : Bytes},
    CInv st l ex → x.length ≤ n → decodeChunked n st l body ex ig x = .err →
      ∀ (m : Nat) (y : Bytes), (x ++ y).length ≤ m → decodeChunked m st l body ex ig (x ++ y) = .err := by
  intro n
  induction n with
  | zero =>
    intro st l body ex ig x hi hn e
    have := List.length_eq_zero_iff.mp (Nat.le_zero.mp hn)
    subst this
    rw [chunked_nil] at e
    cases e
  | succ n ih =>
    intro st l body ex ig x hi hn e m y hm
    by_cases hx : x = []
    · subst hx
      rw [chunked_nil] at e
      cases e
    · have hxl : 0 < x.length := List.length_pos_iff.mpr hx
      have hxy : x ++ y ≠ [] := by simp [hx]
      rw [chunked_succ _ _ _ _ _ _ hx] at e
      rw [List.length_append] at hm
      cases m with
      | zero => omega
      | succ m =>
        rw [chunked_succ _ _ _ _ _ _ hxy]
        cases hd : decodeChunk st l body ex ig x with
        | err => rw [chunk_err hi hd y]
        | panic => exact absurd hd (chunk_no_panic hi)
        | ok item s1 r1 =>
          cases item with
          | some b => rw [hd] at e; cases e
          | none =>
            obtain ⟨st1, l1, body1, ex1, h1, h2, h3, h4⟩ := chunk_more hi hx hd
            subst h1
            rw [hd] at e
            dsimp only at e
            rcases h4 y with h5 | ⟨h5, h6⟩
            · rw [h5]
              exact ih h2 (by omega) e m y (by rw [List.length_append]; omega)
            · subst h5
              rw [chunked_nil] at e
              cases e

theorem chunked_no_panic : ∀ (n : Nat) {st : CState} {l : Line} {body : Bytes} {ex : Nat} {ig : Bool} {x : Bytes},
    CInv st l ex → x.length ≤ n → decodeChunked n st l body ex ig x ≠ .panic := by
  intro n
  induction n with
  | zero =>
    intro st l body ex ig x hi hn e
    have := List.length_eq_zero_iff.mp (Nat.le_zero.mp hn)
    subst this
    rw [chunked_nil] at e
    cases e
  | succ n ih =>
    intro st l body ex ig x hi hn e
    by_cases hx : x = []
    · subst hx
      rw [chunked_nil] at e
      cases e
    · rw [chunked_succ _ _ _ _ _ _ hx] at e
      cases hd : decodeChunk st l body ex ig x with
      | err => rw [hd] at e; cases e
      | panic => exact absurd hd (chunk_no_panic hi)
      | ok item s1 r1 =>
        cases item with
        | some b => rw [hd] at e; cases e
        | none =>
          obtain ⟨st1, l1, body1, ex1, h1, h2, h3, h4⟩ := chunk_more hi hx hd
          subst h1
          rw [hd] at e
          dsimp only at e
          exact ih h2 (by omega) e

/-! ## All bodies -/

/-- The states of the body decoders. -/
def BInv : Body → Prop
  | .simple _ _ => True
  | .fixed body _ _ => body.isSome = true
  | .chunked st l _ ex _ => CInv st l ex

theorem fixed_eq (b : Bytes) (ex : Nat) (ig : Bool) (x : Bytes) (h : ex ≤ x.length) :
    decodeFixed (some b) ex ig x =
      .ok (some (if ig then b else b ++ x.take ex)) (.fixed none 0 ig) (x.drop ex) := by
  have ht : (if ex < x.length then ex else x.length) = ex := by split <;> omega
  show (if ex - (if ex < x.length then ex else x.length) > 0 then _ else _) = _
  simp only [ht, Nat.sub_self, Nat.lt_irrefl, if_false, gt_iff_lt]

theorem fixed_eq_more (b : Bytes) (ex : Nat) (ig : Bool) (x : Bytes) (h : x.length < ex) :
    decodeFixed (some b) ex ig x = .ok none (.fixed (some (if ig then b else b ++ x)) (ex - x.length) ig) [] := by
  have ht : (if ex < x.length then ex else x.length) = x.length := by split <;> omega
  show (if ex - (if ex < x.length then ex else x.length) > 0 then _ else _) = _
  simp only [ht, gt_iff_lt, Nat.sub_pos_of_lt h, if_true, List.take_length, List.drop_length]
  rfl

theorem fixed_more {b : Bytes} {ex : Nat} {ig : Bool} {x r : Bytes} {s : Body}
    (e : decodeFixed (some b) ex ig x = .ok none s r) : r = [] ∧ x.length < ex ∧
      s = .fixed (some (if ig then b else b ++ x)) (ex - x.length) ig := by
  by_cases hle : ex ≤ x.length
  · rw [fixed_eq _ _ _ _ hle] at e; cases e
  · rw [fixed_eq_more _ _ _ _ (by omega)] at e
    injection e with _ e1 e2
    exact ⟨e2.symm, by omega, e1.symm⟩

theorem body_streams : Streams BInv Body.decode where
  more := by
    intro s s' x r hi e
    cases s with
    | simple b ig =>
      unfold Body.decode at e
      dsimp only at e
      injection e with _ e1 e2
      subst e1 e2
      refine ⟨rfl, trivial, fun y => ?_⟩
      unfold Body.decode
      dsimp only
      cases ig with
      | true => rfl
      | false => simp only [Bool.false_eq_true, if_false, List.append_assoc]
    | fixed b ex ig =>
      cases b with
      | none => cases hi
      | some b =>
        obtain ⟨h1, h2, h3⟩ := fixed_more e
        subst h3
        refine ⟨h1, rfl, fun y => ?_⟩
        unfold Body.decode
        dsimp only
        by_cases hle : ex ≤ (x ++ y).length
        · rw [fixed_eq _ _ _ _ hle, fixed_eq _ _ _ _ (by rw [List.length_append] at hle; omega)]
          rw [List.take_append, List.take_of_length_le (by omega), List.drop_append, List.drop_of_length_le (by omega),
            List.nil_append]
          cases ig with
          | true => rfl
          | false => simp only [Bool.false_eq_true, if_false, List.append_assoc]
        · rw [fixed_eq_more _ _ _ _ (by omega), fixed_eq_more _ _ _ _ (by rw [List.length_append] at hle; omega),
            List.length_append, Nat.sub_sub]
          cases ig with
          | true => rfl
          | false => simp only [Bool.false_eq_true, if_false, List.append_assoc]
    | chunked st l b ex ig =>
      obtain ⟨h1, st', l', b', ex', h2, h3, h4⟩ := chunked_more _ hi (Nat.le_refl _) e
      subst h2
      exact ⟨h1, h3, fun y => h4 _ _ y (Nat.le_refl _) (Nat.le_refl _)⟩
  item := by
    intro s s' x r a hi e y
    cases s with
    | simple b ig => cases e
    | fixed b ex ig =>
      cases b with
      | none => cases hi
      | some b =>
        unfold Body.decode at e ⊢
        dsimp only at e ⊢
        by_cases hle : ex ≤ x.length
        · rw [fixed_eq _ _ _ _ hle] at e
          rw [fixed_eq _ _ _ _ (by rw [List.length_append]; omega), List.take_append_of_le_length hle,
            List.drop_append_of_le_length hle]
          injection e with e0 e1 e2
          rw [e0, e1, e2]
        · rw [fixed_eq_more _ _ _ _ (by omega)] at e
          cases e
    | chunked st l b ex ig => exact chunked_item _ hi (Nat.le_refl _) e _ y (Nat.le_refl _)
  err := by
    intro s x hi e y
    cases s with
    | simple b ig => cases e
    | fixed b ex ig =>
      cases b with
      | none => cases hi
      | some b =>
        unfold Body.decode at e
        dsimp only at e
        by_cases hle : ex ≤ x.length
        · rw [fixed_eq _ _ _ _ hle] at e; cases e
        · rw [fixed_eq_more _ _ _ _ (by omega)] at e; cases e
    | chunked st l b ex ig => exact chunked_err _ hi (Nat.le_refl _) e _ y (Nat.le_refl _)
  panic := by
    intro s x hi e y
    cases s with
    | simple b ig => cases e
    | fixed b ex ig =>
      cases b with
      | none => cases hi
      | some b =>
        unfold Body.decode at e
        dsimp only at e
        by_cases hle : ex ≤ x.length
        · rw [fixed_eq _ _ _ _ hle] at e; cases e
        · rw [fixed_eq_more _ _ _ _ (by omega)] at e; cases e
    | chunked st l b ex ig => exact absurd e (chunked_no_panic _ hi (Nat.le_refl _))

theorem body_no_panic {b : Body} (hi : BInv b) (x : Bytes) : b.decode x ≠ .panic := by
  intro e
  cases b with
  | simple b ig => cases e
  | fixed b ex ig =>
    cases b with
    | none => cases hi
    | some b =>
      unfold Body.decode at e
      dsimp only at e
      by_cases hle : ex ≤ x.length
      · rw [fixed_eq _ _ _ _ hle] at e; cases e
      · rw [fixed_eq_more _ _ _ _ (by omega)] at e; cases e
  | chunked st l b ex ig => exact absurd e (chunked_no_panic _ hi (Nat.le_refl _))

end Verif.Http
