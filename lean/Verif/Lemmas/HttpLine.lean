import Verif.Model.Http
/-!
# Lemmas about the line decoder
-/
namespace Verif.Http
open Verif

/-- The separator is at the index. -/
def occ (s sep : Bytes) (i : Nat) : Prop := (s.drop i).take sep.length = sep

theorem occ_bound {s sep : Bytes} {i : Nat} (hs : sep ≠ []) (h : occ s sep i) : i + sep.length ≤ s.length := by
  have := congrArg List.length h
  rw [List.length_take, List.length_drop] at this
  have : sep.length ≠ 0 := fun h => hs (List.length_eq_zero_iff.mp h)
  omega

theorem occ_append {s sep : Bytes} {i : Nat} (hs : sep ≠ []) (h : occ s sep i) (t : Bytes) : occ (s ++ t) sep i := by
  have hb := occ_bound hs h
  unfold occ
  rw [List.drop_append_of_le_length (by omega), List.take_append_of_le_length (by rw [List.length_drop]; omega)]
  exact h

theorem occ_of_append {s sep t : Bytes} {i : Nat} (h : occ (s ++ t) sep i) (hb : i + sep.length ≤ s.length) :
    occ s sep i := by
  unfold occ at h
  rw [List.drop_append_of_le_length (by omega), List.take_append_of_le_length (by rw [List.length_drop]; omega)] at h
  exact h

theorem search_some {buf sep : Bytes} : ∀ {n i k : Nat}, search buf sep i n = some k →
    i ≤ k ∧ k < i + n ∧ occ buf sep k ∧ ∀ j, i ≤ j → j < k → ¬occ buf sep j := by
  intro n
  induction n with
  | zero => intro i k h; cases h
  | succ n ih =>
    intro i k h
    unfold search at h
    split at h
    · rename_i ho
      injection h with h
      subst h
      exact ⟨Nat.le_refl _, by omega, ho, fun j h1 h2 => by omega⟩
    · rename_i ho
      obtain ⟨h1, h2, h3, h4⟩ := ih h
      refine ⟨by omega, by omega, h3, ?_⟩
      intro j h5 h6
      by_cases e : j = i
      · rw [e]; exact ho
      · exact h4 j (by omega) h6

theorem search_none {buf sep : Bytes} : ∀ {n i : Nat}, search buf sep i n = none →
    ∀ j, i ≤ j → j < i + n → ¬occ buf sep j := by
  intro n
  induction n with
  | zero => intro i _ j h1 h2; omega
  | succ n ih =>
    intro i h j h1 h2
    unfold search at h
    split at h
    · cases h
    · rename_i ho
      by_cases e : j = i
      · rw [e]; exact ho
      · exact ih h j (by omega) (by omega)

/-- `k` is the first occurrence. -/
def First (s sep : Bytes) (k : Nat) : Prop := occ s sep k ∧ ∀ j, j < k → ¬occ s sep j

/-- The first occurrence, if any. -/
def first (s sep : Bytes) : Option Nat := search s sep 0 (s.length + 1 - sep.length)

theorem first_some {s sep : Bytes} {k : Nat} (hs : sep ≠ []) : first s sep = some k ↔ First s sep k := by
  constructor
  · intro h
    obtain ⟨-, -, h3, h4⟩ := search_some h
    exact ⟨h3, fun j hj => h4 j (Nat.zero_le _) hj⟩
  · intro ⟨h1, h2⟩
    have hb := occ_bound hs h1
    cases h : first s sep with
    | none => exact absurd h1 (search_none h k (Nat.zero_le _) (by omega))
    | some j =>
      obtain ⟨-, -, h3, h4⟩ := search_some h
      rcases Nat.lt_trichotomy j k with hlt | heq | hgt
      · exact absurd h3 (h2 j hlt)
      · rw [heq]
      · exact absurd h1 (h4 k (Nat.zero_le _) hgt)

theorem first_none {s sep : Bytes} (hs : sep ≠ []) : first s sep = none ↔ ∀ j, ¬occ s sep j := by
  constructor
  · intro h j hj
    have hb := occ_bound hs hj
    exact search_none h j (Nat.zero_le _) (by omega) hj
  · intro h
    cases h' : first s sep with
    | none => rfl
    | some j => exact absurd (search_some h').2.2.1 (h j)

/-- The states of the line decoder between two calls. -/
structure LInv (d : Line) : Prop where
  sep : d.sep ≠ []
  fits : d.buffer.length < d.max
  none : ∀ j, ¬occ d.buffer d.sep j

/-- What the line decoder does depends only on the buffer followed by the data. -/
def closed (d : Line) (b : Bytes) : Dec Line Bytes :=
  match first (b.take d.max) d.sep with
  | some i =>
    if Utf8.valid (b.take i) then .ok (some (b.take i)) { d with buffer := [] } (b.drop (i + d.sep.length)) else .err
  | none => if b.length ≥ d.max then .err else .ok none { d with buffer := b } []

theorem decode_closed {d : Line} (h : LInv d) (data : Bytes) : d.decode data = closed d (d.buffer ++ data) := by
  obtain ⟨hs, hf, hn⟩ := h
  have hsl : d.sep.length ≠ 0 := fun h => hs (List.length_eq_zero_iff.mp h)
  unfold Line.decode closed
  rw [if_neg (by omega)]
  have hbuf : d.buffer ++ data.take (if d.buffer.length + data.length > d.max then d.max - d.buffer.length
      else data.length) = (d.buffer ++ data).take d.max := by
    rw [List.take_append, List.take_of_length_le (Nat.le_of_lt hf)]
    congr 1
    split
    · rfl
    · rw [List.take_length, List.take_of_length_le (by omega)]
  dsimp only
  rw [hbuf]
  generalize hB : d.buffer ++ data = B at hbuf ⊢
  -- the search finds the first occurrence
  have hbefore : ∀ j, j < (if d.buffer.length > d.sep.length then d.buffer.length - d.sep.length else 0) →
      ¬occ (B.take d.max) d.sep j := by
    intro j hj ho
    split at hj
    · apply hn j
      have : occ (d.buffer ++ data.take (d.max - d.buffer.length)) d.sep j := by
        have e : B.take d.max = d.buffer ++ data.take (d.max - d.buffer.length) := by
          rw [← hB, List.take_append, List.take_of_length_le (Nat.le_of_lt hf)]
        rw [e] at ho
        exact ho
      exact occ_of_append this (by omega)
    · omega
  generalize hst : (if d.buffer.length > d.sep.length then d.buffer.length - d.sep.length else 0) = start at hbefore
  generalize hse : (if (B.take d.max).length ≥ d.sep.length then (B.take d.max).length - d.sep.length + 1 else 0) = stop
  have hsearch : search (B.take d.max) d.sep start (stop - start) = first (B.take d.max) d.sep := by
    cases h : search (B.take d.max) d.sep start (stop - start) with
    | some k =>
      obtain ⟨-, -, h3, h4⟩ := search_some h
      symm
      rw [first_some hs]
      refine ⟨h3, fun j hj => ?_⟩
      by_cases hjs : j < start
      · exact hbefore j hjs
      · exact h4 j (by omega) hj
    | none =>
      symm
      rw [first_none hs]
      intro j hj
      have hb := occ_bound hs hj
      by_cases hjs : j < start
      · exact hbefore j hjs hj
      · refine search_none h j (by omega) ?_ hj
        rw [if_pos (by omega)] at hse
        omega
  rw [hsearch]
  cases hfi : first (B.take d.max) d.sep with
  | some i =>
    dsimp only
    have hFi := (first_some hs).mp hfi
    have hb := occ_bound hs hFi.1
    rw [List.length_take] at hb
    have e1 : (B.take d.max).take i = B.take i := by rw [List.take_take]; congr 1; omega
    have hlt : i + d.sep.length > d.buffer.length := by
      refine Nat.lt_of_not_le fun hle => ?_
      apply hn i
      have e : B.take d.max = d.buffer ++ data.take (d.max - d.buffer.length) := by
        rw [← hB, List.take_append, List.take_of_length_le (Nat.le_of_lt hf)]
      rw [e] at hFi
      exact occ_of_append hFi.1 hle
    rw [e1, if_pos hlt]
    have e2 : data.drop (i + d.sep.length - d.buffer.length) = B.drop (i + d.sep.length) := by
      rw [← hB, List.drop_append, List.drop_of_length_le (Nat.le_of_lt hlt), List.nil_append]
    rw [e2]
  | none =>
    dsimp only
    rw [List.length_take]
    by_cases hm : B.length ≥ d.max
    · rw [if_pos (by omega), if_pos hm]
    · rw [if_neg (by omega), if_neg hm]
      have hl : d.buffer.length + data.length < d.max := by
        rw [← hB, List.length_append] at hm
        omega
      rw [List.take_of_length_le (by omega), if_neg (by omega), List.drop_length]

/-! ## Streaming -/

theorem first_extend {s sep t : Bytes} (hs : sep ≠ []) {k : Nat} (h : first s sep = some k) :
    first (s ++ t) sep = some k := by
  rw [first_some hs] at h ⊢
  have hb := occ_bound hs h.1
  refine ⟨occ_append hs h.1 t, fun j hj ho => h.2 j hj (occ_of_append ho (by omega))⟩

theorem closed_panic (d : Line) (b : Bytes) : closed d b ≠ .panic := by
  unfold closed
  split <;> split <;> exact nofun

/-- More data is wanted. -/
theorem line_more {d d' : Line} {x r : Bytes} (h : LInv d) (e : d.decode x = .ok none d' r) :
    r = [] ∧ LInv d' ∧ d' = { d with buffer := d.buffer ++ x } ∧ ∀ y, d.decode (x ++ y) = d'.decode y := by
  have hi := h
  obtain ⟨hs, hf, hn⟩ := h
  have e0 := e
  rw [decode_closed hi] at e
  unfold closed at e
  split at e
  · split at e <;> cases e
  · rename_i hfi
    split at e
    · cases e
    · rename_i hlen
      injection e with _ e1 e2
      subst e1 e2
      have hinv : LInv { d with buffer := d.buffer ++ x } := by
        refine ⟨hs, Nat.lt_of_not_le hlen, ?_⟩
        rw [List.take_of_length_le (by omega)] at hfi
        exact (first_none hs).mp hfi
      refine ⟨rfl, hinv, rfl, fun y => ?_⟩
      rw [decode_closed hi, decode_closed hinv]
      simp only [List.append_assoc]
      rfl

/-- A line was found. -/
theorem line_found {d d' : Line} {x r t : Bytes} (h : LInv d) (e : d.decode x = .ok (some t) d' r) :
    d' = { d with buffer := [] } ∧ LInv d' ∧ r.length < x.length ∧ Utf8.valid t = true ∧
      d.buffer ++ x = t ++ d.sep ++ r ∧ ∀ y, d.decode (x ++ y) = .ok (some t) d' (r ++ y) := by
  have hi := h
  obtain ⟨hs, hf, hn⟩ := h
  rw [decode_closed hi] at e
  unfold closed at e
  split at e
  · rename_i i hfi
    split at e
    · rename_i hv
      injection e with e0 e1 e2
      injection e0 with e0
      have hFi := (first_some hs).mp hfi
      have hb := occ_bound hs hFi.1
      rw [List.length_take, List.length_append] at hb
      have hlt : i + d.sep.length > d.buffer.length := by
        refine Nat.lt_of_not_le fun hle => ?_
        apply hn i
        have ho := hFi.1
        rw [List.take_append, List.take_of_length_le (Nat.le_of_lt hf)] at ho
        exact occ_of_append ho hle
      have hocc : ((d.buffer ++ x).drop i).take d.sep.length = d.sep := by
        have := occ_append hs hFi.1 ((d.buffer ++ x).drop d.max)
        rw [List.take_append_drop] at this
        exact this
      have hinv : LInv { d with buffer := [] } :=
        ⟨hs, by simp only [List.length_nil]; omega, fun j ho => by
          have := occ_bound hs ho
          have : d.sep.length ≠ 0 := fun h => hs (List.length_eq_zero_iff.mp h)
          simp only [List.length_nil] at *
          omega⟩
      refine ⟨e1.symm, e1 ▸ hinv, ?_, e0 ▸ hv, ?_, ?_⟩
      · rw [← e2, List.length_drop, List.length_append]
        omega
      · rw [← e0, ← e2]
        have h1 := List.take_append_drop i (d.buffer ++ x)
        have h2 := List.take_append_drop d.sep.length ((d.buffer ++ x).drop i)
        rw [hocc, List.drop_drop] at h2
        rw [← h2, ← List.append_assoc] at h1
        exact h1.symm
      · intro y
        rw [decode_closed hi]
        unfold closed
        have hB : d.buffer ++ (x ++ y) = (d.buffer ++ x) ++ y := (List.append_assoc _ _ _).symm
        have hf2 : first ((d.buffer ++ (x ++ y)).take d.max) d.sep = some i := by
          rw [hB, List.take_append]
          exact first_extend hs hfi
        rw [hf2]
        dsimp only
        rw [hB, List.take_append_of_le_length (by rw [List.length_append]; omega), if_pos hv, ← e0, ← e1, ← e2,
          List.drop_append_of_le_length (by rw [List.length_append]; omega)]
    · cases e
  · split at e <;> cases e

/-- An error stays an error. -/
theorem line_err {d : Line} {x : Bytes} (h : LInv d) (e : d.decode x = .err) (y : Bytes) :
    d.decode (x ++ y) = .err := by
  have hi := h
  obtain ⟨hs, hf, hn⟩ := h
  rw [decode_closed hi] at e
  rw [decode_closed hi]
  unfold closed at e ⊢
  have hB : d.buffer ++ (x ++ y) = (d.buffer ++ x) ++ y := (List.append_assoc _ _ _).symm
  rw [hB]
  split at e
  · rename_i i hfi
    split at e
    · cases e
    · rename_i hv
      have hFi := (first_some hs).mp hfi
      have hb := occ_bound hs hFi.1
      rw [List.length_take] at hb
      have hf2 : first (((d.buffer ++ x) ++ y).take d.max) d.sep = some i := by
        rw [List.take_append]
        exact first_extend hs hfi
      rw [hf2]
      dsimp only
      rw [List.take_append_of_le_length (by omega), if_neg hv]
  · rename_i hfi
    split at e
    · rename_i hlen
      rw [List.take_append_of_le_length hlen, hfi]
      dsimp only
      rw [if_pos (by rw [List.length_append]; omega)]
    · cases e

theorem line_no_panic {d : Line} (h : LInv d) (x : Bytes) : d.decode x ≠ .panic := by
  rw [decode_closed h]
  exact closed_panic _ _

theorem line_nil {d : Line} (h : LInv d) : d.decode [] = .ok none d [] := by
  rw [decode_closed h, List.append_nil]
  obtain ⟨hs, hf, hn⟩ := h
  unfold closed
  rw [List.take_of_length_le (Nat.le_of_lt hf), (first_none hs).mpr hn]
  dsimp only
  rw [if_neg (by omega)]

/-! ## Content -/

/-- A line that fits is returned. -/
theorem line_content {d : Line} (h : LInv d) (hb : d.buffer = []) {t : Bytes} (hv : Utf8.valid t = true)
    (hno : ∀ j, j < t.length → ¬occ (t ++ d.sep) d.sep j) (hfit : t.length + d.sep.length ≤ d.max) (rest : Bytes) :
    d.decode (t ++ d.sep ++ rest) = .ok (some t) d rest := by
  have hi := h
  obtain ⟨hs, hf, hn⟩ := h
  rw [decode_closed hi, hb, List.nil_append]
  unfold closed
  have hfirst : first ((t ++ d.sep ++ rest).take d.max) d.sep = some t.length := by
    rw [List.take_append, List.take_of_length_le (by rw [List.length_append]; exact hfit)]
    apply first_extend hs
    rw [first_some hs]
    refine ⟨?_, hno⟩
    unfold occ
    rw [List.drop_left, List.take_length]
  rw [hfirst]
  dsimp only
  rw [List.append_assoc, List.take_left, if_pos hv, ← List.append_assoc, ← List.length_append, List.drop_left]
  congr 1
  cases d
  simp only at hb
  rw [hb]

end Verif.Http
