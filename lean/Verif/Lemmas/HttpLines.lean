import Verif.Lemmas.HttpText
/-!
# Lemmas about sequences of lines
-/
namespace Verif.Http
open Verif Verif.Spec.Http Verif.Spec.Text

theorem occ_prefix {s sep : Bytes} {j : Nat} : occ s sep j ↔ sep <+: s.drop j := by
  unfold occ
  rw [List.prefix_iff_eq_take, eq_comm]

theorem until_iff {sep t : Bytes} : Until sep t ↔ ∀ j, j < t.length → ¬occ (t ++ sep) sep j := by
  constructor
  · intro h j hj ho
    rw [occ_prefix, List.drop_append_of_le_length (by omega)] at ho
    refine h (t.take j) (t.drop j) (List.take_append_drop _ _).symm ?_ ho
    intro e
    have := congrArg List.length e
    rw [List.length_drop, List.length_nil] at this
    omega
  · rintro h a b rfl hb hp
    refine h a.length ?_ ?_
    · rw [List.length_append]
      have := List.length_pos_iff.mpr hb
      omega
    · rw [occ_prefix, List.append_assoc, List.drop_left]
      exact hp

/-- More about a line that was found. -/
theorem line_found_first {d d' : Line} {x r t : Bytes} (h : LInv d) (e : d.decode x = .ok (some t) d' r) :
    t.length + d.sep.length ≤ d.max ∧ Until d.sep t := by
  have h5 := (line_found h e).2.2.2.2.1
  rw [decode_closed h] at e
  unfold closed at e
  cases hf : first ((d.buffer ++ x).take d.max) d.sep with
  | none =>
    rw [hf] at e
    dsimp only at e
    split at e <;> cases e
  | some i =>
    rw [hf] at e
    dsimp only at e
    split at e
    · injection e with e _ _
      injection e with e
      have hF := (first_some h.sep).mp hf
      have hb := occ_bound h.sep hF.1
      rw [List.length_take] at hb
      have hsl : d.sep.length ≠ 0 := fun hc => h.sep (List.length_eq_zero_iff.mp hc)
      have htl : t.length = i := by rw [← e, List.length_take]; omega
      refine ⟨by omega, until_iff.mpr fun j hj ho => hF.2 j (by omega) ?_⟩
      have hlen : t.length + d.sep.length ≤ ((d.buffer ++ x).take d.max).length := by rw [List.length_take]; omega
      have hp : (d.buffer ++ x).take d.max = (t ++ d.sep) ++ ((d.buffer ++ x).take d.max).drop (t ++ d.sep).length := by
        have hk : ((d.buffer ++ x).take d.max).take (t ++ d.sep).length = t ++ d.sep := by
          rw [List.take_take, Nat.min_eq_left (by rw [List.length_append]; omega), h5, List.take_left]
        have := List.take_append_drop (t ++ d.sep).length ((d.buffer ++ x).take d.max)
        rw [hk] at this
        exact this.symm
      rw [hp]
      exact occ_append h.sep ho _
    · cases e

theorem line_err_why {d : Line} {x : Bytes} (h : LInv d) (e : d.decode x = .err) :
    (d.max ≤ (d.buffer ++ x).length ∧ ∀ j, ¬occ ((d.buffer ++ x).take d.max) d.sep j) ∨
      ∃ t r, d.buffer ++ x = t ++ d.sep ++ r ∧ Utf8.valid t = false := by
  rw [decode_closed h] at e
  unfold closed at e
  cases hf : first ((d.buffer ++ x).take d.max) d.sep with
  | none =>
    rw [hf] at e
    dsimp only at e
    split at e
    · exact .inl ⟨by assumption, (first_none h.sep).mp hf⟩
    · cases e
  | some i =>
    rw [hf] at e
    dsimp only at e
    split at e
    · cases e
    · rename_i hv
      have hF := (first_some h.sep).mp hf
      have hb := occ_bound h.sep hF.1
      rw [List.length_take] at hb
      refine .inr ⟨(d.buffer ++ x).take i, (d.buffer ++ x).drop (i + d.sep.length), ?_, Bool.eq_false_iff.mpr hv⟩
      have ho := hF.1
      have ho' : occ (d.buffer ++ x) d.sep i := by
        have := occ_append h.sep ho ((d.buffer ++ x).drop d.max)
        rwa [List.take_append_drop] at this
      have h1 : (d.buffer ++ x).drop i = d.sep ++ (d.buffer ++ x).drop (i + d.sep.length) := by
        have h2 := List.take_append_drop d.sep.length ((d.buffer ++ x).drop i)
        rw [List.drop_drop] at h2
        unfold occ at ho'
        rw [ho'] at h2
        exact h2.symm
      rw [List.append_assoc, ← h1, List.take_append_drop]

theorem drain_succ (n : Nat) (d : Line) (x : Bytes) : drain (n + 1) d x =
    match d.decode x with
    | .ok (some t) d r => (t :: (drain n d r).1, (drain n d r).2)
    | .ok none d _ => ([], some d)
    | .err => ([], none)
    | .panic => ([], none) := rfl

theorem drain_fuel : ∀ (n m : Nat) (d : Line) (x : Bytes), LInv d → x.length < n → x.length < m →
    drain n d x = drain m d x := by
  intro n
  induction n with
  | zero => intro m d x _ h; omega
  | succ n ih =>
    intro m d x hi hn hm
    cases m with
    | zero => omega
    | succ m =>
      rw [drain_succ, drain_succ]
      cases e : d.decode x with
      | err => rfl
      | panic => rfl
      | ok item d' r =>
        cases item with
        | none => rfl
        | some t =>
          obtain ⟨h1, h2, h3, -⟩ := line_found hi e
          dsimp only
          rw [ih m d' r h2 (by omega) (by omega)]

theorem drain_some : ∀ (n : Nat) {d d' : Line} {x : Bytes} {ts : List Bytes}, LInv d → x.length < n →
    drain n d x = (ts, some d') → LInv d' ∧ d'.sep = d.sep ∧ d'.max = d.max ∧
      d.buffer ++ x = ts.flatMap (· ++ d.sep) ++ d'.buffer ∧
      (∀ t ∈ ts, Utf8.valid t = true ∧ t.length + d.sep.length ≤ d.max ∧ Until d.sep t) ∧
      ∀ (m m' : Nat) (y : Bytes), (x ++ y).length < m → y.length < m' →
        drain m d (x ++ y) = (ts ++ (drain m' d' y).1, (drain m' d' y).2) := by
  intro n
  induction n with
  | zero => intro d d' x ts _ h; omega
  | succ n ih =>
    intro d d' x ts hi hn e
    rw [drain_succ] at e
    cases hd : d.decode x with
    | err => rw [hd] at e; cases e
    | panic => rw [hd] at e; cases e
    | ok item d1 r =>
      rw [hd] at e
      cases item with
      | none =>
        dsimp only at e
        injection e with e1 e2
        injection e2 with e2
        subst e1 e2
        obtain ⟨h1, h2, h3, h4⟩ := line_more hi hd
        refine ⟨h2, by rw [h3], by rw [h3], by rw [h3]; rfl, fun t ht => absurd ht List.not_mem_nil,
          fun m m' y hm hm' => ?_⟩
        rw [drain_fuel m (m + m' + 1) d _ hi hm (by omega), drain_fuel m' (m + m' + 1) d1 y h2 hm' (by omega)]
        rw [drain_succ, drain_succ, h4 y]
        rfl
      | some t =>
        dsimp only at e
        obtain ⟨h1, h2, h3, h4, h5, h6⟩ := line_found hi hd
        obtain ⟨k1, k2⟩ := line_found_first hi hd
        rw [Prod.mk.injEq] at e
        obtain ⟨e1, e2⟩ := e
        obtain ⟨g1, g2, g3, g4, g5, g6⟩ := ih h2 (by omega) (Prod.ext rfl e2 : drain n d1 r = ((drain n d1 r).1, some d'))
        subst e1
        have hs : d1.sep = d.sep := by rw [h1]
        have hm : d1.max = d.max := by rw [h1]
        have hb : d1.buffer = [] := by rw [h1]
        rw [hs, hb, List.nil_append] at g4
        rw [hs, hm] at g5
        refine ⟨g1, by rw [g2, hs], by rw [g3, hm], ?_, ?_, fun m m' y hm hm' => ?_⟩
        · rw [h5, List.flatMap_cons]
          refine (congrArg (fun z => t ++ d.sep ++ z) g4).trans ?_
          simp only [List.append_assoc]
        · intro u hu
          rcases List.mem_cons.mp hu with rfl | hu
          · exact ⟨h4, k1, k2⟩
          · exact g5 u hu
        · cases m with
          | zero => omega
          | succ m =>
            have hlen : (r ++ y).length < m := by
              rw [List.length_append] at hm ⊢
              omega
            have := g6 m m' y hlen hm'
            rw [drain_succ, h6 y]
            dsimp only
            rw [this]
            rfl

theorem drain_none : ∀ (n : Nat) {d : Line} {x : Bytes} {ts : List Bytes}, LInv d → x.length < n →
    drain n d x = (ts, none) → (∃ y, d.buffer ++ x = ts.flatMap (· ++ d.sep) ++ y ∧
      ((d.max ≤ y.length ∧ ∀ j, ¬occ (y.take d.max) d.sep j) ∨ ∃ t r, y = t ++ d.sep ++ r ∧ Utf8.valid t = false)) ∧
      (∀ t ∈ ts, Utf8.valid t = true ∧ t.length + d.sep.length ≤ d.max ∧ Until d.sep t) ∧
      ∀ (m : Nat) (y : Bytes), (x ++ y).length < m → drain m d (x ++ y) = (ts, none) := by
  intro n
  induction n with
  | zero => intro d x ts _ h; omega
  | succ n ih =>
    intro d x ts hi hn e
    rw [drain_succ] at e
    cases hd : d.decode x with
    | panic => exact absurd hd (line_no_panic hi x)
    | err =>
      rw [hd] at e
      dsimp only at e
      injection e with e1 _
      subst e1
      refine ⟨⟨d.buffer ++ x, rfl, line_err_why hi hd⟩, fun t ht => absurd ht List.not_mem_nil, fun m y hm => ?_⟩
      cases m with
      | zero => omega
      | succ m =>
        rw [drain_succ, line_err hi hd y]
    | ok item d1 r =>
      rw [hd] at e
      cases item with
      | none => cases e
      | some t =>
        dsimp only at e
        obtain ⟨h1, h2, h3, h4, h5, h6⟩ := line_found hi hd
        obtain ⟨k1, k2⟩ := line_found_first hi hd
        rw [Prod.mk.injEq] at e
        obtain ⟨e1, e2⟩ := e
        obtain ⟨⟨y, g1, g2⟩, g3, g4⟩ := ih h2 (by omega) (Prod.ext rfl e2 : drain n d1 r = ((drain n d1 r).1, none))
        subst e1
        have hs : d1.sep = d.sep := by rw [h1]
        have hm : d1.max = d.max := by rw [h1]
        have hb : d1.buffer = [] := by rw [h1]
        rw [hs, hb, List.nil_append] at g1
        rw [hs, hm] at g2
        rw [hs, hm] at g3
        refine ⟨⟨y, ?_, g2⟩, ?_, fun m y hm => ?_⟩
        · rw [h5, List.flatMap_cons]
          refine (congrArg (fun z => t ++ d.sep ++ z) g1).trans ?_
          simp only [List.append_assoc]
        · intro u hu
          rcases List.mem_cons.mp hu with rfl | hu
          · exact ⟨h4, k1, k2⟩
          · exact g3 u hu
        · cases m with
          | zero => omega
          | succ m =>
            have hlen : (r ++ y).length < m := by
              rw [List.length_append] at hm ⊢
              omega
            rw [drain_succ, h6 y]
            dsimp only
            rw [g4 m y hlen]

theorem lines_flatten : ∀ (pieces : List Bytes) (d : Line), LInv d →
    lines d pieces = drain (pieces.flatten.length + 1) d pieces.flatten := by
  intro pieces
  induction pieces with
  | nil =>
    intro d hi
    unfold lines drain
    rw [List.flatten_nil, line_nil hi]
  | cons p ps ih =>
    intro d hi
    unfold lines
    rw [List.flatten_cons]
    cases hd : drain (p.length + 1) d p with
    | mk ts o =>
      cases o with
      | none => exact ((drain_none _ hi (Nat.lt_succ_self _) hd).2.2 _ _ (Nat.lt_succ_self _)).symm
      | some d' =>
        obtain ⟨g1, g2, g3, g4, g5, g6⟩ := drain_some _ hi (Nat.lt_succ_self _) hd
        dsimp only
        rw [ih d' g1]
        exact (g6 _ _ _ (Nat.lt_succ_self _) (Nat.lt_succ_self _)).symm

theorem line_new_inv {sep : Bytes} {max : Nat} (hs : sep ≠ []) (hm : 0 < max) : LInv (Line.new sep max) :=
  ⟨hs, hm, fun j ho => by
    have := occ_bound hs ho
    have h2 : sep.length ≠ 0 := fun hc => hs (List.length_eq_zero_iff.mp hc)
    have e : (Line.new sep max).buffer.length = 0 := rfl
    have e2 : (Line.new sep max).sep = sep := rfl
    rw [e] at this
    omega⟩

/-! ## Headers that are refused -/

variable {L : Bytes → Bytes}

/-- One line of a header that is not empty. -/
theorem loop_line {t y : Bytes} {d : HDec} {n : Nat} (hd : d.line = fresh) (ht : IsLine t) (hne : t ≠ []) :
    d.loop L (n + 1) (t ++ [13, 10] ++ y) = .err ∨ (d.lines + 1 ≤ d.maxLines ∧
      ∃ d1 : HDec, d1.line = fresh ∧ d1.lines = d.lines + 1 ∧ d1.maxLines = d.maxLines ∧
        d.loop L (n + 1) (t ++ [13, 10] ++ y) = d1.loop L n y) := by
  have hF : FirstLine (t ++ [13, 10] ++ y) t y := ⟨rfl, ht⟩
  rw [loop_succ, hd, line_first hF]
  dsimp only
  obtain ⟨ln, hdr, f, k, m⟩ := d
  dsimp only at hd ⊢
  by_cases hk : k + 1 ≤ m
  · cases hdr with
    | none =>
      unfold HDec.process
      dsimp only
      rw [if_neg (by omega)]
      cases Header.parse t with
      | none => exact .inl rfl
      | some h => exact .inr ⟨hk, _, rfl, rfl, rfl, rfl⟩
    | some h =>
      rw [process_line h f t k m hk hne]
      exact .inr ⟨hk, _, rfl, rfl, rfl, rfl⟩
  · rw [process_limit _ _ _ _ _ (by omega)]
    exact .inl rfl

theorem lines_err {y : Bytes} (hy : fresh.decode y = .err) :
    ∀ (ls : List Bytes) (d : HDec) (n : Nat), d.line = fresh → (∀ t ∈ ls, IsLine t ∧ t ≠ []) →
      (text ls ++ y).length < n → d.loop L n (text ls ++ y) = .err := by
  intro ls
  induction ls with
  | nil =>
    intro d n hd _ hn
    cases n with
    | zero => omega
    | succ n =>
      rw [show text [] ++ y = y from rfl, loop_succ, hd, hy]
  | cons t ls ih =>
    intro d n hd hl hn
    obtain ⟨ht, hne⟩ := hl t List.mem_cons_self
    cases n with
    | zero => omega
    | succ n =>
      have he : text (t :: ls) ++ y = t ++ [13, 10] ++ (text ls ++ y) := by
        rw [text_cons]
        simp only [List.append_assoc]
      rw [he] at hn ⊢
      rcases loop_line (L := L) (n := n) (y := text ls ++ y) hd ht hne with h | ⟨-, d1, h1, -, -, h4⟩
      · exact h
      · rw [h4]
        simp only [List.length_append, List.length_cons, List.length_nil] at hn
        exact ih d1 n h1 (fun u hu => hl u (List.mem_cons_of_mem _ hu)) (by rw [List.length_append]; omega)

theorem too_many : ∀ (ls : List Bytes) (d : HDec) (n : Nat) (y : Bytes), d.line = fresh → (∀ t ∈ ls, IsLine t ∧ t ≠ []) →
    d.lines ≤ d.maxLines → d.maxLines < d.lines + ls.length → (text ls ++ y).length < n →
      d.loop L n (text ls ++ y) = .err := by
  intro ls
  induction ls with
  | nil =>
    intro d n y hd _ hl hk hn
    rw [List.length_nil] at hk
    omega
  | cons t ls ih =>
    intro d n y hd hl hm hk hn
    obtain ⟨ht, hne⟩ := hl t List.mem_cons_self
    cases n with
    | zero => omega
    | succ n =>
      have he : text (t :: ls) ++ y = t ++ [13, 10] ++ (text ls ++ y) := by
        rw [text_cons]
        simp only [List.append_assoc]
      rw [he] at hn ⊢
      rcases loop_line (L := L) (n := n) (y := text ls ++ y) hd ht hne with h | ⟨h0, d1, h1, h2, h3, h4⟩
      · exact h
      · rw [h4]
        simp only [List.length_append, List.length_cons, List.length_nil] at hn hk
        exact ih d1 n y h1 (fun u hu => hl u (List.mem_cons_of_mem _ hu)) (by omega) (by omega)
          (by rw [List.length_append]; omega)

end Verif.Http
