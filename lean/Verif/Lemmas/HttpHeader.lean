import Verif.Lemmas.HttpLine
/-!
# Lemmas about the header decoder
-/
namespace Verif.Http
open Verif

/-- A decoder whose results do not depend on how the data is cut into pieces. -/
structure Streams {σ α : Type} (Inv : σ → Prop) (D : σ → Bytes → Dec σ α) : Prop where
  more : ∀ {s s' x r}, Inv s → D s x = .ok none s' r → r = [] ∧ Inv s' ∧ ∀ y, D s (x ++ y) = D s' y
  item : ∀ {s s' x r a}, Inv s → D s x = .ok (some a) s' r → ∀ y, D s (x ++ y) = .ok (some a) s' (r ++ y)
  err : ∀ {s x}, Inv s → D s x = .err → ∀ y, D s (x ++ y) = .err
  panic : ∀ {s x}, Inv s → D s x = .panic → ∀ y, D s (x ++ y) = .panic

variable {L : Bytes → Bytes}

def HInv (d : HDec) : Prop := LInv d.line

theorem linv_reset {l : Line} (h : LInv l) : LInv { l with buffer := [] } := by
  refine ⟨h.sep, ?_, fun j ho => ?_⟩
  · have := h.fits
    simp only [List.length_nil]
    omega
  · have hb := occ_bound h.sep ho
    have : l.sep.length ≠ 0 := fun e => h.sep (List.length_eq_zero_iff.mp e)
    simp only [List.length_nil] at hb
    omega

theorem process_inv {d d' : HDec} {t : Bytes} {o : Option Header} (h : HInv d) (e : d.process L t = some (o, d')) :
    HInv d' := by
  unfold HDec.process at e
  dsimp only at e
  split at e
  · cases e
  · split at e
    · split at e
      · injection e with e
        injection e with _ e
        subst e
        split <;> exact linv_reset h
      · injection e with e
        injection e with _ e
        subst e
        split <;> exact h
    · split at e
      · cases e
      · injection e with e
        injection e with _ e
        subst e
        exact h

theorem loop_succ (n : Nat) (d : HDec) (x : Bytes) : d.loop L (n + 1) x =
    match d.line.decode x with
    | .err => .err
    | .panic => .panic
    | .ok none line data => .ok none { d with line := line } data
    | .ok (some text) line data =>
      match HDec.process L { d with line := line } text with
      | none => .err
      | some (some h, d) => .ok (some h) d data
      | some (none, d) => HDec.loop L n d data := rfl

theorem hloop_fuel : ∀ (n m : Nat) (d : HDec) (x : Bytes), HInv d → x.length < n → x.length < m →
    d.loop L n x = d.loop L m x := by
  intro n
  induction n with
  | zero => intro m d x _ h; omega
  | succ n ih =>
    intro m d x hi hn hm
    cases m with
    | zero => omega
    | succ m =>
      rw [loop_succ, loop_succ]
      cases e : d.line.decode x with
      | err => rfl
      | panic => rfl
      | ok item line data =>
        cases item with
        | none => rfl
        | some t =>
          obtain ⟨h1, h2, h3, -⟩ := line_found hi e
          dsimp only
          cases hp : HDec.process L { d with line := line } t with
          | none => rfl
          | some p =>
            obtain ⟨o, d1⟩ := p
            cases o with
            | some h => rfl
            | none => exact ih m d1 data (process_inv (d := { d with line := line }) h2 hp) (by omega) (by omega)

theorem hloop_more : ∀ (n : Nat) {d d' : HDec} {x r : Bytes}, HInv d → x.length < n →
    d.loop L n x = .ok none d' r → r = [] ∧ HInv d' ∧
      ∀ (m m' : Nat) (y : Bytes), (x ++ y).length < m → y.length < m' → d.loop L m (x ++ y) = d'.loop L m' y := by
  intro n
  induction n with
  | zero => intro d d' x r _ h; omega
  | succ n ih =>
    intro d d' x r hi hn e
    rw [loop_succ] at e
    cases hd : d.line.decode x with
    | err => rw [hd] at e; cases e
    | panic => rw [hd] at e; cases e
    | ok item line data =>
      rw [hd] at e
      cases item with
      | none =>
        dsimp only at e
        injection e with _ e1 e2
        subst e1 e2
        obtain ⟨h1, h2, h3, h4⟩ := line_more hi hd
        refine ⟨h1, h2, fun m m' y hm hm' => ?_⟩
        rw [hloop_fuel m (m + m' + 1) d _ hi hm (by omega),
          hloop_fuel m' (m + m' + 1) { d with line := line } y h2 hm' (by omega), loop_succ, loop_succ, h4 y]
      | some t =>
        dsimp only at e
        obtain ⟨h1, h2, h3, h4, h5, h6⟩ := line_found hi hd
        cases hp : HDec.process L { d with line := line } t with
        | none => rw [hp] at e; cases e
        | some p =>
          obtain ⟨o, d1⟩ := p
          rw [hp] at e
          cases o with
          | some h => cases e
          | none =>
            have hi1 := process_inv (d := { d with line := line }) h2 hp
            obtain ⟨g1, g2, g3⟩ := ih hi1 (by omega) e
            refine ⟨g1, g2, fun m m' y hm hm' => ?_⟩
            cases m with
            | zero => omega
            | succ m =>
              rw [loop_succ, h6 y]
              dsimp only
              rw [hp]
              refine g3 m m' y ?_ hm'
              rw [List.length_append] at hm ⊢
              omega

theorem hloop_item : ∀ (n : Nat) {d d' : HDec} {x r : Bytes} {a : Header}, HInv d → x.length < n →
    d.loop L n x = .ok (some a) d' r → HInv d' ∧
      ∀ (m : Nat) (y : Bytes), (x ++ y).length < m → d.loop L m (x ++ y) = .ok (some a) d' (r ++ y) := by
  intro n
  induction n with
  | zero => intro d d' x r a _ h; omega
  | succ n ih =>
    intro d d' x r a hi hn e
    rw [loop_succ] at e
    cases hd : d.line.decode x with
    | err => rw [hd] at e; cases e
    | panic => rw [hd] at e; cases e
    | ok item line data =>
      rw [hd] at e
      cases item with
      | none => cases e
      | some t =>
        dsimp only at e
        obtain ⟨h1, h2, h3, h4, h5, h6⟩ := line_found hi hd
        cases hp : HDec.process L { d with line := line } t with
        | none => rw [hp] at e; cases e
        | some p =>
          obtain ⟨o, d1⟩ := p
          rw [hp] at e
          have hi1 := process_inv (d := { d with line := line }) h2 hp
          cases o with
          | some h =>
            dsimp only at e
            injection e with e0 e1 e2
            injection e0 with e0
            subst e0 e1 e2
            refine ⟨hi1, fun m y hm => ?_⟩
            cases m with
            | zero => omega
            | succ m =>
              rw [loop_succ, h6 y]
              dsimp only
              rw [hp]
          | none =>
            obtain ⟨g1, g2⟩ := ih hi1 (by omega) e
            refine ⟨g1, fun m y hm => ?_⟩
            cases m with
            | zero => omega
            | succ m =>
              rw [loop_succ, h6 y]
              dsimp only
              rw [hp]
              refine g2 m y ?_
              rw [List.length_append] at hm ⊢
              omega

theorem hloop_err : ∀ (n : Nat) {d : HDec} {x : Bytes}, HInv d → x.length < n →
    d.loop L n x = .err → ∀ (m : Nat) (y : Bytes), (x ++ y).length < m → d.loop L m (x ++ y) = .err := by
  intro n
  induction n with
  | zero => intro d x _ h; omega
  | succ n ih =>
    intro d x hi hn e m y hm
    rw [loop_succ] at e
    cases m with
    | zero => omega
    | succ m =>
      rw [loop_succ]
      cases hd : d.line.decode x with
      | err => rw [line_err hi hd]
      | panic => exact absurd hd (line_no_panic hi x)
      | ok item line data =>
        rw [hd] at e
        cases item with
        | none => cases e
        | some t =>
          dsimp only at e
          obtain ⟨h1, h2, h3, h4, h5, h6⟩ := line_found hi hd
          rw [h6 y]
          dsimp only
          cases hp : HDec.process L { d with line := line } t with
          | none => rfl
          | some p =>
            obtain ⟨o, d1⟩ := p
            rw [hp] at e
            have hi1 := process_inv (d := { d with line := line }) h2 hp
            cases o with
            | some h => cases e
            | none =>
              refine ih hi1 (by omega) e m y ?_
              rw [List.length_append] at hm ⊢
              omega

theorem hloop_no_panic : ∀ (n : Nat) {d : HDec} {x : Bytes}, HInv d → x.length < n → d.loop L n x ≠ .panic := by
  intro n
  induction n with
  | zero => intro d x _ h; omega
  | succ n ih =>
    intro d x hi hn e
    rw [loop_succ] at e
    cases hd : d.line.decode x with
    | err => rw [hd] at e; cases e
    | panic => exact absurd hd (line_no_panic hi x)
    | ok item line data =>
      rw [hd] at e
      cases item with
      | none => cases e
      | some t =>
        dsimp only at e
        obtain ⟨h1, h2, h3, -⟩ := line_found hi hd
        cases hp : HDec.process L { d with line := line } t with
        | none => rw [hp] at e; cases e
        | some p =>
          obtain ⟨o, d1⟩ := p
          rw [hp] at e
          cases o with
          | some h => cases e
          | none => exact ih (process_inv (d := { d with line := line }) h2 hp) (by omega) e

theorem header_streams : Streams HInv (HDec.decode L) where
  more := by
    intro s s' x r hi e
    obtain ⟨h1, h2, h3⟩ := hloop_more _ hi (Nat.lt_succ_self _) e
    exact ⟨h1, h2, fun y => h3 _ _ y (Nat.lt_succ_self _) (Nat.lt_succ_self _)⟩
  item := fun hi e y => (hloop_item _ hi (Nat.lt_succ_self _) e).2 _ y (Nat.lt_succ_self _)
  err := fun hi e y => hloop_err _ hi (Nat.lt_succ_self _) e _ y (Nat.lt_succ_self _)
  panic := fun hi e => absurd e (hloop_no_panic _ hi (Nat.lt_succ_self _))

theorem header_nil {d : HDec} (h : HInv d) : d.decode L [] = .ok none d [] := by
  unfold HDec.decode
  rw [loop_succ, line_nil h]

theorem hdec_new_inv {maxLine maxLines : Nat} (h : 0 < maxLine) : HInv (HDec.new maxLine maxLines) :=
  ⟨nofun, h, fun j ho => by
    have := occ_bound (by exact nofun) ho
    simp only [HDec.new, List.length_nil, List.length_cons] at this
    omega⟩

/-! ## Content -/

/-- One line. -/
theorem hdec_line {d : HDec} (hi : HInv d) (hb : d.line.buffer = []) {t : Bytes} (hv : Utf8.valid t = true)
    (hno : ∀ j, j < t.length → ¬occ (t ++ d.line.sep) d.line.sep j)
    (hfit : t.length + d.line.sep.length ≤ d.line.max) (rest : Bytes) :
    d.decode L (t ++ d.line.sep ++ rest) =
      match d.process L t with
      | none => .err
      | some (some h, d) => .ok (some h) d rest
      | some (none, d) => d.decode L rest := by
  unfold HDec.decode
  rw [loop_succ, line_content hi hb hv hno hfit rest]
  dsimp only
  have e : ({ d with line := d.line } : HDec) = d := rfl
  rw [e]
  cases hp : d.process L t with
  | none => rfl
  | some p =>
    obtain ⟨o, d1⟩ := p
    cases o with
    | some h => rfl
    | none =>
      refine hloop_fuel _ _ d1 rest (process_inv hi hp) ?_ (Nat.lt_succ_self _)
      rw [List.length_append, List.length_append]
      have : d.line.sep.length ≠ 0 := fun e => hi.sep (List.length_eq_zero_iff.mp e)
      omega

end Verif.Http
