import Verif.Lemmas.SdpText
/-! # Lemmas about the SDP parser -/
namespace Verif.Sdp
open Verif Spec.Text Spec.Sdp

/-! ## The type of a line -/

theorem byteWhite_iff (b : UInt8) : byteWhite b = true ↔ ByteWhite b := by
  simp only [byteWhite, ByteWhite, decide_eq_true_eq, List.mem_cons, List.not_mem_nil, or_false,
    ← UInt8.toNat_inj]
  simp only [UInt8.reduceToNat]
  omega

theorem first_iff {t : Bytes} {c : UInt8} : first t = some c ↔ Kind t c := by
  induction t with
  | nil =>
    rw [first]
    constructor
    · intro h; cases h
    · rintro ⟨w, r, h, _⟩; simp at h
  | cons b t ih =>
    rw [first]
    by_cases hb : byteWhite b = true
    · rw [if_pos hb, ih]
      constructor
      · rintro ⟨w, r, rfl, h1, h2⟩
        refine ⟨b :: w, r, rfl, ?_, h2⟩
        intro x hx
        rcases List.mem_cons.1 hx with rfl | hx
        · exact (byteWhite_iff x).1 hb
        · exact h1 x hx
      · rintro ⟨w, r, h, h1, h2⟩
        cases w with
        | nil =>
          rw [List.nil_append, List.cons.injEq] at h
          rw [← h.1] at h2
          exact absurd ((byteWhite_iff b).1 hb) h2
        | cons x w =>
          rw [List.cons_append, List.cons.injEq] at h
          exact ⟨w, r, h.2, fun y hy => h1 y (by simp [hy]), h2⟩
    · rw [if_neg hb, Option.some.injEq]
      constructor
      · rintro rfl
        exact ⟨[], t, rfl, fun _ h => absurd h List.not_mem_nil, fun h => hb ((byteWhite_iff b).2 h)⟩
      · rintro ⟨w, r, h, h1, h2⟩
        cases w with
        | nil =>
          rw [List.nil_append, List.cons.injEq] at h
          exact h.1
        | cons x w =>
          rw [List.cons_append, List.cons.injEq] at h
          have := h1 x (by simp)
          rw [← h.1] at this
          exact absurd ((byteWhite_iff b).2 this) hb

/-! ## Lines -/

theorem appendLine_eol (cap : Nat) (t : Bytes) (e : UInt8) (r : Bytes) (ht : ∀ b ∈ t, ¬IsEol b) (he : IsEol e) :
    ∀ buf : Bytes, appendLine cap buf (t ++ e :: r)
      = if buf.length + t.length < cap then some (buf ++ t, r) else none := by
  induction t with
  | nil =>
    intro buf
    rw [List.nil_append, appendLine]
    by_cases h : buf.length ≥ cap
    · rw [if_pos h, if_neg (by simp; omega)]
    · rw [if_neg h, if_pos (show e = 13 ∨ e = 10 from he), if_pos (by simp; omega), List.append_nil]
  | cons b t ih =>
    intro buf
    rw [List.cons_append, appendLine]
    by_cases h : buf.length ≥ cap
    · rw [if_pos h, if_neg (by simp; omega)]
    · rw [if_neg h, if_neg (show ¬(b = 13 ∨ b = 10) from ht b (by simp)), ih (fun x hx => ht x (by simp [hx]))]
      simp only [List.length_append, List.length_cons, List.length_nil, List.append_assoc, List.cons_append,
        List.nil_append]
      by_cases h2 : buf.length + (t.length + 1) < cap
      · rw [if_pos h2, if_pos (by omega)]
      · rw [if_neg h2, if_neg (by omega)]

theorem appendLine_end (cap : Nat) (t : Bytes) (ht : ∀ b ∈ t, ¬IsEol b) :
    ∀ buf : Bytes, appendLine cap buf t = if t = [] ∨ buf.length + t.length ≤ cap then some (buf ++ t, []) else none := by
  induction t with
  | nil => intro buf; simp [appendLine]
  | cons b t ih =>
    intro buf
    rw [appendLine]
    by_cases h : buf.length ≥ cap
    · rw [if_pos h, if_neg (by simp; omega)]
    · rw [if_neg h, if_neg (show ¬(b = 13 ∨ b = 10) from ht b (by simp)), ih (fun x hx => ht x (by simp [hx]))]
      simp only [List.length_append, List.length_cons, List.length_nil, List.append_assoc, List.cons_append,
        List.nil_append, reduceCtorEq, false_or]
      by_cases h2 : buf.length + (t.length + 1) ≤ cap
      · rw [if_pos h2, if_pos (by omega)]
      · rw [if_neg h2, if_neg]
        rintro (rfl | h3)
        · simp at h2; omega
        · omega

/-- The first line of a text that is not empty. -/
theorem split_first (s : Bytes) : (∃ t e r, s = t ++ e :: r ∧ (∀ b ∈ t, ¬IsEol b) ∧ IsEol e) ∨ ∀ b ∈ s, ¬IsEol b := by
  induction s with
  | nil => exact .inr fun _ h => absurd h List.not_mem_nil
  | cons b s ih =>
    by_cases hb : IsEol b
    · exact .inl ⟨[], b, s, rfl, fun _ h => absurd h List.not_mem_nil, hb⟩
    · rcases ih with ⟨t, e, r, rfl, h1, h2⟩ | h
      · refine .inl ⟨b :: t, e, r, rfl, ?_, h2⟩
        intro x hx
        rcases List.mem_cons.1 hx with rfl | hx
        · exact hb
        · exact h1 x hx
      · refine .inr ?_
        intro x hx
        rcases List.mem_cons.1 hx with rfl | hx
        · exact hb
        · exact h x hx

/-- The lines of a text as the iterator returns them; `none` is a line that is too long. -/
inductive Ent : Bytes → List (Option Bytes) → Prop
  | nil : Ent [] []
  | long {s} : nextLine s = .err → Ent s [none]
  | line {s t r es} : nextLine s = .line t r → Ent r es → Ent s (some t :: es)

theorem nextLine_eol {t : Bytes} {e : UInt8} (r : Bytes) (ht : ∀ b ∈ t, ¬IsEol b) (he : IsEol e) :
    nextLine (t ++ e :: r) = if t.length < 4096 then .line t r else .err := by
  unfold nextLine
  rw [if_neg (by simp), appendLine_eol 4096 t e r ht he]
  simp only [List.length_nil, Nat.zero_add, List.nil_append]
  by_cases h : t.length < 4096
  · rw [if_pos h, if_pos h]
  · rw [if_neg h, if_neg h]

theorem nextLine_end {t : Bytes} (ht : ∀ b ∈ t, ¬IsEol b) (hne : t ≠ []) :
    nextLine t = if t.length ≤ 4096 then .line t [] else .err := by
  unfold nextLine
  rw [if_neg hne, appendLine_end 4096 t ht]
  simp only [List.length_nil, Nat.zero_add, List.nil_append, hne, false_or]
  by_cases h : t.length ≤ 4096
  · rw [if_pos h, if_pos h]
  · rw [if_neg h, if_neg h]

theorem nextLine_shorter {s t r : Bytes} (h : nextLine s = .line t r) : r.length < s.length := by
  rcases split_first s with ⟨t', e, r', rfl, h1, h2⟩ | h1
  · rw [nextLine_eol r' h1 h2] at h
    split at h
    · injection h with h3 h4
      subst h4
      simp only [List.length_append, List.length_cons]
      omega
    · cases h
  · by_cases hne : s = []
    · subst hne
      rw [nextLine, if_pos rfl] at h
      cases h
    · rw [nextLine_end h1 hne] at h
      split at h
      · injection h with h3 h4
        subst h4
        exact List.length_pos_iff.2 hne
      · cases h

theorem ent_exists : ∀ (n : Nat) (s : Bytes), s.length ≤ n → ∃ es, Ent s es := by
  intro n
  induction n with
  | zero =>
    intro s h
    have : s = [] := List.length_eq_zero_iff.1 (by omega)
    subst this
    exact ⟨_, .nil⟩
  | succ n ih =>
    intro s h
    cases hn : nextLine s with
    | err => exact ⟨_, .long hn⟩
    | none =>
      have : s = [] := by
        unfold nextLine at hn
        by_cases hs : s = []
        · exact hs
        · rw [if_neg hs] at hn
          split at hn <;> cases hn
      subst this
      exact ⟨_, .nil⟩
    | line t r =>
      obtain ⟨es, he⟩ := ih r (by have := nextLine_shorter hn; omega)
      exact ⟨_, .line hn he⟩

theorem ent_isLines {s : Bytes} {es : List (Option Bytes)} (h : Ent s es) (ls : List Bytes) :
    IsLines s ls ↔ es = ls.map some := by
  induction h generalizing ls with
  | nil =>
    constructor
    · rintro ⟨ended, last, hs, rfl, _, _⟩
      have ht := hs.text
      cases ended with
      | nil =>
        simp only [List.flatMap_nil, List.nil_append] at ht
        subst ht
        rfl
      | cons l ended => simp at ht
    · intro h
      have : ls = [] := by
        cases ls with
        | nil => rfl
        | cons _ _ => cases h
      subst this
      exact ⟨[], [], ⟨rfl, fun _ h => absurd h List.not_mem_nil, fun _ h => absurd h List.not_mem_nil,
        fun _ h => absurd h List.not_mem_nil⟩, rfl, fun _ h => absurd h List.not_mem_nil, by simp⟩
  | @long s hn =>
    constructor
    · rintro ⟨ended, last, ⟨ht, h1, h2, h3⟩, rfl, h4, h5⟩
      cases ended with
      | nil =>
        simp only [List.flatMap_nil, List.nil_append] at ht
        subst ht
        by_cases hs : s = []
        · subst hs; rw [nextLine, if_pos rfl] at hn; cases hn
        · rw [nextLine_end h3 hs, if_pos h5] at hn; cases hn
      | cons l ended =>
        rw [List.flatMap_cons, List.append_assoc, List.append_assoc, List.singleton_append] at ht
        rw [ht, nextLine_eol _ (h2 l (by simp)) (h1 l (by simp)), if_pos (h4 l (by simp))] at hn
        cases hn
    · intro h
      cases ls with
      | nil => cases h
      | cons l ls => rw [List.map_cons] at h; injection h with h _; cases h
  | @line s t r es hn he ih =>
    constructor
    · rintro ⟨ended, last, ⟨ht, h1, h2, h3⟩, rfl, h4, h5⟩
      cases ended with
      | nil =>
        simp only [List.flatMap_nil, List.nil_append] at ht
        subst ht
        by_cases hs : s = []
        · subst hs; rw [nextLine, if_pos rfl] at hn; cases hn
        · rw [nextLine_end h3 hs, if_pos h5] at hn
          injection hn with g1 g2
          subst g1
          have : es = [] := by
            have := (ih []).1 ⟨[], [], ⟨by rw [← g2]; rfl, fun _ h => absurd h List.not_mem_nil,
              fun _ h => absurd h List.not_mem_nil, fun _ h => absurd h List.not_mem_nil⟩, rfl,
              fun _ h => absurd h List.not_mem_nil, by simp⟩
            exact this
          subst this
          rw [if_neg hs]
          rfl
      | cons l ended =>
        rw [List.flatMap_cons, List.append_assoc, List.append_assoc, List.singleton_append] at ht
        rw [ht, nextLine_eol _ (h2 l (by simp)) (h1 l (by simp)), if_pos (h4 l (by simp))] at hn
        injection hn with g1 g2
        subst g1
        have := (ih (ended.map (·.1) ++ if last = [] then [] else [last])).1
          ⟨ended, last, ⟨g2.symm, fun x hx => h1 x (by simp [hx]), fun x hx => h2 x (by simp [hx]), h3⟩, rfl,
            fun x hx => h4 x (by simp [hx]), h5⟩
        rw [this]
        rfl
    · intro h
      cases ls with
      | nil => cases h
      | cons l ls =>
        rw [List.map_cons] at h
        injection h with g1 g2
        injection g1 with g1
        subst g1
        obtain ⟨ended, last, ⟨ht, h1, h2, h3⟩, hls, h4, h5⟩ := (ih ls).2 g2
        rcases split_first s with ⟨t', e, r', rfl, k1, k2⟩ | k1
        · rw [nextLine_eol r' k1 k2] at hn
          split at hn
          · rename_i hlt
            injection hn with g1 g3
            subst g1 g3
            refine ⟨(t', e) :: ended, last, ⟨?_, ?_, ?_, h3⟩, ?_, ?_, h5⟩
            · rw [List.flatMap_cons, List.append_assoc, List.append_assoc, List.singleton_append, ← ht]
            · intro x hx
              rcases List.mem_cons.1 hx with rfl | hx
              · exact k2
              · exact h1 x hx
            · intro x hx
              rcases List.mem_cons.1 hx with rfl | hx
              · exact k1
              · exact h2 x hx
            · rw [hls]; rfl
            · intro x hx
              rcases List.mem_cons.1 hx with rfl | hx
              · exact hlt
              · exact h4 x hx
          · cases hn
        · by_cases hs : s = []
          · subst hs; rw [nextLine, if_pos rfl] at hn; cases hn
          · rw [nextLine_end k1 hs] at hn
            split at hn
            · rename_i hle
              injection hn with g1 g3
              subst g1 g3
              have hlsn : ls = [] := by
                cases ended with
                | nil =>
                  simp only [List.flatMap_nil, List.nil_append] at ht
                  subst ht
                  exact hls
                | cons x ended => simp at ht
              subst hlsn
              refine ⟨[], s, ⟨rfl, fun _ h => absurd h List.not_mem_nil, fun _ h => absurd h List.not_mem_nil, k1⟩, ?_,
                fun _ h => absurd h List.not_mem_nil, hle⟩
              rw [if_neg hs]
              rfl
            · cases hn

/-! ## The loops as one loop -/

/-- Reading line by line: `inMedia` says that the last media line comes after the last time line. -/
def fold (T : Txt) : Nat → List (Option Bytes) → Bool → Session → Res Session
  | _, [], _, sdp => .ok sdp
  | _, none :: _, _, _ => .err
  | d, some t :: es, b, sdp =>
    match first t with
    | none => fold T d es b sdp
    | some c =>
      if c = 118 then
        match processVersion T sdp t with
        | some sdp => fold T d es b sdp
        | none => .err
      else if c = 116 then
        match d with
        | 0 => .overflow
        | k + 1 => fold T k es false sdp
      else if c = 109 then
        match d with
        | 0 => .overflow
        | k + 1 =>
          match startMedia T sdp t with
          | some sdp => fold T k es true sdp
          | none => .err
      else if c = 97 ∧ b = true then
        match processAttribute T sdp t with
        | .ok sdp => fold T d es b sdp
        | .err => .err
        | .panic => .panic
        | .overflow => .overflow
      else fold T d es b sdp

theorem fold_cons (T : Txt) (d : Nat) (t : Bytes) (es : List (Option Bytes)) (b : Bool) (sdp : Session) :
    fold T d (some t :: es) b sdp = match first t with
    | none => fold T d es b sdp
    | some c =>
      if c = 118 then
        match processVersion T sdp t with
        | some sdp => fold T d es b sdp
        | none => .err
      else if c = 116 then
        match d with
        | 0 => .overflow
        | k + 1 => fold T k es false sdp
      else if c = 109 then
        match d with
        | 0 => .overflow
        | k + 1 =>
          match startMedia T sdp t with
          | some sdp => fold T k es true sdp
          | none => .err
      else if c = 97 ∧ b = true then
        match processAttribute T sdp t with
        | .ok sdp => fold T d es b sdp
        | .err => .err
        | .panic => .panic
        | .overflow => .overflow
      else fold T d es b sdp := by cases d <;> rfl

/-- The result of a loop. -/
def done : Res Session → Res (Session × Bytes)
  | .ok s => .ok (s, [])
  | .err => .err
  | .panic => .panic
  | .overflow => .overflow

/-- What a line may call. -/
def callOf (T : Txt) (n : Nat) : Nat → Option (Mode → Session → Bytes → Res (Session × Bytes))
  | 0 => none
  | k + 1 => some (loop T n k)

theorem loop_succ (T : Txt) (n stack : Nat) (mode : Mode) (sdp : Session) (s : Bytes) :
    loop T (n + 1) stack mode sdp s = match nextLine s with
      | .err => .err
      | .none => .ok (sdp, s)
      | .line t s =>
        match processIn T (callOf T n stack) mode sdp t s with
        | .ok (sdp, s) => loop T n stack mode sdp s
        | .err => .err
        | .panic => .panic
        | .overflow => .overflow := rfl

theorem loop_nil (T : Txt) (n d : Nat) (mode : Mode) (sdp : Session) : loop T (n + 1) d mode sdp [] = .ok (sdp, []) := by
  rw [loop_succ, nextLine, if_pos rfl]

theorem loop_eq (T : Txt) {s : Bytes} {es : List (Option Bytes)} (h : Ent s es) :
    ∀ (n d : Nat) (mode : Mode) (sdp : Session), s.length < n →
      loop T n d mode sdp s = done (fold T d es (decide (mode = .media)) sdp) := by
  induction h with
  | nil =>
    intro n d mode sdp hn
    obtain ⟨n, rfl⟩ : ∃ k, n = k + 1 := ⟨n - 1, by simp at hn; omega⟩
    rw [loop_nil]
    rfl
  | @long s hs =>
    intro n d mode sdp hn
    obtain ⟨n, rfl⟩ : ∃ k, n = k + 1 := ⟨n - 1, by omega⟩
    rw [loop_succ, hs]
    rfl
  | @line s t r es hs he ih =>
    intro n d mode sdp hn
    obtain ⟨n, rfl⟩ : ∃ k, n = k + 1 := ⟨n - 1, by omega⟩
    have hr : r.length < n := by have := nextLine_shorter hs; omega
    obtain ⟨n', hn'⟩ : ∃ k, n = k + 1 := ⟨n - 1, by omega⟩
    rw [loop_succ, hs]
    dsimp only
    -- after a nested loop there is nothing left
    have hnest : ∀ (k : Nat) (m : Mode) (sdp' : Session),
        (match loop T n k m sdp' r with
          | .ok (sdp, s) => loop T n d mode sdp s
          | .err => .err
          | .panic => .panic
          | .overflow => .overflow) = done (fold T k es (decide (m = .media)) sdp') := by
      intro k m sdp'
      rw [ih n k m sdp' hr]
      cases fold T k es (decide (m = .media)) sdp' with
      | ok x =>
        rw [done, hn']
        exact loop_nil T n' d mode x
      | err => rfl
      | panic => rfl
      | overflow => rfl
    have hgo : ∀ sdp', (match (Res.ok (sdp', r) : Res (Session × Bytes)) with
          | .ok (sdp, s) => loop T n d mode sdp s
          | .err => .err
          | .panic => .panic
          | .overflow => .overflow) = done (fold T d es (decide (mode = .media)) sdp') :=
      fun sdp' => ih n d mode sdp' hr
    -- a line that is not an attribute of a media description
    have hline : (∀ c, first t = some c → ¬(c = 97 ∧ decide (mode = .media) = true)) →
        (match processLine T (callOf T n d) sdp t r with
          | .ok (sdp, s) => loop T n d mode sdp s
          | .err => .err
          | .panic => .panic
          | .overflow => .overflow) = done (fold T d (some t :: es) (decide (mode = .media)) sdp) := by
      intro ha
      unfold processLine
      rw [fold_cons]
      cases hf : first t with
      | none => exact hgo sdp
      | some c =>
        dsimp only
        by_cases h1 : c = 118
        · rw [if_pos h1, if_pos h1]
          cases processVersion T sdp t with
          | none => rfl
          | some x => exact hgo x
        · rw [if_neg h1, if_neg h1]
          by_cases h2 : c = 116
          · rw [if_pos h2, if_pos h2]
            cases d with
            | zero => rfl
            | succ k => exact hnest k .time sdp
          · rw [if_neg h2, if_neg h2]
            by_cases h3 : c = 109
            · rw [if_pos h3, if_pos h3]
              cases d with
              | zero => rfl
              | succ k =>
                dsimp only
                cases startMedia T sdp t with
                | none => rfl
                | some x => exact hnest k .media x
            · rw [if_neg h3, if_neg h3, if_neg (ha c hf)]
              exact hgo sdp
    cases mode with
    | lines => exact hline (fun c _ h => by simp at h)
    | time =>
      unfold processIn
      dsimp only
      cases hf : first t with
      | none =>
        refine (hgo sdp).trans ?_
        rw [fold_cons, hf]
      | some c =>
        dsimp only
        by_cases hc : c = 114
        · rw [if_pos hc]
          refine (hgo sdp).trans ?_
          rw [fold_cons, hf]
          subst hc
          rfl
        · rw [if_neg hc]
          exact hline (fun c _ h => by simp at h)
    | media =>
      unfold processIn
      dsimp only
      cases hf : first t with
      | none =>
        refine (hgo sdp).trans ?_
        rw [fold_cons, hf]
      | some c =>
        dsimp only
        by_cases hc : c = 105 ∨ c = 99 ∨ c = 98 ∨ c = 107
        · rw [if_pos hc]
          refine (hgo sdp).trans ?_
          rw [fold_cons, hf]
          rcases hc with rfl | rfl | rfl | rfl <;> rfl
        · rw [if_neg hc]
          by_cases ha : c = 97
          · rw [if_pos ha]
            subst ha
            rw [fold_cons, hf]
            dsimp only
            rw [if_neg (by decide), if_neg (by decide), if_neg (by decide), if_pos ⟨rfl, rfl⟩]
            cases processAttribute T sdp t with
            | ok x => exact hgo x
            | err => rfl
            | panic => rfl
            | overflow => rfl
          · rw [if_neg ha]
            refine hline (fun c' hc' h => ?_)
            rw [hf, Option.some.injEq] at hc'
            exact ha (hc'.trans h.1)

theorem parse_eq (T : Txt) (d : Nat) {s : Bytes} {es : List (Option Bytes)} (h : Ent s es) :
    parse T d s = fold T d es false Session.new := by
  unfold parse
  rw [loop_eq T h (s.length + 1) d .lines Session.new (Nat.lt_succ_self _)]
  show (match done (fold T d es false Session.new) with | .ok (sdp, _) => Res.ok sdp | .err => .err | .panic => .panic | .overflow => .overflow) = _
  cases fold T d es false Session.new <;> rfl

end Verif.Sdp
