import Verif.Lemmas.Sdp
/-! # The parser returns what the lines say -/
namespace Verif.Sdp
open Verif Spec.Text Spec.Sdp

/-! ## Lists of lines -/

theorem section_cons (t : Bytes) (ts : List Bytes) :
    section_ (t :: ts) = if first t = some 109 ∨ first t = some 116 then [] else t :: section_ ts := by
  unfold section_
  rw [List.takeWhile_cons, ← first_iff, ← first_iff]
  by_cases h : first t = some 109 ∨ first t = some 116 <;> simp [h]

private theorem n1 : ((118 : UInt8) = 109) = False := by decide
private theorem n2 : ((118 : UInt8) = 116) = False := by decide
private theorem n3 : ((116 : UInt8) = 109) = False := by decide

theorem section_go {t : Bytes} {ts : List Bytes} (h1 : first t ≠ some 109) (h2 : first t ≠ some 116) :
    section_ (t :: ts) = t :: section_ ts := by
  rw [section_cons, if_neg (fun h => h.elim h1 h2)]

theorem section_stop {t : Bytes} {ts : List Bytes} (h : first t = some 109 ∨ first t = some 116) :
    section_ (t :: ts) = [] := by
  rw [section_cons, if_pos h]

theorem dropLast_getLast {α : Type} {l : List α} (h : l ≠ []) : l = l.dropLast ++ [l.getLast h] :=
  (List.dropLast_concat_getLast h).symm

theorem mediaSections_cons (t : Bytes) (ts : List Bytes) : mediaSections (t :: ts) =
    if first t = some 109 then (t, (section_ ts).filter (fun u => decide (first u = some 97))) :: mediaSections ts
    else mediaSections ts := by
  rw [mediaSections]
  have : (section_ ts).filter (fun u => @decide (Kind u 97) (Classical.propDecidable _))
      = (section_ ts).filter (fun u => decide (first u = some 97)) := by
    congr 1
    funext u
    rw [decide_eq_decide]
    exact first_iff.symm
  rw [this]
  by_cases h : first t = some 109
  · rw [if_pos h, if_pos (first_iff.1 h)]
  · rw [if_neg h, if_neg (fun hk => h (first_iff.2 hk))]

theorem versions_cons (t : Bytes) (ts : List Bytes) :
    versions (t :: ts) = if first t = some 118 then t :: versions ts else versions ts := by
  unfold versions
  rw [List.filter_cons, ← first_iff]
  by_cases h : first t = some 118 <;> simp [h]

theorem calls_nil : calls [] = 0 := rfl

theorem calls_cons (t : Bytes) (ts : List Bytes) :
    calls (t :: ts) = calls ts + if first t = some 109 ∨ first t = some 116 then 1 else 0 := by
  unfold calls
  rw [List.countP_cons, ← first_iff, ← first_iff]
  by_cases h : first t = some 109 ∨ first t = some 116 <;> simp [h]

theorem each_nil {α β : Type} {R : α → β → Prop} {bs : List β} : Each R [] bs ↔ bs = [] := by
  constructor
  · intro h; cases h; rfl
  · rintro rfl; exact .nil

theorem each_cons {α β : Type} {R : α → β → Prop} {a : α} {as : List α} {bs : List β} :
    Each R (a :: as) bs ↔ ∃ b bs', R a b ∧ Each R as bs' ∧ bs = b :: bs' := by
  constructor
  · intro h
    cases h with
    | cons h1 h2 => exact ⟨_, _, h1, h2, rfl⟩
  · rintro ⟨b, bs', h1, h2, rfl⟩; exact .cons h1 h2

/-! ## What the lines say, from some state on -/

/-- Append attributes to the last media description. -/
def addAttrs (ms : List Media) (as : List Attr) : List Media :=
  match ms.getLast? with
  | none => ms
  | some m => ms.dropLast ++ [{ m with attributes := m.attributes ++ as }]

theorem addAttrs_nil (ms : List Media) : addAttrs ms [] = ms := by
  unfold addAttrs
  cases h : ms.getLast? with
  | none => rfl
  | some m =>
    dsimp only
    rw [List.append_nil]
    obtain ⟨ms', rfl⟩ := List.getLast?_eq_some_iff.1 h
    simp

theorem addAttrs_concat (ms : List Media) (m : Media) (as : List Attr) :
    addAttrs (ms ++ [m]) as = ms ++ [{ m with attributes := m.attributes ++ as }] := by
  unfold addAttrs
  simp

theorem addAttrs_cons {ms : List Media} (hm : ms ≠ []) (a : Attr) (as : List Attr) :
    addAttrs ms (a :: as) = addAttrs (addAttrs ms [a]) as := by
  obtain ⟨ms', m, rfl⟩ : ∃ ms' m, ms = ms' ++ [m] := ⟨ms.dropLast, ms.getLast hm, dropLast_getLast hm⟩
  rw [addAttrs_concat, addAttrs_concat, addAttrs_concat]
  simp

theorem addAttrs_ne {ms : List Media} (hm : ms ≠ []) (as : List Attr) : addAttrs ms as ≠ [] := by
  obtain ⟨ms', m, rfl⟩ : ∃ ms' m, ms = ms' ++ [m] := ⟨ms.dropLast, ms.getLast hm, dropLast_getLast hm⟩
  rw [addAttrs_concat]
  simp

/-- A media description belongs to a media line with its attribute lines. -/
def MediaOk (T : Txt) (p : Bytes × List Bytes) (m : Media) : Prop :=
  MediaLine T p.1 { m with attributes := [] } ∧ Each (AttrLine T) p.2 m.attributes

/-- `Says` from the state `sdp`, within a media section or not. -/
def From (T : Txt) (ls : List Bytes) (b : Bool) (sdp s : Session) : Prop :=
  (∃ vs, Each (VersionLine T) (versions ls) vs ∧ s.version = vs.getLast?.getD sdp.version)
  ∧ ∃ as ms,
      Each (AttrLine T) (if b = true then (section_ ls).filter (fun u => decide (first u = some 97)) else []) as
      ∧ Each (MediaOk T) (mediaSections ls) ms
      ∧ s.medias = addAttrs sdp.medias as ++ ms

theorem from_iff_says (T : Txt) (ls : List Bytes) (s : Session) : From T ls false Session.new s ↔ Says T ls s := by
  unfold From
  constructor
  · rintro ⟨hv, as, ms, h1, h2, h3⟩
    simp only [Bool.false_eq_true, if_false, each_nil] at h1
    subst h1
    rw [addAttrs_nil] at h3
    refine ⟨hv, ?_⟩
    rw [h3]
    exact h2
  · rintro ⟨hv, hm⟩
    refine ⟨hv, [], s.medias, ?_, hm, ?_⟩
    · simp only [Bool.false_eq_true, if_false]; exact .nil
    · rw [addAttrs_nil]; rfl

theorem processVersion_iff {T : Txt} {sdp s : Session} {t : Bytes} :
    processVersion T sdp t = some s ↔ ∃ v, VersionLine T t v ∧ s = { sdp with version := v } := by
  unfold processVersion
  constructor
  · intro h
    cases ha : afterEq T 118 t with
    | none => rw [ha] at h; cases h
    | some r =>
      rw [ha] at h
      dsimp only at h
      cases hd : Reader.readDecimal r with
      | none => rw [hd] at h; cases h
      | some p =>
        obtain ⟨x, r'⟩ := p
        rw [hd] at h
        injection h with h
        exact ⟨_, versionLine_iff.2 ⟨r, x, r', ha, hd, rfl⟩, h.symm⟩
  · rintro ⟨v, hv, rfl⟩
    obtain ⟨r, x, r', h1, h2, rfl⟩ := versionLine_iff.1 hv
    rw [h1]
    dsimp only
    rw [h2]

theorem startMedia_iff {T : Txt} {sdp s : Session} {t : Bytes} :
    startMedia T sdp t = some s ↔ ∃ m, MediaLine T t m ∧ s = { sdp with medias := sdp.medias ++ [m] } := by
  unfold startMedia
  constructor
  · intro h
    cases ha : afterEq T 109 t with
    | none => rw [ha] at h; cases h
    | some r =>
      rw [ha] at h
      dsimp only at h
      cases hd : Media.parse T (Reader.skipWhitespace r) with
      | none => rw [hd] at h; cases h
      | some m =>
        rw [hd] at h
        injection h with h
        exact ⟨m, mediaLine_iff.2 ⟨r, ha, hd⟩, h.symm⟩
  · rintro ⟨m, hm, rfl⟩
    obtain ⟨r, h1, h2⟩ := mediaLine_iff.1 hm
    rw [h1]
    dsimp only
    rw [h2]

theorem mediaLine_attrs {T : Txt} {t : Bytes} {m : Media} (h : MediaLine T t m) : m.attributes = [] := by
  obtain ⟨r, _, _, _, _, _, _, _, _, _, _, _, _, _, _, _, _, _, _, _, h⟩ := h
  exact h

theorem processAttribute_iff {T : Txt} {sdp s : Session} {t : Bytes} (hne : sdp.medias ≠ []) :
    processAttribute T sdp t = .ok s ↔ ∃ a, AttrLine T t a ∧ s = { sdp with medias := addAttrs sdp.medias [a] } := by
  obtain ⟨m, hm⟩ : ∃ m, sdp.medias.getLast? = some m := ⟨_, List.getLast?_eq_some_getLast hne⟩
  have hadd : ∀ a, addAttrs sdp.medias [a] = sdp.medias.dropLast ++ [{ m with attributes := m.attributes ++ [a] }] := by
    intro a
    unfold addAttrs
    rw [hm]
  unfold processAttribute
  constructor
  · intro h
    cases ha : afterEq T 97 t with
    | none => rw [ha] at h; cases h
    | some r =>
      rw [ha] at h
      dsimp only at h
      rw [hm] at h
      injection h with h
      exact ⟨_, attrLine_iff.2 ⟨r, ha, rfl⟩, by rw [hadd]; exact h.symm⟩
  · rintro ⟨a, ha, rfl⟩
    obtain ⟨r, h1, rfl⟩ := attrLine_iff.1 ha
    rw [h1]
    dsimp only
    rw [hm, hadd]

theorem processAttribute_cases {T : Txt} {sdp : Session} {t : Bytes} (hne : sdp.medias ≠ []) :
    (∃ s, processAttribute T sdp t = .ok s) ∨ processAttribute T sdp t = .err := by
  obtain ⟨m, hm⟩ : ∃ m, sdp.medias.getLast? = some m := ⟨_, List.getLast?_eq_some_getLast hne⟩
  unfold processAttribute
  cases afterEq T 97 t with
  | none => exact .inr rfl
  | some r => rw [hm]; exact .inl ⟨_, rfl⟩

/-! One step of `From`. -/

theorem from_skip {T : Txt} {t : Bytes} {ls : List Bytes} {b : Bool} {sdp s : Session}
    (h1 : first t ≠ some 118) (h2 : first t ≠ some 116) (h3 : first t ≠ some 109) (h4 : first t = some 97 → b = false) :
    From T (t :: ls) b sdp s ↔ From T ls b sdp s := by
  unfold From
  rw [versions_cons, if_neg h1, mediaSections_cons, if_neg h3, section_go h3 h2]
  cases b with
  | false => simp only [Bool.false_eq_true, if_false]
  | true =>
    have : ¬ first t = some 97 := fun h => Bool.noConfusion (h4 h)
    have hd : ¬decide (first t = some 97) = true := by simpa using this
    rw [List.filter_cons, if_neg hd]

theorem from_version {T : Txt} {t : Bytes} {ls : List Bytes} {b : Bool} {sdp s : Session} (h : first t = some 118) :
    From T (t :: ls) b sdp s ↔ ∃ v, VersionLine T t v ∧ From T ls b { sdp with version := v } s := by
  have hn : ∀ c : UInt8, c ≠ 118 → first t ≠ some c := by
    intro c hc hf
    rw [h, Option.some.injEq] at hf
    exact hc hf.symm
  unfold From
  rw [versions_cons, if_pos h, mediaSections_cons, if_neg (hn _ (by decide)), section_go (hn _ (by decide)) (hn _ (by decide))]
  have hd : ¬decide (first t = some 97) = true := by simpa using hn 97 (by decide)
  rw [List.filter_cons, if_neg hd]
  constructor
  · rintro ⟨⟨vs, hv, he⟩, hm⟩
    obtain ⟨v, vs', g1, g2, rfl⟩ := each_cons.1 hv
    refine ⟨v, g1, ⟨vs', g2, ?_⟩, hm⟩
    rw [he, List.getLast?_cons]
    rfl
  · rintro ⟨v, g1, ⟨vs, g2, g3⟩, hm⟩
    refine ⟨⟨v :: vs, .cons g1 g2, ?_⟩, hm⟩
    rw [g3, List.getLast?_cons]
    rfl

theorem from_time {T : Txt} {t : Bytes} {ls : List Bytes} {b : Bool} {sdp s : Session} (h : first t = some 116) :
    From T (t :: ls) b sdp s ↔ From T ls false sdp s := by
  have hn : ∀ c : UInt8, c ≠ 116 → first t ≠ some c := by
    intro c hc hf
    rw [h, Option.some.injEq] at hf
    exact hc hf.symm
  unfold From
  rw [versions_cons, if_neg (hn _ (by decide)), mediaSections_cons, if_neg (hn _ (by decide)), section_stop (.inr h)]
  cases b <;> simp

theorem from_media {T : Txt} {t : Bytes} {ls : List Bytes} {b : Bool} {sdp s : Session} (h : first t = some 109) :
    From T (t :: ls) b sdp s ↔
      ∃ m, MediaLine T t m ∧ From T ls true { sdp with medias := sdp.medias ++ [m] } s := by
  have hn : ∀ c : UInt8, c ≠ 109 → first t ≠ some c := by
    intro c hc hf
    rw [h, Option.some.injEq] at hf
    exact hc hf.symm
  unfold From
  rw [versions_cons, if_neg (hn _ (by decide)), mediaSections_cons, if_pos h, section_stop (.inl h)]
  have hfil : (if b = true then ([] : List Bytes).filter (fun u => decide (first u = some 97)) else []) = [] := by
    cases b <;> rfl
  rw [hfil]
  constructor
  · rintro ⟨hv, as, ms, h1, h2, h3⟩
    rw [each_nil] at h1
    subst h1
    obtain ⟨m, ms', ⟨g1, g2⟩, g3, rfl⟩ := each_cons.1 h2
    refine ⟨_, g1, hv, m.attributes, ms', by rw [if_pos rfl]; exact g2, g3, ?_⟩
    rw [h3, addAttrs_nil, addAttrs_concat]
    simp
  · rintro ⟨m, g1, hv, as, ms, g2, g3, g4⟩
    rw [if_pos rfl] at g2
    have hma := mediaLine_attrs g1
    refine ⟨hv, [], { m with attributes := as } :: ms, .nil, .cons ⟨?_, g2⟩ g3, ?_⟩
    · obtain ⟨m1, m2, m3, m4, m5, m6⟩ := m
      dsimp only at hma
      subst hma
      exact g1
    · rw [g4, addAttrs_nil, addAttrs_concat, hma]
      simp

theorem from_attr {T : Txt} {t : Bytes} {ls : List Bytes} {sdp s : Session} (h : first t = some 97)
    (hne : sdp.medias ≠ []) :
    From T (t :: ls) true sdp s ↔
      ∃ a, AttrLine T t a ∧ From T ls true { sdp with medias := addAttrs sdp.medias [a] } s := by
  have hn : ∀ c : UInt8, c ≠ 97 → first t ≠ some c := by
    intro c hc hf
    rw [h, Option.some.injEq] at hf
    exact hc hf.symm
  unfold From
  rw [versions_cons, if_neg (hn _ (by decide)), mediaSections_cons, if_neg (hn _ (by decide)), section_go (hn _ (by decide)) (hn _ (by decide))]
  rw [if_pos rfl, if_pos rfl, List.filter_cons, if_pos (by simpa using h)]
  constructor
  · rintro ⟨hv, as, ms, h1, h2, h3⟩
    obtain ⟨a, as', g1, g2, rfl⟩ := each_cons.1 h1
    exact ⟨a, g1, hv, as', ms, g2, h2, by rw [h3, addAttrs_cons hne]⟩
  · rintro ⟨a, g1, hv, as, ms, g2, g3, g4⟩
    exact ⟨hv, a :: as, ms, .cons g1 g2, g3, by rw [g4, addAttrs_cons hne a as]⟩

/-! ## The loop -/

theorem fold_ok (T : Txt) (ls : List Bytes) : ∀ (d : Nat) (b : Bool) (sdp s : Session), (b = true → sdp.medias ≠ []) →
    (fold T d (ls.map some) b sdp = .ok s ↔ calls ls ≤ d ∧ From T ls b sdp s) := by
  induction ls with
  | nil =>
    intro d b sdp s _
    rw [List.map_nil, fold, calls_nil]
    constructor
    · intro h
      injection h with h
      subst h
      refine ⟨Nat.zero_le _, ⟨[], .nil, rfl⟩, [], [], ?_, .nil, ?_⟩
      · cases b <;> exact .nil
      · rw [addAttrs_nil, List.append_nil]
    · rintro ⟨_, ⟨vs, h1, h2⟩, as, ms, h3, h4, h5⟩
      have e1 : vs = [] := each_nil.1 h1
      have e2 : ms = [] := each_nil.1 h4
      have e3 : as = [] := by
        have : (if b = true then (section_ []).filter (fun u => decide (first u = some 97)) else []) = ([] : List Bytes) := by
          cases b <;> rfl
        rw [this] at h3
        exact each_nil.1 h3
      subst e1 e2 e3
      rw [addAttrs_nil, List.append_nil] at h5
      obtain ⟨v, m⟩ := s
      obtain ⟨v', m'⟩ := sdp
      dsimp only at h2 h5
      subst h5
      rw [h2]
      rfl
  | cons t ls ih =>
    intro d b sdp s hne
    rw [List.map_cons, fold_cons, calls_cons]
    cases hf : first t with
    | none =>
      dsimp only
      rw [ih d b sdp s hne, from_skip (by rw [hf]; nofun) (by rw [hf]; nofun) (by rw [hf]; nofun) (by rw [hf]; nofun)]
      simp
    | some c =>
      dsimp only
      by_cases h1 : c = 118
      · subst h1
        rw [if_pos rfl, from_version hf]
        simp only [Option.some.injEq, n1, n2, n3, or_self, if_false, Nat.add_zero]
        cases hp : processVersion T sdp t with
        | none =>
          dsimp only
          constructor
          · intro h; cases h
          · rintro ⟨_, v, hv, _⟩
            have := processVersion_iff.2 ⟨v, hv, (rfl : { sdp with version := v } = _)⟩
            rw [hp] at this
            cases this
        | some x =>
          dsimp only
          rw [ih d b x s]
          · obtain ⟨v, hv, rfl⟩ := processVersion_iff.1 hp
            constructor
            · rintro ⟨g1, g2⟩; exact ⟨g1, v, hv, g2⟩
            · rintro ⟨g1, v', hv', g2⟩
              have := processVersion_iff.2 ⟨v', hv', (rfl : { sdp with version := v' } = _)⟩
              rw [hp, Option.some.injEq] at this
              rw [this]
              exact ⟨g1, g2⟩
          · obtain ⟨v, hv, rfl⟩ := processVersion_iff.1 hp
            exact hne
      · rw [if_neg h1]
        by_cases h2 : c = 116
        · subst h2
          rw [if_pos rfl, from_time hf]
          simp only [Option.some.injEq, n1, n2, n3, or_true, if_true]
          cases d with
          | zero =>
            dsimp only
            constructor
            · intro h; cases h
            · rintro ⟨h, _⟩; omega
          | succ k =>
            dsimp only
            rw [ih k false sdp s (fun h => by cases h)]
            constructor
            · rintro ⟨g1, g2⟩; exact ⟨by omega, g2⟩
            · rintro ⟨g1, g2⟩; exact ⟨by omega, g2⟩
        · rw [if_neg h2]
          by_cases h3 : c = 109
          · subst h3
            rw [if_pos rfl, from_media hf]
            simp only [Option.some.injEq, true_or, if_true]
            cases d with
            | zero =>
              dsimp only
              constructor
              · intro h; cases h
              · rintro ⟨h, _⟩; omega
            | succ k =>
              dsimp only
              cases hp : startMedia T sdp t with
              | none =>
                dsimp only
                constructor
                · intro h; cases h
                · rintro ⟨_, m, hm, _⟩
                  have := startMedia_iff.2 ⟨m, hm, (rfl : { sdp with medias := sdp.medias ++ [m] } = _)⟩
                  rw [hp] at this
                  cases this
              | some x =>
                dsimp only
                obtain ⟨m, hm, rfl⟩ := startMedia_iff.1 hp
                rw [ih k true _ s (fun _ => by simp)]
                constructor
                · rintro ⟨g1, g2⟩; exact ⟨by omega, m, hm, g2⟩
                · rintro ⟨g1, m', hm', g2⟩
                  have := startMedia_iff.2 ⟨m', hm', (rfl : { sdp with medias := sdp.medias ++ [m'] } = _)⟩
                  rw [hp, Option.some.injEq] at this
                  rw [this]
                  exact ⟨by omega, g2⟩
          · rw [if_neg h3]
            have hcall : (if some c = some 109 ∨ some c = some 116 then 1 else 0) = 0 := by
              simp [h2, h3]
            rw [hcall, Nat.add_zero]
            by_cases h4 : c = 97 ∧ b = true
            · obtain ⟨rfl, rfl⟩ := h4
              rw [if_pos ⟨rfl, rfl⟩, from_attr hf (hne rfl)]
              rcases processAttribute_cases (T := T) (t := t) (hne rfl) with ⟨x, hx⟩ | hx
              · rw [hx]
                dsimp only
                obtain ⟨a, ha, rfl⟩ := (processAttribute_iff (hne rfl)).1 hx
                rw [ih d true _ s (fun _ => addAttrs_ne (hne rfl) _)]
                constructor
                · rintro ⟨g1, g2⟩; exact ⟨g1, a, ha, g2⟩
                · rintro ⟨g1, a', ha', g2⟩
                  have := (processAttribute_iff (hne rfl)).2 ⟨a', ha', (rfl : { sdp with medias := addAttrs sdp.medias [a'] } = _)⟩
                  rw [hx] at this
                  injection this with this
                  rw [this]
                  exact ⟨g1, g2⟩
              · rw [hx]
                dsimp only
                constructor
                · intro h; cases h
                · rintro ⟨_, a', ha', _⟩
                  have := (processAttribute_iff (hne rfl)).2 ⟨a', ha', (rfl : { sdp with medias := addAttrs sdp.medias [a'] } = _)⟩
                  rw [hx] at this
                  cases this
            · rw [if_neg h4, ih d b sdp s hne, from_skip]
              · rw [hf, Ne, Option.some.injEq]; exact h1
              · rw [hf, Ne, Option.some.injEq]; exact h2
              · rw [hf, Ne, Option.some.injEq]; exact h3
              · rw [hf, Option.some.injEq]
                intro hc
                cases b with
                | false => rfl
                | true => exact absurd ⟨hc, rfl⟩ h4

/-- A text with a line that is too long is refused. -/
theorem fold_long (T : Txt) (es : List (Option Bytes)) (hn : none ∈ es) : ∀ (d : Nat) (b : Bool) (sdp s : Session),
    fold T d es b sdp ≠ .ok s := by
  induction es with
  | nil => cases hn
  | cons e es ih =>
    intro d b sdp s
    cases e with
    | none => rw [fold]; nofun
    | some t =>
      have ih := ih (by simpa using hn)
      rw [fold_cons]
      repeat' split
      all_goals first | exact ih _ _ _ _ | nofun

theorem fold_no_panic (T : Txt) (es : List (Option Bytes)) : ∀ (d : Nat) (b : Bool) (sdp : Session),
    (b = true → sdp.medias ≠ []) → fold T d es b sdp ≠ .panic := by
  induction es with
  | nil => intro d b sdp _; rw [fold]; nofun
  | cons e es ih =>
    intro d b sdp hne
    cases e with
    | none => rw [fold]; nofun
    | some t =>
      rw [fold_cons]
      split
      · exact ih _ _ _ hne
      · split
        · split
          · rename_i x hp
            obtain ⟨v, _, rfl⟩ := processVersion_iff.1 hp
            exact ih _ _ _ hne
          · nofun
        · split
          · split
            · nofun
            · exact ih _ _ _ nofun
          · split
            · split
              · nofun
              · split
                · rename_i x hp
                  obtain ⟨m, _, rfl⟩ := startMedia_iff.1 hp
                  exact ih _ _ _ (fun _ => by simp)
                · nofun
            · split
              · rename_i hb
                rcases processAttribute_cases (T := T) (t := t) (hne hb.2) with ⟨x, hx⟩ | hx
                · rw [hx]
                  dsimp only
                  obtain ⟨a, _, rfl⟩ := (processAttribute_iff (hne hb.2)).1 hx
                  exact ih _ _ _ (fun _ => addAttrs_ne (hne hb.2) _)
                · rw [hx]; nofun
              · exact ih _ _ _ hne

/-- The stack overflows at the first media or time line for which there is no space, if nothing before is wrong. -/
theorem fold_overflow (T : Txt) (es : List (Option Bytes)) : ∀ (d : Nat) (b : Bool) (sdp : Session),
    (b = true → sdp.medias ≠ []) →
    (fold T d es b sdp = .overflow ↔ ∃ pre t post, es = pre.map some ++ some t :: post ∧ calls pre = d
      ∧ (first t = some 109 ∨ first t = some 116) ∧ ∃ s, From T pre b sdp s) := by
  induction es with
  | nil =>
    intro d b sdp _
    rw [fold]
    constructor
    · intro h; cases h
    · rintro ⟨pre, t, post, h, _⟩; simp at h
  | cons e es ih =>
    intro d b sdp hne
    cases e with
    | none =>
      rw [fold]
      constructor
      · intro h; cases h
      · rintro ⟨pre, t, post, h, _⟩
        cases pre with
        | nil => simp at h
        | cons x pre => simp at h
    | some t =>
      -- split off the first line
      have hrhs : (∃ pre u post, some t :: es = pre.map some ++ some u :: post ∧ calls pre = d
            ∧ (first u = some 109 ∨ first u = some 116) ∧ ∃ s, From T pre b sdp s) ↔
          ((first t = some 109 ∨ first t = some 116) ∧ d = 0)
          ∨ ∃ pre u post, es = pre.map some ++ some u :: post
              ∧ calls pre + (if first t = some 109 ∨ first t = some 116 then 1 else 0) = d
              ∧ (first u = some 109 ∨ first u = some 116) ∧ ∃ s, From T (t :: pre) b sdp s := by
        constructor
        · rintro ⟨pre, u, post, he, hc, hu, s, hs⟩
          cases pre with
          | nil =>
            simp only [List.map_nil, List.nil_append, List.cons.injEq, Option.some.injEq] at he
            rw [← he.1] at hu
            exact .inl ⟨hu, by rw [← hc]; rfl⟩
          | cons x pre =>
            simp only [List.map_cons, List.cons_append, List.cons.injEq, Option.some.injEq] at he
            obtain ⟨rfl, he⟩ := he
            rw [calls_cons] at hc
            exact .inr ⟨pre, u, post, he, hc, hu, s, hs⟩
        · rintro (⟨ht, rfl⟩ | ⟨pre, u, post, he, hc, hu, s, hs⟩)
          · refine ⟨[], t, es, rfl, rfl, ht, ?_⟩
            have := (fold_ok T [] 0 b sdp sdp hne).1 (by rw [List.map_nil, fold])
            exact ⟨sdp, this.2⟩
          · exact ⟨t :: pre, u, post, by rw [he]; rfl, by rw [calls_cons]; exact hc, hu, s, hs⟩
      rw [fold_cons, hrhs]
      cases hf : first t with
      | none =>
        dsimp only
        rw [ih d b sdp hne]
        simp only [reduceCtorEq, or_self, false_and, if_false, Nat.add_zero, false_or]
        simp only [from_skip (T := T) (t := t) (b := b) (by rw [hf]; nofun) (by rw [hf]; nofun) (by rw [hf]; nofun)
          (by rw [hf]; nofun)]
      | some c =>
        dsimp only
        by_cases h1 : c = 118
        · subst h1
          rw [if_pos rfl]
          simp only [Option.some.injEq, n1, n2, n3, or_self, if_false, Nat.add_zero, false_and, false_or]
          simp only [from_version (T := T) (t := t) (b := b) hf]
          cases hp : processVersion T sdp t with
          | none =>
            dsimp only
            constructor
            · intro h; cases h
            · rintro ⟨_, _, _, _, _, _, _, v, hv, _⟩
              have := processVersion_iff.2 ⟨v, hv, (rfl : { sdp with version := v } = _)⟩
              rw [hp] at this
              cases this
          | some x =>
            dsimp only
            obtain ⟨v, hv, rfl⟩ := processVersion_iff.1 hp
            rw [ih d b { sdp with version := v } hne]
            constructor
            · rintro ⟨pre, u, post, g1, g2, g3, s, g4⟩; exact ⟨pre, u, post, g1, g2, g3, s, v, hv, g4⟩
            · rintro ⟨pre, u, post, g1, g2, g3, s, v', hv', g4⟩
              have := processVersion_iff.2 ⟨v', hv', (rfl : { sdp with version := v' } = _)⟩
              rw [hp, Option.some.injEq] at this
              exact ⟨pre, u, post, g1, g2, g3, s, by rw [this]; exact g4⟩
        · rw [if_neg h1]
          by_cases h2 : c = 116
          · subst h2
            rw [if_pos rfl]
            simp only [Option.some.injEq, n1, n2, n3, or_true, if_true, true_and]
            simp only [from_time (T := T) (t := t) (b := b) hf]
            cases d with
            | zero => simp
            | succ k =>
              dsimp only
              rw [ih k false sdp nofun]
              simp
          · rw [if_neg h2]
            by_cases h3 : c = 109
            · subst h3
              rw [if_pos rfl]
              simp only [Option.some.injEq, true_or, if_true, true_and]
              simp only [from_media (T := T) (t := t) (b := b) hf]
              cases d with
              | zero => simp
              | succ k =>
                dsimp only
                simp only [Nat.add_right_cancel_iff, Nat.add_one_ne_zero, false_or]
                cases hp : startMedia T sdp t with
                | none =>
                  dsimp only
                  constructor
                  · intro h; cases h
                  · rintro ⟨_, _, _, _, _, _, _, m, hm, _⟩
                    have := startMedia_iff.2 ⟨m, hm, (rfl : { sdp with medias := sdp.medias ++ [m] } = _)⟩
                    rw [hp] at this
                    cases this
                | some x =>
                  dsimp only
                  obtain ⟨m, hm, rfl⟩ := startMedia_iff.1 hp
                  rw [ih k true _ (fun _ => by simp)]
                  constructor
                  · rintro ⟨pre, u, post, g1, g2, g3, s, g4⟩; exact ⟨pre, u, post, g1, g2, g3, s, m, hm, g4⟩
                  · rintro ⟨pre, u, post, g1, g2, g3, s, m', hm', g4⟩
                    have := startMedia_iff.2 ⟨m', hm', (rfl : { sdp with medias := sdp.medias ++ [m'] } = _)⟩
                    rw [hp, Option.some.injEq] at this
                    exact ⟨pre, u, post, g1, g2, g3, s, by rw [this]; exact g4⟩
            · rw [if_neg h3]
              simp only [Option.some.injEq, h2, h3, or_self, if_false, Nat.add_zero, false_and, false_or]
              by_cases h4 : c = 97 ∧ b = true
              · obtain ⟨rfl, rfl⟩ := h4
                rw [if_pos ⟨rfl, rfl⟩]
                simp only [from_attr (T := T) (t := t) hf (hne rfl)]
                rcases processAttribute_cases (T := T) (t := t) (hne rfl) with ⟨x, hx⟩ | hx
                · rw [hx]
                  dsimp only
                  obtain ⟨a, ha, rfl⟩ := (processAttribute_iff (hne rfl)).1 hx
                  rw [ih d true _ (fun _ => addAttrs_ne (hne rfl) _)]
                  constructor
                  · rintro ⟨pre, u, post, g1, g2, g3, s, g4⟩; exact ⟨pre, u, post, g1, g2, g3, s, a, ha, g4⟩
                  · rintro ⟨pre, u, post, g1, g2, g3, s, a', ha', g4⟩
                    have := (processAttribute_iff (hne rfl)).2 ⟨a', ha', (rfl : { sdp with medias := addAttrs sdp.medias [a'] } = _)⟩
                    rw [hx] at this
                    injection this with this
                    exact ⟨pre, u, post, g1, g2, g3, s, by rw [this]; exact g4⟩
                · rw [hx]
                  dsimp only
                  constructor
                  · intro h; cases h
                  · rintro ⟨_, _, _, _, _, _, _, a', ha', _⟩
                    have := (processAttribute_iff (hne rfl)).2 ⟨a', ha', (rfl : { sdp with medias := addAttrs sdp.medias [a'] } = _)⟩
                    rw [hx] at this
                    cases this
              · rw [if_neg h4, ih d b sdp hne]
                have hsk : ∀ pre s, From T (t :: pre) b sdp s ↔ From T pre b sdp s := by
                  intro pre s
                  apply from_skip
                  · rw [hf, Ne, Option.some.injEq]; exact h1
                  · rw [hf, Ne, Option.some.injEq]; exact h2
                  · rw [hf, Ne, Option.some.injEq]; exact h3
                  · rw [hf, Option.some.injEq]
                    intro hc
                    cases b with
                    | false => rfl
                    | true => exact absurd ⟨hc, rfl⟩ h4
                simp only [hsk]

/-! ## Texts and lines -/

theorem nextLine_inv {s t r : Bytes} (h : nextLine s = .line t r) :
    (∀ b ∈ t, ¬IsEol b) ∧ ((∃ e, IsEol e ∧ s = t ++ e :: r ∧ t.length < 4096) ∨ (s = t ∧ r = [] ∧ t ≠ [] ∧ t.length ≤ 4096)) := by
  rcases split_first s with ⟨t', e, r', rfl, h1, h2⟩ | h1
  · rw [nextLine_eol r' h1 h2] at h
    by_cases hl : t'.length < 4096
    · rw [if_pos hl] at h
      injection h with h3 h4
      subst h3 h4
      exact ⟨h1, .inl ⟨e, h2, rfl, hl⟩⟩
    · rw [if_neg hl] at h; cases h
  · by_cases hs : s = []
    · subst hs; cases h
    · rw [nextLine_end h1 hs] at h
      by_cases hl : s.length ≤ 4096
      · rw [if_pos hl] at h
        injection h with h3 h4
        subst h3 h4
        exact ⟨h1, .inr ⟨rfl, rfl, hs, hl⟩⟩
      · rw [if_neg hl] at h; cases h

/-- A place where a line begins: the end of the text or the place behind a line end. -/
theorem ent_append {p q : Bytes} {es1 es2 : List (Option Bytes)} (h1 : Ent p es1) (h2 : Ent q es2)
    (hn : none ∉ es1) (hb : q = [] ∨ p = [] ∨ ∃ p' e, p = p' ++ [e] ∧ IsEol e) : Ent (p ++ q) (es1 ++ es2) := by
  induction h1 with
  | nil => exact h2
  | long h => exact absurd List.mem_cons_self hn
  | @line s t r es hl he ih =>
    have hn' : none ∉ es := fun h => hn (List.mem_cons_of_mem _ h)
    obtain ⟨ht, ⟨e, h3, rfl, h4⟩ | ⟨rfl, rfl, h5, h6⟩⟩ := nextLine_inv hl
    · have hb' : q = [] ∨ r = [] ∨ ∃ p' e, r = p' ++ [e] ∧ IsEol e := by
        rcases hb with hb | hb | ⟨p', e', hb, hb'⟩
        · exact .inl hb
        · simp at hb
        · by_cases hr : r = []
          · exact .inr (.inl hr)
          · obtain ⟨r', x, rfl⟩ : ∃ r' x, r = r' ++ [x] := ⟨_, _, dropLast_getLast hr⟩
            refine .inr (.inr ⟨r', x, rfl, ?_⟩)
            have : t ++ e :: r' ++ [x] = p' ++ [e'] := by rw [← hb]; simp
            have := List.append_inj_right' this rfl
            simp only [List.cons.injEq, and_true] at this
            rw [this]
            exact hb'
      have hne : nextLine (t ++ e :: r ++ q) = .line t (r ++ q) := by
        rw [List.append_assoc, List.cons_append, nextLine_eol (r ++ q) ht h3, if_pos h4]
      exact .line hne (ih hn' hb')
    · -- the last line has no end, so nothing follows
      have hq : q = [] := by
        rcases hb with hb | hb | ⟨p', e', rfl, hb'⟩
        · exact hb
        · exact absurd hb h5
        · exact absurd hb' (ht e' (by simp))
      subst hq
      rw [List.append_nil]
      cases he with
      | nil =>
        cases h2 with
        | nil => exact .line hl .nil
        | long h => cases h
        | line h _ => cases h
      | long h => cases h
      | line h _ => cases h

theorem ent_split {pre : List Bytes} {t : Bytes} {post : List (Option Bytes)} : ∀ {s : Bytes},
    Ent s (pre.map some ++ some t :: post) →
    ∃ p q, s = p ++ q ∧ Ent p ((pre ++ [t]).map some) ∧ Ent q post ∧ (q = [] ∨ ∃ p' e, p = p' ++ [e] ∧ IsEol e) := by
  induction pre with
  | nil =>
    intro s h
    cases h with
    | @line _ _ r _ hl he =>
      obtain ⟨ht, ⟨e, h3, rfl, h4⟩ | ⟨rfl, rfl, h5, h6⟩⟩ := nextLine_inv hl
      · refine ⟨t ++ [e], r, by simp, ?_, he, .inr ⟨t, e, rfl, h3⟩⟩
        refine .line (r := []) ?_ .nil
        rw [nextLine_eol [] ht h3, if_pos h4]
      · exact ⟨s, [], by simp, .line hl .nil, he, .inl rfl⟩
  | cons u pre ih =>
    intro s h
    cases h with
    | @line _ _ r _ hl he =>
      obtain ⟨p, q, rfl, g1, g2, g3⟩ := ih he
      obtain ⟨ht, ⟨e, h3, rfl, h4⟩ | ⟨rfl, hpq, h5, h6⟩⟩ := nextLine_inv hl
      · refine ⟨u ++ e :: p, q, by simp, .line (r := p) ?_ g1, g2, ?_⟩
        · rw [nextLine_eol p ht h3, if_pos h4]
        · rcases g3 with g3 | ⟨p', e', rfl, g3⟩
          · exact .inl g3
          · exact .inr ⟨u ++ e :: p', e', by simp, g3⟩
      · obtain ⟨rfl, rfl⟩ := List.append_eq_nil_iff.1 hpq
        generalize he1 : (pre ++ [t]).map some = es at g1
        cases g1 with
        | nil => simp at he1
        | long h => cases h
        | line h _ => cases h

theorem ent_unique {s : Bytes} {es es' : List (Option Bytes)} (h : Ent s es) (h' : Ent s es') : es = es' := by
  induction h generalizing es' with
  | nil =>
    cases h' with
    | nil => rfl
    | long h => cases h
    | line h _ => cases h
  | long hl =>
    cases h' with
    | nil => cases hl
    | long h => rfl
    | line h _ => rw [hl] at h; cases h
  | line hl _ ih =>
    cases h' with
    | nil => cases hl
    | long h => rw [hl] at h; cases h
    | line h h2 =>
      rw [hl] at h
      injection h with h3 h4
      subst h3 h4
      rw [ih h2]

theorem ent_long_append {p : Bytes} {es : List (Option Bytes)} (h : Ent p es) (hn : none ∈ es) :
    ∀ {q : Bytes} {es' : List (Option Bytes)}, Ent (p ++ q) es' → none ∈ es' := by
  induction h with
  | nil => exact absurd hn List.not_mem_nil
  | @long s hl =>
    intro q es' h'
    have : nextLine (s ++ q) = .err := by
      rcases split_first s with ⟨t, e, r, rfl, h1, h2⟩ | h1
      · rw [nextLine_eol r h1 h2] at hl
        by_cases h3 : t.length < 4096
        · rw [if_pos h3] at hl; cases hl
        · rw [List.append_assoc, List.cons_append, nextLine_eol (r ++ q) h1 h2, if_neg h3]
      · have hs : s ≠ [] := by rintro rfl; cases hl
        rw [nextLine_end h1 hs] at hl
        by_cases h3 : s.length ≤ 4096
        · rw [if_pos h3] at hl; cases hl
        · rcases split_first q with ⟨t, e, r, rfl, g1, g2⟩ | g1
          · rw [← List.append_assoc, nextLine_eol r (fun b hb => (List.mem_append.1 hb).elim (h1 b) (g1 b)) g2,
              if_neg (by rw [List.length_append]; omega)]
          · rw [nextLine_end (fun b hb => (List.mem_append.1 hb).elim (h1 b) (g1 b)) (by simp [hs]),
              if_neg (by rw [List.length_append]; omega)]
    rw [ent_unique h' (.long this)]
    simp
  | @line s t r es hl he ih =>
    intro q es' h'
    have hn' : none ∈ es := by simpa using hn
    obtain ⟨ht, ⟨e, h3, rfl, h4⟩ | ⟨rfl, rfl, h5, h6⟩⟩ := nextLine_inv hl
    · obtain ⟨es2, he2⟩ := ent_exists (r ++ q).length (r ++ q) (Nat.le_refl _)
      have hne : nextLine (t ++ e :: r ++ q) = .line t (r ++ q) := by
        rw [List.append_assoc, List.cons_append, nextLine_eol (r ++ q) ht h3, if_pos h4]
      rw [ent_unique h' (.line hne he2)]
      exact List.mem_cons_of_mem _ (ih hn' he2)
    · cases he with
      | nil => exact absurd hn' List.not_mem_nil
      | long h => cases h
      | line h _ => cases h

/-! ## Lines that do not count -/

/-- If two endings mean the same in every state, then the texts mean the same. -/
theorem from_congr (T : Txt) {x y : List Bytes} {s : Session}
    (h : ∀ b sdp, (b = true → sdp.medias ≠ []) → (From T x b sdp s ↔ From T y b sdp s)) (pre : List Bytes) :
    ∀ b sdp, (b = true → sdp.medias ≠ []) → (From T (pre ++ x) b sdp s ↔ From T (pre ++ y) b sdp s) := by
  induction pre with
  | nil => exact h
  | cons t pre ih =>
    intro b sdp hb
    rw [List.cons_append, List.cons_append]
    by_cases h1 : first t = some 118
    · rw [from_version h1, from_version h1]
      exact exists_congr fun v => and_congr_right fun _ => ih _ _ hb
    · by_cases h2 : first t = some 116
      · rw [from_time h2, from_time h2]
        exact ih _ _ nofun
      · by_cases h3 : first t = some 109
        · rw [from_media h3, from_media h3]
          exact exists_congr fun m => and_congr_right fun _ => ih _ _ (fun _ => by simp)
        · by_cases h4 : first t = some 97 ∧ b = true
          · obtain ⟨h4, rfl⟩ := h4
            rw [from_attr h4 (hb rfl), from_attr h4 (hb rfl)]
            exact exists_congr fun a => and_congr_right fun _ => ih _ _ (fun _ => addAttrs_ne (hb rfl) _)
          · have h4' : first t = some 97 → b = false := fun h => by
              cases b with
              | false => rfl
              | true => exact absurd ⟨h, rfl⟩ h4
            rw [from_skip h1 h2 h3 h4', from_skip h1 h2 h3 h4']
            exact ih _ _ hb

/-- Attribute lines before a media line. -/
theorem from_unused (T : Txt) {t : Bytes} {post : List Bytes} {s : Session} (ht : first t = some 97) (mid : List Bytes)
    (hm : ∀ u ∈ mid, first u ≠ some 109) :
    ∀ sdp, (From T (mid ++ t :: post) false sdp s ↔ From T (mid ++ post) false sdp s) := by
  induction mid with
  | nil =>
    intro sdp
    apply from_skip
    · rw [ht]; decide
    · rw [ht]; decide
    · rw [ht]; decide
    · intro _; rfl
  | cons u mid ih =>
    intro sdp
    have ih := ih (fun u hu => hm u (List.mem_cons_of_mem _ hu))
    have h3 := hm u List.mem_cons_self
    rw [List.cons_append, List.cons_append]
    by_cases h1 : first u = some 118
    · rw [from_version h1, from_version h1]
      exact exists_congr fun v => and_congr_right fun _ => ih _
    · by_cases h2 : first u = some 116
      · rw [from_time h2, from_time h2]
        exact ih _
      · rw [from_skip h1 h2 h3 (fun _ => rfl), from_skip h1 h2 h3 (fun _ => rfl)]
        exact ih _

end Verif.Sdp
