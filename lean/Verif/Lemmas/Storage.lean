import Verif.Spec.Storage
import Verif.Lemmas.Discovery
import Verif.Lemmas.Url
/-!
# Lemmas on the files of the default storage
-/
namespace Verif.Storage
open Spec.Storage
open Verif.Url (cont_ascii valid_cons valid_after)
open Verif.Discovery (valid_append)

/-! ## Texts and lines -/

theorem valid_before {c : UInt8} (hc : c.toNat < 0x80) (n : Nat) : ∀ (u v : Bytes), u.length ≤ n →
    Utf8.valid (u ++ c :: v) = true → Utf8.valid u = true := by
  have hcc := cont_ascii hc
  induction n with
  | zero =>
    intro u v hn h
    cases u with
    | nil => rw [Utf8.valid.eq_def]
    | cons x u => simp at hn
  | succ n ih =>
    intro u v hn h
    cases u with
    | nil => rw [Utf8.valid.eq_def]
    | cons b0 u =>
      rw [List.cons_append, Utf8.valid.eq_def] at h
      rw [Utf8.valid.eq_def]
      dsimp only at h ⊢
      simp only [List.length_cons] at hn
      split at h
      · next hb => rw [if_pos hb]; exact ih u v (by omega) h
      · next hb0 =>
        rw [if_neg hb0]
        split at h
        · next hb =>
          rw [if_pos hb]
          cases u with
          | nil => simp [hcc] at h
          | cons b1 u =>
            simp only [List.cons_append, Bool.and_eq_true] at h ⊢
            exact ⟨h.1, ih u v (by simp only [List.length_cons] at hn; omega) h.2⟩
        · next hb1 =>
          rw [if_neg hb1]
          split at h
          · next hb =>
            rw [if_pos hb]
            rcases u with _ | ⟨b1, _ | ⟨b2, u⟩⟩
            · cases v with
              | nil => simp at h
              | cons x v =>
                simp only [List.nil_append, Bool.and_eq_true] at h
                have h1 := h.1.1
                split at h1
                · simp only [Bool.and_eq_true, decide_eq_true_eq] at h1; omega
                · split at h1
                  · simp only [Bool.and_eq_true, decide_eq_true_eq] at h1; omega
                  · rw [hcc] at h1; cases h1
            · simp [hcc] at h
            · simp only [List.cons_append, Bool.and_eq_true] at h ⊢
              exact ⟨h.1, ih u v (by simp only [List.length_cons] at hn; omega) h.2⟩
          · next hb2 =>
            rw [if_neg hb2]
            split at h
            · next hb =>
              rw [if_pos hb]
              rcases u with _ | ⟨b1, _ | ⟨b2, _ | ⟨b3, u⟩⟩⟩
              · rcases v with _ | ⟨x, _ | ⟨y, v⟩⟩
                · simp at h
                · simp at h
                · simp only [List.nil_append, Bool.and_eq_true] at h
                  have h1 := h.1.1.1
                  split at h1
                  · simp only [Bool.and_eq_true, decide_eq_true_eq] at h1; omega
                  · split at h1
                    · simp only [Bool.and_eq_true, decide_eq_true_eq] at h1; omega
                    · rw [hcc] at h1; cases h1
              · rcases v with _ | ⟨x, v⟩
                · simp at h
                · simp [hcc] at h
              · simp [hcc] at h
              · simp only [List.cons_append, Bool.and_eq_true] at h ⊢
                exact ⟨h.1, ih u v (by simp only [List.length_cons] at hn; omega) h.2⟩
            · cases h

/-- A text is UTF-8 iff what is before and what is after an ASCII character is. -/
theorem valid_split {c : UInt8} (hc : c.toNat < 0x80) (u v : Bytes) :
    Utf8.valid (u ++ c :: v) = true ↔ Utf8.valid u = true ∧ Utf8.valid v = true :=
  ⟨fun h => ⟨valid_before hc _ u v (Nat.le_refl _) h, valid_after hc _ u v (Nat.le_refl _) h⟩,
    fun h => valid_append h.1 ((valid_cons hc).trans h.2)⟩

theorem pieces_none {acc bs : Bytes} (h : 10 ∉ bs) : pieces acc bs = if acc ++ bs = [] then [] else [acc ++ bs] := by
  induction bs generalizing acc with
  | nil => rw [List.append_nil]; rfl
  | cons b bs ih =>
    have hb : b ≠ 10 := fun e => h (e ▸ List.mem_cons_self ..)
    unfold pieces
    rw [if_neg hb, ih (fun hh => h (List.mem_cons_of_mem _ hh)), List.append_assoc]
    rfl

theorem pieces_some {acc l r : Bytes} (h : 10 ∉ l) : pieces acc (l ++ 10 :: r) = (acc ++ l ++ [10]) :: pieces [] r := by
  induction l generalizing acc with
  | nil =>
    rw [List.nil_append, List.append_nil, pieces, if_pos rfl]
  | cons b l ih =>
    have hb : b ≠ 10 := fun e => h (e ▸ List.mem_cons_self ..)
    rw [List.cons_append, pieces, if_neg hb, ih (fun hh => h (List.mem_cons_of_mem _ hh)), List.append_assoc acc [b] l]
    rfl

theorem split_lf (bs : Bytes) : 10 ∉ bs ∨ ∃ l r, bs = l ++ 10 :: r ∧ 10 ∉ l := by
  induction bs with
  | nil => exact .inl List.not_mem_nil
  | cons b bs ih =>
    by_cases hb : b = 10
    · exact .inr ⟨[], bs, by rw [hb]; rfl, List.not_mem_nil⟩
    · rcases ih with h | ⟨l, r, e, h⟩
      · exact .inl fun hh => by
          rcases List.mem_cons.1 hh with h' | h'
          · exact hb h'.symm
          · exact h h'
      · refine .inr ⟨b :: l, r, by rw [e]; rfl, fun hh => ?_⟩
        rcases List.mem_cons.1 hh with h' | h'
        · exact hb h'.symm
        · exact h h'

theorem chomp_lf {l : Bytes} (h : l.getLast? ≠ some 13) : chomp (l ++ [10]) = l := by
  unfold chomp
  rw [if_pos (by simp), List.dropLast_concat, if_neg h]

theorem chomp_crlf (l : Bytes) : chomp (l ++ 13 :: [10]) = l := by
  have e : l ++ 13 :: [10] = (l ++ [13]) ++ [10] := by simp
  unfold chomp
  rw [e, if_pos (by simp), List.dropLast_concat, if_pos (by simp), List.dropLast_concat]

theorem chomp_last {l : Bytes} (h : 10 ∉ l) : chomp l = l := by
  unfold chomp
  rw [if_neg]
  intro e
  exact h (List.mem_of_getLast? e)

theorem textFile_pieces {bs : Bytes} {ls : List Bytes} (h : TextFile bs ls) : (pieces [] bs).map chomp = ls := by
  induction h with
  | empty => rfl
  | last h1 h2 =>
    rw [pieces_none h1, List.nil_append, if_neg h2, List.map_cons, chomp_last h1]
    rfl
  | lf h1 h2 _ ih => rw [pieces_some h1, List.map_cons, ih, List.nil_append, chomp_lf h2]
  | @crlf l bs ls h1 _ ih =>
    have e : l ++ 13 :: 10 :: bs = (l ++ [13]) ++ 10 :: bs := by simp
    rw [e, pieces_some (by simp [h1]), List.map_cons, ih, List.nil_append, List.append_assoc]
    show chomp (l ++ 13 :: [10]) :: _ = _
    rw [chomp_crlf]

theorem textFile_exists (n : Nat) : ∀ bs : Bytes, bs.length ≤ n → ∃ ls, TextFile bs ls := by
  induction n with
  | zero =>
    intro bs h
    rw [List.length_eq_zero_iff.1 (Nat.le_zero.1 h)]
    exact ⟨[], .empty⟩
  | succ n ih =>
    intro bs hn
    rcases split_lf bs with h | ⟨l, r, e, h⟩
    · by_cases hb : bs = []
      · rw [hb]; exact ⟨[], .empty⟩
      · exact ⟨[bs], .last h hb⟩
    · subst e
      obtain ⟨ls, hls⟩ := ih r (by rw [List.length_append, List.length_cons] at hn; omega)
      by_cases h13 : l.getLast? = some 13
      · obtain ⟨l', e⟩ := List.getLast?_eq_some_iff.1 h13
        subst e
        refine ⟨l' :: ls, ?_⟩
        rw [List.append_assoc]
        exact .crlf (fun hh => h (List.mem_append.2 (.inl hh))) hls
      · exact ⟨l :: ls, .lf h h13 hls⟩

theorem pieces_valid (n : Nat) : ∀ bs : Bytes, bs.length ≤ n →
    ((∀ l ∈ pieces [] bs, Utf8.valid l = true) ↔ Utf8.valid bs = true) := by
  induction n with
  | zero =>
    intro bs h
    rw [List.length_eq_zero_iff.1 (Nat.le_zero.1 h)]
    exact ⟨fun _ => by rw [Utf8.valid.eq_def], fun _ l hl => absurd hl List.not_mem_nil⟩
  | succ n ih =>
    intro bs hn
    rcases split_lf bs with h | ⟨l, r, e, h⟩
    · rw [pieces_none h, List.nil_append]
      split
      · next hb => rw [hb]; exact ⟨fun _ => by rw [Utf8.valid.eq_def], fun _ l hl => absurd hl List.not_mem_nil⟩
      · simp
    · subst e
      have hr := ih r (by rw [List.length_append, List.length_cons] at hn; omega)
      rw [pieces_some h, List.nil_append, valid_split (by decide), ← hr]
      have e1 : Utf8.valid (l ++ [10]) = true ↔ Utf8.valid l = true := by
        rw [valid_split (by decide)]
        exact ⟨fun h => h.1, fun h => ⟨h, by rw [Utf8.valid.eq_def]⟩⟩
      constructor
      · intro hh
        exact ⟨e1.1 (hh _ (List.mem_cons_self ..)), fun x hx => hh x (List.mem_cons_of_mem _ hx)⟩
      · rintro ⟨h1, h2⟩ x hx
        rcases List.mem_cons.1 hx with hx | hx
        · rw [hx]; exact e1.2 h1
        · exact h2 x hx

theorem comment_iff (l : Bytes) : l.head? = some 35 ↔ Comment l := by
  cases l with
  | nil => exact ⟨fun h => (by cases h), fun ⟨t, h⟩ => (by cases h)⟩
  | cons b t =>
    constructor
    · intro h; injection h with h; exact ⟨t, by rw [h]⟩
    · rintro ⟨t, h⟩; rw [h]; rfl

theorem keepPaths_eq (ls : List Bytes) :
    keepPaths ls = if ∀ l ∈ ls, Utf8.valid l = true then some ((ls.map chomp).filter (¬ Comment ·)) else none := by
  induction ls with
  | nil => simp [keepPaths]
  | cons l ls ih =>
    rw [keepPaths, ih]
    by_cases hl : Utf8.valid l = true
    · by_cases hr : ∀ l ∈ ls, Utf8.valid l = true
      · rw [if_pos hl, if_pos hr, if_pos (by
          intro x hx
          rcases List.mem_cons.1 hx with hx | hx
          · rw [hx]; exact hl
          · exact hr x hx)]
        dsimp only
        rw [List.map_cons, List.filter_cons]
        by_cases hc : Comment (chomp l)
        · rw [if_pos ((comment_iff _).2 hc), if_neg (by simpa using hc)]
        · rw [if_neg (fun h => hc ((comment_iff _).1 h)), if_pos (by simpa using hc)]
      · rw [if_pos hl, if_neg hr, if_neg (fun h => hr fun x hx => h x (List.mem_cons_of_mem _ hx))]
    · rw [if_neg hl, if_neg (fun h => hl (h l (List.mem_cons_self ..)))]

/-! ## Names of certificate files -/

theorem splitLast_none {c : UInt8} {s : Bytes} : splitLast c s = none ↔ c ∉ s := by
  induction s with
  | nil => simp [splitLast]
  | cons b s ih =>
    unfold splitLast
    split
    · next x y h =>
      have : ¬ (c ∉ s) := fun hh => by rw [ih.2 hh] at h; cases h
      simp only [reduceCtorEq, false_iff]
      intro hh
      exact this fun h' => hh (List.mem_cons_of_mem _ h')
    · next h =>
      have := ih.1 h
      split
      · next e => simp [e]
      · next e => simp only [true_iff, List.mem_cons, not_or]; exact ⟨fun h => e h.symm, this⟩

theorem splitLast_some {c : UInt8} {s x y : Bytes} : splitLast c s = some (x, y) ↔ s = x ++ c :: y ∧ c ∉ y := by
  induction s generalizing x with
  | nil => simp [splitLast]
  | cons b s ih =>
    unfold splitLast
    split
    · next x' y' h =>
      constructor
      · intro e
        injection e with e
        injection e with e1 e2
        subst e1 e2
        obtain ⟨h1, h2⟩ := ih.1 h
        exact ⟨by rw [h1]; rfl, h2⟩
      · rintro ⟨e, hy⟩
        cases x with
        | nil =>
          rw [List.nil_append] at e
          injection e with e1 e2
          subst e2
          rw [splitLast_none.2 hy] at h
          cases h
        | cons b' x =>
          rw [List.cons_append] at e
          injection e with e1 e2
          have := ih.2 ⟨e2, hy⟩
          rw [h] at this
          injection this with this
          injection this with h1 h2
          rw [e1, h1, h2]
    · next h =>
      have hs := splitLast_none.1 h
      constructor
      · intro e
        split at e
        · next hb =>
          injection e with e
          injection e with e1 e2
          subst e1 e2 hb
          exact ⟨rfl, hs⟩
        · cases e
      · rintro ⟨e, hy⟩
        cases x with
        | nil =>
          rw [List.nil_append] at e
          injection e with e1 e2
          rw [if_pos e1, e2]
        | cons b' x =>
          rw [List.cons_append] at e
          injection e with e1 e2
          exact absurd (by rw [e2]; simp) hs

theorem lower_same {x a : UInt8} (h : 97 ≤ a.toNat ∧ a.toNat ≤ 122) : lower x = a ↔ SameLetter x a := by
  unfold lower SameLetter
  have hx := x.toNat_lt
  split
  · next hx' =>
    have e : (x + 32).toNat = x.toNat + 32 := by
      rw [UInt8.toNat_add]
      show (x.toNat + 32) % 256 = _
      omega
    constructor
    · intro h'; right; rw [← h', e]
    · rintro (h' | h')
      · subst h'; omega
      · exact UInt8.toNat_inj.1 (e.trans h')
  · next hx' =>
    constructor
    · intro h'; exact .inl h'
    · rintro (h' | h')
      · exact h'
      · omega

theorem lower_ext {ext : Bytes} {a b c : UInt8} (ha : 97 ≤ a.toNat ∧ a.toNat ≤ 122) (hb : 97 ≤ b.toNat ∧ b.toNat ≤ 122)
    (hc : 97 ≤ c.toNat ∧ c.toNat ≤ 122) :
    ext.map lower = [a, b, c] ↔ ∃ x y z, ext = [x, y, z] ∧ SameLetter x a ∧ SameLetter y b ∧ SameLetter z c := by
  constructor
  · intro h
    rcases ext with _ | ⟨x, _ | ⟨y, _ | ⟨z, _ | ⟨w, t⟩⟩⟩⟩ <;> simp only [List.map_cons, List.map_nil, List.cons.injEq, reduceCtorEq, and_true, and_false] at h
    exact ⟨x, y, z, rfl, (lower_same ha).1 h.1, (lower_same hb).1 h.2.1, (lower_same hc).1 h.2.2⟩
  · rintro ⟨x, y, z, rfl, h1, h2, h3⟩
    simp only [List.map_cons, List.map_nil]
    rw [(lower_same ha).2 h1, (lower_same hb).2 h2, (lower_same hc).2 h3]

theorem asc_der : asc "der" = [100, 101, 114] := by decide +kernel
theorem asc_cer : asc "cer" = [99, 101, 114] := by decide +kernel
theorem asc_crt : asc "crt" = [99, 114, 116] := by decide +kernel
theorem asc_pem : asc "pem" = [112, 101, 109] := by decide +kernel

theorem same_not_dot {x a : UInt8} (ha : 97 ≤ a.toNat ∧ a.toNat ≤ 122) (h : SameLetter x a) : x ≠ 46 := by
  rintro rfl
  rcases h with h | h
  · subst h; exact absurd ha (by decide)
  · have : (46 : UInt8).toNat = 46 := rfl
    omega

theorem isCertFile_iff (name : Bytes) : isCertFile name = true ↔ CertName name := by
  have key : ∀ ext : Bytes, (ext.map lower = asc "der" ∨ ext.map lower = asc "cer" ∨ ext.map lower = asc "crt" ∨ ext.map lower = asc "pem")
      ↔ ∃ x y z, ext = [x, y, z] ∧ ∃ e ∈ ["der", "cer", "crt", "pem"], ∃ a b c, asc e = [a, b, c] ∧ SameLetter x a ∧ SameLetter y b ∧ SameLetter z c := by
    intro ext
    rw [asc_der, asc_cer, asc_crt, asc_pem, lower_ext (by decide) (by decide) (by decide), lower_ext (by decide) (by decide) (by decide),
      lower_ext (by decide) (by decide) (by decide), lower_ext (by decide) (by decide) (by decide)]
    constructor
    · rintro (⟨x, y, z, h, h'⟩ | ⟨x, y, z, h, h'⟩ | ⟨x, y, z, h, h'⟩ | ⟨x, y, z, h, h'⟩)
      · exact ⟨x, y, z, h, "der", by simp, _, _, _, asc_der, h'⟩
      · exact ⟨x, y, z, h, "cer", by simp, _, _, _, asc_cer, h'⟩
      · exact ⟨x, y, z, h, "crt", by simp, _, _, _, asc_crt, h'⟩
      · exact ⟨x, y, z, h, "pem", by simp, _, _, _, asc_pem, h'⟩
    · rintro ⟨x, y, z, h, e, he, a, b, c, h1, h2⟩
      simp only [List.mem_cons, List.not_mem_nil, or_false] at he
      rcases he with rfl | rfl | rfl | rfl
      · rw [asc_der] at h1; injection h1 with e1 h1; injection h1 with e2 h1; injection h1 with e3; subst e1 e2 e3
        exact .inl ⟨x, y, z, h, h2⟩
      · rw [asc_cer] at h1; injection h1 with e1 h1; injection h1 with e2 h1; injection h1 with e3; subst e1 e2 e3
        exact .inr (.inl ⟨x, y, z, h, h2⟩)
      · rw [asc_crt] at h1; injection h1 with e1 h1; injection h1 with e2 h1; injection h1 with e3; subst e1 e2 e3
        exact .inr (.inr (.inl ⟨x, y, z, h, h2⟩))
      · rw [asc_pem] at h1; injection h1 with e1 h1; injection h1 with e2 h1; injection h1 with e3; subst e1 e2 e3
        exact .inr (.inr (.inr ⟨x, y, z, h, h2⟩))
  have hcert : isCertFile name = true ↔ ∃ ext, extension name = some ext ∧
      (ext.map lower = asc "der" ∨ ext.map lower = asc "cer" ∨ ext.map lower = asc "crt" ∨ ext.map lower = asc "pem") := by
    unfold isCertFile
    cases extension name with
    | none => simp
    | some ext => simp [or_assoc]
  have hext : ∀ ext, ext ≠ [] → (extension name = some ext ↔ ∃ before, before ≠ [] ∧ name = before ++ 46 :: ext ∧ 46 ∉ ext) := by
    intro ext hne
    unfold extension
    split
    · next h =>
      simp only [reduceCtorEq, false_iff]
      rintro ⟨before, hb, e, h2⟩
      rw [h] at e
      have hl := congrArg List.length e
      rw [List.length_append, List.length_cons] at hl
      have h1 := List.length_pos_iff.2 hb
      have h2 := List.length_pos_iff.2 hne
      simp only [List.length_cons, List.length_nil] at hl
      omega
    · split
      · next before after h =>
        obtain ⟨h1, h2⟩ := splitLast_some.1 h
        split
        · next hb =>
          simp only [reduceCtorEq, false_iff]
          rintro ⟨b', hb', e, h3⟩
          have := splitLast_some.2 ⟨e, h3⟩
          rw [h] at this
          injection this with this
          injection this with this _
          exact hb' (this.symm.trans hb)
        · next hb =>
          constructor
          · intro e; injection e with e; subst e; exact ⟨before, hb, h1, h2⟩
          · rintro ⟨b', hb', e, h3⟩
            have := splitLast_some.2 ⟨e, h3⟩
            rw [h] at this
            injection this with this
            injection this with _ this
            rw [this]
      · next h =>
        have := splitLast_none.1 h
        simp only [reduceCtorEq, false_iff]
        rintro ⟨b', hb', e, h3⟩
        exact this (by rw [e]; simp)
  rw [hcert]
  constructor
  · rintro ⟨ext, h1, h2⟩
    obtain ⟨x, y, z, rfl, he⟩ := (key ext).1 h2
    obtain ⟨before, hb, e, -⟩ := (hext _ (List.cons_ne_nil _ _)).1 h1
    exact ⟨before, x, y, z, e, hb, he⟩
  · rintro ⟨before, x, y, z, e, hb, he⟩
    refine ⟨[x, y, z], (hext _ (List.cons_ne_nil _ _)).2 ⟨before, hb, e, ?_⟩, (key _).2 ⟨x, y, z, rfl, he⟩⟩
    obtain ⟨e, he, a, b, c, h1, h2, h3, h4⟩ := he
    have hr : (97 ≤ a.toNat ∧ a.toNat ≤ 122) ∧ (97 ≤ b.toNat ∧ b.toNat ≤ 122) ∧ (97 ≤ c.toNat ∧ c.toNat ≤ 122) := by
      simp only [List.mem_cons, List.not_mem_nil, or_false] at he
      rcases he with rfl | rfl | rfl | rfl
      · rw [asc_der] at h1; injection h1 with e1 h1; injection h1 with e2 h1; injection h1 with e3; subst e1 e2 e3; decide
      · rw [asc_cer] at h1; injection h1 with e1 h1; injection h1 with e2 h1; injection h1 with e3; subst e1 e2 e3; decide
      · rw [asc_crt] at h1; injection h1 with e1 h1; injection h1 with e2 h1; injection h1 with e3; subst e1 e2 e3; decide
      · rw [asc_pem] at h1; injection h1 with e1 h1; injection h1 with e2 h1; injection h1 with e3; subst e1 e2 e3; decide
    simp only [List.mem_cons, List.not_mem_nil, or_false, not_or]
    exact ⟨fun h => same_not_dot hr.1 h2 h.symm, fun h => same_not_dot hr.2.1 h3 h.symm, fun h => same_not_dot hr.2.2 h4 h.symm⟩

end Verif.Storage
