import Verif.Model.Text
/-!
# A text format for JSON values

Only used to show that the assumptions on the crate `json` in `Spec/Config` can be met: a self-delimiting
binary format, so that no text is a proper prefix of another one.
-/
namespace Verif.JsonCode
open Verif

def encStr : Bytes → Bytes
  | [] => [0]
  | b :: s => 1 :: b :: encStr s

def digits : Nat → Nat → Bytes
  | 0, _ => []
  | f + 1, n => if n = 0 then [] else UInt8.ofNat (n % 256) :: digits f (n / 256)

def encNat (n : Nat) : Bytes := encStr (digits n n)

def encInt : Int → Bytes
  | .ofNat n => 0 :: encNat n
  | .negSucc n => 1 :: encNat n

mutual
def enc : Json → Bytes
  | .null => [0]
  | .bool false => [1]
  | .bool true => [2]
  | .num n => 3 :: encInt n
  | .str s => 4 :: encStr s
  | .arr l => 5 :: encList l
  | .obj l => 6 :: encFields l
def encList : List Json → Bytes
  | [] => [0]
  | j :: l => 1 :: (enc j ++ encList l)
def encFields : List (Bytes × Json) → Bytes
  | [] => [0]
  | p :: l => 1 :: (encField p ++ encFields l)
def encField : Bytes × Json → Bytes
  | (k, j) => encStr k ++ enc j
end

theorem encStr_inj : ∀ (s s' r r' : Bytes), encStr s ++ r = encStr s' ++ r' → s = s' ∧ r = r'
  | [], [], r, r', h => by simpa [encStr] using h
  | [], b :: s', r, r', h => by simp [encStr] at h
  | b :: s, [], r, r', h => by simp [encStr] at h
  | b :: s, b' :: s', r, r', h => by
    simp only [encStr, List.cons_append, List.cons.injEq, true_and] at h
    obtain ⟨h1, h2⟩ := encStr_inj s s' r r' h.2
    exact ⟨by rw [h.1, h1], h2⟩

def value : Bytes → Nat
  | [] => 0
  | b :: s => b.toNat + 256 * value s

theorem value_digits : ∀ f n, n ≤ f → value (digits f n) = n
  | 0, n, h => by simp only [digits, value]; omega
  | f + 1, n, h => by
    unfold digits
    split
    · simp only [value]; omega
    · simp only [value]
      rw [value_digits f (n / 256) (by omega), UInt8.toNat_ofNat']
      omega

theorem encNat_inj (s s' : Nat) (r r' : Bytes) (h : encNat s ++ r = encNat s' ++ r') : s = s' ∧ r = r' := by
  obtain ⟨h1, h2⟩ := encStr_inj _ _ _ _ h
  have h3 := congrArg value h1
  rw [value_digits s s (Nat.le_refl _), value_digits s' s' (Nat.le_refl _)] at h3
  exact ⟨h3, h2⟩

theorem encInt_inj (s s' : Int) (r r' : Bytes) (h : encInt s ++ r = encInt s' ++ r') : s = s' ∧ r = r' := by
  cases s <;> cases s' <;> simp only [encInt, List.cons_append, List.cons.injEq, true_and] at h
  · obtain ⟨h1, h2⟩ := encNat_inj _ _ r r' h
    exact ⟨by rw [h1], h2⟩
  · exact absurd h.1 (by decide)
  · exact absurd h.1 (by decide)
  · obtain ⟨h1, h2⟩ := encNat_inj _ _ r r' h
    exact ⟨by rw [h1], h2⟩

mutual
theorem enc_inj : ∀ (j j' : Json) (r r' : Bytes), enc j ++ r = enc j' ++ r' → j = j' ∧ r = r'
  | .null, j', r, r', h => by
    cases j' with
    | null => simpa [enc] using h
    | bool b => cases b <;> simp [enc] at h
    | _ => simp [enc] at h
  | .bool b, j', r, r', h => by
    cases j' with
    | bool b' => cases b <;> cases b' <;> simpa [enc] using h
    | _ => cases b <;> simp [enc] at h
  | .num n, j', r, r', h => by
    cases j' with
    | num n' =>
      simp only [enc, List.cons_append, List.cons.injEq, true_and] at h
      obtain ⟨h1, h2⟩ := encInt_inj n n' r r' h
      exact ⟨by rw [h1], h2⟩
    | bool b => cases b <;> simp [enc] at h
    | _ => simp [enc] at h
  | .str s, j', r, r', h => by
    cases j' with
    | str s' =>
      simp only [enc, List.cons_append, List.cons.injEq, true_and] at h
      obtain ⟨h1, h2⟩ := encStr_inj s s' r r' h
      exact ⟨by rw [h1], h2⟩
    | bool b => cases b <;> simp [enc] at h
    | _ => simp [enc] at h
  | .arr l, j', r, r', h => by
    cases j' with
    | arr l' =>
      simp only [enc, List.cons_append, List.cons.injEq, true_and] at h
      obtain ⟨h1, h2⟩ := encList_inj l l' r r' h
      exact ⟨by rw [h1], h2⟩
    | bool b => cases b <;> simp [enc] at h
    | _ => simp [enc] at h
  | .obj l, j', r, r', h => by
    cases j' with
    | obj l' =>
      simp only [enc, List.cons_append, List.cons.injEq, true_and] at h
      obtain ⟨h1, h2⟩ := encFields_inj l l' r r' h
      exact ⟨by rw [h1], h2⟩
    | bool b => cases b <;> simp [enc] at h
    | _ => simp [enc] at h
theorem encList_inj : ∀ (l l' : List Json) (r r' : Bytes), encList l ++ r = encList l' ++ r' → l = l' ∧ r = r'
  | [], [], r, r', h => by simpa [encList] using h
  | [], _ :: _, r, r', h => by simp [encList] at h
  | _ :: _, [], r, r', h => by simp [encList] at h
  | j :: l, j' :: l', r, r', h => by
    simp only [encList, List.cons_append, List.cons.injEq, true_and, List.append_assoc] at h
    obtain ⟨h1, h2⟩ := enc_inj j j' _ _ h
    obtain ⟨h3, h4⟩ := encList_inj l l' _ _ h2
    exact ⟨by rw [h1, h3], h4⟩
theorem encFields_inj : ∀ (l l' : List (Bytes × Json)) (r r' : Bytes),
    encFields l ++ r = encFields l' ++ r' → l = l' ∧ r = r'
  | [], [], r, r', h => by simpa [encFields] using h
  | [], _ :: _, r, r', h => by simp [encFields] at h
  | _ :: _, [], r, r', h => by simp [encFields] at h
  | p :: l, p' :: l', r, r', h => by
    simp only [encFields, List.cons_append, List.cons.injEq, true_and, List.append_assoc] at h
    obtain ⟨h1, h2⟩ := encField_inj p p' _ _ h
    obtain ⟨h3, h4⟩ := encFields_inj l l' _ _ h2
    exact ⟨by rw [h1, h3], h4⟩
theorem encField_inj : ∀ (p p' : Bytes × Json) (r r' : Bytes), encField p ++ r = encField p' ++ r' → p = p' ∧ r = r'
  | (k, j), (k', j'), r, r', h => by
    simp only [encField, List.append_assoc] at h
    obtain ⟨h1, h2⟩ := encStr_inj k k' _ _ h
    obtain ⟨h3, h4⟩ := enc_inj j j' _ _ h2
    exact ⟨by rw [h1, h3], h4⟩
end

open Classical in
/-- The inverse of `enc`. -/
noncomputable def dec (b : Bytes) : Option Json := if h : ∃ j, enc j = b then some h.choose else none

theorem dec_enc (j : Json) : dec (enc j) = some j := by
  have h : ∃ k, enc k = enc j := ⟨j, rfl⟩
  unfold dec
  rw [dif_pos h]
  have := h.choose_spec
  exact congrArg some (enc_inj _ _ [] [] (by rw [this])).1

theorem dec_cut (j : Json) (n : Nat) (hn : n < (enc j).length) : dec ((enc j).take n) = none := by
  unfold dec
  rw [dif_neg]
  rintro ⟨k, hk⟩
  have h : enc k ++ (enc j).drop n = enc j ++ [] := by rw [hk, List.take_append_drop, List.append_nil]
  have := (enc_inj _ _ _ _ h).2
  have hl := congrArg List.length this
  simp only [List.length_drop, List.length_nil] at hl
  omega

end Verif.JsonCode
