import Verif.Spec.Logger
namespace Verif.Log
open Verif Verif.Spec.Log

/-- The loop of `rotate` with the number of the remaining rounds. -/
def shift : Nat → (Nat → Option Bytes) → (Nat → Option Bytes)
  | 0, b => b
  | n + 1, b => shift n (moveBackup b (n + 1) (n + 2))

theorem importance_eq (s : Severity) : importance s = s.rank := by cases s <;> rfl

theorem label_eq (s : Severity) : label s = s.name := by cases s <;> rfl

theorem line_eq (m : Msg) : line m = m.bytes := by
  unfold line Msg.bytes
  rw [label_eq, show asc " " = [0x20] by decide +kernel, show asc " [" = [0x20, 0x5b] by decide +kernel,
    show asc ":" = [0x3a] by decide +kernel, show asc "] " = [0x5d, 0x20] by decide +kernel,
    show asc "\n" = [0x0a] by decide +kernel]

theorem due_log (level : Severity) (m : Msg) (io : Bool) (cs : List Call) : due level (.log m io :: cs) =
    if level.rank ≤ m.severity.rank then m.bytes :: due level cs else due level cs := by
  rw [due, importance_eq, importance_eq, line_eq]

theorem rotateLoop_eq (w r : Nat) (hr : r < 2 ^ w) (n i : Nat) (b : Nat → Option Bytes) (h : n + i + 1 = r) :
    rotateLoop w r n i b = shift n b := by
  induction n generalizing i b with
  | zero => rfl
  | succ n ih =>
    have h1 : (2 ^ w + r - i - 1) % 2 ^ w = n + 1 := by
      rw [show 2 ^ w + r - i - 1 = n + 1 + 2 ^ w by omega, Nat.add_mod_right, Nat.mod_eq_of_lt (by omega)]
    have h2 : (2 ^ w + r - i) % 2 ^ w = n + 2 := by
      rw [show 2 ^ w + r - i = n + 2 + 2 ^ w by omega, Nat.add_mod_right, Nat.mod_eq_of_lt (by omega)]
    rw [rotateLoop, h1, h2, ih _ _ (by omega), shift]

theorem rotateRounds_eq (w r : Nat) (h1 : 1 ≤ r) (hr : r < 2 ^ w) : rotateRounds w r = r - 1 := by
  unfold rotateRounds
  rw [show 2 ^ w + r - 1 = r - 1 + 2 ^ w by omega, Nat.add_mod_right, Nat.mod_eq_of_lt (by omega)]

theorem move_at (b : Nat → Option Bytes) (n k : Nat) :
    moveBackup b (n + 1) (n + 2) k =
      if k = n + 2 then (b (n + 1)).or (b (n + 2)) else if k = n + 1 then none else b k := by
  unfold moveBackup update
  cases h : b (n + 1) with
  | none =>
    dsimp only
    by_cases h1 : k = n + 2
    · rw [if_pos h1, h1]; rfl
    · rw [if_neg h1]
      by_cases h2 : k = n + 1
      · rw [if_pos h2, h2, h]
      · rw [if_neg h2]
  | some d => rfl

theorem shift_at (n : Nat) (b : Nat → Option Bytes) (k : Nat) :
    shift n b k = if n = 0 then b k else if k = 1 then none else if 2 ≤ k ∧ k ≤ n then b (k - 1)
      else if k = n + 1 then (b n).or (b (n + 1)) else b k := by
  induction n generalizing b with
  | zero => rfl
  | succ n ih =>
    rw [shift, ih, if_neg (Nat.succ_ne_zero n)]
    by_cases hn : n = 0
    · subst hn
      rw [if_pos rfl, move_at]
      by_cases h1 : k = 1
      · subst h1; rfl
      · rw [if_neg h1, if_neg (show ¬ (2 ≤ k ∧ k ≤ 0 + 1) by omega)]
        by_cases h2 : k = 2
        · subst h2; rfl
        · rw [if_neg h2, if_neg h1]
    · rw [if_neg hn]
      by_cases h1 : k = 1
      · rw [if_pos h1, if_pos h1]
      · rw [if_neg h1, if_neg h1]
        by_cases h2 : 2 ≤ k ∧ k ≤ n
        · rw [if_pos h2, if_pos (show 2 ≤ k ∧ k ≤ n + 1 by omega), move_at, if_neg (show ¬ k - 1 = n + 2 by omega),
            if_neg (show ¬ k - 1 = n + 1 by omega)]
        · rw [if_neg h2]
          by_cases h3 : k = n + 1
          · rw [if_pos h3, if_pos (show 2 ≤ k ∧ k ≤ n + 1 by omega), move_at, move_at, if_neg (show ¬ n = n + 2 by omega),
              if_neg (show ¬ n = n + 1 by omega), if_neg (show ¬ n + 1 = n + 2 by omega), if_pos rfl, h3, Option.or_none]
            rfl
          · rw [if_neg h3, if_neg (show ¬ (2 ≤ k ∧ k ≤ n + 1) by omega), move_at]
            by_cases h4 : k = n + 2
            · rw [if_pos h4, if_pos h4]
            · rw [if_neg h4, if_neg h4, if_neg h3]

/-- The backups after a rotation. -/
theorem rotate_backup (w : Nat) (l : Logger) (h1 : 1 ≤ l.rotations) (hr : l.rotations < 2 ^ w) (k : Nat) :
    (l.rotate w).files.backup k = if k = 1 then l.files.main else if 2 ≤ k ∧ k < l.rotations then l.files.backup (k - 1)
      else if 2 ≤ k ∧ k = l.rotations then (l.files.backup (k - 1)).or (l.files.backup k) else l.files.backup k := by
  have hs : (l.rotate w).files.backup k = update (shift (l.rotations - 1) l.files.backup) 1 l.files.main k := by
    unfold Logger.rotate
    dsimp only
    rw [if_pos (show l.rotations > 0 from h1), rotateRounds_eq w _ h1 hr, rotateLoop_eq w _ hr _ _ _ (by omega)]
  rw [hs]
  unfold update
  by_cases hk : k = 1
  · rw [if_pos hk, if_pos hk]
  · rw [if_neg hk, if_neg hk, shift_at]
    by_cases h0 : l.rotations - 1 = 0
    · rw [if_pos h0, if_neg (show ¬ (2 ≤ k ∧ k < l.rotations) by omega), if_neg (show ¬ (2 ≤ k ∧ k = l.rotations) by omega)]
    · rw [if_neg h0, if_neg hk]
      by_cases h2 : 2 ≤ k ∧ k < l.rotations
      · rw [if_pos h2, if_pos (by omega)]
      · rw [if_neg h2, if_neg (show ¬ (2 ≤ k ∧ k ≤ l.rotations - 1) by omega)]
        by_cases h3 : 2 ≤ k ∧ k = l.rotations
        · rw [if_pos h3, if_pos (by omega), h3.2, show l.rotations - 1 + 1 = l.rotations by omega]
        · rw [if_neg h3, if_neg (by omega)]

theorem rotate_main (w : Nat) (l : Logger) : (l.rotate w).files.main = some [] ∧ (l.rotate w).written = 0 ∧
    (l.rotate w).limit = l.limit ∧ (l.rotate w).rotations = l.rotations ∧ (l.rotate w).level = l.level :=
  ⟨rfl, rfl, rfl, rfl, rfl⟩

theorem backups_shift (f g : Files) (d : Bytes) (n : Nat) (h1 : g.backup 1 = some d)
    (h : ∀ k, 1 ≤ k → k ≤ n → g.backup (k + 1) = f.backup k) : backups g (n + 1) = backups f n ++ d := by
  induction n with
  | zero => simp [backups, h1]
  | succ n ih =>
    rw [backups, ih (fun k a b => h k a (by omega)), h (n + 1) (by omega) (by omega), backups, List.append_assoc]

/-- A rotation keeps the order of the contents and loses only a part at the beginning. -/
theorem rotate_contents (w : Nat) (l : Logger) (h1 : 1 ≤ l.rotations) (hr : l.rotations < 2 ^ w) (d : Bytes)
    (hm : l.files.main = some d) :
    contents (l.rotate w).files l.rotations <:+ contents l.files l.rotations := by
  have hb := rotate_backup w l h1 hr
  unfold contents
  rw [(rotate_main w l).1, hm, Option.getD_some, Option.getD_some, List.append_nil]
  obtain ⟨r, hre⟩ : ∃ r, l.rotations = r + 1 := ⟨l.rotations - 1, by omega⟩
  have hb1 : (l.rotate w).files.backup 1 = some d := by rw [hb, if_pos rfl, hm]
  cases r with
  | zero =>
    rw [hre]
    simp only [backups, hb1, Option.getD_some, List.append_nil]
    exact List.suffix_append _ _
  | succ r =>
    have hs := backups_shift l.files (l.rotate w).files d r hb1 (fun k a b => by
      rw [hb, if_neg (by omega), if_pos (by omega), Nat.add_sub_cancel])
    rw [hre, backups, hs, backups, backups, hb, if_neg (by omega), if_neg (by omega), if_pos (by omega)]
    rw [show r + 1 + 1 - 1 = r + 1 from rfl]
    cases h : l.files.backup (r + 1) with
    | none =>
      rw [Option.none_or, Option.getD_none, List.nil_append, List.append_assoc]
      exact List.suffix_refl _
    | some x =>
      rw [Option.some_or, Option.getD_some, ← List.append_assoc, List.append_assoc _ (x ++ backups l.files r)]
      exact List.suffix_append _ _

/-- What holds of a logger that started with the files `f` and wrote the lines `acc`. -/
structure Inv (f : Files) (limit rot : Nat) (acc : List Bytes) (l : Logger) : Prop where
  limit_eq : l.limit = limit
  rot_eq : l.rotations = rot
  kept : contents l.files rot <:+ contents f rot ++ acc.flatten
  recent : contents l.files rot = contents f rot ++ acc.flatten ∨
    ∃ d, l.files.main = some d ∧ limit < ((l.files.backup 1).getD [] ++ d).length
  main : ∃ d ls, l.files.main = some d ∧ l.written = d.length ∧ ls <:+ acc ∧
    (d = ls.flatten ∨ d = f.main.getD [] ++ ls.flatten) ∧
    (d.length ≤ limit ∨ (∃ x, ls = [x] ∧ d = x) ∨ d = f.main.getD [])
  old : ∀ k, 1 ≤ k → k ≤ rot → ∀ d, l.files.backup k = some d → (∃ j, 1 ≤ j ∧ j ≤ rot ∧ f.backup j = some d) ∨
    ∃ ls, ls <:+: acc ∧ (d = ls.flatten ∨ d = f.main.getD [] ++ ls.flatten) ∧
      (d.length ≤ limit ∨ (∃ x, ls = [x] ∧ d = x) ∨ d = f.main.getD [])
  other : ∀ k, ¬ (1 ≤ k ∧ k ≤ rot) → l.files.backup k = f.backup k

theorem inv_new (f : Files) (limit rot : Nat) : Inv f limit rot [] (Logger.new f limit rot) := by
  have hc : contents (Logger.new f limit rot).files rot = contents f rot := by
    unfold contents Logger.new
    have : ∀ n, backups ⟨some (f.main.getD []), f.backup⟩ n = backups f n := by
      intro n
      induction n with
      | zero => rfl
      | succ n ih => rw [backups, ih]; rfl
    dsimp only
    rw [this, Option.getD_some]
  refine ⟨rfl, rfl, ?_, Or.inl ?_, ?_, ?_, fun _ _ => rfl⟩
  · rw [hc, List.flatten_nil, List.append_nil]; exact List.suffix_refl _
  · rw [hc, List.flatten_nil, List.append_nil]
  · exact ⟨f.main.getD [], [], rfl, rfl, List.suffix_refl _, Or.inr (by simp), Or.inr (Or.inr rfl)⟩
  · exact fun k h1 h2 d hd => Or.inl ⟨k, h1, h2, hd⟩

theorem contents_main (f : Files) (n : Nat) (x d data : Bytes) (h : f.main = some d) (hx : x = d ++ data) :
    contents { f with main := some x } n = contents f n ++ data := by
  have : ∀ n, backups { f with main := some x } n = backups f n := by
    intro n
    induction n with
    | zero => rfl
    | succ n ih => rw [backups, ih, backups]
  unfold contents
  rw [this, h, Option.getD_some, Option.getD_some, hx, List.append_assoc]

theorem flatten_snoc (acc : List Bytes) (x : Bytes) : (acc ++ [x]).flatten = acc.flatten ++ x := by simp

theorem infix_snoc {ls acc : List Bytes} (x : Bytes) (h : ls <:+: acc) : ls <:+: acc ++ [x] :=
  h.trans (List.prefix_append acc [x]).isInfix

theorem inv_write (f : Files) (limit rot w : Nat) (h1 : 1 ≤ rot) (hr : rot < 2 ^ w) (acc : List Bytes) (l : Logger)
    (h : Inv f limit rot acc l) (x : Bytes) : Inv f limit rot (acc ++ [x]) (l.write w x) := by
  obtain ⟨d, ls, hd, hw, hls, hflat, hsize⟩ := h.main
  by_cases hrot : l.written + x.length > l.limit
  · have hre := h.rot_eq
    have he : l.write w x = { l.rotate w with files := { (l.rotate w).files with main := some x }, written := x.length } := by
      unfold Logger.write
      dsimp only
      rw [if_pos hrot, (rotate_main w l).1, (rotate_main w l).2.1, Option.getD_some, List.nil_append, Nat.zero_add]
    have hb := rotate_backup w l (by omega) (by omega)
    have hb1 : (l.rotate w).files.backup 1 = some d := by rw [hb, if_pos rfl, hd]
    have hc := rotate_contents w l (by omega) (by omega) d hd
    rw [hre] at hc
    rw [he]
    refine ⟨h.limit_eq, h.rot_eq, ?_, Or.inr ⟨x, rfl, ?_⟩, ?_, ?_, ?_⟩
    · rw [contents_main _ _ x [] x (rotate_main w l).1 rfl, flatten_snoc, ← List.append_assoc]
      obtain ⟨a, ha⟩ := hc
      obtain ⟨b, hb⟩ := h.kept
      exact ⟨b ++ a, by rw [← hb, ← ha]; simp only [List.append_assoc]⟩
    · have hb1' : ({ (l.rotate w).files with main := some x } : Files).backup 1 = some d := hb1
      rw [show ({ l.rotate w with files := { (l.rotate w).files with main := some x }, written := x.length } : Logger).files.backup 1 =
        some d from hb1, Option.getD_some, List.length_append]
      have := h.limit_eq
      omega
    · exact ⟨x, [x], rfl, rfl, List.suffix_append _ _, Or.inl (by simp), Or.inr (Or.inl ⟨x, rfl, rfl⟩)⟩
    · intro k hk1 hk2 e hk
      have hk' : (l.rotate w).files.backup k = some e := hk
      rw [hb] at hk'
      have up : ∀ j, 1 ≤ j → j ≤ rot → l.files.backup j = some e → (∃ j, 1 ≤ j ∧ j ≤ rot ∧ f.backup j = some e) ∨
          ∃ ls, ls <:+: acc ++ [x] ∧ (e = ls.flatten ∨ e = f.main.getD [] ++ ls.flatten) ∧
            (e.length ≤ limit ∨ (∃ x, ls = [x] ∧ e = x) ∨ e = f.main.getD []) := fun j a b c =>
        (h.old j a b e c).imp id (fun ⟨ls, a, b⟩ => ⟨ls, infix_snoc x a, b⟩)
      split at hk'
      · rw [hd] at hk'
        injection hk' with hk'
        subst hk'
        exact Or.inr ⟨ls, infix_snoc x hls.isInfix, hflat, hsize⟩
      · split at hk'
        · exact up (k - 1) (by omega) (by omega) hk'
        · split at hk'
          · cases hp : l.files.backup (k - 1) with
            | none => rw [hp, Option.none_or] at hk'; exact up k hk1 hk2 hk'
            | some y =>
              rw [hp, Option.some_or] at hk'
              exact up (k - 1) (by omega) (by omega) (hp.trans hk')
          · exact up k hk1 hk2 hk'
    · intro k hk
      show (l.rotate w).files.backup k = _
      rw [hb, if_neg (by omega), if_neg (by omega), if_neg (by omega)]
      exact h.other k hk
  · have he : l.write w x = { l with files := { l.files with main := some (d ++ x) }, written := l.written + x.length } := by
      unfold Logger.write
      dsimp only
      rw [if_neg hrot, hd, Option.getD_some]
    have hc := contents_main l.files rot (d ++ x) d x hd rfl
    rw [he]
    have hl := h.limit_eq
    refine ⟨h.limit_eq, h.rot_eq, ?_, ?_, ?_, ?_, h.other⟩
    · rw [hc, flatten_snoc, ← List.append_assoc]
      obtain ⟨b, hb⟩ := h.kept
      exact ⟨b, by rw [← hb]; simp only [List.append_assoc]⟩
    · rcases h.recent with hr' | ⟨e, he, hlen⟩
      · left; rw [hc, hr', flatten_snoc, List.append_assoc]
      · right
        rw [hd] at he
        injection he with he
        subst he
        refine ⟨d ++ x, rfl, ?_⟩
        show _ < ((l.files.backup 1).getD [] ++ (d ++ x)).length
        rw [← List.append_assoc, List.length_append]
        omega
    · refine ⟨d ++ x, ls ++ [x], rfl, ?_, ?_, ?_, Or.inl ?_⟩
      · show l.written + x.length = _
        rw [hw, List.length_append]
      · obtain ⟨b, hb⟩ := hls
        exact ⟨b, by rw [← hb, List.append_assoc]⟩
      · rw [flatten_snoc]
        rcases hflat with e | e
        · left; rw [e]
        · right; rw [e, List.append_assoc]
      · rw [List.length_append]; omega
    · intro k a b e hk
      exact (h.old k a b e hk).imp id (fun ⟨ls, a, b⟩ => ⟨ls, infix_snoc x a, b⟩)

theorem inv_run (f : Files) (limit rot w : Nat) (h1 : 1 ≤ rot) (hr : rot < 2 ^ w) (cs : List Call) (acc : List Bytes)
    (l l' : Logger) (h : Inv f limit rot acc l) (hrun : l.run w cs = some l') :
    Inv f limit rot (acc ++ due l.level cs) l' := by
  induction cs generalizing acc l with
  | nil =>
    simp only [Logger.run, Option.some.injEq] at hrun
    subst hrun
    rw [due, List.append_nil]
    exact h
  | cons c cs ih =>
    cases c with
    | setLevel s =>
      have := ih acc { l with level := s } ⟨h.limit_eq, h.rot_eq, h.kept, h.recent, h.main, h.old, h.other⟩ hrun
      exact this
    | log m io =>
      simp only [Logger.run, Logger.call, Logger.log] at hrun
      rw [due_log]
      by_cases hs : l.level.rank ≤ m.severity.rank
      · rw [if_pos hs] at hrun ⊢
        cases io with
        | false => cases hrun
        | true =>
          rw [if_pos rfl] at hrun
          have hlv : (l.write w m.bytes).level = l.level := by
            unfold Logger.write
            dsimp only
            split <;> rfl
          have := ih _ _ (inv_write f limit rot w h1 hr acc l h m.bytes) hrun
          rw [hlv] at this
          rw [show acc ++ m.bytes :: due l.level cs = acc ++ [m.bytes] ++ due l.level cs by simp]
          exact this
      · rw [if_neg (show ¬ m.severity.rank ≥ l.level.rank from hs)] at hrun
        rw [if_neg hs]
        exact ih acc l h hrun

end Verif.Log
