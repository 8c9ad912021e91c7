import Verif.Lemmas.Appear
import Verif.Lemmas.Found
/-!
# Lemmas: the service table while a report is put into it
-/
namespace Verif.Appear
open Verif Verif.Cadence Verif.CmdHandler Verif.SvcTable Verif.Spec.SvcTable Verif.Spec.Cadence Verif.Spec.Appear

/-! ## Additions and what is visible -/

theorem updated_other {t t' : Table} {now : Int64} {s : Service} {static : Bool} {i : UInt16} (I : Inv t)
    (h : Updated t now s static t' i) {k : ServiceIdentifier} (hk : s.toIdentifier ≠ k) : t'.find k = t.find k := by
  cases h with
  | known i e v w hi he hv hw =>
    simp only [Table.find]
    cases hj : t.idMap.get k with
    | none => rfl
    | some j =>
      simp only [AMap.get_insert]
      rw [if_neg]
      rintro rfl
      obtain ⟨e1, h1, h2⟩ := I.back _ _ hi
      obtain ⟨e2, h3, h4⟩ := I.back _ _ hj
      rw [h1] at h3
      injection h3 with h3
      subst h3
      exact hk (h2.symm.trans h4)
  | fresh i hn hi =>
    simp only [Table.find, AMap.get_insert, if_neg (Ne.symm hk)]
    cases hj : t.idMap.get k with
    | none => rfl
    | some j =>
      simp only
      rw [if_neg]
      rintro rfl
      obtain ⟨e2, h3, h4⟩ := I.back _ _ hj
      rw [hi] at h3; cases h3

theorem updated_same {t t' : Table} {now : Int64} {s : Service} {static : Bool} {i : UInt16}
    (h : Updated t now s static t' i) {e : Elem} (he : t.find s.toIdentifier = some e) (hv : e.visible = true) :
    ∃ e', t'.find s.toIdentifier = some e' ∧ e'.service = s ∧ e'.visible = true := by
  cases h with
  | known i e0 v w hi he0 hv' hw =>
    have : e0 = e := by
      simp only [Table.find, hi, he0] at he
      injection he
    subst this
    refine ⟨e0.update now s true, ?_, rfl, ?_⟩
    · simp only [Table.find, hi, AMap.get_insert, if_true]
    · unfold Elem.visible Elem.update at *
      dsimp only
      split
      · rfl
      · rename_i hs
        rw [if_neg hs] at hv
        exact hv
  | fresh i hn hi =>
    simp only [Table.find, hn] at he
    cases he

/-- Additions, no other operation. -/
theorem adds_keep {farm : Bytes → UInt64} {now : Int64} {s : Service} (l : List Service) : ∀ {t t' : Table}, Inv t →
    Services (l.map (TOp.add now ·)) → t.run farm (l.map (TOp.add now ·)) = some t' →
    (∀ s' ∈ l, s'.toIdentifier = s.toIdentifier → s' = s) → (∃ i, (i, s) ∈ t.visible) → ∃ i, (i, s) ∈ t'.visible := by
  induction l with
  | nil =>
    intro t t' _ _ h _ hv
    cases h
    exact hv
  | cons s1 l ih =>
    intro t t' I hs h hf hv
    obtain ⟨hs1, hs2⟩ := services_cons (op := TOp.add now s1) (ops := l.map (TOp.add now ·)) hs
    simp only [List.map_cons, Table.run] at h
    split at h
    · rename_i t1 h1
      have I1 := inv_step I hs1 h1
      refine ih I1 hs2 h (fun s' hs' => hf s' (List.mem_cons_of_mem _ hs')) ?_
      rcases step_cases h1 with ⟨now', s2, static, i, h2, h3⟩ | ⟨now', h2, _⟩
      · cases h2
        rw [visible_find I] at hv
        obtain ⟨hc, e, e1, e2, e3⟩ := hv
        rw [visible_find I1]
        refine ⟨hc, ?_⟩
        by_cases hid : s1.toIdentifier = s.toIdentifier
        · have := hf s1 List.mem_cons_self hid
          subst this
          exact updated_same h3 e1 e3
        · exact ⟨e, (updated_other I h3 hid).trans e1, e2, e3⟩
      · cases h2
    · cases h

theorem adds_absent {farm : Bytes → UInt64} {now : Int64} {s : Service} (l : List Service) : ∀ {t t' : Table}, Inv t →
    Services (l.map (TOp.add now ·)) → t.run farm (l.map (TOp.add now ·)) = some t' →
    (∀ s' ∈ l, s'.toIdentifier ≠ s.toIdentifier) → (∀ i, (i, s) ∉ t.visible) → ∀ i, (i, s) ∉ t'.visible := by
  induction l with
  | nil =>
    intro t t' _ _ h _ hv
    cases h
    exact hv
  | cons s1 l ih =>
    intro t t' I hs h hf hv
    obtain ⟨hs1, hs2⟩ := services_cons (op := TOp.add now s1) (ops := l.map (TOp.add now ·)) hs
    simp only [List.map_cons, Table.run] at h
    split at h
    · rename_i t1 h1
      have I1 := inv_step I hs1 h1
      refine ih I1 hs2 h (fun s' hs' => hf s' (List.mem_cons_of_mem _ hs')) ?_
      rcases step_cases h1 with ⟨now', s2, static, i, h2, h3⟩ | ⟨now', h2, _⟩
      · cases h2
        intro j hj
        obtain ⟨hc, e, e1, e2, e3⟩ := (visible_find I1 s).mp ⟨j, hj⟩
        rw [updated_other I h3 (hf s1 List.mem_cons_self)] at e1
        obtain ⟨k, hk⟩ := (visible_find I s).mpr ⟨hc, e, e1, e2, e3⟩
        exact hv k hk
      · cases h2
    · cases h

/-! ## One step and its report -/

theorem process_published (h : H) (now : Nat) (m : Msg) :
    (h.processEvent now m).2.filterMap (fun e => match e with | .published i n => some (i, n) | _ => none) = [] := by
  have hn : h.scanNetwork.2.filterMap (fun e => match e with | .published i n => some (i, n) | _ => none) = [] := by
    unfold H.scanNetwork
    split <;> rfl
  cases m with
  | scanCompleted => rfl
  | command c =>
    cases c with
    | resetServiceTable => rfl
    | scanNetwork => exact hn
    | periodicNetworkScan =>
      rw [periodic_eq]
      split
      · exact hn
      · rfl

theorem published_map (now : Nat) (l : List HEv)
    (h : l.filterMap (fun e => match e with | .published i n => some (i, n) | _ => none) = []) :
    published (stamped now l) = [] := by
  induction l with
  | nil => rfl
  | cons e l ih =>
    cases e with
    | published i n => cases h
    | _ => exact ih h

theorem handles_published (now n : Nat) : ∀ h : H,
    (h.run (List.replicate n (.handle now))).2.filterMap
      (fun e => match e with | .published i n => some (i, n) | _ => none) = [] := by
  induction n with
  | zero => intro h; rfl
  | succ n ih =>
    intro h
    rw [List.replicate_succ]
    simp only [H.run]
    rw [List.filterMap_append, ih, List.append_nil]
    simp only [H.step]
    split
    · split
      · exact process_published _ _ _
      · split <;> rfl
    · rfl

theorem step_published {T : Timing} (s : Sys) (op : Op) : published (s.step T op).2 = [] ∨
    ((s.step T op).1.now = s.now ∧ ∃ i n, published (s.step T op).2 = [(s.now, i, n)]) := by
  cases op with
  | wait d => exact .inl rfl
  | tick =>
    refine .inl (published_map s.now _ ?_)
    simp only [H.step]
    split
    · split <;> rfl
    · rfl
  | ask o c =>
    unfold Sys.step
    dsimp only
    split
    · refine .inl (published_map s.now _ ?_)
      simp only [H.step]
      split
      · split <;> rfl
      · rfl
    · exact .inl rfl
  | poll => exact .inl (published_map s.now _ (handles_published s.now _ s.h))
  | work n =>
    unfold Sys.step
    dsimp only
    split
    · rename_i i _
      simp only [H.step, H.work]
      split
      · exact .inl rfl
      · exact .inl rfl
      · rename_i m _
        exact .inr ⟨rfl, i, m, rfl⟩
      · exact .inl rfl
      · exact .inl rfl
      · exact .inl rfl
      · exact .inl rfl
    · exact .inl rfl

theorem tableOps_published (found : Nat → List Service) (clock : Nat → Int64) (evs : List (Nat × HEv)) :
    tableOps found clock evs = (published evs).flatMap fun p => reportOps (found p.2.2) (clock p.1) := by
  rw [tableOps_eq, reports_eq]
  unfold opsOf
  rw [List.flatMap_map]

theorem tableOps_append (found : Nat → List Service) (clock : Nat → Int64) (a b : List (Nat × HEv)) :
    tableOps found clock (a ++ b) = tableOps found clock a ++ tableOps found clock b := List.flatMap_append

theorem run_append {T : Timing} (a b : List Op) : ∀ s : Sys, s.run T (a ++ b) =
    (((s.run T a).1.run T b).1, (s.run T a).2 ++ ((s.run T a).1.run T b).2) := by
  induction a with
  | nil => intro s; rfl
  | cons o a ih =>
    intro s
    show (((s.step T o).1.run T (a ++ b)).1, (s.step T o).2 ++ ((s.step T o).1.run T (a ++ b)).2) = _
    rw [ih, ← List.append_assoc]
    rfl

theorem run_now {T : Timing} (b : List Op) : ∀ s : Sys, s.now ≤ (s.run T b).1.now := by
  induction b with
  | nil => intro s; exact Nat.le_refl _
  | cons o b ih =>
    intro s
    exact Nat.le_trans (step_times s o).1 (ih (s.step T o).1)

/-- A proper part of a report consists of additions. -/
theorem part_adds {services : List Service} {now : Int64} {p rest : List TOp} (h : reportOps services now = p ++ rest)
    (hr : rest ≠ []) : ∃ l : List Service, p = l.map (TOp.add now ·) ∧ ∀ s ∈ l, s ∈ services := by
  unfold reportOps at h
  obtain ⟨r', z, rfl⟩ := (List.eq_nil_or_concat rest).resolve_left hr
  rw [List.concat_eq_append, ← List.append_assoc] at h
  have h1 := List.append_inj_left' h rfl
  obtain ⟨l1, l2, e, e1, e2⟩ := List.map_eq_append_iff.mp h1
  exact ⟨l1, e1.symm, fun s hs => by rw [e]; exact List.mem_append_left _ hs⟩

/-- A reading between two states: of the table as it is, or of a part of a report. -/
theorem reads_cases {T : Timing} {found : Nat → List Service} {clock : Nat → Int64} {a : List Op} {op : Op} {p rest : List TOp}
    (h : tableOps found clock ((Sys.new T true).run T (a ++ [op])).2 =
      tableOps found clock ((Sys.new T true).run T a).2 ++ (p ++ rest)) :
    (tableOps found clock ((Sys.new T true).run T a).2 ++ p = tableOps found clock ((Sys.new T true).run T (a ++ [op])).2) ∨
    (((Sys.new T true).run T (a ++ [op])).1.now = ((Sys.new T true).run T a).1.now ∧
      ∃ (i n : Nat) (l : List Service), published ((Sys.new T true).run T (a ++ [op])).2 =
          published ((Sys.new T true).run T a).2 ++ [(((Sys.new T true).run T a).1.now, i, n)] ∧
        p = l.map (TOp.add (clock ((Sys.new T true).run T a).1.now) ·) ∧ ∀ s ∈ l, s ∈ found n) := by
  by_cases hr : rest = []
  · subst hr
    rw [List.append_nil] at h
    exact .inl h.symm
  rw [run_snoc] at h ⊢
  dsimp only at h ⊢
  rw [tableOps_append] at h
  have h := List.append_cancel_left h
  rcases step_published (T := T) ((Sys.new T true).run T a).1 op with hp | ⟨hn, i, n, hp⟩
  · rw [tableOps_published, hp] at h
    have h := h.symm
    exact absurd (List.append_eq_nil_iff.mp h).2 hr
  · rw [tableOps_published, hp, List.flatMap_singleton] at h
    obtain ⟨l, h1, h2⟩ := part_adds h hr
    exact .inr ⟨hn, i, n, l, by rw [published_append, hp], h1, h2⟩

end Verif.Appear
