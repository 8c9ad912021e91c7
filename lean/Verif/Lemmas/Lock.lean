import Verif.Spec.Lock
/-!
# Lemmas on the lock file
-/
namespace Verif.Lock
open Spec.Lock

variable {text : Nat → Bytes}

/-- The phases in which a process holds the lock. -/
def Phase.holds : Phase → Bool
  | .locked | .numbered | .written | .running => true
  | _ => false

/-- The lock belongs to the process that is in a phase with the lock. -/
def Inv (s : Sys) : Prop := ∀ p, (s.phase p).holds = true ↔ s.owner = some p

theorem inv_new (file : Option Bytes) : Inv (Sys.new file) := by
  intro p
  constructor
  · intro h; cases h
  · intro h; cases h

theorem inv_file {s : Sys} {f : Option Bytes} (h : Inv s) : Inv { s with file := f } := h

theorem inv_setPhase {s : Sys} {p : Nat} {x : Phase} (h : Inv s) (hx : x.holds = (s.phase p).holds) :
    Inv (s.setPhase p x) := by
  intro q
  show ((if q = p then x else s.phase q).holds = true) ↔ s.owner = some q
  split
  · next e => subst e; rw [hx]; exact h q
  · exact h q

theorem inv_close {s : Sys} {p : Nat} {x : Phase} (h : Inv s) (hx : x.holds = false) : Inv (s.close p x) := by
  intro q
  show ((if q = p then x else s.phase q).holds = true) ↔ (if s.owner = some p then none else s.owner) = some q
  split
  · next e =>
    subst e
    rw [hx]
    constructor
    · intro h; cases h
    · intro h; split at h
      · cases h
      · next hn => exact absurd h hn
  · next e =>
    rw [h q]
    split
    · next ho =>
      constructor
      · intro h'; rw [ho] at h'; exact absurd (Option.some.inj h').symm e
      · intro h'; cases h'
    · exact Iff.rfl

theorem inv_step {s : Sys} (h : Inv s) (op : Op) : Inv (s.step text op).1 := by
  cases op with
  | create p ok =>
    unfold Sys.step
    dsimp only
    split
    · next hp =>
      split
      · exact inv_setPhase (inv_file h) (by show Phase.opened.holds = (s.phase p).holds; rw [hp]; rfl)
      · exact inv_setPhase h (by rw [hp]; rfl)
    · exact h
  | lock p ok =>
    unfold Sys.step
    dsimp only
    split
    · next hp =>
      split
      · next ho =>
        intro q
        show ((if q = p then Phase.locked else s.phase q).holds = true) ↔ some p = some q
        split
        · next e => subst e; exact ⟨fun _ => rfl, fun _ => rfl⟩
        · next e =>
          rw [h q, ho.2]
          exact ⟨fun h => (by cases h), fun h => absurd (Option.some.inj h).symm e⟩
      · exact inv_close h rfl
    · exact h
  | number p fail =>
    unfold Sys.step
    dsimp only
    split
    · next hp =>
      cases fail with
      | none => exact inv_setPhase (inv_file h) (by show Phase.numbered.holds = (s.phase p).holds; rw [hp]; rfl)
      | some n => exact inv_close (inv_file h) rfl
    · exact h
  | newline p ok =>
    unfold Sys.step
    dsimp only
    split
    · next hp =>
      split
      · exact inv_setPhase (inv_file h) (by show Phase.written.holds = (s.phase p).holds; rw [hp]; rfl)
      · exact inv_close h rfl
    · exact h
  | sync p ok =>
    unfold Sys.step
    dsimp only
    split
    · next hp =>
      split
      · exact inv_setPhase h (by rw [hp]; rfl)
      · exact inv_close h rfl
    · exact h
  | exit p =>
    unfold Sys.step
    dsimp only
    split
    · exact h
    · exact inv_close h rfl

theorem run_cons {s : Sys} {op : Op} {ops : List Op} :
    s.run text (op :: ops) = (((s.step text op).1.run text ops).1, (s.step text op).2 ++ ((s.step text op).1.run text ops).2) := rfl

theorem run_append {s : Sys} {a b : List Op} :
    s.run text (a ++ b) = (((s.run text a).1.run text b).1, (s.run text a).2 ++ ((s.run text a).1.run text b).2) := by
  induction a generalizing s with
  | nil => rfl
  | cons op a ih => rw [List.cons_append, run_cons, run_cons, ih, List.append_assoc]

theorem inv_run {s : Sys} (h : Inv s) (ops : List Op) : Inv (s.run text ops).1 := by
  induction ops generalizing s with
  | nil => exact h
  | cons op ops ih => rw [run_cons]; exact ih (inv_step h op)

/-! ## The events tell who runs -/

/-- A client that starts did not run before. -/
theorem started_before {s : Sys} {op : Op} {q : Nat} (h : Ev.started q ∈ (s.step text op).2) :
    s.phase q ≠ .running := by
  cases op with
  | create p ok =>
    unfold Sys.step at h
    dsimp only at h
    split at h
    · split at h
      · cases h
      · cases h with | tail _ h => cases h
    · cases h
  | lock p ok =>
    unfold Sys.step at h
    dsimp only at h
    split at h
    · split at h
      · cases h
      · cases h with | tail _ h => cases h
    · cases h
  | number p fail =>
    unfold Sys.step at h
    dsimp only at h
    split at h
    · cases fail with
      | none => cases h
      | some n => cases h with | tail _ h => cases h
    · cases h
  | newline p ok =>
    unfold Sys.step at h
    dsimp only at h
    split at h
    · split at h
      · cases h
      · cases h with | tail _ h => cases h
    · cases h
  | sync p ok =>
    unfold Sys.step at h
    dsimp only at h
    split at h
    · next hp =>
      split at h
      · cases h with
        | head => rw [hp]; exact nofun
        | tail _ h => cases h
      · cases h with | tail _ h => cases h
    · cases h
  | exit p =>
    unfold Sys.step at h
    dsimp only at h
    split at h
    · cases h
    · cases h with | tail _ h => cases h

/-- What a step does to the running clients. -/
theorem step_running {s : Sys} {op : Op} {q : Nat} :
    (Ev.started q ∈ (s.step text op).2 → (s.step text op).2 = [.started q] ∧ ((s.step text op).1).phase q = .running)
    ∧ (Ev.ended q ∈ (s.step text op).2 → ((s.step text op).1).phase q ≠ .running)
    ∧ (Ev.started q ∉ (s.step text op).2 → Ev.ended q ∉ (s.step text op).2 →
        (((s.step text op).1).phase q = .running ↔ s.phase q = .running)) := by
  have hset : ∀ (s : Sys) (p : Nat) (x : Phase), s.phase p ≠ .running → x ≠ .running →
      ((s.setPhase p x).phase q = .running ↔ s.phase q = .running) := by
    intro s p x hp hx
    show (if q = p then x else s.phase q) = .running ↔ _
    split
    · next e => subst e; exact ⟨fun h => absurd h hx, fun h => absurd h hp⟩
    · exact Iff.rfl
  cases op with
  | create p ok =>
    unfold Sys.step
    dsimp only
    split
    · next hp =>
      have hp' : s.phase p ≠ .running := by rw [hp]; exact fun h => by cases h
      split
      · exact ⟨fun h => (by cases h), fun h => (by cases h),
          fun _ _ => hset { s with file := some [] } p _ hp' (fun h => by cases h)⟩
      · refine ⟨fun h => ?_, fun h => ?_, fun _ _ => hset s p _ hp' (fun h => by cases h)⟩
        · cases h with | tail _ h => cases h
        · cases h with | tail _ h => cases h
    · exact ⟨fun h => (by cases h), fun h => (by cases h), fun _ _ => Iff.rfl⟩
  | lock p ok =>
    unfold Sys.step
    dsimp only
    split
    · next hp =>
      have hp' : s.phase p ≠ .running := by rw [hp]; exact fun h => by cases h
      split
      · exact ⟨fun h => (by cases h), fun h => (by cases h),
          fun _ _ => hset { s with owner := some p } p _ hp' (fun h => by cases h)⟩
      · refine ⟨fun h => ?_, fun h => ?_, fun _ _ => hset s p _ hp' (fun h => by cases h)⟩
        · cases h with | tail _ h => cases h
        · cases h with | tail _ h => cases h
    · exact ⟨fun h => (by cases h), fun h => (by cases h), fun _ _ => Iff.rfl⟩
  | number p fail =>
    unfold Sys.step
    dsimp only
    split
    · next hp =>
      have hp' : s.phase p ≠ .running := by rw [hp]; exact fun h => by cases h
      cases fail with
      | none =>
        exact ⟨fun h => (by cases h), fun h => (by cases h),
          fun _ _ => hset { s with file := _ } p _ hp' (fun h => by cases h)⟩
      | some n =>
        refine ⟨fun h => ?_, fun h => ?_, fun _ _ => hset s p _ hp' (fun h => by cases h)⟩
        · cases h with | tail _ h => cases h
        · cases h with | tail _ h => cases h
    · exact ⟨fun h => (by cases h), fun h => (by cases h), fun _ _ => Iff.rfl⟩
  | newline p ok =>
    unfold Sys.step
    dsimp only
    split
    · next hp =>
      have hp' : s.phase p ≠ .running := by rw [hp]; exact fun h => by cases h
      split
      · exact ⟨fun h => (by cases h), fun h => (by cases h),
          fun _ _ => hset { s with file := _ } p _ hp' (fun h => by cases h)⟩
      · refine ⟨fun h => ?_, fun h => ?_, fun _ _ => hset s p _ hp' (fun h => by cases h)⟩
        · cases h with | tail _ h => cases h
        · cases h with | tail _ h => cases h
    · exact ⟨fun h => (by cases h), fun h => (by cases h), fun _ _ => Iff.rfl⟩
  | sync p ok =>
    unfold Sys.step
    dsimp only
    split
    · next hp =>
      have hp' : s.phase p ≠ .running := by rw [hp]; exact fun h => by cases h
      split
      · refine ⟨fun h => ?_, fun h => ?_, fun h _ => ?_⟩
        · have e : q = p := by
            rcases List.mem_singleton.1 h with h; injection h
          subst e
          exact ⟨rfl, if_pos rfl⟩
        · cases h with | tail _ h => cases h
        · show (if q = p then Phase.running else s.phase q) = .running ↔ _
          have e : q ≠ p := fun e => h (by rw [e]; exact List.mem_singleton.2 rfl)
          rw [if_neg e]
      · refine ⟨fun h => ?_, fun h => ?_, fun _ _ => hset s p _ hp' (fun h => by cases h)⟩
        · cases h with | tail _ h => cases h
        · cases h with | tail _ h => cases h
    · exact ⟨fun h => (by cases h), fun h => (by cases h), fun _ _ => Iff.rfl⟩
  | exit p =>
    unfold Sys.step
    dsimp only
    split
    · exact ⟨fun h => (by cases h), fun h => (by cases h), fun _ _ => Iff.rfl⟩
    · refine ⟨fun h => ?_, fun h => ?_, fun _ h => ?_⟩
      · cases h with | tail _ h => cases h
      · have e : q = p := by
          rcases List.mem_singleton.1 h with h; injection h
        subst e
        show (if q = q then Phase.idle else s.phase q) ≠ .running
        rw [if_pos rfl]; exact fun h => by cases h
      · have e : q ≠ p := fun e => h (by rw [e]; exact List.mem_singleton.2 rfl)
        show (if q = p then Phase.idle else s.phase q) = .running ↔ _
        rw [if_neg e]

/-- A client runs according to the events iff it is in the last phase. -/
theorem runs_iff {s : Sys} {ops : List Op} {q : Nat} (hs : s.phase q ≠ .running) :
    Runs q (s.run text ops).2 ↔ (s.run text ops).1.phase q = .running := by
  suffices h : ∀ (ops : List Op) (s : Sys),
      (s.run text ops).1.phase q = .running ↔
        (Runs q (s.run text ops).2 ∨ (s.phase q = .running ∧ Ev.ended q ∉ (s.run text ops).2)) by
    rw [h ops s]
    exact ⟨fun h => .inl h, fun h => h.elim id (fun h => absurd h.1 hs)⟩
  intro ops
  induction ops with
  | nil =>
    intro s
    constructor
    · intro h; exact .inr ⟨h, List.not_mem_nil⟩
    · rintro (⟨a, b, h, -⟩ | h)
      · exact absurd (congrArg List.length h) (by simp [Sys.run])
      · exact h.1
  | cons op ops ih =>
    intro s
    rw [run_cons]
    dsimp only
    rw [ih]
    obtain ⟨h1, h2, h3⟩ := step_running (text := text) (s := s) (op := op) (q := q)
    by_cases hst : Ev.started q ∈ (s.step text op).2
    · obtain ⟨e, hr⟩ := h1 hst
      rw [e]
      constructor
      · rintro (⟨a, b, h, hb⟩ | ⟨-, h⟩)
        · exact .inl ⟨[.started q] ++ a, b, by rw [h]; rfl, hb⟩
        · exact .inl ⟨[], _, rfl, h⟩
      · rintro (⟨a, b, h, hb⟩ | ⟨-, h⟩)
        · cases a with
          | nil =>
            rw [List.nil_append] at h
            injection h with _ h
            rw [← h] at hb
            exact .inr ⟨hr, hb⟩
          | cons x a =>
            rw [List.cons_append] at h
            injection h with _ h
            exact .inl ⟨a, b, h, hb⟩
        · exact .inr ⟨hr, fun hh => h (List.mem_append.2 (.inr hh))⟩
    · by_cases hen : Ev.ended q ∈ (s.step text op).2
      · have hr := h2 hen
        constructor
        · rintro (⟨a, b, h, hb⟩ | ⟨h, -⟩)
          · exact .inl ⟨_ ++ a, b, by rw [h, List.append_assoc], hb⟩
          · exact absurd h hr
        · rintro (⟨a, b, h, hb⟩ | ⟨-, h⟩)
          · rcases List.append_eq_append_iff.1 h with ⟨c, e1, e2⟩ | ⟨c, e1, e2⟩
            · exact .inl ⟨c, b, e2, hb⟩
            · cases c with
              | nil =>
                rw [List.nil_append] at e2
                exact .inl ⟨[], b, e2.symm, hb⟩
              | cons x c =>
                rw [List.cons_append] at e2
                injection e2 with e2 _
                exact absurd (by rw [e1, ← e2]; exact List.mem_append.2 (.inr (List.mem_cons_self ..))) hst
          · exact absurd (List.mem_append.2 (.inl hen)) h
      · rw [h3 hst hen]
        constructor
        · rintro (⟨a, b, h, hb⟩ | ⟨h, hb⟩)
          · exact .inl ⟨_ ++ a, b, by rw [h, List.append_assoc], hb⟩
          · exact .inr ⟨h, fun hh => (List.mem_append.1 hh).elim hen hb⟩
        · rintro (⟨a, b, h, hb⟩ | ⟨h, hb⟩)
          · rcases List.append_eq_append_iff.1 h with ⟨c, e1, e2⟩ | ⟨c, e1, e2⟩
            · exact .inl ⟨c, b, e2, hb⟩
            · cases c with
              | nil =>
                rw [List.nil_append] at e2
                exact .inl ⟨[], b, e2.symm, hb⟩
              | cons x c =>
                rw [List.cons_append] at e2
                injection e2 with e2 _
                exact absurd (by rw [e1, ← e2]; exact List.mem_append.2 (.inr (List.mem_cons_self ..))) hst
          · exact .inr ⟨h, fun hh => hb (List.mem_append.2 (.inr hh))⟩

/-! ## The contents -/

theorem writeAt_empty (d : Bytes) : writeAt d 0 [] = d := by
  simp [writeAt]

theorem writeAt_end (d : Bytes) (x : Bytes) : writeAt d x.length x = x ++ d := by
  simp [writeAt]

/-- The phases of a process that is not about to write. -/
def Phase.quiet : Phase → Bool
  | .idle | .refused | .running => true
  | _ => false

/-- What the file holds while `p` is the only process that writes. -/
def content (text : Nat → Bytes) (p : Nat) : Phase → Option Bytes → Prop
  | .opened, f | .locked, f => f = some []
  | .numbered, f => f = some (text p)
  | .written, f | .running, f => f = some (text p ++ [10])
  | _, _ => True

/-- The others are quiet, and the file holds what `p` has written. -/
def Alone (text : Nat → Bytes) (p : Nat) (s : Sys) : Prop :=
  (∀ q, q ≠ p → (s.phase q).quiet = true) ∧ content text p (s.phase p) s.file

theorem alone_step {s : Sys} {p : Nat} {op : Op} (h : Alone text p s)
    (hc : ∀ q ok, op = .create q ok → q = p ∧ s.phase p ≠ .idle) : Alone text p (s.step text op).1 := by
  obtain ⟨h1, h2⟩ := h
  have other : ∀ (f : Option Bytes) (o : Option Nat) (q : Nat) (x : Phase), q ≠ p → x.quiet = true → f = s.file →
      Alone text p ⟨f, o, fun r => if r = q then x else s.phase r⟩ := by
    intro f o q x hq hx hf
    refine ⟨fun r hr => ?_, ?_⟩
    · show (if r = q then x else s.phase r).quiet = true
      split
      · exact hx
      · exact h1 r hr
    · show content text p (if p = q then x else s.phase p) f
      rw [if_neg (fun e => hq e.symm), hf]
      exact h2
  have own : ∀ (f : Option Bytes) (o : Option Nat) (x : Phase), content text p x f →
      Alone text p ⟨f, o, fun r => if r = p then x else s.phase r⟩ := by
    intro f o x hx
    refine ⟨fun r hr => ?_, ?_⟩
    · show (if r = p then x else s.phase r).quiet = true
      rw [if_neg hr]; exact h1 r hr
    · show content text p (if p = p then x else s.phase p) f
      rw [if_pos rfl]; exact hx
  have nq : ∀ q, q ≠ p → s.phase q ≠ .opened ∧ s.phase q ≠ .locked ∧ s.phase q ≠ .numbered ∧ s.phase q ≠ .written := by
    intro q hq
    have := h1 q hq
    refine ⟨?_, ?_, ?_, ?_⟩ <;> intro e <;> rw [e] at this <;> cases this
  cases op with
  | create q ok =>
    obtain ⟨e, hi⟩ := hc q ok rfl
    subst e
    unfold Sys.step
    dsimp only
    rw [if_neg hi]
    exact ⟨h1, h2⟩
  | lock q ok =>
    unfold Sys.step
    dsimp only
    split
    · next hq =>
      have e : q = p := Classical.byContradiction fun e => (nq q e).1 hq
      subst e
      rw [hq] at h2
      split
      · exact own _ _ .locked h2
      · exact own _ _ .refused trivial
    · exact ⟨h1, h2⟩
  | number q fail =>
    unfold Sys.step
    dsimp only
    split
    · next hq =>
      have e : q = p := Classical.byContradiction fun e => (nq q e).2.1 hq
      subst e
      rw [hq] at h2
      have h2 : s.file = some [] := h2
      cases fail with
      | none =>
        refine own _ _ .numbered ?_
        rw [h2]
        show some (writeAt _ 0 []) = _
        rw [writeAt_empty]
      | some n => exact own _ _ .refused trivial
    · exact ⟨h1, h2⟩
  | newline q ok =>
    unfold Sys.step
    dsimp only
    split
    · next hq =>
      have e : q = p := Classical.byContradiction fun e => (nq q e).2.2.1 hq
      subst e
      rw [hq] at h2
      have h2 : s.file = some (text q) := h2
      split
      · refine own _ _ .written ?_
        rw [h2]
        show some (writeAt _ _ _) = _
        rw [writeAt_end]
      · exact own _ _ .refused trivial
    · exact ⟨h1, h2⟩
  | sync q ok =>
    unfold Sys.step
    dsimp only
    split
    · next hq =>
      have e : q = p := Classical.byContradiction fun e => (nq q e).2.2.2 hq
      subst e
      rw [hq] at h2
      split
      · exact own _ _ .running h2
      · exact own _ _ .refused trivial
    · exact ⟨h1, h2⟩
  | exit q =>
    unfold Sys.step
    dsimp only
    split
    · exact ⟨h1, h2⟩
    · by_cases e : q = p
      · subst e; exact own _ _ .idle trivial
      · exact other _ _ q .idle e rfl rfl

theorem alone_run {s : Sys} {p : Nat} {ops : List Op} (h : Alone text p s) (hc : ∀ q ok, .create q ok ∉ ops) :
    Alone text p (s.run text ops).1 := by
  induction ops generalizing s with
  | nil => exact h
  | cons op ops ih =>
    rw [run_cons]
    refine ih (alone_step h ?_) (fun q ok hh => hc q ok (List.mem_cons_of_mem _ hh))
    intro q ok e
    exact absurd (e ▸ List.mem_cons_self ..) (hc q ok)

end Verif.Lock
