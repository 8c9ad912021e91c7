import Verif.Lemmas.Lock
/-!
# C90: the lock file

Any number of processes use the same lock file; `ops` is any interleaving of their system calls, with any failures and
with ends (also crashes) at any moment.
-/
namespace Verif.Lock
open Spec.Lock

variable (text : Nat → Bytes)

/-- **C90.** At no moment of any history do two clients run with the same lock file. -/
theorem C90_exclusive (file : Option Bytes) (ops : List Op) (p q : Nat) :
    Runs p ((Sys.new file).run text ops).2 → Runs q ((Sys.new file).run text ops).2 → p = q := by
  intro hp hq
  have np : ∀ r, (Sys.new file).phase r ≠ .running := fun r h => by cases h
  rw [runs_iff (np _)] at hp hq
  have inv := inv_run (text := text) (inv_new file) ops
  have a := (inv p).1 (by rw [hp]; rfl)
  have b := (inv q).1 (by rw [hq]; rfl)
  exact Option.some.inj (a.symm.trans b)

/-- **C90.** A client runs from the moment it started until its process ends: no other process can stop it. -/
theorem C90_kept (file : Option Bytes) (ops more : List Op) (p : Nat)
    (h : Runs p ((Sys.new file).run text ops).2) (hx : .exit p ∉ more) :
    Runs p ((Sys.new file).run text (ops ++ more)).2 := by
  have np : ∀ r, (Sys.new file).phase r ≠ .running := fun r h => by cases h
  rw [runs_iff (np _)] at h ⊢
  rw [run_append]
  dsimp only
  generalize ((Sys.new file).run text ops).1 = s at h
  induction more generalizing s with
  | nil => exact h
  | cons op more ih =>
    rw [run_cons]
    refine ih (fun hh => hx (List.mem_cons_of_mem _ hh)) _ ?_
    obtain ⟨h1, h2, h3⟩ := step_running (text := text) (s := s) (op := op) (q := p)
    by_cases hst : Ev.started p ∈ (s.step text op).2
    · exact (h1 hst).2
    · refine (h3 hst ?_).2 h
      intro he
      have : op = .exit p := by
        cases op with
        | exit q =>
          unfold Sys.step at he
          dsimp only at he
          split at he
          · cases he
          · have := List.mem_singleton.1 he
            injection this with this
            rw [this]
        | _ =>
          exfalso
          unfold Sys.step at he
          dsimp only at he
          (repeat' split at he) <;> first | (cases he; done) | (have := List.mem_singleton.1 he; cases this)
      exact hx (this ▸ List.mem_cons_self ..)

/-- **C90.** An attempt to lock that meets no failure of the system is refused only if another process holds the lock:
that process runs, or is between its own lock and the end of its start. -/
theorem C90_refused (file : Option Bytes) (ops : List Op) (p : Nat) :
    let s := ((Sys.new file).run text ops).1
    .refused p ∈ (s.step text (.lock p true)).2 →
      ∃ q, q ≠ p ∧ (s.phase q = .running ∨ s.phase q = .locked ∨ s.phase q = .numbered ∨ s.phase q = .written) := by
  intro s h
  have inv : Inv s := inv_run (text := text) (inv_new file) ops
  unfold Sys.step at h
  dsimp only at h
  split at h
  · next hp =>
    split at h
    · cases h
    · next ho =>
      cases hq : s.owner with
      | none => exact absurd ⟨rfl, hq⟩ ho
      | some q =>
        have hh := (inv q).2 hq
        refine ⟨q, fun e => ?_, ?_⟩
        · rw [e, hp] at hh; cases hh
        · revert hh
          cases s.phase q <;> simp [Phase.holds]
  · cases h

/-- **C90.** While a client runs, every other process that tries to start is refused. -/
theorem C90_second (file : Option Bytes) (ops : List Op) (p q : Nat) (hr : Runs p ((Sys.new file).run text ops).2)
    (ok : Bool) :
    let s := ((Sys.new file).run text ops).1
    s.phase q = .opened → (s.step text (.lock q ok)).2 = [.refused q] := by
  intro s hq
  have np : ∀ r, (Sys.new file).phase r ≠ .running := fun r h => by cases h
  rw [runs_iff (np _)] at hr
  have inv : Inv s := inv_run (text := text) (inv_new file) ops
  have ho := (inv p).1 (by rw [hr]; rfl)
  unfold Sys.step
  dsimp only
  rw [if_pos hq, if_neg (by rw [ho]; rintro ⟨-, h⟩; cases h)]

/-- **C90.** Whatever happened before, when every process has ended or has been refused, the next start that meets no
failure succeeds, and the file then holds the number of the process on one line: a lock never survives its process, also
when the file does. -/
theorem C90_restart (file : Option Bytes) (ops : List Op) (p : Nat)
    (hq : ∀ q, (((Sys.new file).run text ops).1).phase q = .idle ∨ (((Sys.new file).run text ops).1).phase q = .refused)
    (hp : (((Sys.new file).run text ops).1).phase p = .idle) :
    let r := (Sys.new file).run text (ops ++ startOps p)
    Runs p r.2 ∧ r.1.file = some (text p ++ [10]) := by
  intro r
  have np : ∀ r, (Sys.new file).phase r ≠ .running := fun r h => by cases h
  have inv := inv_run (text := text) (inv_new file) ops
  show Runs p ((Sys.new file).run text (ops ++ startOps p)).2 ∧ _
  rw [runs_iff (np _), show r = (Sys.new file).run text (ops ++ startOps p) from rfl, run_append]
  dsimp only
  generalize ((Sys.new file).run text ops).1 = s at hq hp inv
  have ho : s.owner = none := by
    cases ho : s.owner with
    | none => rfl
    | some q =>
      have := (inv q).2 ho
      rcases hq q with h | h <;> rw [h] at this <;> cases this
  simp [startOps, Sys.run, Sys.step, Sys.setPhase, hp, ho, writeAt]

/-- **C90.** The file of a running client holds exactly its number and an end of line, if no other process was about to
write when it opened the file and none has opened the file since. -/
theorem C90_content (file : Option Bytes) (before after : List Op) (p : Nat)
    (hi : (((Sys.new file).run text before).1).phase p = .idle)
    (hq : ∀ q, q ≠ p → (((Sys.new file).run text before).1).phase q ∈ [Phase.idle, .refused, .running])
    (ha : ∀ q ok, .create q ok ∉ after) :
    let r := (Sys.new file).run text (before ++ .create p true :: after)
    Runs p r.2 → r.1.file = some (text p ++ [10]) := by
  intro r hr
  have np : ∀ r, (Sys.new file).phase r ≠ .running := fun r h => by cases h
  have hr : Runs p ((Sys.new file).run text (before ++ .create p true :: after)).2 := hr
  rw [runs_iff (np _)] at hr
  have er : r = (Sys.new file).run text (before ++ .create p true :: after) := rfl
  rw [er]
  rw [run_append, run_cons] at hr ⊢
  dsimp only at hr ⊢
  generalize ((Sys.new file).run text before).1 = s at hi hq hr
  have h0 : Alone text p (s.step text (.create p true)).1 := by
    unfold Sys.step
    dsimp only
    rw [if_pos hi, if_pos rfl]
    refine ⟨fun q h => ?_, ?_⟩
    · show (if q = p then Phase.opened else s.phase q).quiet = true
      rw [if_neg h]
      have := hq q h
      revert this
      cases s.phase q <;> simp [Phase.quiet]
    · show content text p (if p = p then Phase.opened else s.phase p) (some [])
      rw [if_pos rfl]; rfl
  generalize (s.step text (.create p true)).1 = t at h0 hr
  have h1 : Alone text p (t.run text after).1 := alone_run h0 ha
  have h2 := h1.2
  rw [hr] at h2
  exact h2

/-- **C90 (finding).** The file is emptied before the lock is tried: whenever a second process tries to start beside a
running client it is refused, the client goes on, and its number is gone from the file. -/
theorem C90_truncated (file : Option Bytes) (ops : List Op) (p q : Nat)
    (hr : Runs p ((Sys.new file).run text ops).2) (hq : (((Sys.new file).run text ops).1).phase q = .idle) :
    let r := (Sys.new file).run text (ops ++ [.create q true, .lock q true])
    Runs p r.2 ∧ .refused q ∈ r.2 ∧ r.1.file = some [] := by
  intro r
  have np : ∀ r, (Sys.new file).phase r ≠ .running := fun r h => by cases h
  have hk := C90_kept text file ops [.create q true, .lock q true] p hr (by simp)
  refine ⟨hk, ?_⟩
  rw [runs_iff (np _)] at hr
  have inv := inv_run (text := text) (inv_new file) ops
  have ho := (inv p).1 (by rw [hr]; rfl)
  rw [show r = (Sys.new file).run text (ops ++ [.create q true, .lock q true]) from rfl, run_append]
  dsimp only
  generalize ((Sys.new file).run text ops).1 = s at ho hq
  simp [Sys.run, Sys.step, Sys.setPhase, Sys.close, hq, ho]

/-! ## Concrete cases: the processes 99 and 12345 -/

/-- The numbers of the processes of the examples. -/
def exText (p : Nat) : Bytes := asc (toString p)

/-- One client runs, a second one is refused, the first one ends, the third one runs. -/
example :
    ((Sys.new (some (asc "old"))).run exText (startOps 99 ++ [.create 7 true, .lock 7 true, .exit 7, .exit 99] ++ startOps 12345)).2
      = [.started 99, .refused 7, .ended 7, .ended 99, .started 12345]
    ∧ ((Sys.new (some (asc "old"))).run exText (startOps 99 ++ [.create 7 true, .lock 7 true, .exit 7, .exit 99] ++ startOps 12345)).1.file
      = some (asc "12345\n") := by decide +kernel

/-- The hypotheses of `C90_kept`, `C90_second` and `C90_truncated` are met. -/
example : Runs 99 ((Sys.new none).run exText (startOps 99)).2
    ∧ ((Sys.new none).run exText (startOps 99)).1.phase 7 = .idle
    ∧ ((Sys.new none).run exText (startOps 99 ++ [.create 7 true])).1.phase 7 = .opened :=
  ⟨⟨[], [], by decide +kernel, by decide +kernel⟩, by decide +kernel, by decide +kernel⟩

/-- The hypotheses of `C90_content` are met, also beside a running client that ends in time. -/
example : ((Sys.new none).run exText (startOps 7)).1.phase 99 = .idle
    ∧ Runs 99 ((Sys.new none).run exText
        (startOps 7 ++ .create 99 true :: [.exit 7, .lock 99 true, .number 99 none, .newline 99 true, .sync 99 true])).2 :=
  ⟨by decide +kernel, ⟨[.started 7, .ended 7], [], by decide +kernel, by decide +kernel⟩⟩

/-- **C90 (finding).** Without the condition of `C90_content` the number in the file can be wrong: a process that opened
the file earlier writes its number and fails; the number of the next one is written over it. -/
theorem C90_content_mixed :
    let r := (Sys.new none).run exText [.create 12345 true, .create 99 true, .lock 12345 true, .number 12345 none,
      .newline 12345 false, .lock 99 true, .number 99 none, .newline 99 true, .sync 99 true]
    r.2 = [.refused 12345, .started 99] ∧ r.1.file = some (asc "99\n45") := by decide +kernel

/-- **C90 (finding).** A file emptied between the two writes of a starting client begins with zero bytes. -/
theorem C90_content_zeros :
    let r := (Sys.new none).run exText [.create 99 true, .lock 99 true, .number 99 none, .create 7 true, .lock 7 true,
      .newline 99 true, .sync 99 true]
    r.2 = [.refused 7, .started 99] ∧ r.1.file = some [0, 0, 10] := by decide +kernel

end Verif.Lock
