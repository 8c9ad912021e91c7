import Verif.Lemmas.Logger
/-!
# C72 and C73: the log file

The specification is in `Verif/Spec/Logger.lean`. `f` are the files found when the logger is created and `calls` the calls
of the logger.
-/
namespace Verif.Log
open Verif Verif.Spec.Log

variable {w : Nat} {f : Files} {limit rot : Nat} {calls : List Call} {l : Logger}

/-- C72, C73: the files, read from the oldest backup to the log file, hold the old contents followed by the lines of the
messages that reach the level, in the order of the calls, but for a part lost at the beginning. -/
theorem C72_contents (h1 : 1 ≤ rot) (hr : rot < 2 ^ w) (h : (Logger.new f limit rot).run w calls = some l) :
    contents l.files rot <:+ contents f rot ++ (due .info calls).flatten :=
  (inv_run f limit rot w h1 hr calls [] _ l (inv_new f limit rot) h).kept

/-- C72: something is lost only when more than the limit is in the two newest files. -/
theorem C72_recent (h1 : 1 ≤ rot) (hr : rot < 2 ^ w) (h : (Logger.new f limit rot).run w calls = some l) :
    contents l.files rot = contents f rot ++ (due .info calls).flatten ∨
      limit < ((l.files.backup 1).getD [] ++ l.files.main.getD []).length := by
  rcases (inv_run f limit rot w h1 hr calls [] _ l (inv_new f limit rot) h).recent with h | ⟨d, hd, h⟩
  · exact Or.inl h
  · right; rw [hd]; exact h

/-- C72: a file is larger than the limit only if it is a single message or was already there. -/
theorem C72_size (h1 : 1 ≤ rot) (hr : rot < 2 ^ w) (h : (Logger.new f limit rot).run w calls = some l) (d : Bytes)
    (hd : IsFile l.files rot d) : d.length ≤ limit ∨ d ∈ due .info calls ∨ d = f.main.getD [] ∨ IsFile f rot d := by
  have hi := inv_run f limit rot w h1 hr calls [] _ l (inv_new f limit rot) h
  rcases hd with hd | ⟨k, hk1, hk2, hd⟩
  · obtain ⟨e, ls, he, -, hls, -, hs⟩ := hi.main
    rw [hd] at he
    injection he with he
    subst he
    rcases hs with hs | ⟨x, rfl, rfl⟩ | hs
    · exact Or.inl hs
    · exact Or.inr (Or.inl (hls.subset (by simp)))
    · exact Or.inr (Or.inr (Or.inl hs))
  · rcases hi.old k hk1 hk2 d hd with ⟨j, a, b, c⟩ | ⟨ls, hls, -, hs⟩
    · exact Or.inr (Or.inr (Or.inr (Or.inr ⟨j, a, b, c⟩)))
    · rcases hs with hs | ⟨x, rfl, rfl⟩ | hs
      · exact Or.inl hs
      · exact Or.inr (Or.inl (hls.subset (by simp)))
      · exact Or.inr (Or.inr (Or.inl hs))

/-- C72: no message is split: a file is an old backup, or consecutive lines, perhaps behind the old log file. -/
theorem C72_whole (h1 : 1 ≤ rot) (hr : rot < 2 ^ w) (h : (Logger.new f limit rot).run w calls = some l) (d : Bytes)
    (hd : IsFile l.files rot d) : IsFile f rot d ∨
      ∃ ls, ls <:+: due .info calls ∧ (d = ls.flatten ∨ d = f.main.getD [] ++ ls.flatten) := by
  have hi := inv_run f limit rot w h1 hr calls [] _ l (inv_new f limit rot) h
  rcases hd with hd | ⟨k, hk1, hk2, hd⟩
  · obtain ⟨e, ls, he, -, hls, hf, -⟩ := hi.main
    rw [hd] at he
    injection he with he
    subst he
    exact Or.inr ⟨ls, hls.isInfix, hf⟩
  · rcases hi.old k hk1 hk2 d hd with ⟨j, a, b, c⟩ | ⟨ls, hls, hf, -⟩
    · exact Or.inl (Or.inr ⟨j, a, b, c⟩)
    · exact Or.inr ⟨ls, hls, hf⟩

/-- C72: only the backups from 1 to the configured number are ever written. -/
theorem C72_count (h1 : 1 ≤ rot) (hr : rot < 2 ^ w) (h : (Logger.new f limit rot).run w calls = some l) (k : Nat)
    (hk : ¬ (1 ≤ k ∧ k ≤ rot)) : l.files.backup k = f.backup k :=
  (inv_run f limit rot w h1 hr calls [] _ l (inv_new f limit rot) h).other k hk

theorem run_fits (cs : List Call) (l l' : Logger) (d : Bytes) (hd : l.files.main = some d) (hw : l.written = d.length)
    (hfit : d.length + ((due l.level cs).flatten).length ≤ l.limit) (h : l.run w cs = some l') :
    l'.files.main = some (d ++ (due l.level cs).flatten) ∧ l'.files.backup = l.files.backup := by
  induction cs generalizing l d with
  | nil =>
    simp only [Logger.run, Option.some.injEq] at h
    subst h
    rw [due, List.flatten_nil, List.append_nil]
    exact ⟨hd, rfl⟩
  | cons c cs ih =>
    cases c with
    | setLevel s => exact ih { l with level := s } d hd hw hfit h
    | log m io =>
      simp only [Logger.run, Logger.call, Logger.log] at h
      rw [due_log] at hfit ⊢
      by_cases hs : l.level.rank ≤ m.severity.rank
      · rw [if_pos hs] at h hfit ⊢
        cases io with
        | false => cases h
        | true =>
          rw [if_pos rfl] at h
          rw [List.flatten_cons, List.length_append] at hfit
          have he : l.write w m.bytes =
              { l with files := { l.files with main := some (d ++ m.bytes) }, written := l.written + m.bytes.length } := by
            unfold Logger.write
            dsimp only
            rw [if_neg (by omega), hd, Option.getD_some]
          rw [he] at h
          have := ih { l with files := { l.files with main := some (d ++ m.bytes) }, written := l.written + m.bytes.length }
            (d ++ m.bytes) rfl (by show l.written + _ = _; rw [hw, List.length_append])
            (by show (d ++ m.bytes).length + ((due l.level cs).flatten).length ≤ l.limit; rw [List.length_append]; omega) h
          rw [List.flatten_cons, ← List.append_assoc]
          exact this
      · rw [if_neg (show ¬ m.severity.rank ≥ l.level.rank from hs)] at h
        rw [if_neg hs] at hfit ⊢
        exact ih l d hd hw hfit h

/-- C73: as long as all fits into the limit the log file is its old contents followed by exactly the lines of the messages
that reach the level, in the order of the calls, and the backups are not touched. -/
theorem C73_exact (hfit : (f.main.getD []).length + ((due .info calls).flatten).length ≤ limit)
    (h : (Logger.new f limit rot).run w calls = some l) :
    l.files.main = some (f.main.getD [] ++ (due .info calls).flatten) ∧ l.files.backup = f.backup :=
  run_fits calls (Logger.new f limit rot) l (f.main.getD []) rfl rfl hfit h

/-- C73: a message below the level changes nothing, and a file that cannot be written does no harm to it. -/
theorem C73_below (m : Msg) (io : Bool) (h : importance m.severity < importance l.level) : l.log w m io = some l := by
  rw [importance_eq, importance_eq] at h
  unfold Logger.log
  rw [if_neg (by omega)]

/-- C73: after a message that reaches the level the log file ends with its line. -/
theorem C73_written (m : Msg) (h : importance l.level ≤ importance m.severity) :
    ∃ l' d, l.log w m true = some l' ∧ l'.files.main = some (d ++ line m) := by
  rw [importance_eq, importance_eq] at h
  rw [line_eq]
  refine ⟨l.write w m.bytes, _, ?_, rfl⟩
  unfold Logger.log
  rw [if_pos (show m.severity.rank ≥ l.level.rank from h), if_pos rfl]

/-- C72: the calls abort the process iff the files cannot be written when a message that reaches the level is logged. -/
theorem C72_abort (calls : List Call) (l : Logger) : l.run w calls = none ↔ Fails l.level calls := by
  induction calls generalizing l with
  | nil => exact ⟨nofun, nofun⟩
  | cons c cs ih =>
    cases c with
    | setLevel s => exact ih { l with level := s }
    | log m io =>
      simp only [Logger.run, Logger.call, Logger.log, Fails, importance_eq]
      by_cases hs : l.level.rank ≤ m.severity.rank
      · rw [if_pos (show m.severity.rank ≥ l.level.rank from hs)]
        cases io with
        | false => exact ⟨fun _ => Or.inl ⟨hs, rfl⟩, fun _ => rfl⟩
        | true =>
          rw [if_pos rfl]
          have hlv : (l.write w m.bytes).level = l.level := by
            unfold Logger.write
            dsimp only
            split <;> rfl
          have := ih (l.write w m.bytes)
          rw [hlv] at this
          exact this.trans ⟨Or.inr, fun h => h.resolve_left (fun h => by cases h.2)⟩
      · rw [if_neg (show ¬ m.severity.rank ≥ l.level.rank from hs)]
        exact (ih l).trans ⟨Or.inr, fun h => h.resolve_left (fun h => hs h.1)⟩

/-- C72, a finding: with no backups configured a rotation takes as many rounds as there are values of `usize`, less one,
and each looks for a file. -/
theorem C72_no_backups (w : Nat) (hw : 1 ≤ w) : rotateRounds w 0 = 2 ^ w - 1 := by
  have : 2 ≤ 2 ^ w := by
    calc 2 = 2 ^ 1 := rfl
      _ ≤ 2 ^ w := Nat.pow_le_pow_right (by omega) hw
  unfold rotateRounds
  exact Nat.mod_eq_of_lt (by omega)

/-- With backups configured there are as many rounds as backups to be moved. -/
theorem C72_rounds (w rot : Nat) (h1 : 1 ≤ rot) (hr : rot < 2 ^ w) : rotateRounds w rot = rot - 1 :=
  rotateRounds_eq w rot h1 hr

namespace Example

def none_yet : Files := ⟨none, fun _ => none⟩
def msg (s : Severity) (t : String) : Msg := ⟨asc "2024-01-01 10:00:00", s, asc "a.rs", asc "7", asc t⟩

/-- The text of a line. -/
example : (msg .warn "x").bytes = asc "2024-01-01 10:00:00 WARNING [a.rs:7] x\n" := by decide +kernel
example : (msg .info "x").bytes = asc "2024-01-01 10:00:00 INFO    [a.rs:7] x\n" := by decide +kernel

/-- Four messages, one of them below the level, in a log of 80 bytes with one backup. -/
def someCalls : List Call :=
  [.log (msg .info "one") true, .log (msg .debug "two") true, .setLevel .warn, .log (msg .error "three") true,
   .log (msg .info "four") true, .log (msg .warn "five") true]

example : due .info someCalls = [(msg .info "one").bytes, (msg .error "three").bytes, (msg .warn "five").bytes] := by
  decide +kernel

/-- The hypotheses of the theorems are met: the third line rotates the log. -/
example : ((Logger.new none_yet 90 2).run 64 someCalls).map (fun l => (l.files.main, l.files.backup 1, l.files.backup 2)) =
    some (some (msg .warn "five").bytes, some ((msg .info "one").bytes ++ (msg .error "three").bytes), none) := by
  decide +kernel

/-- With a smaller limit and one backup the first line is lost. -/
example : ((Logger.new none_yet 50 1).run 64 someCalls).map (fun l => contents l.files 1) =
    some ((msg .error "three").bytes ++ (msg .warn "five").bytes) := by decide +kernel

/-- C72, a finding: a message longer than the limit makes an empty backup of an empty log file, and so drops a backup
without need. -/
theorem C72_empty_backup :
    ((Logger.new ⟨none, fun k => if k = 1 then some [65] else none⟩ 10 1).run 64 [.log (msg .info "one") true]).map
      (fun l => (l.files.main, l.files.backup 1)) = some (some (msg .info "one").bytes, some []) := by decide +kernel

example : (Logger.new none_yet 90 1).run 64 [.log (msg .debug "one") false, .log (msg .info "two") false] = none := by rfl

end Example

end Verif.Log
