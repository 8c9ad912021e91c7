import Verif.Lemmas.Loggers
import Verif.Lemmas.Logger
/-!
# C98: the loggers and their clones

`ops` is any history of making loggers, cloning them, setting levels and logging, that did not abort the process, `s` and `e`
what it leads to and what was done in it. The specification is in `Verif/Spec/Loggers.lean`.
-/
namespace Verif.Loggers
open Verif Verif.Log Verif.Spec.Loggers Verif.Spec.Log

theorem run_append (s : Sys) (a b : List Op) : s.run (a ++ b) =
    (s.run a).bind fun x => (x.1.run b).map fun y => (y.1, x.2 ++ y.2) := by
  induction a generalizing s with
  | nil =>
    show s.run b = (s.run b).map fun y => (y.1, [] ++ y.2)
    cases s.run b <;> rfl
  | cons op a ih =>
    show (match s.step op with | none => none | some (t, e) => (t.run (a ++ b)).map fun x => (x.1, e ++ x.2)) =
      Option.bind (match s.step op with | none => none | some (t, e) => (t.run a).map fun x => (x.1, e ++ x.2)) _
    cases s.step op with
    | none => rfl
    | some x =>
      obtain ⟨t, e⟩ := x
      dsimp only
      rw [ih t]
      cases t.run a with
      | none => rfl
      | some y =>
        obtain ⟨u, e'⟩ := y
        dsimp only [Option.bind_some, Option.map_some]
        cases u.run b with
        | none => rfl
        | some z => simp [List.append_assoc]

theorem run_inv : ∀ (ops past : List Op) (s s' : Sys) (e : List Event), Inv past s → s.run ops = some (s', e) →
    Inv (ops.reverse ++ past) s'
  | [], _, _, _, _, I, h => by cases h; exact I
  | op :: ops, past, s, s', e, I, h => by
    unfold Sys.run at h
    cases hs : s.step op with
    | none => rw [hs] at h; cases h
    | some x =>
      obtain ⟨t, e1⟩ := x
      rw [hs] at h
      dsimp only at h
      cases hr : t.run ops with
      | none => rw [hr] at h; cases h
      | some y =>
        obtain ⟨u, e2⟩ := y
        rw [hr] at h
        cases h
        have := run_inv ops (op :: past) t u e2 (I.next hs) hr
        rw [List.reverse_cons, List.append_assoc]
        exact this

variable {ops : List Op} {s : Sys} {e : List Event} {h : Nat} {k : Kind} {m : Msg} {io : Bool}

/-- Nothing happened before. -/
def start : Sys := ⟨[], []⟩

theorem run_one (s : Sys) (op : Op) : s.run [op] = s.step op := by
  unfold Sys.run
  cases s.step op with
  | none => rfl
  | some x => simp [Sys.run]

theorem run_log (hr : start.run ops = some (s, e)) (hk : kind ops.reverse h = some k) :
    start.run (ops ++ [.log h m io]) = (logWith k (level ops.reverse h) m io).map fun x => (s, e ++ x) := by
  have I := run_inv ops [] start s e Inv.start hr
  rw [List.append_nil] at I
  rw [run_append, hr, Option.bind_some, run_one]
  have hl : h < s.handles.length := by
    rw [I.count]
    have aux : ∀ past : List Op, kind past h = some k → h < made past := by
      intro past
      induction past with
      | nil => intro h; cases h
      | cons op past ih =>
        intro hk
        cases op with
        | new k' =>
          rw [kind] at hk
          rw [made]
          split at hk
          · omega
          · have := ih hk
            omega
        | clone g =>
          rw [kind] at hk
          rw [made]
          by_cases hg : g < made past
          · rw [if_pos hg]
            split at hk
            · omega
            · have := ih hk
              omega
          · rw [if_neg hg]
            rw [if_neg (fun x => hg x.2)] at hk
            exact ih hk
        | setLevel g v => exact ih hk
        | log g m io => exact ih hk
    exact aux _ hk
  obtain ⟨⟨k', c⟩, hx⟩ : ∃ x, s.handles[h]? = some x := ⟨_, List.getElem?_eq_getElem hl⟩
  obtain ⟨a1, a2⟩ := I.cell h k' c hx
  rw [hk] at a1
  cases a1
  unfold Sys.step
  dsimp only
  rw [hx]
  dsimp only
  rw [a2, Option.getD_some]
  cases logWith k (level ops.reverse h) m io with
  | none => rfl
  | some x => rfl

/-- C98: nothing is said when loggers are made and cloned and when levels are set, and this never aborts the process. -/
theorem C98_silent (hr : start.run ops = some (s, e)) (op : Op) (ho : ∀ h m io, op ≠ .log h m io) :
    ∃ s', start.run (ops ++ [op]) = some (s', e) := by
  rw [run_append, hr, Option.bind_some, run_one]
  have : ∃ s', s.step op = some (s', []) := by
    cases op with
    | new k => exact ⟨_, rfl⟩
    | clone g =>
      unfold Sys.step
      dsimp only
      cases s.handles[g]? with
      | none => exact ⟨_, rfl⟩
      | some x => exact ⟨_, rfl⟩
    | setLevel g v =>
      unfold Sys.step
      dsimp only
      cases s.handles[g]? with
      | none => exact ⟨_, rfl⟩
      | some x => exact ⟨_, rfl⟩
    | log h m io => exact absurd rfl (ho h m io)
  obtain ⟨s', hs⟩ := this
  exact ⟨s', by rw [hs]; simp⟩

theorem cstring_escape (t : Bytes) : Exports.cstring (escape t) = some (escape t ++ [0]) := by
  unfold Exports.cstring
  rw [if_neg]
  intro hz
  unfold escape at hz
  obtain ⟨b, -, hb⟩ := List.mem_flatMap.1 hz
  split at hb
  · simp at hb
  · rename_i hne
    exact hne (List.mem_singleton.1 hb).symm

/-- C98: a message below the level of the logger through which it is sent changes nothing and does no harm. -/
theorem C98_below (hr : start.run ops = some (s, e)) (hk : kind ops.reverse h = some k)
    (hb : importance m.severity < importance (level ops.reverse h)) : start.run (ops ++ [.log h m io]) = some (s, e) := by
  rw [run_log hr hk]
  rw [importance_eq, importance_eq] at hb
  have : logWith k (level ops.reverse h) m io = some [] := by
    unfold logWith
    cases k with
    | stderr p => exact if_neg (by omega)
    | syslog => dsimp only; rw [cstring_escape]; exact if_neg (by omega)
    | callback => exact if_pos hb
    | dummy => rfl
  rw [this]
  simp

/-- C98: a message that reaches the level is written to the standard error as one line, colored if the logger is to be pretty. -/
theorem C98_stderr {pretty : Bool} (hr : start.run ops = some (s, e)) (hk : kind ops.reverse h = some (.stderr pretty))
    (hb : importance (level ops.reverse h) ≤ importance m.severity) :
    start.run (ops ++ [.log h m true]) = some (s, e ++ [.stderr (if pretty then colored m else line m)]) := by
  rw [run_log hr hk]
  rw [importance_eq, importance_eq] at hb
  unfold logWith
  dsimp only
  rw [if_pos hb, if_pos rfl]
  have : stderrLine pretty m = if pretty then colored m else line m := by
    unfold stderrLine
    cases pretty with
    | false => exact (line_eq m).symm
    | true =>
      rw [if_pos rfl, if_pos rfl]
      have hd : (line m).dropLast =
          m.time ++ [0x20] ++ label m.severity ++ [0x20, 0x5b] ++ m.file ++ [0x3a] ++ m.line ++ [0x5d, 0x20] ++ m.text := by
        unfold line
        exact List.dropLast_concat
      have hp : color m.severity = paint m.severity := by cases m.severity <;> rfl
      unfold colored
      rw [hd, label_eq, hp, show asc " " = [0x20] by decide +kernel, show asc " [" = [0x20, 0x5b] by decide +kernel,
        show asc ":" = [0x3a] by decide +kernel, show asc "] " = [0x5d, 0x20] by decide +kernel,
        show asc "\n" = [0x0a] by decide +kernel, show asc "[" = [0x5b] by decide +kernel,
        show asc "m" = [0x6d] by decide +kernel, show asc "[m" = [0x5b, 0x6d] by decide +kernel]
      simp [List.append_assoc]
  rw [this]
  rfl

theorem escape_escaped : ∀ t : Bytes, Escaped t (escape t)
  | [] => .nil
  | b :: t => by
    have ih := escape_escaped t
    unfold escape at ih ⊢
    rw [List.flatMap_cons]
    by_cases hb : b = 0
    · subst hb
      exact .nul ih
    · rw [if_neg hb]
      exact .other hb ih

theorem escaped_read {t out : Bytes} (h : Escaped t out) : readC (out ++ [0]) = out := by
  unfold readC
  induction h with
  | nil => rfl
  | nul h ih =>
    rw [List.cons_append, List.takeWhile_cons_of_pos (by decide), List.cons_append, List.takeWhile_cons_of_pos (by decide), ih]
  | other hb h ih => rw [List.cons_append, List.takeWhile_cons_of_pos (by simpa using hb), ih]

theorem escaped_same {t out : Bytes} (h : Escaped t out) (hz : 0 ∉ t) : out = t := by
  induction h with
  | nil => rfl
  | nul h ih => exact absurd List.mem_cons_self hz
  | other hb h ih => rw [ih fun h => hz (List.mem_cons_of_mem _ h)]

theorem read_self {t : Bytes} (hz : 0 ∉ t) : readC (t ++ [0]) = t := by
  have := escaped_read (escape_escaped t)
  rwa [escaped_same (escape_escaped t) hz] at this

/-- C98: a message that reaches the level is given to `syslog` with the priority of its severity; the system logger reads the
place and the text, with NUL characters escaped. This never aborts the process. -/
theorem C98_syslog (hr : start.run ops = some (s, e)) (hk : kind ops.reverse h = some .syslog)
    (hb : importance (level ops.reverse h) ≤ importance m.severity) :
    ∃ memory, start.run (ops ++ [.log h m io]) = some (s, e ++ [.syslog (sysPriority m.severity) memory])
      ∧ 0 ∈ memory ∧ Escaped (place m) (readC memory) := by
  rw [run_log hr hk]
  rw [importance_eq, importance_eq] at hb
  have hp : asc "[" ++ m.file ++ asc ":" ++ m.line ++ asc "] " ++ m.text = place m := by
    unfold place
    rw [show asc ":" = [0x3a] by decide +kernel, show asc "] " = [0x5d, 0x20] by decide +kernel,
      show asc "[" = [0x5b] by decide +kernel]
  have hq : priority m.severity = sysPriority m.severity := by cases m.severity <;> rfl
  unfold logWith
  dsimp only
  rw [hp, cstring_escape]
  dsimp only
  rw [if_pos hb, hq]
  refine ⟨_, rfl, List.mem_append_right _ List.mem_cons_self, ?_⟩
  rw [escaped_read (escape_escaped (place m))]
  exact escape_escaped (place m)

/-- C98: without NUL characters the system logger gets exactly the place and the text. -/
theorem C98_plain {t out : Bytes} (h : Escaped t out) (hz : 0 ∉ t) : out = t := escaped_same h hz

/-- C98: a message that reaches the level is given to the function of the application, with its file, line, severity and text. -/
theorem C98_callback (hr : start.run ops = some (s, e)) (hk : kind ops.reverse h = some .callback)
    (hb : importance (level ops.reverse h) ≤ importance m.severity) (hf : 0 ∉ m.file) (ht : 0 ∉ m.text) :
    ∃ file msg, start.run (ops ++ [.log h m io]) = some (s, e ++ [.callback file m.line (importance m.severity) msg])
      ∧ 0 ∈ file ∧ readC file = m.file ∧ 0 ∈ msg ∧ readC msg = m.text := by
  rw [run_log hr hk]
  rw [importance_eq, importance_eq] at hb
  have h1 : Exports.cstring m.file = some (m.file ++ [0]) := if_neg hf
  have h2 : Exports.cstring m.text = some (m.text ++ [0]) := if_neg ht
  unfold logWith
  dsimp only
  rw [if_neg (by omega), h1, h2, importance_eq]
  exact ⟨_, _, rfl, List.mem_append_right _ List.mem_cons_self, read_self hf, List.mem_append_right _ List.mem_cons_self,
    read_self ht⟩

/-- C98: the logger that drops everything does so. -/
theorem C98_dummy (hr : start.run ops = some (s, e)) (hk : kind ops.reverse h = some .dummy) :
    start.run (ops ++ [.log h m io]) = some (s, e) := by
  rw [run_log hr hk]
  simp [logWith]

/-- C98: logging aborts the process iff the message reaches the level and the standard error cannot be written, or, with a
callback, there is a NUL in the name of the file or in the text. -/
theorem C98_abort (hr : start.run ops = some (s, e)) (hk : kind ops.reverse h = some k) :
    start.run (ops ++ [.log h m io]) = none ↔ importance (level ops.reverse h) ≤ importance m.severity ∧
      (((∃ pretty, k = .stderr pretty) ∧ io = false) ∨ (k = .callback ∧ (0 ∈ m.file ∨ 0 ∈ m.text))) := by
  by_cases hb : importance (level ops.reverse h) ≤ importance m.severity
  · cases k with
    | stderr p =>
      cases io with
      | true => rw [C98_stderr hr hk hb]; simp
      | false =>
        rw [run_log hr hk]
        refine ⟨fun _ => ⟨hb, .inl ⟨⟨p, rfl⟩, rfl⟩⟩, fun _ => ?_⟩
        rw [importance_eq, importance_eq] at hb
        unfold logWith
        dsimp only
        rw [if_pos hb]
        rfl
    | syslog =>
      obtain ⟨x, hx, -⟩ := C98_syslog (io := io) hr hk hb
      rw [hx]
      simp
    | callback =>
      by_cases hz : 0 ∈ m.file ∨ 0 ∈ m.text
      · rw [run_log hr hk]
        refine ⟨fun _ => ⟨hb, .inr ⟨rfl, hz⟩⟩, fun _ => ?_⟩
        rw [importance_eq, importance_eq] at hb
        unfold logWith
        dsimp only
        rw [if_neg (by omega)]
        unfold Exports.cstring
        rcases hz with hz | hz
        · rw [if_pos hz]
          rfl
        · rw [if_pos hz]
          by_cases hf : 0 ∈ m.file
          · rw [if_pos hf]
            rfl
          · rw [if_neg hf]
            rfl
      · obtain ⟨x, y, hx, -⟩ := C98_callback (io := io) hr hk hb (fun h => hz (.inl h)) (fun h => hz (.inr h))
        rw [hx]
        simp [hz]
    | dummy =>
      rw [C98_dummy hr hk]
      simp
  · rw [C98_below hr hk (by omega)]
    simp [hb]

namespace Example

def hello (s : Severity) : Msg := ⟨asc "2026-01-01 10:00:00", s, asc "a.rs", asc "7", asc "hi"⟩

/-- A callback logger, a clone of it whose level is set, and a syslog logger with a clone. -/
def history : List Op := [.new .callback, .clone 0, .new .syslog, .clone 2, .setLevel 1 .error, .setLevel 3 .error]

/-- The level of callback loggers is shared, that of others is not. -/
example : level history.reverse 0 = .error ∧ level history.reverse 1 = .error ∧ level history.reverse 2 = .info
    ∧ level history.reverse 3 = .error := by decide

example : kind history.reverse 0 = some .callback ∧ kind history.reverse 3 = some .syslog := by decide

/-- The hypotheses are met: the warning reaches only the original of the syslog logger. -/
example : ((start.run (history ++ [.log 0 (hello .warn) true, .log 2 (hello .warn) true, .log 3 (hello .warn) true,
      .log 1 (hello .error) true])).map (·.2)) =
    some [.syslog 4 (asc "[a.rs:7] hi" ++ [0]), .callback (asc "a.rs" ++ [0]) (asc "7") 3 (asc "hi" ++ [0])] := by decide +kernel

/-- C98, a finding: a NUL in a message aborts the application that has a callback, while it is escaped for `syslog`. -/
theorem C98_nul : start.run [.new .callback, .log 0 { hello .info with text := [65, 0, 66] } true] = none
    ∧ (start.run [.new .syslog, .log 0 { hello .info with text := [65, 0, 66] } true]).map (·.2) =
      some [.syslog 6 (asc "[a.rs:7] A\\0B" ++ [0])] := by decide +kernel

example : ((start.run [.new (.stderr true), .log 0 (hello .error) true]).map (·.2)) =
    some [.stderr ([0x1b] ++ asc "[0;31m2026-01-01 10:00:00 ERROR   [a.rs:7] hi" ++ [0x1b] ++ asc "[m\n")] := by decide +kernel

end Example

end Verif.Loggers
