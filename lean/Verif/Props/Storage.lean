import Verif.Lemmas.StorageTree
/-!
# C91-C93: files with paths, the state file, certificates of authorities
-/
namespace Verif.Storage
open Spec.Storage
open Verif.Reconnect (ConnState)

/-! ## C91: files with paths -/

/-- **C91.** The paths are the lines of the file that are not comments, in order, whatever the ends of the lines are; the
file is used iff it can be read to its end and is UTF-8. -/
theorem C91_paths (r : Read) (ps : List Bytes) :
    loadPaths r = some ps ↔
      ∃ bs ls, r = .data bs true ∧ Utf8.valid bs = true ∧ TextFile bs ls ∧ ps = ls.filter (¬ Comment ·) := by
  cases r with
  | notOpened => exact ⟨fun h => (by cases h), fun ⟨_, _, h, _⟩ => (by cases h)⟩
  | data bs complete =>
    cases complete with
    | false => exact ⟨fun h => (by cases h), fun ⟨_, _, h, _⟩ => (by cases h)⟩
    | true =>
      obtain ⟨ls, hls⟩ := textFile_exists _ bs (Nat.le_refl _)
      rw [loadPaths, if_pos rfl, keepPaths_eq, textFile_pieces hls]
      have hv := pieces_valid _ bs (Nat.le_refl _)
      constructor
      · intro h
        split at h
        · next hh =>
          injection h with h
          exact ⟨bs, ls, rfl, hv.1 hh, hls, h.symm⟩
        · cases h
      · rintro ⟨bs', ls', e, h1, h2, h3⟩
        injection e with e _
        subst e
        rw [if_pos (hv.2 h1), h3, ← textFile_pieces hls, ← textFile_pieces h2]

/-- **C91.** Every text has lines, and only one list of them. -/
theorem C91_lines (bs : Bytes) : ∃ ls, TextFile bs ls ∧ ∀ ls', TextFile bs ls' → ls' = ls := by
  obtain ⟨ls, hls⟩ := textFile_exists _ bs (Nat.le_refl _)
  exact ⟨ls, hls, fun ls' h => by rw [← textFile_pieces hls, ← textFile_pieces h]⟩

/-- **C91.** There is a warning iff a file is given that cannot be read to its end or is not UTF-8; then, and without a
file, no path is scanned. -/
theorem C91_warning (f : Option Read) :
    ((configPaths f).2 = true ↔ ∃ r, f = some r ∧ ¬ ∃ bs, r = .data bs true ∧ Utf8.valid bs = true)
    ∧ ((configPaths f).2 = true ∨ f = none → (configPaths f).1 = []) := by
  cases f with
  | none => exact ⟨⟨fun h => (by cases h), fun ⟨_, h, _⟩ => (by cases h)⟩, fun _ => rfl⟩
  | some r =>
    unfold configPaths
    dsimp only
    cases h : loadPaths r with
    | some ps =>
      obtain ⟨bs, ls, e, hv, -⟩ := (C91_paths _ _).1 h
      refine ⟨⟨fun h => (by cases h), ?_⟩, fun h => (by rcases h with h | h <;> cases h)⟩
      rintro ⟨r', e', hn⟩
      injection e' with e'
      exact absurd ⟨bs, e' ▸ e, hv⟩ hn
    | none =>
      refine ⟨⟨fun _ => ⟨r, rfl, ?_⟩, fun _ => rfl⟩, fun _ => rfl⟩
      rintro ⟨bs, e, hv⟩
      obtain ⟨ls, hls, -⟩ := C91_lines bs
      rw [(C91_paths r _).2 ⟨bs, ls, e, hv, hls, rfl⟩] at h
      cases h

/-- **C91 (finding).** One byte that is not UTF-8 anywhere in the file, also in a comment, and no path of the file is
used. -/
theorem C91_all_or_nothing (bs : Bytes) (h : Utf8.valid bs = false) : configPaths (some (.data bs true)) = ([], true) := by
  have : loadPaths (.data bs true) = none := by
    cases hl : loadPaths (.data bs true) with
    | none => rfl
    | some ps =>
      obtain ⟨bs', ls, e, hv, -⟩ := (C91_paths _ _).1 hl
      injection e with e _
      subst e
      rw [h] at hv
      cases hv
  rw [configPaths, this]

/-- **C91.** All paths of the configuration are UTF-8: the assumption of the theorems on discovery (C86, C88). -/
theorem C91_utf8 (f : Option Read) : ∀ p ∈ (configPaths f).1, Utf8.valid p = true := by
  cases f with
  | none => exact fun p h => absurd h List.not_mem_nil
  | some r =>
    intro p hp
    unfold configPaths at hp
    dsimp only at hp
    split at hp
    · next ps h =>
      obtain ⟨bs, ls, -, hv, ht, rfl⟩ := (C91_paths _ _).1 h
      have hm := (List.mem_filter.1 hp).1
      clear hp h
      induction ht with
      | empty => exact absurd hm List.not_mem_nil
      | last h1 h2 => rw [List.mem_singleton.1 hm]; exact hv
      | lf h1 h2 _ ih =>
        rw [valid_split (by decide)] at hv
        rcases List.mem_cons.1 hm with hm | hm
        · rw [hm]; exact hv.1
        · exact ih hv.2 hm
      | crlf h1 _ ih =>
        rw [valid_split (by decide), Url.valid_cons (by decide)] at hv
        rcases List.mem_cons.1 hm with hm | hm
        · rw [hm]; exact hv.1
        · exact ih hv.2 hm
    · exact absurd hp List.not_mem_nil

/-- Both kinds of ends of lines, a comment, an empty line (a path too), an indented `#`, and a last line without an end
that keeps its carriage return. -/
example : configPaths (some (.data (asc "/a\n# b\r\n/c\r\n\n #d\n/e\r") true))
    = ([asc "/a", asc "/c", [], asc " #d", asc "/e\r"], false) := by decide +kernel

example : TextFile (asc "/a\r\n/b") [asc "/a", asc "/b"] :=
  TextFile.crlf (l := asc "/a") (by decide +kernel) (TextFile.last (l := asc "/b") (by decide +kernel) (by decide +kernel))

example : Utf8.valid (asc "/a\n#" ++ [0xe9] ++ asc "\n/b\n") = false := by decide +kernel

/-! ## C92: the state file -/

theorem stateLine_eq (s : ConnState) : stateLine s = line s := by cases s <;> decide +kernel

/-- **C92.** While a client runs whose last change of state was written without an error, the file holds that state: one
line. -/
theorem C92_current (file : Option Bytes) (ops : List Op) (a b : List Ev) (s : ConnState) (x : AppContext.App)
    (he : ((World.mk true file none).run ops).2 = a ++ b) (hb : .started ∉ b) (hw : (writes b).getLast? = some (s, .ok))
    (hx : ((World.mk true file none).run ops).1.app = some x) :
    x.conn = s ∧ ((World.mk true file none).run ops).1.file = some (line s) := by
  rw [← stateLine_eq]
  obtain ⟨h1, -⟩ := run_state (World.mk true file none) ops
  obtain ⟨-, h3⟩ := run_file (World.mk true file none) ops
  rw [he] at h1 h3
  rw [h3, writes_append]
  constructor
  · rw [hx, List.foldl_append] at h1
    generalize a.foldl next ((World.mk true file none).app.map (·.conn)) = st at h1
    have h1 : some x.conn = b.foldl next st := h1
    rcases List.eq_nil_or_concat b with rfl | ⟨b, e, rfl⟩
    · cases hw
    · rw [List.concat_eq_append, List.foldl_append] at h1
      rw [List.concat_eq_append] at hw hb
      cases e with
      | started => exact absurd (List.mem_append.2 (.inr (List.mem_cons_self ..))) hb
      | ended => cases h1
      | saved t o =>
        rw [writes_append] at hw
        have : writes [Ev.saved t o] = [(t, o)] := rfl
        rw [this, List.getLast?_concat] at hw
        injection hw with hw
        injection hw with hw _
        rw [← hw]
        injection h1
  · obtain ⟨l, e⟩ := List.getLast?_eq_some_iff.1 hw
    rw [e, ← List.append_assoc]
    unfold fileAfter
    rw [List.foldl_append]
    rfl

/-- **C92.** The file is written exactly when the state changes: every write is of another state than the client had, and
the state the client reports is the one written last, or "disconnected" after the start. -/
theorem C92_changes (fileSet : Bool) (file : Option Bytes) (ops : List Op) :
    let r := (World.mk fileSet file none).run ops
    r.1.app.map (·.conn) = state r.2
    ∧ ∀ a b s o, r.2 = a ++ .saved s o :: b → ∃ t, state a = some t ∧ t ≠ s := by
  intro r
  obtain ⟨h1, h2⟩ := run_state (World.mk fileSet file none) ops
  refine ⟨h1, fun a b s o he => ?_⟩
  have he : ((World.mk fileSet file none).run ops).2 = a ++ .saved s o :: b := he
  rw [he] at h2
  exact changes_split h2

/-- **C92.** Whatever fails or crashes, the file holds what it held at first, or the beginning of a line with a state; if no
write is cut short, what it held at first or a whole line. -/
theorem C92_values (fileSet : Bool) (file : Option Bytes) (ops : List Op) :
    let r := (World.mk fileSet file none).run ops
    (r.1.file = file ∨ ∃ s n, r.1.file = some ((line s).take n))
    ∧ ((∀ w ∈ writes r.2, Whole w.2) → r.1.file = file ∨ ∃ s, r.1.file = some (line s)) := by
  intro r
  simp only [← stateLine_eq]
  obtain ⟨-, h3⟩ := run_file (World.mk fileSet file none) ops
  have h3 : r.1.file = fileAfter fileSet file (writes r.2) := h3
  rw [h3]
  clear h3
  generalize writes r.2 = ws
  clear r
  have hs : ∀ (f : Option Bytes) (s : ConnState) (o : Config.Out),
      (saveState fileSet f s o).1 = f ∨ (∃ n, (saveState fileSet f s o).1 = some ((stateLine s).take n)) := by
    intro f s o
    unfold saveState
    split
    · cases o with
      | ok => exact .inr ⟨(stateLine s).length, by rw [List.take_length]; rfl⟩
      | notCreated => exact .inl rfl
      | short n => exact .inr ⟨n, rfl⟩
      | crashBefore => exact .inl rfl
      | crash n => exact .inr ⟨n, rfl⟩
    · exact .inl rfl
  have hw : ∀ (f : Option Bytes) (s : ConnState) (o : Config.Out), Whole o →
      (saveState fileSet f s o).1 = f ∨ (saveState fileSet f s o).1 = some (stateLine s) := by
    intro f s o h
    unfold saveState
    split
    · rcases h with rfl | rfl | rfl
      · exact .inr rfl
      · exact .inl rfl
      · exact .inl rfl
    · exact .inl rfl
  constructor
  · suffices h : ∀ f, (f = file ∨ ∃ s n, f = some ((stateLine s).take n)) →
        (fileAfter fileSet f ws = file ∨ ∃ s n, fileAfter fileSet f ws = some ((stateLine s).take n)) from h file (.inl rfl)
    induction ws with
    | nil => exact fun f h => h
    | cons w ws ih =>
      intro f h
      refine ih _ ?_
      dsimp only
      rcases hs f w.1 w.2 with e | ⟨n, e⟩
      · rw [e]; exact h
      · rw [e]; exact .inr ⟨_, _, rfl⟩
  · suffices h : ∀ f, (f = file ∨ ∃ s, f = some (stateLine s)) → (∀ w ∈ ws, Whole w.2) →
        (fileAfter fileSet f ws = file ∨ ∃ s, fileAfter fileSet f ws = some (stateLine s)) from h file (.inl rfl)
    induction ws with
    | nil => exact fun f h _ => h
    | cons w ws ih =>
      intro f h hall
      refine ih _ ?_ (fun x hx => hall x (List.mem_cons_of_mem _ hx))
      dsimp only
      rcases hw f w.1 w.2 (hall w (List.mem_cons_self ..)) with e | e
      · rw [e]; exact h
      · rw [e]; exact .inr ⟨_, rfl⟩

theorem crash_ends {w : World} (hw : w.fileSet = true) (ops : List Op) :
    ∀ a b s o, (w.run ops).2 = a ++ .saved s o :: b → Crash o → ∃ b', b = .ended :: b' := by
  induction ops generalizing w with
  | nil => intro a b s o h; cases a <;> cases h
  | cons op ops ih =>
    intro a b s o h hc
    rw [run_cons] at h
    dsimp only at h
    obtain ⟨hf, -⟩ := run_file w [op]
    rw [run_cons] at hf
    have ih := ih (hf.trans hw)
    have hs := step_steps w op
    generalize w.step op = r at h ih hs hf
    obtain ⟨w', evs⟩ := r
    cases hs with
    | quiet _ h1 h2 h3 => exact ih a b s o h hc
    | start h1 =>
      cases a with
      | nil => cases h
      | cons e a => exact ih a b s o (List.cons.inj h).2 hc
    | exit h1 =>
      cases a with
      | nil => cases h
      | cons e a => exact ih a b s o (List.cons.inj h).2 hc
    | saved x x' t o' h1 h2 h3 h4 =>
      cases a with
      | nil =>
        obtain ⟨h5, -⟩ := List.cons.inj h
        cases h5
        rw [hw] at h4
        rcases hc with rfl | ⟨n, rfl⟩ <;> exact absurd h4 (by simp [saveState, Config.writeFile])
      | cons e a => exact ih a b s o (List.cons.inj h).2 hc
    | crashed x t o' h1 h2 h3 =>
      cases a with
      | nil => exact ⟨_, (List.cons.inj h).2.symm⟩
      | cons e a =>
        cases a with
        | nil => cases (List.cons.inj h).2
        | cons e' a => exact ih a b s o (List.cons.inj (List.cons.inj h).2).2 hc

/-- **C92.** A crash while the file is written ends the client; a write that fails does not: then the client has the new
state all the same. -/
theorem C92_failures (file : Option Bytes) (ops : List Op) (a b : List Ev) (s : ConnState) (o : Config.Out)
    (he : ((World.mk true file none).run ops).2 = a ++ .saved s o :: b) :
    (Crash o → ∃ b', b = .ended :: b')
    ∧ (b = [] → ∃ x, ((World.mk true file none).run ops).1.app = some x ∧ x.conn = s) := by
  refine ⟨crash_ends rfl ops a b s o he, ?_⟩
  rintro rfl
  obtain ⟨h1, -⟩ := run_state (World.mk true file none) ops
  rw [he, List.foldl_append] at h1
  cases hx : ((World.mk true file none).run ops).1.app with
  | none => rw [hx] at h1; cases h1
  | some x =>
    rw [hx] at h1
    exact ⟨x, rfl, Option.some.inj h1⟩

/-- Both cases: the disk is full, then the process is killed. -/
example : ((World.mk true none none).run [.start, .app (.set 0 (.conn .connected)) (.short 4),
      .app (.set 5 (.conn .unauthorized)) (.crash 2)]).2 =
    [.started, .saved .connected (.short 4), .saved .unauthorized (.crash 2), .ended] := by decide +kernel

/-- **C92.** Without a change of state, or without a state file, no file changes. -/
theorem C92_untouched (fileSet : Bool) (file : Option Bytes) (ops : List Op)
    (h : fileSet = false ∨ writes ((World.mk fileSet file none).run ops).2 = []) :
    ((World.mk fileSet file none).run ops).1.file = file := by
  obtain ⟨-, h3⟩ := run_file (World.mk fileSet file none) ops
  rw [h3]
  rcases h with rfl | h
  · generalize writes _ = ws
    show fileAfter false file ws = file
    induction ws with
    | nil => rfl
    | cons w ws ih => exact ih
  · rw [h]; rfl

/-- **C92 (finding).** A write that fails is not repeated: setting the state the client already has does nothing, so the
file stays wrong until the state changes again. -/
theorem C92_not_repeated (w : World) (a : AppContext.App) (tid : Nat) (o : Config.Out) (h : w.app = some a) :
    (w.step (.app (.set tid (.conn a.conn)) o)).1.file = w.file
    ∧ (w.step (.app (.set tid (.conn a.conn)) o)).2 = [] := by
  have hs : a.step (.set tid (.conn a.conn)) = (a, []) := by
    unfold AppContext.App.step
    dsimp only
    split
    · rfl
    · rw [if_pos (by simp [AppContext.App.same])]
  unfold World.step
  dsimp only
  rw [h]
  dsimp only
  rw [hs]
  exact ⟨rfl, rfl⟩

/-- A client connects, the file says so, the client ends. -/
def exOps : List Op := [.start, .app (.set 0 (.conn .connected)) .ok, .app (.finish 0) .ok, .exit]

/-- **C92 (finding).** The file of a client that ended while it was connected says "connected" also after the next start,
until that client changes its state. -/
theorem C92_stale :
    let r := (World.mk true none none).run (exOps ++ [.start, .app (.set 0 (.conn .disconnected)) .ok])
    r.1.file = some (asc "connected\n") ∧ r.1.app.map (·.conn) = some .disconnected := by decide +kernel

/-- The hypotheses of `C92_current` are met, after a failed write and with a change by another thread. -/
example :
    let r := (World.mk true none none).run
      (exOps ++ [.start, .app (.set 3 (.conn .connected)) (.short 4), .app (.set 5 (.conn .unauthorized)) .ok])
    r.2 = [.started, .saved .connected .ok, .ended] ++ [.started, .saved .connected (.short 4)]
        ++ [.saved .unauthorized .ok]
    ∧ r.1.file = some (asc "unauthorized\n") ∧ r.1.app.map (·.conn) = some .unauthorized := by decide +kernel

/-! ## C93: certificates of authorities -/

/-- **C93.** The certificates loaded from a tree without failures are exactly those of the files of the tree, at any depth,
whose name says that they are certificates; loading reports success iff nothing fails. -/
theorem C93_tree (name : Bytes) (n : Node) :
    ((loadNode name n).2 = true ↔ Fine name n)
    ∧ (Fine name n → ∀ c, c ∈ (loadNode name n).1 ↔ HasCert name n c) :=
  ⟨(loadNode_spec n name).1, fun h c => ⟨(loadNode_spec n name).2.1 c, (loadNode_spec n name).2.2 h c⟩⟩

/-- **C93.** Whatever fails, only certificates of certificate files of the given trees are trusted. -/
theorem C93_only (ps : List (Bytes × Node)) (c : Nat) (h : c ∈ (loadAll ps).1) : ∃ p ∈ ps, HasCert p.1 p.2 c := by
  rw [loadAll_eq] at h
  obtain ⟨p, hp, hc⟩ := List.mem_flatMap.1 h
  exact ⟨p, hp, (loadNode_spec p.2 p.1).2.1 c hc⟩

/-- **C93.** The given paths do not affect each other: all certificates of each tree without failures are loaded, also when
other paths fail, and the paths with a failure are exactly those in the warnings. -/
theorem C93_paths (ps : List (Bytes × Node)) :
    (∀ p ∈ ps, Fine p.1 p.2 → ∀ c, HasCert p.1 p.2 c → c ∈ (loadAll ps).1)
    ∧ (∀ name, name ∈ (loadAll ps).2 ↔ ∃ n, (name, n) ∈ ps ∧ ¬ Fine name n) := by
  rw [loadAll_eq]
  constructor
  · intro p hp hf c hc
    exact List.mem_flatMap.2 ⟨p, hp, (loadNode_spec p.2 p.1).2.2 hf c hc⟩
  · intro name
    dsimp only
    rw [List.mem_map]
    constructor
    · rintro ⟨p, hp, rfl⟩
      obtain ⟨h1, h2⟩ := List.mem_filter.1 hp
      refine ⟨p.2, h1, fun hf => ?_⟩
      rw [(loadNode_spec p.2 p.1).1.2 hf] at h2
      cases h2
    · rintro ⟨n, hn, hf⟩
      refine ⟨(name, n), List.mem_filter.2 ⟨hn, ?_⟩, rfl⟩
      cases hl : (loadNode name n).2 with
      | false => rfl
      | true => exact absurd ((loadNode_spec n name).1.1 hl) hf

/-- **C93 (finding).** An entry of a directory with a failure is the last one that is looked at: what the directory lists
after it does not matter, at any depth. -/
theorem C93_stops (name : Bytes) (n : Node) (h : ¬ Fine name n) (rest rest' : Entries) :
    loadEntries (.item name n rest) = loadEntries (.item name n rest')
    ∧ (loadEntries (.item name n rest)).2 = false := by
  have hl : (loadNode name n).2 = false := by
    cases hl : (loadNode name n).2 with
    | false => rfl
    | true => exact absurd ((loadNode_spec n name).1.1 hl) h
  generalize hr : loadNode name n = r at hl
  obtain ⟨cs, ok⟩ := r
  have hl : ok = false := hl
  subst hl
  constructor
  · rw [loadEntries, loadEntries, hr]
  · rw [loadEntries, hr]

/-- A directory with a good file, a text, a directory, and a file in a format that cannot be loaded. -/
def exDir : Node :=
  .dir (.item (asc "a.pem") (.file (some [1, 2])) (.item (asc "notes.txt") (.file none)
    (.item (asc "more") (.dir (.item (asc "B.CRT") (.file (some [3])) .done)) .done)))

/-- `C93_tree`: everything in the directory is fine, and three certificates are found. -/
example : loadNode (asc "ca") exDir = ([1, 2, 3], true) := by decide +kernel
example : Fine (asc "ca") exDir := (C93_tree _ _).1.1 (by decide +kernel)
example : HasCert (asc "ca") exDir 3 :=
  ((C93_tree _ _).2 ((C93_tree _ _).1.1 (by decide +kernel)) 3).1 (by decide +kernel)

/-- Names with and without the extension; a name that is only an extension does not count. -/
example : CertName (asc "x.Pem") ∧ ¬ CertName (asc ".pem") ∧ ¬ CertName (asc "x.pem.bak") ∧ ¬ CertName (asc "pem") := by
  refine ⟨(isCertFile_iff _).1 (by decide +kernel), ?_, ?_, ?_⟩ <;>
    exact fun h => absurd ((isCertFile_iff _).2 h) (by decide +kernel)

/-- **C93 (finding).** Files named `.der` are taken for certificates but loaded as PEM, which fails: here the certificate 7
after such a file is never loaded, and the client goes on without it. Other given paths are loaded. -/
theorem C93_der_hides :
    let d : Node := .dir (.item (asc "a.pem") (.file (some [1])) (.item (asc "b.der") (.file none)
      (.item (asc "c.pem") (.file (some [7])) .done)))
    loadAll [(asc "ca", d), (asc "extra.pem", .file (some [9]))] = ([1, 9], [asc "ca"]) := by decide +kernel

end Verif.Storage
