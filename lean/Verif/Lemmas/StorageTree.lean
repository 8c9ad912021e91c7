import Verif.Lemmas.Storage
/-!
# Lemmas on the certificates and on the state file
-/
namespace Verif.Storage
open Spec.Storage
open Verif.Reconnect (ConnState)

/-! ## Certificates -/

/-- All entries of a directory are listed, and nothing below them fails. -/
def FineE (es : Entries) : Prop := Complete es ∧ ∀ m n, Lists es m n → Fine m n

/-- The certificate is in a file below the directory. -/
def HasE (es : Entries) (c : Nat) : Prop := ∃ m n, Lists es m n ∧ HasCert m n c

theorem within_file {name k : Bytes} {certs : Option (List Nat)} {x : Node} (h : Within name (.file certs) k x) :
    k = name ∧ x = .file certs := by
  cases h; exact ⟨rfl, rfl⟩

theorem within_unreadable {name k : Bytes} {x : Node} (h : Within name .unreadable k x) : k = name ∧ x = .unreadable := by
  cases h; exact ⟨rfl, rfl⟩

theorem fine_file {name : Bytes} {certs : Option (List Nat)} : Fine name (.file certs) ↔ (CertName name → certs ≠ none) := by
  constructor
  · intro h hc e
    exact (h _ _ .here).2.2 hc (by rw [e])
  · intro h k x hw
    obtain ⟨rfl, rfl⟩ := within_file hw
    exact ⟨fun h => (by cases h), fun es h => (by cases h), fun hc e => h hc (by injection e)⟩

theorem hasCert_file {name : Bytes} {certs : Option (List Nat)} {c : Nat} :
    HasCert name (.file certs) c ↔ CertName name ∧ ∃ cs, certs = some cs ∧ c ∈ cs := by
  constructor
  · rintro ⟨k, cs, hw, hk, hc⟩
    obtain ⟨rfl, e⟩ := within_file hw
    injection e with e
    exact ⟨hk, cs, e.symm, hc⟩
  · rintro ⟨hk, cs, rfl, hc⟩
    exact ⟨name, cs, .here, hk, hc⟩

theorem fine_dir {name : Bytes} {es : Entries} : Fine name (.dir es) ↔ FineE es := by
  constructor
  · intro h
    exact ⟨(h _ _ .here).2.1 es rfl, fun m n hl k x hw => h k x (.under hl hw)⟩
  · rintro ⟨h1, h2⟩ k x hw
    cases hw with
    | here => exact ⟨fun h => (by cases h), fun es h => (by injection h with h; exact h ▸ h1), fun _ h => (by cases h)⟩
    | under hl hw => exact h2 _ _ hl _ _ hw

theorem hasCert_dir {name : Bytes} {es : Entries} {c : Nat} : HasCert name (.dir es) c ↔ HasE es c := by
  constructor
  · rintro ⟨k, cs, hw, hk, hc⟩
    cases hw with
    | under hl hw => exact ⟨_, _, hl, k, cs, hw, hk, hc⟩
  · rintro ⟨m, n, hl, k, cs, hw, hk, hc⟩
    exact ⟨k, cs, .under hl hw, hk, hc⟩

theorem lists_item {name m : Bytes} {n x : Node} {rest : Entries} :
    Lists (.item name n rest) m x ↔ (m = name ∧ x = n) ∨ Lists rest m x := by
  constructor
  · intro h
    cases h with
    | here => exact .inl ⟨rfl, rfl⟩
    | later h => exact .inr h
  · rintro (⟨rfl, rfl⟩ | h)
    · exact .here
    · exact .later h

theorem fineE_item {name : Bytes} {n : Node} {rest : Entries} : FineE (.item name n rest) ↔ Fine name n ∧ FineE rest := by
  constructor
  · rintro ⟨h1, h2⟩
    refine ⟨h2 _ _ .here, ?_, fun m x h => h2 _ _ (.later h)⟩
    cases h1 with | item h => exact h
  · rintro ⟨h1, h2, h3⟩
    refine ⟨.item h2, fun m x h => ?_⟩
    rcases lists_item.1 h with ⟨rfl, rfl⟩ | h
    · exact h1
    · exact h3 _ _ h

theorem hasE_item {name : Bytes} {n : Node} {rest : Entries} {c : Nat} :
    HasE (.item name n rest) c ↔ HasCert name n c ∨ HasE rest c := by
  constructor
  · rintro ⟨m, x, hl, h⟩
    rcases lists_item.1 hl with ⟨rfl, rfl⟩ | hl
    · exact .inl h
    · exact .inr ⟨m, x, hl, h⟩
  · rintro (h | ⟨m, x, hl, h⟩)
    · exact ⟨name, n, .here, h⟩
    · exact ⟨m, x, .later hl, h⟩

mutual
theorem loadNode_spec : ∀ (n : Node) (name : Bytes),
    ((loadNode name n).2 = true ↔ Fine name n)
    ∧ (∀ c, c ∈ (loadNode name n).1 → HasCert name n c)
    ∧ (Fine name n → ∀ c, HasCert name n c → c ∈ (loadNode name n).1)
  | .file certs, name => by
    unfold loadNode
    by_cases hn : CertName name
    · rw [if_pos ((isCertFile_iff name).2 hn)]
      cases certs with
      | none =>
        refine ⟨?_, fun c h => absurd h List.not_mem_nil, fun h => absurd rfl (fine_file.1 h hn)⟩
        rw [fine_file]
        exact ⟨fun h => (by cases h), fun h => absurd rfl (h hn)⟩
      | some cs =>
        refine ⟨?_, fun c h => hasCert_file.2 ⟨hn, cs, rfl, h⟩, fun _ c h => ?_⟩
        · rw [fine_file]
          exact ⟨fun _ _ h => (by cases h), fun _ => rfl⟩
        · obtain ⟨-, cs', e, h⟩ := hasCert_file.1 h
          injection e with e
          exact e ▸ h
    · rw [if_neg (fun h => hn ((isCertFile_iff name).1 h))]
      refine ⟨?_, fun c h => absurd h List.not_mem_nil, fun _ c h => absurd (hasCert_file.1 h).1 hn⟩
      rw [fine_file]
      exact ⟨fun _ h => absurd h hn, fun _ => rfl⟩
  | .unreadable, name => by
    unfold loadNode
    have hf : ¬ Fine name .unreadable := fun h => (h _ _ .here).1 rfl
    refine ⟨⟨fun h => (by cases h), fun h => absurd h hf⟩, fun c h => absurd h List.not_mem_nil, fun h => absurd h hf⟩
  | .dir es, name => by
    obtain ⟨h1, h2, h3⟩ := loadEntries_spec es
    unfold loadNode
    rw [fine_dir]
    exact ⟨h1, fun c h => hasCert_dir.2 (h2 c h), fun hf c h => h3 hf c (hasCert_dir.1 h)⟩
theorem loadEntries_spec : ∀ (es : Entries),
    ((loadEntries es).2 = true ↔ FineE es)
    ∧ (∀ c, c ∈ (loadEntries es).1 → HasE es c)
    ∧ (FineE es → ∀ c, HasE es c → c ∈ (loadEntries es).1)
  | .done => by
    unfold loadEntries
    refine ⟨⟨fun _ => ⟨.done, fun m n h => (by cases h)⟩, fun _ => rfl⟩, fun c h => absurd h List.not_mem_nil, ?_⟩
    rintro - c ⟨m, n, h, -⟩
    cases h
  | .failed => by
    unfold loadEntries
    have hf : ¬ FineE .failed := by rintro ⟨h, -⟩; cases h
    exact ⟨⟨fun h => (by cases h), fun h => absurd h hf⟩, fun c h => absurd h List.not_mem_nil, fun h => absurd h hf⟩
  | .item name n rest => by
    obtain ⟨a1, a2, a3⟩ := loadNode_spec n name
    obtain ⟨b1, b2, b3⟩ := loadEntries_spec rest
    unfold loadEntries
    rw [fineE_item]
    split
    · next cs h =>
      rw [h] at a1 a2 a3
      have hn := a1.1 rfl
      dsimp only
      refine ⟨⟨fun h => ⟨hn, b1.1 h⟩, fun h => b1.2 h.2⟩, fun c hc => hasE_item.2 ?_, fun hf c hc => ?_⟩
      · rcases List.mem_append.1 hc with hc | hc
        · exact .inl (a2 c hc)
        · exact .inr (b2 c hc)
      · rcases hasE_item.1 hc with hc | hc
        · exact List.mem_append.2 (.inl (a3 hn c hc))
        · exact List.mem_append.2 (.inr (b3 hf.2 c hc))
    · next cs h =>
      rw [h] at a1 a2 a3
      have hn : ¬ Fine name n := fun h' => by cases a1.2 h'
      exact ⟨⟨fun h => (by cases h), fun h => absurd h.1 hn⟩, fun c hc => hasE_item.2 (.inl (a2 c hc)), fun h => absurd h.1 hn⟩
end

theorem loadAll_eq (ps : List (Bytes × Node)) :
    loadAll ps = (ps.flatMap (fun p => (loadNode p.1 p.2).1), (ps.filter (fun p => ! (loadNode p.1 p.2).2)).map (·.1)) := by
  induction ps with
  | nil => rfl
  | cons p ps ih =>
    obtain ⟨name, n⟩ := p
    rw [loadAll, ih, List.flatMap_cons, List.filter_cons]
    dsimp only
    cases (loadNode name n).2 <;> rfl

/-! ## The state file -/

theorem run_cons {w : World} {op : Op} {ops : List Op} :
    w.run (op :: ops) = (((w.step op).1.run ops).1, (w.step op).2 ++ ((w.step op).1.run ops).2) := rfl

/-- What a step of the client does to the connection state. -/
theorem app_step (a : AppContext.App) (op : AppContext.AOp) :
    (∃ s, (a.step op).2 = [.changed (.conn s)] ∧ (a.step op).1.conn = s ∧ s ≠ a.conn)
    ∨ ((∀ s, (a.step op).2 ≠ [.changed (.conn s)]) ∧ (a.step op).1.conn = a.conn) := by
  cases op with
  | set tid c =>
    unfold AppContext.App.step
    dsimp only
    split
    · exact .inr ⟨fun s h => (by cases h), rfl⟩
    · split
      · exact .inr ⟨fun s h => (by cases h), rfl⟩
      · next hs =>
        cases c with
        | conn s =>
          refine .inl ⟨s, rfl, rfl, fun e => hs ?_⟩
          show decide (s = a.conn) = true
          exact decide_eq_true e
        | scan b => exact .inr ⟨fun s h => (by cases h), rfl⟩
  | tell tid =>
    unfold AppContext.App.step
    dsimp only
    split
    · exact .inr ⟨fun s h => (by cases h), rfl⟩
    · exact .inr ⟨fun s h => (by cases h), rfl⟩
  | finish tid =>
    unfold AppContext.App.step
    dsimp only
    split
    · exact .inr ⟨fun s h => (by cases h), rfl⟩
    · exact .inr ⟨fun s h => (by cases h), rfl⟩
  | add => exact .inr ⟨fun s h => (by cases h), rfl⟩

/-- A step of the world, by cases. -/
inductive Steps (w : World) : World → List Ev → Prop where
  | quiet (w' : World) : w'.file = w.file → w'.fileSet = w.fileSet →
      (w'.app.map (·.conn) = w.app.map (·.conn)) → Steps w w' []
  | start : w.app = none → Steps w { w with app := some .new } [.started]
  | exit : w.app ≠ none → Steps w { w with app := none } [.ended]
  | saved (a a' : AppContext.App) (s : ConnState) (o : Config.Out) : w.app = some a → s ≠ a.conn → a'.conn = s →
      (saveState w.fileSet w.file s o).2 = true →
      Steps w { w with file := (saveState w.fileSet w.file s o).1, app := some a' } [.saved s o]
  | crashed (a : AppContext.App) (s : ConnState) (o : Config.Out) : w.app = some a → s ≠ a.conn →
      (saveState w.fileSet w.file s o).2 = false →
      Steps w { w with file := (saveState w.fileSet w.file s o).1, app := none } [.saved s o, .ended]

theorem step_steps (w : World) (op : Op) : Steps w (w.step op).1 (w.step op).2 := by
  cases op with
  | start =>
    unfold World.step
    dsimp only
    split
    · next h => exact .start h
    · exact .quiet _ rfl rfl rfl
  | exit =>
    unfold World.step
    dsimp only
    split
    · exact .quiet _ rfl rfl rfl
    · next a h => exact .exit (by rw [h]; exact fun h => by cases h)
  | app op o =>
    unfold World.step
    dsimp only
    split
    · exact .quiet _ rfl rfl rfl
    · next a h =>
      rcases app_step a op with ⟨s, h1, h2, h3⟩ | ⟨h1, h2⟩
      · rw [h1]
        dsimp only
        split
        · next hf => exact .saved a _ s o h h3 h2 hf
        · next hf => exact .crashed a s o h h3 (by simpa using hf)
      · split
        · next s hs => exact absurd hs (h1 s)
        · refine .quiet _ rfl rfl ?_
          rw [h]
          exact congrArg some h2

/-- Every write is of a state that the client did not have. -/
def Changes : Option ConnState → List Ev → Prop
  | _, [] => True
  | st, e :: es => (∀ s o, e = .saved s o → ∃ t, st = some t ∧ t ≠ s) ∧ Changes (next st e) es

theorem changes_split {st : Option ConnState} {a b : List Ev} {s : ConnState} {o : Config.Out}
    (h : Changes st (a ++ .saved s o :: b)) : ∃ t, a.foldl next st = some t ∧ t ≠ s := by
  induction a generalizing st with
  | nil => exact h.1 s o rfl
  | cons e a ih => exact ih h.2

theorem changes_append {st : Option ConnState} {a b : List Ev} (h1 : Changes st a) (h2 : Changes (a.foldl next st) b) :
    Changes st (a ++ b) := by
  induction a generalizing st with
  | nil => exact h2
  | cons e a ih => exact ⟨h1.1, ih h1.2 h2⟩

theorem step_state (w : World) (op : Op) :
    (w.step op).1.app.map (·.conn) = (w.step op).2.foldl next (w.app.map (·.conn))
    ∧ Changes (w.app.map (·.conn)) (w.step op).2 := by
  generalize hw : (w.step op).1 = w'
  generalize he : (w.step op).2 = evs
  have h := step_steps w op
  rw [hw, he] at h
  cases h with
  | quiet _ h1 h2 h3 => exact ⟨h3, trivial⟩
  | start h => exact ⟨rfl, fun s o h => (by cases h), trivial⟩
  | exit h => exact ⟨rfl, fun s o h => (by cases h), trivial⟩
  | saved a a' s o h1 h2 h3 h4 =>
    refine ⟨congrArg some h3, fun t o' h => ?_, trivial⟩
    injection h with h _
    rw [h1, ← h]
    exact ⟨a.conn, rfl, fun e => h2 e.symm⟩
  | crashed a s o h1 h2 h3 =>
    refine ⟨rfl, fun t o' h => ?_, fun t o' h => (by cases h), trivial⟩
    injection h with h _
    rw [h1, ← h]
    exact ⟨a.conn, rfl, fun e => h2 e.symm⟩

theorem run_state (w : World) (ops : List Op) :
    (w.run ops).1.app.map (·.conn) = (w.run ops).2.foldl next (w.app.map (·.conn))
    ∧ Changes (w.app.map (·.conn)) (w.run ops).2 := by
  induction ops generalizing w with
  | nil => exact ⟨rfl, trivial⟩
  | cons op ops ih =>
    rw [run_cons]
    dsimp only
    obtain ⟨h1, h2⟩ := step_state w op
    obtain ⟨h3, h4⟩ := ih (w.step op).1
    rw [h1] at h3 h4
    rw [List.foldl_append]
    exact ⟨h3, changes_append h2 h4⟩

/-- The file after some writes. -/
def fileAfter (fileSet : Bool) (file : Option Bytes) (ws : List (ConnState × Config.Out)) : Option Bytes :=
  ws.foldl (fun f x => (saveState fileSet f x.1 x.2).1) file

theorem writes_append (a b : List Ev) : writes (a ++ b) = writes a ++ writes b := List.filterMap_append

theorem run_file (w : World) (ops : List Op) :
    (w.run ops).1.fileSet = w.fileSet ∧ (w.run ops).1.file = fileAfter w.fileSet w.file (writes (w.run ops).2) := by
  induction ops generalizing w with
  | nil => exact ⟨rfl, rfl⟩
  | cons op ops ih =>
    rw [run_cons]
    dsimp only
    obtain ⟨h1, h2⟩ := ih (w.step op).1
    have hs : (w.step op).1.fileSet = w.fileSet ∧ (w.step op).1.file = fileAfter w.fileSet w.file (writes (w.step op).2) := by
      generalize hw : (w.step op).1 = w'
      generalize he : (w.step op).2 = evs
      have h := step_steps w op
      rw [hw, he] at h
      cases h with
      | quiet _ h1 h2 h3 => exact ⟨h2, h1⟩
      | start h => exact ⟨rfl, rfl⟩
      | exit h => exact ⟨rfl, rfl⟩
      | saved a a' s o h1 h2 h3 h4 => exact ⟨rfl, rfl⟩
      | crashed a s o h1 h2 h3 => exact ⟨rfl, rfl⟩
    rw [h1, h2, hs.1, hs.2, writes_append]
    refine ⟨rfl, ?_⟩
    show _ = List.foldl _ _ _
    rw [List.foldl_append]
    rfl

end Verif.Storage
