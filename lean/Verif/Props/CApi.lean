import Verif.Lemmas.CApiEnd
/-!
# The C interface: ownership and callbacks (C105, C106)

The rules are in `Verif/Spec/CApi.lean`, the model in `Verif/Model/CApi.lean`.
-/
namespace Verif.CApi
open Verif Verif.Spec.CApi
open Verif.Life (Life)

/-! ## C105: who owns what -/

/-- An application that passes only pointers that it has, of the right type, and no pointer again that a function has taken
over, never runs into undefined behaviour, whatever the clients, their threads and other calls do meanwhile. -/
theorem C105_following_the_rules_is_safe (ops : List Op) (hf : Follows ops) : .ub ∉ (State.init.run ops).2 :=
  run_ub ops [] hf

/-- The rules are not too strict: a call that passes a pointer that the application has not got (any more), or has with
another type, is undefined behaviour. -/
theorem C105_the_rules_are_necessary (ops : List Op) (c : Call) (hu : .ub ∉ (State.init.run ops).2)
    (ha : .abort ∉ (State.init.run ops).2) (hc : pass (ledger (State.init.run ops).2).has (args c) = none) :
    ((State.init.run ops).1.step (.call c)).2 = [.ub] := by
  have hal := alive_of_events hu ha
  have h := call_ok (inv_of_run hal) hal c
  unfold State.step
  rw [hal, if_neg (fun h => by cases h)]
  dsimp only
  split
  · rfl
  · next e => rw [e] at h; exact absurd hc h.1
  · next e => rw [e] at h; exact absurd hc h.1
  · next e => rw [e] at h; exact absurd hc h.2.1

/-- The objects that exist are exactly those that the application has pointers to: nothing is released too early, and nothing
is lost. -/
theorem C105_objects_are_the_pointers (ops : List Op) (hu : .ub ∉ (State.init.run ops).2)
    (ha : .abort ∉ (State.init.run ops).2) (p : Nat) (k : Kind) :
    (p, k) ∈ (ledger (State.init.run ops).2).has ↔ ∃ o, (State.init.run ops).1.heap p = some o ∧ o.kind = k :=
  (inv_of_run (alive_of_events hu ha)).has p k

/-- There is no leak: when the application has given back every pointer, no object is left, and every client is closed. -/
theorem C105_no_leak (ops : List Op) (hu : .ub ∉ (State.init.run ops).2) (ha : .abort ∉ (State.init.run ops).2)
    (he : (ledger (State.init.run ops).2).has = []) :
    (∀ p, (State.init.run ops).1.heap p = none) ∧
      ∀ x ∈ (State.init.run ops).1.clients, x.life.freed = true ∧ x.life.closed = true := by
  have hi := inv_of_run (alive_of_events hu ha)
  obtain ⟨h1, h2⟩ := freed_of_empty hi he
  exact ⟨h1, fun x hx => ⟨h2 x hx, (hi.life x hx).1.freedClosed (h2 x hx)⟩⟩

/-- A pointer that is returned is new: the application has not got it yet. -/
theorem C105_pointers_are_new (ops : List Op) (c : Call) (p : Nat) (hu : .ub ∉ (State.init.run ops).2)
    (ha : .abort ∉ (State.init.run ops).2) (hc : .returned c (.ptr p) ∈ ((State.init.run ops).1.step (.call c)).2)
    (hp : p ≠ 0) :
    (∀ k, (p, k) ∉ (ledger (State.init.run ops).2).has) ∧
      (p, makes c) ∈ (ledger (State.init.run (ops ++ [.call c])).2).has := by
  have hal := alive_of_events hu ha
  have hi := inv_of_run hal
  have hsafe := call_ok hi hal c
  rw [run_append]
  unfold State.step at hc
  rw [hal, if_neg (fun h => by cases h)] at hc
  dsimp only at hc
  split at hc
  · simp at hc
  · simp at hc
  · simp at hc
  · next s' r e =>
    rw [List.mem_singleton] at hc
    cases hc
    have hr : ((State.init.run ops).1.run [.call c]).2 = [.returned c (.ptr p)] := by
      show ((State.init.run ops).1.step (.call c)).2 ++ [] = _
      unfold State.step
      rw [hal, if_neg (fun h => by cases h)]
      dsimp only
      rw [e]
      rfl
    constructor
    · intro k hk
      obtain ⟨o, ho, -⟩ := (hi.has p k).mp hk
      have hlow := (hi.low p o ho).2
      exact absurd (call_ptr e hp) (by omega)
    · show (p, makes c) ∈ (ledger (_ ++ ((State.init.run ops).1.run [.call c]).2)).has
      rw [hr, ledger, ledgerBy_append]
      show (p, makes c) ∈ _ ++ gets c (.ptr p)
      unfold gets
      dsimp only
      rw [if_neg hp]
      exact List.mem_append_right _ (List.mem_singleton.mpr rfl)

/-- Only one function can abort the process: `ac__service_table__get_service`, with an index that is too large. -/
theorem C105_calls_do_not_abort (ops : List Op) (c : Call) (hu : .ub ∉ (State.init.run ops).2)
    (ha : .abort ∉ (State.init.run ops).2) (hc : .abort ∈ ((State.init.run ops).1.step (.call c)).2) :
    ∃ t i, c = .tableService t i := by
  have hal := alive_of_events hu ha
  have h := call_ok (inv_of_run hal) hal c
  unfold State.step at hc
  rw [hal, if_neg (fun h => by cases h)] at hc
  dsimp only at hc
  split at hc
  · simp at hc
  · next e => rw [e] at h; exact h.2
  · simp at hc
  · simp at hc

/-- A history with two loggers, a default storage and a client that is started, asked for its services, freed and joined. -/
def c105ops : List Op :=
  [.call .loggerCustom, .call (.loggerClone 1), .call .configNew, .call (.configSetLogger 3 1),
   .call (.defaultNew (some 7) true), .call (.defaultSetLogger 4 2), .call (.defaultBuild 4), .call (.clientNew 3 5 [] true),
   .call (.clientAddCallback 6), .call (.clientStart 6), .inner 0 .begin, .inner 0 .mainCheck, .callback (.task 0) 0,
   .callback (.task 0) 1, .call (.clientTable 6 2), .call (.tableService 8 1), .call (.clientFree 6),
   .call (.serviceGet 8 1), .call (.tableFree 8), .call (.handleJoin 7), .inner 0 (.mainWork [] none), .inner 0 .mainCheck,
   .inner 0 .tickCheck, .inner 0 .shutdown, .threadEnds 0, .call (.handleJoin 7)]

/-- Is it undefined behaviour, or a panic? -/
def bad : Ev → Bool
  | .ub | .abort => true
  | _ => false

theorem not_bad {es : List Ev} (h : es.any bad = false) : .ub ∉ es ∧ .abort ∉ es := by
  rw [List.any_eq_false] at h
  exact ⟨fun hm => h _ hm rfl, fun hm => h _ hm rfl⟩

theorem c105_follows : Follows c105ops := followsB_sound (by decide +kernel)
theorem c105_good : (State.init.run c105ops).2.any bad = false := by decide +kernel
theorem c105_empty : (ledger (State.init.run c105ops).2).has = [] := by decide +kernel

-- the hypotheses are met by this history, in which all pointers are given back at the end
example : .ub ∉ (State.init.run c105ops).2 := C105_following_the_rules_is_safe c105ops c105_follows
example : ∀ p, (State.init.run c105ops).1.heap p = none :=
  (C105_no_leak c105ops (not_bad c105_good).1 (not_bad c105_good).2 c105_empty).1
example : (State.init.run c105ops).1.clients.length = 1 := by decide +kernel
-- before the handle is joined, it is all that the application has
example : (ledger (State.init.run (c105ops.take 20)).2).has = [(7, .handle)] := by decide +kernel
example : ∃ o, (State.init.run (c105ops.take 20)).1.heap 7 = some o ∧ o.kind = .handle :=
  (C105_objects_are_the_pointers _ (not_bad (by decide +kernel)).1 (not_bad (by decide +kernel)).2 7 .handle).mp (by decide +kernel)
-- joining it twice is undefined behaviour
example : ((State.init.run c105ops).1.step (.call (.handleJoin 7))).2 = [.ub] :=
  C105_the_rules_are_necessary c105ops _ (not_bad c105_good).1 (not_bad c105_good).2 (by decide +kernel)
example : ((6, Kind.client)) ∈ (ledger (State.init.run (c105ops.take 7 ++ [.call (.clientNew 3 5 [] true)])).2).has :=
  (C105_pointers_are_new (c105ops.take 7) (.clientNew 3 5 [] true) 6 (not_bad (by decide +kernel)).1
    (not_bad (by decide +kernel)).2 (by decide +kernel) (by decide)).2
-- an index that is too large
example : ((State.init.run (c105ops.take 15)).1.step (.call (.tableService 8 2))).2.any bad = true := by decide +kernel

/-- An application that follows the header: it frees the logger that it has set for the storage. -/
def c105header : List Op :=
  [.call .loggerPlain, .call (.defaultNew none true), .call (.defaultSetLogger 2 1), .call (.loggerFree 1)]

/-- The header alone is not enough: it does not say that `ac__default_storage_builder__set_logger` takes over the logger.
An application that follows the header, and therefore frees its logger, frees it twice. -/
theorem C105_false_by_the_header : FollowsBy headerArgs c105header ∧ .ub ∈ (State.init.run c105header).2 :=
  ⟨followsB_sound (by decide +kernel), by decide +kernel⟩

/-! ## C106: when the library calls back -/

/-- When the application has given back every pointer, the thread of every client that was started is over, and no scanner
thread is at work, then the library never again calls back with one of the opaque pointers that it has been given so far,
whatever the application and the threads do from then on. -/
theorem C106_no_callback_afterwards_partial (pre post : List Op) (hu : .ub ∉ (State.init.run pre).2)
    (ha : .abort ∉ (State.init.run pre).2) (he : (ledger (State.init.run pre).2).has = [])
    (hs : ∀ x ∈ (State.init.run pre).1.clients, Stopped x ∧ NotScanning x) :
    ∀ n, .callback n ∈ ((State.init.run pre).1.run post).2 → given (State.init.run pre).2 ≤ n := by
  have hi := inv_of_run (alive_of_events hu ha)
  have hg : (State.init.run pre).1.nextOpaque = given (State.init.run pre).2 :=
    (run_opaque State.init pre).trans (Nat.zero_add _)
  rw [← hg]
  exact Post.run post hi (post_of_empty hi he hs)

/-- Then no lock is held either: another storage can take it. -/
theorem C106_lock_is_free_afterwards_partial (pre : List Op) (file : Nat) (hu : .ub ∉ (State.init.run pre).2)
    (ha : .abort ∉ (State.init.run pre).2) (he : (ledger (State.init.run pre).2).has = [])
    (hs : ∀ x ∈ (State.init.run pre).1.clients, Stopped x ∧ NotScanning x) :
    ∃ p, p ≠ 0 ∧ ((State.init.run pre).1.step (.call (.defaultNew (some file) true))).2 =
      [.returned (.defaultNew (some file) true) (.ptr p)] := by
  have hal := alive_of_events hu ha
  have hi := inv_of_run hal
  have hl := free_of_empty hi he hs (.lock file)
  refine ⟨_, Nat.ne_of_gt hi.pos, ?_⟩
  unfold State.step
  rw [hal, if_neg (fun h => by cases h)]
  have hc : (State.init.run pre).1.call (.defaultNew (some file) true) =
      (State.init.run pre).1.give (.defaultBuilder [.lock file] []) := by
    unfold State.call
    dsimp only
    rw [if_pos]
    unfold State.lockFree
    rw [hl]
    rfl
  dsimp only
  rw [hc]
  rfl

/-- Without discovery, what the application itself does is enough: it starts its clients with `ac__arrow_client__start`, joins
all the threads, and gives back every pointer. -/
theorem C106_joined_without_discovery (pre post : List Op) (hp : ∀ c, .call c ∈ pre → Plain c)
    (hu : .ub ∉ (State.init.run pre).2) (ha : .abort ∉ (State.init.run pre).2)
    (he : (ledger (State.init.run pre).2).has = []) :
    (∀ n, .callback n ∈ ((State.init.run pre).1.run post).2 → given (State.init.run pre).2 ≤ n) ∧
      ∀ file, ∃ p, p ≠ 0 ∧ ((State.init.run pre).1.step (.call (.defaultNew (some file) true))).2 =
        [.returned (.defaultNew (some file) true) (.ptr p)] := by
  have hal := alive_of_events hu ha
  have hi := inv_of_run hal
  have hs := stopped_of_joined hi (Joined.run pre cinv_init joined_init hp hal) he
  exact ⟨C106_no_callback_afterwards_partial pre post hu ha he hs,
    fun file => C106_lock_is_free_afterwards_partial pre file hu ha he hs⟩

-- the history above gives two opaque pointers, and the library calls back with both
example : given (State.init.run c105ops).2 = 2 := by decide +kernel
example : (State.init.run c105ops).2.countP (fun e => match e with | .callback _ => true | _ => false) = 2 := by decide +kernel
example : ∀ c, .call c ∈ c105ops → Plain c := by
  intro c hc
  simp only [c105ops, List.mem_cons, List.not_mem_nil, or_false, reduceCtorEq, Op.call.injEq, false_or] at hc
  refine ⟨?_, ?_, ?_⟩ <;> intro p e <;> subst e <;> simp at hc

/-- A client with discovery: a scan begins, the client is freed, its thread ends and is joined. -/
def c106ops : List Op :=
  [.call .loggerCustom, .call .configNew, .call (.configSetLogger 2 1), .call (.configSetDiscovery 2 true),
   .call (.defaultNew (some 7) true), .call (.defaultBuild 3), .call (.clientNew 2 4 [] true), .call (.clientStart 5),
   .inner 0 .begin, .inner 0 .tickCheck, .inner 0 .tickSend, .inner 0 (.handle 0), .call (.clientFree 5),
   .inner 0 .mainCheck, .inner 0 .tickCheck, .inner 0 .shutdown, .threadEnds 0, .call (.handleJoin 6)]

/-- With discovery this is false of the code: the application has freed the client, has joined its thread and given back every
pointer, but a scanner thread of the client is still at work. It calls back with the opaque pointer of the logger, and holds
the lock. -/
theorem C106_false_with_discovery :
    Follows c106ops ∧ .ub ∉ (State.init.run c106ops).2 ∧ .abort ∉ (State.init.run c106ops).2 ∧
      (ledger (State.init.run c106ops).2).has = [] ∧ .returned (.handleJoin 6) .unit ∈ (State.init.run c106ops).2 ∧
      given (State.init.run c106ops).2 = 1 ∧
      ((State.init.run c106ops).1.step (.callback (.scanner 0 0) 0)).2 = [.callback 0] ∧
      ((State.init.run c106ops).1.step (.call (.defaultNew (some 7) true))).2 =
        [.returned (.defaultNew (some 7) true) (.ptr 0)] :=
  ⟨followsB_sound (by decide +kernel), by decide +kernel, by decide +kernel, by decide +kernel, by decide +kernel,
    by decide +kernel, by decide +kernel, by decide +kernel⟩

/-- The same history; then the scanner thread stops working (it then aborts the process, see C95). -/
def c106done : List Op :=
  c106ops ++ [.inner 0 (.work 0 none), .inner 0 (.work 0 none), .inner 0 (.work 0 none)]

-- the hypotheses of the partial theorems are met, although the client has discovery
example : (∀ x ∈ (State.init.run c106done).1.clients, Stopped x ∧ NotScanning x) ∧
    (State.init.run c106done).1.clients.length = 1 := by
  have h : (State.init.run c106done).1.clients.all (fun x => (!x.life.started || x.ended) &&
      x.life.h.workers.all (fun ph => !holding ph)) = true := by decide +kernel
  refine ⟨fun x hx => ?_, by decide +kernel⟩
  have h1 := List.all_eq_true.mp h x hx
  rw [Bool.and_eq_true, List.all_eq_true] at h1
  exact ⟨fun hs => by rw [hs] at h1; exact h1.1, fun ph hp => by simpa using h1.2 ph hp⟩
example : (ledger (State.init.run c106done).2).has = [] ∧ (State.init.run c106done).2.any bad = false := by decide +kernel

end Verif.CApi
