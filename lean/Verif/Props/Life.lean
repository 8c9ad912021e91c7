import Verif.Lemmas.LifeSteps
/-!
# C95: the life of a client

`C95_scan_abort` is a finding: closing a client while a scan is running aborts the process of the application.
-/
namespace Verif.Life
open Spec.Life
open Verif.CmdHandler (Cmd Owner Phase Msg)
open Verif.Reconnect (ConnState)

/-- The task is handed out once: the first `start` returns a join handle, every later one NULL. Until then nothing runs:
all that happens is that commands of the application are put into the queue. -/
theorem C95_once (discovery : Bool) (ops : List Op) :
    let evs := ((Life.new discovery).run ops).2
    (starts evs = [] ∨ ∃ n, starts evs = true :: List.replicate n false)
    ∧ (starts evs = [] → ∀ e ∈ evs, ∃ c, e = .sent .client c) := by
  intro evs
  exact ⟨(starts_run (inv_new discovery) ops).2 rfl, unstarted_run (inv_new discovery) rfl ops⟩

example : starts ((Life.new true).run [.scan, .begin, .start, .close, .start]).2 = [true, false] := by decide +kernel

/-- Over the whole life of a client the commands it sends are those that its calls ask for until it is closed, in order. -/
theorem C95_commands (discovery : Bool) (ops : List Op) :
    sentBy .client ((Life.new discovery).run ops).2 = asked ops :=
  sentBy_client_run (inv_new discovery) ops

example : sentBy .client ((Life.new true).run [.scan, .start, .rescan, .close, .scan]).2
    = [.scanNetwork, .resetServiceTable, .scanNetwork] := by decide +kernel

/-- Until the client is closed a command goes to the end of the queue of the command handler, whatever has happened. -/
theorem C95_queued (discovery : Bool) (pre : List Op) (hc : ∀ op ∈ pre, ¬ Closes op) :
    let l := ((Life.new discovery).run pre).1
    (l.step .scan).1.h.queue = l.h.queue ++ [.command .scanNetwork]
    ∧ (l.step .rescan).1.h.queue = l.h.queue ++ [.command .resetServiceTable, .command .scanNetwork] := by
  intro l
  have hi : Inv l := inv_run (inv_new discovery) pre
  have hcl : l.closed = false := by
    cases h : l.closed with
    | false => rfl
    | true =>
      cases (closed_run (inv_new discovery) pre).1 h with
      | inl h => cases h
      | inr h => obtain ⟨o, ho, h⟩ := h; exact absurd h (hc o ho)
  obtain ⟨ha, hal, -, -, hs⟩ := hi.opened hcl
  have hf : l.freed = false := by
    cases h : l.freed with
    | false => rfl
    | true => have := hi.freedClosed h; rw [hcl] at this; cases this
  have key : ∀ cs, (l.sendAll .client cs).1.h.queue = l.h.queue ++ cs.map .command :=
    fun cs => sendAll_queue ha hal hs (.inl rfl) cs
  constructor
  · unfold Life.step
    rw [ha, hf]
    show (l.call .scan).1.h.queue = _
    unfold Life.call
    dsimp only
    rw [hcl]
    exact key _
  · unfold Life.step
    rw [ha, hf]
    show (l.call .rescan).1.h.queue = _
    unfold Life.call
    dsimp only
    rw [hcl]
    exact key _

example : ∀ op ∈ [Op.start, .begin, .scan, .mainCheck], ¬ Closes op := by
  intro op h hc
  simp only [List.mem_cons, List.not_mem_nil, or_false] at h
  rcases h with rfl | rfl | rfl | rfl <;> rcases hc with h | h <;> cases h

/-- After the client was closed, its calls send nothing, the main task works at most once more and at most one periodic scan
is triggered: by a poll that was in flight. Without such a poll nothing is done, and the connection state stays what it was
when the client was closed: a client that was connected goes on saying so. -/
theorem C95_closed (discovery : Bool) (pre post : List Op) (hc : ∃ op ∈ pre, Closes op) :
    let l := ((Life.new discovery).run pre).1
    sentBy .client (l.run post).2 = []
    ∧ workCount (l.run post).2 ≤ 1
    ∧ (sentBy .periodic (l.run post).2).length ≤ 1
    ∧ (l.main ≠ .checked → workCount (l.run post).2 = 0 ∧ (l.run post).1.conn = l.conn)
    ∧ (l.ticker ≠ .checked → sentBy .periodic (l.run post).2 = []) := by
  intro l
  have hi : Inv l := inv_run (inv_new discovery) pre
  have hcl : l.closed = true := (closed_run (inv_new discovery) pre).2 (.inr hc)
  obtain ⟨a, b, c⟩ := after_run hi hcl post
  have hle : ∀ p, inFlight p ≤ 1 := fun p => by cases p <;> decide
  have hz : ∀ {p}, p ≠ .checked → inFlight p = 0 := fun {p} h => if_neg h
  refine ⟨?_, Nat.le_trans a (hle _), Nat.le_trans b (hle _), fun hm => ⟨?_, c hm⟩, fun ht => ?_⟩
  · have := sentBy_client_run hi post
    rw [if_pos hcl] at this
    exact this
  · rw [hz hm] at a
    exact Nat.le_zero.1 a
  · rw [hz ht] at b
    exact List.eq_nil_of_length_eq_zero (Nat.le_zero.1 b)

/-- A history with polls in flight at the time of the closing. -/
def closingHistory : List Op :=
  [.start, .begin, .mainCheck, .mainWork [] (some .connected), .mainCheck, .tickCheck, .close]

example : (∃ op ∈ closingHistory, Closes op) ∧ ((Life.new true).run closingHistory).1.conn = .connected
    ∧ ((Life.new true).run closingHistory).1.main = .checked :=
  ⟨⟨.close, by simp [closingHistory], .inl rfl⟩, by decide +kernel, by decide +kernel⟩

/-- the last words of a closed client; it says that it is connected -/
example :
    let r := ((Life.new true).run closingHistory).1.run [.scan, .mainWork [.scanNetwork] none, .tickSend, .mainCheck, .tickCheck, .mainCheck]
    r.2 = [.worked, .sent .mainTask .scanNetwork, .sent .periodic .periodicNetworkScan, .ended] ∧ r.1.conn = .connected := by
  decide +kernel

/-- The task ends only after the client was closed, and only once. If it is not in a poll, its next poll after the closing
ends it. -/
theorem C95_ends (discovery : Bool) (ops : List Op) :
    let r := (Life.new discovery).run ops
    (.ended ∈ r.2 → ∃ op ∈ ops, Closes op)
    ∧ r.2.count .ended ≤ 1
    ∧ ((∃ op ∈ ops, Closes op) → r.1.main = .idle → r.1.aborted = false → (r.1.step .mainCheck).2 = [.ended]) := by
  intro r
  have hi : Inv r.1 := inv_run (inv_new discovery) ops
  have hcount := (ended_run (inv_new discovery) ops).1
  have hr : r = (Life.new discovery).run ops := rfl
  rw [← hr] at hcount
  refine ⟨fun he => ?_, ?_, fun hc hm ha => ?_⟩
  · have hpos : 0 < r.2.count .ended := List.count_pos_iff.2 he
    have ho : r.1.over = true := by
      rw [hcount] at hpos
      split at hpos
      · next h => exact h.1
      · exact absurd hpos (Nat.lt_irrefl 0)
    have hcl : r.1.closed = true := by
      cases h : r.1.closed with
      | true => rfl
      | false => have := (hi.opened h).2.2.1; rw [ho] at this; cases this
    cases (closed_run (inv_new discovery) ops).1 hcl with
    | inl h => cases h
    | inr h => exact h
  · rw [hcount]
    split
    · exact Nat.le_refl 1
    · exact Nat.zero_le 1
  · have hcl : r.1.closed = true := (closed_run (inv_new discovery) ops).2 (.inr hc)
    unfold Life.step
    rw [ha]
    show (r.1.task .mainCheck).2 = _
    unfold Life.task
    dsimp only
    rw [if_pos hm, hcl]
    rfl

example : (∃ op ∈ [Op.start, .begin, .close], Closes op) ∧ ((Life.new true).run [.start, .begin, .close]).1.main = .idle
    ∧ ((Life.new true).run [.start, .begin, .close]).1.aborted = false :=
  ⟨⟨.close, by simp, .inl rfl⟩, by decide +kernel, by decide +kernel⟩

/-- A client that is never closed or dropped, as in the command line client, which forgets its client object, never ends and
never panics, whatever the application, the tasks and the scanner threads do. -/
theorem C95_forever (discovery : Bool) (ops : List Op) (hc : ∀ op ∈ ops, ¬ Closes op) :
    .ended ∉ ((Life.new discovery).run ops).2 ∧ .abort ∉ ((Life.new discovery).run ops).2 := by
  have hi := inv_run (inv_new discovery) ops
  have hcl : ((Life.new discovery).run ops).1.closed = false := by
    cases h : ((Life.new discovery).run ops).1.closed with
    | false => rfl
    | true =>
      cases (closed_run (inv_new discovery) ops).1 h with
      | inl h => cases h
      | inr h => obtain ⟨o, ho, h⟩ := h; exact absurd h (hc o ho)
  constructor
  · intro he
    obtain ⟨o, ho, h⟩ := (C95_ends discovery ops).1 he
    exact hc o ho h
  · intro ha
    have h1 := (abort_run (inv_new discovery) rfl ops).1 ha
    rw [(hi.opened hcl).1] at h1
    cases h1

/-- A panic is possible only after the task has ended, in two places: in a scanner thread that reports the end of its scan,
and in a trigger of a periodic scan that was in flight. -/
theorem C95_abort_only (discovery : Bool) (pre : List Op) (op : Op) :
    let r := (Life.new discovery).run pre
    .abort ∈ (r.1.step op).2 →
    .ended ∈ r.2
    ∧ ((op = .tickSend ∧ r.1.ticker = .checked) ∨ ∃ i result, op = .work i result ∧ r.1.h.workers[i]? = some .cleared) := by
  intro r ha
  have hi : Inv r.1 := inv_run (inv_new discovery) pre
  obtain ⟨ho, -, h⟩ := abort_over hi (step_did hi op) ha
  refine ⟨?_, h⟩
  have hcount := (ended_run (inv_new discovery) pre).1
  rw [if_pos ⟨ho, rfl⟩] at hcount
  exact List.count_pos_iff.1 (by rw [hcount]; exact Nat.one_pos)

/-- **Finding.** Close a client that is scanning: when its task ends the runtime is dropped, and with it the command handler.
The scanner thread goes on. At its end it panics, because nobody receives its report, and in a release build the process of
the application is aborted. This happens in every history, as soon as the thread has made its (at most six) steps. -/
theorem C95_scan_abort (discovery : Bool) (pre post : List Op) (i : Nat)
    (hidle : ((Life.new discovery).run pre).1.main = .idle)
    (hrun : ((Life.new discovery).run pre).1.aborted = false)
    (hf : ((Life.new discovery).run pre).1.freed = false)
    (hscan : Scanning ((Life.new discovery).run pre).1 i)
    (hpost : 6 ≤ (post.filter fun op => match op with | .work j _ => j == i | _ => false).length) :
    .abort ∈ ((Life.new discovery).run (pre ++ [.close, .mainCheck, .shutdown] ++ post)).2 := by
  obtain ⟨p, hp, h1, h2⟩ := hscan
  rw [abort_run (inv_new discovery) rfl, run_append, run_append]
  dsimp only
  generalize hl : ((Life.new discovery).run pre).1 = l at hidle hrun hf hp ⊢
  have hi : Inv l := hl ▸ inv_run (inv_new discovery) pre
  obtain ⟨-, w1, -⟩ := drop_facts l.h .client
  have e1 : l.step .close = (l.close, []) := by
    unfold Life.step
    rw [hrun, hf]
    rfl
  obtain ⟨-, w2, -⟩ := drop_facts l.close.h .mainTask
  have e2 : l.close.step .mainCheck
      = ({ l.close with main := .gone, over := true, h := (l.close.h.step (.drop .mainTask)).1 }, [.ended]) := by
    unfold Life.step
    rw [show l.close.aborted = false from hrun]
    show l.close.task .mainCheck = _
    unfold Life.task
    dsimp only
    rw [if_pos (show l.close.main = .idle from hidle)]
    rfl
  have e3 : (l.run [.close, .mainCheck, .shutdown]).1.h.alive = false
      ∧ (l.run [.close, .mainCheck, .shutdown]).1.h.workers = l.h.workers := by
    rw [run_cons, e1, run_cons]
    dsimp only
    rw [e2, run_cons]
    dsimp only
    have hs : ∀ x : Life, x.aborted = false → x.over = true →
        (x.step .shutdown).1.h.alive = false ∧ (x.step .shutdown).1.h.workers = x.h.workers := by
      intro x hx ho
      unfold Life.step
      rw [hx]
      show (x.task .shutdown).1.h.alive = false ∧ (x.task .shutdown).1.h.workers = x.h.workers
      unfold Life.task
      dsimp only
      rw [if_pos ho]
      exact ⟨rfl, rfl⟩
    obtain ⟨a, b⟩ := hs ({ l.close with main := .gone, over := true, h := (l.close.h.step (.drop .mainTask)).1 }) hrun rfl
    exact ⟨a, b.trans (w2.trans w1)⟩
  refine scan_abort (inv_run hi _) (p := p) (i := i) e3.1 (by rw [e3.2]; exact hp) h1 h2 post ?_
  have hw : (post.filter fun op => match op with | .work j _ => j == i | _ => false).length = post.countP (isWork i) := by
    rw [List.countP_eq_length_filter]
    rfl
  rw [hw] at hpost
  have hr : rank p ≤ 5 := by cases p <;> simp [rank]
  exact Nat.lt_of_le_of_lt hr hpost

/-- A client with a running scan. -/
def scanningHistory : List Op := [.start, .begin, .tickCheck, .tickSend, .handle 0, .work 0 none]

example : ((Life.new true).run scanningHistory).1.main = .idle ∧ ((Life.new true).run scanningHistory).1.aborted = false
    ∧ ((Life.new true).run scanningHistory).1.freed = false ∧ Scanning ((Life.new true).run scanningHistory).1 0 :=
  ⟨by decide +kernel, by decide +kernel, by decide +kernel, .scanning, by decide +kernel, by decide, by decide⟩

/-- the scan finds 3 services; nothing in it is disturbed by the closing, until it reports -/
example : ((Life.new true).run (scanningHistory ++ [.close, .mainCheck, .shutdown]
      ++ [.work 0 (some 3), .work 0 none, .work 0 none, .work 0 none, .work 0 none])).2
    = [.startReturned true, .sent .periodic .periodicNetworkScan, .handler (.started 0), .handler (.scanning true), .ended,
      .handler (.published 0 3), .handler (.stored 0 3), .handler (.scanning false), .abort] := by decide +kernel

/-- the hypotheses of `C95_abort_only` -/
example : .abort ∈ (((Life.new true).run (closingHistory ++ [.mainWork [] none, .mainCheck, .shutdown])).1.step .tickSend).2 := by
  decide +kernel

end Verif.Life
