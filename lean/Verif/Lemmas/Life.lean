import Verif.Spec.Life
/-!
# Lemmas on the life of a client
-/
namespace Verif.Life
open Spec.Life
open Verif.CmdHandler (H HOp HEv Cmd Owner Phase Msg)
open Verif.Reconnect (ConnState)

/-! ## The command handler -/

/-- The channel is the same for all but the scanner threads. -/
def Keeps (h h' : H) : Prop :=
  h'.alive = h.alive ∧ ∀ o, (∀ i, o ≠ .worker i) → (o ∈ h'.senders ↔ o ∈ h.senders)

theorem keeps_rfl (h : H) : Keeps h h := ⟨rfl, fun _ _ => Iff.rfl⟩

theorem keeps_scanNetwork (h : H) : Keeps h h.scanNetwork.1 := by
  unfold H.scanNetwork
  split
  · exact keeps_rfl h
  · refine ⟨rfl, fun o ho => ?_⟩
    show o ∈ h.senders ++ [.worker _] ↔ _
    rw [List.mem_append, List.mem_singleton]
    exact ⟨fun h => h.resolve_right (ho _), .inl⟩

theorem keeps_processEvent (h : H) (now : Nat) (m : Msg) : Keeps h (h.processEvent now m).1 := by
  cases m with
  | command c =>
    cases c with
    | resetServiceTable => exact keeps_rfl h
    | scanNetwork => exact keeps_scanNetwork h
    | periodicNetworkScan =>
      unfold H.processEvent H.processCommand
      dsimp only
      split
      · split
        · exact keeps_scanNetwork h
        · exact keeps_rfl h
      · split
        · exact keeps_scanNetwork h
        · exact keeps_rfl h
  | scanCompleted => exact ⟨rfl, fun _ _ => Iff.rfl⟩

theorem keeps_handle {h : H} (hh : .handler ∈ h.senders) (now : Nat) : Keeps h (h.step (.handle now)).1 := by
  unfold H.step
  dsimp only
  split
  · split
    · next m q hq => exact keeps_processEvent { h with queue := q } now m
    · split
      · next e => rw [e] at hh; cases hh
      · exact keeps_rfl h
  · exact keeps_rfl h

theorem keeps_work (h : H) (i : Nat) (r : Option Nat) : Keeps h (h.step (.work i r)).1 := by
  unfold H.step
  dsimp only
  unfold H.work
  split
  · exact ⟨rfl, fun _ _ => Iff.rfl⟩
  · split
    · exact ⟨rfl, fun _ _ => Iff.rfl⟩
    · exact ⟨rfl, fun _ _ => Iff.rfl⟩
  · exact ⟨rfl, fun _ _ => Iff.rfl⟩
  · exact ⟨rfl, fun _ _ => Iff.rfl⟩
  · exact ⟨rfl, fun _ _ => Iff.rfl⟩
  · refine ⟨rfl, fun o ho => ?_⟩
    show o ∈ h.senders.filter _ ↔ _
    rw [List.mem_filter]
    exact ⟨fun h => h.1, fun h => ⟨h, by simpa using ho i⟩⟩
  · exact keeps_rfl h

theorem keeps_send (h : H) (o : Owner) (c : Cmd) :
    Keeps h (h.step (.send o c)).1 ∧ (h.step (.send o c)).1.workers = h.workers := by
  unfold H.step
  dsimp only
  split
  · split
    · exact ⟨⟨rfl, fun _ _ => Iff.rfl⟩, rfl⟩
    · exact ⟨keeps_rfl h, rfl⟩
  · exact ⟨keeps_rfl h, rfl⟩

theorem drop_facts (h : H) (o : Owner) :
    (h.step (.drop o)).1.alive = h.alive ∧ (h.step (.drop o)).1.workers = h.workers
    ∧ ∀ x, x ≠ o → (x ∈ (h.step (.drop o)).1.senders ↔ x ∈ h.senders) := by
  unfold H.step
  dsimp only
  split
  · refine ⟨rfl, rfl, fun x hx => ?_⟩
    rw [List.mem_filter]
    exact ⟨fun h => h.1, fun h => ⟨h, by simpa using hx⟩⟩
  · exact ⟨rfl, rfl, fun _ _ => Iff.rfl⟩

theorem workers_work {h : H} (i : Nat) (r : Option Nat) (hw : h.workers = []) : (h.step (.work i r)).1.workers = [] := by
  unfold H.step
  dsimp only
  unfold H.work
  rw [hw]
  exact hw

/-! ## The invariant -/

structure Inv (l : Life) : Prop where
  opened : l.closed = false → l.aborted = false ∧ l.h.alive = true ∧ l.over = false ∧ l.main ≠ .gone ∧ .client ∈ l.h.senders
  overGone : l.over = true → l.main = .gone
  handler : l.h.alive = true → .handler ∈ l.h.senders
  dead : l.h.alive = false → l.over = true ∨ (l.freed = true ∧ l.started = false)
  beganStarted : l.began = true → l.started = true
  mainBegan : l.main ≠ .notYet → l.began = true
  tickBegan : l.ticker ≠ .notYet → l.began = true
  freedClosed : l.freed = true → l.closed = true
  mainSender : l.main ≠ .gone → .mainTask ∈ l.h.senders
  tickSender : l.ticker ≠ .gone → .periodic ∈ l.h.senders
  workers : l.began = false → l.h.workers = []

theorem inv_new (d : Bool) : Inv (Life.new d) where
  opened := fun _ => ⟨rfl, rfl, rfl, fun h => (by cases h), by decide +revert⟩
  overGone := fun h => (by cases h)
  handler := fun _ => by decide +revert
  dead := fun h => (by cases h)
  beganStarted := fun h => (by cases h)
  mainBegan := fun h => absurd rfl h
  tickBegan := fun h => absurd rfl h
  freedClosed := fun h => (by cases h)
  mainSender := fun _ => by decide +revert
  tickSender := fun _ => by decide +revert
  workers := fun _ => rfl

theorem notWorker_client : ∀ i, Owner.client ≠ .worker i := fun i h => by cases h
theorem notWorker_main : ∀ i, Owner.mainTask ≠ .worker i := fun i h => by cases h
theorem notWorker_periodic : ∀ i, Owner.periodic ≠ .worker i := fun i h => by cases h
theorem notWorker_handler : ∀ i, Owner.handler ≠ .worker i := fun i h => by cases h

/-- The invariant does not depend on what the command handler does. -/
theorem inv_h {l : Life} (h : Inv l) {h' : H} (hk : Keeps l.h h') (hw : l.began = false → h'.workers = []) :
    Inv { l with h := h' } where
  opened := fun hc => by
    obtain ⟨a, b, c, d, e⟩ := h.opened hc
    exact ⟨a, hk.1.trans b, c, d, (hk.2 _ notWorker_client).2 e⟩
  overGone := h.overGone
  handler := fun ha => (hk.2 _ notWorker_handler).2 (h.handler (hk.1.symm.trans ha))
  dead := fun ha => h.dead (hk.1.symm.trans ha)
  beganStarted := h.beganStarted
  mainBegan := h.mainBegan
  tickBegan := h.tickBegan
  freedClosed := h.freedClosed
  mainSender := fun hm => (hk.2 _ notWorker_main).2 (h.mainSender hm)
  tickSender := fun hm => (hk.2 _ notWorker_periodic).2 (h.tickSender hm)
  workers := hw

/-- Sending while the receiver exists. -/
theorem send_alive {l : Life} (ha : l.h.alive = true) (o : Owner) (c : Cmd) :
    l.send o c = ({ l with h := (l.h.step (.send o c)).1 }, [.sent o c]) := by
  rw [Life.send, if_pos ha]

theorem sendAll_alive {l : Life} (h : Inv l) (hn : l.aborted = false) (ha : l.h.alive = true) (o : Owner) (cs : List Cmd) :
    ∃ h', Keeps l.h h' ∧ h'.workers = l.h.workers ∧ l.sendAll o cs = ({ l with h := h' }, cs.map (.sent o)) := by
  induction cs generalizing l with
  | nil => exact ⟨l.h, keeps_rfl _, rfl, rfl⟩
  | cons c cs ih =>
    obtain ⟨k, w⟩ := keeps_send l.h o c
    have hi := inv_h h k (fun hb => w.trans (h.workers hb))
    obtain ⟨h', k', w', e⟩ := ih hi hn (k.1.trans ha)
    refine ⟨h', ⟨k'.1.trans k.1, fun o ho => (k'.2 o ho).trans (k.2 o ho)⟩, w'.trans w, ?_⟩
    rw [Life.sendAll, send_alive ha]
    dsimp only
    rw [if_neg (by rw [hn]; exact Bool.false_ne_true), e]
    rfl

/-- The queue after sending. -/
theorem sendAll_queue {l : Life} (hn : l.aborted = false) (ha : l.h.alive = true) {o : Owner} (ho : o ∈ l.h.senders)
    (hk : o = .client ∨ o = .mainTask ∨ o = .periodic) (cs : List Cmd) :
    (l.sendAll o cs).1.h.queue = l.h.queue ++ cs.map .command := by
  induction cs generalizing l with
  | nil => exact (List.append_nil _).symm
  | cons c cs ih =>
    have e : l.h.step (.send o c) = ({ l.h with queue := l.h.queue ++ [.command c] }, []) := by
      unfold H.step
      dsimp only
      rw [if_pos ⟨ho, hk⟩, if_pos ha]
    rw [Life.sendAll, send_alive ha, e]
    dsimp only
    rw [if_neg (by rw [hn]; exact Bool.false_ne_true)]
    dsimp only
    rw [ih (l := { l with h := { l.h with queue := l.h.queue ++ [.command c] } }) hn ha ho]
    simp

theorem inv_close {l : Life} (h : Inv l) : Inv l.close := by
  obtain ⟨a, b, c⟩ := drop_facts l.h .client
  exact
    { opened := fun hc => (by cases hc)
      overGone := h.overGone
      handler := fun ha => (c _ (fun h => by cases h)).2 (h.handler (a.symm.trans ha))
      dead := fun ha => h.dead (a.symm.trans ha)
      beganStarted := h.beganStarted
      mainBegan := h.mainBegan
      tickBegan := h.tickBegan
      freedClosed := fun _ => rfl
      mainSender := fun hm => (c _ (fun h => by cases h)).2 (h.mainSender hm)
      tickSender := fun hm => (c _ (fun h => by cases h)).2 (h.tickSender hm)
      workers := fun hb => b.trans (h.workers hb) }

/-- The receiver exists while the client is open, and while the main task is there. -/
theorem alive_main {l : Life} (h : Inv l) (hm : l.main = .idle ∨ l.main = .checked) : l.h.alive = true := by
  cases ha : l.h.alive with
  | true => rfl
  | false =>
    rcases h.dead ha with ho | ⟨-, hs⟩
    · rw [h.overGone ho] at hm
      rcases hm with hm | hm <;> cases hm
    · have : l.began = true := h.mainBegan (by rcases hm with hm | hm <;> rw [hm] <;> exact fun h => by cases h)
      rw [h.beganStarted this] at hs
      cases hs

theorem inv_call {l : Life} (h : Inv l) (hn : l.aborted = false) (hf : l.freed = false) (op : Op) : Inv (l.call op).1 := by
  cases op with
  | start =>
    unfold Life.call
    dsimp only
    split
    · exact h
    · next hs =>
      exact
        { opened := h.opened
          overGone := h.overGone
          handler := h.handler
          dead := fun ha => by
            rcases h.dead ha with ho | ⟨ho, -⟩
            · exact .inl ho
            · rw [hf] at ho; cases ho
          beganStarted := fun _ => rfl
          mainBegan := h.mainBegan
          tickBegan := h.tickBegan
          freedClosed := h.freedClosed
          mainSender := h.mainSender
          tickSender := h.tickSender
          workers := h.workers }
  | scan =>
    unfold Life.call
    dsimp only
    split
    · exact h
    · next hc =>
      have hc : l.closed = false := by simpa using hc
      obtain ⟨h', k, w, e⟩ := sendAll_alive h hn (h.opened hc).2.1 .client [.scanNetwork]
      rw [e]
      exact inv_h h k (fun hb => w.trans (h.workers hb))
  | rescan =>
    unfold Life.call
    dsimp only
    split
    · exact h
    · next hc =>
      have hc : l.closed = false := by simpa using hc
      obtain ⟨h', k, w, e⟩ := sendAll_alive h hn (h.opened hc).2.1 .client [.resetServiceTable, .scanNetwork]
      rw [e]
      exact inv_h h k (fun hb => w.trans (h.workers hb))
  | close => exact inv_close h
  | free =>
    have hc := inv_close h
    unfold Life.call
    dsimp only
    split
    · exact
        { opened := fun h => (by cases h)
          overGone := hc.overGone
          handler := hc.handler
          dead := fun ha => (hc.dead ha).imp id (fun h => ⟨rfl, h.2⟩)
          beganStarted := hc.beganStarted
          mainBegan := hc.mainBegan
          tickBegan := hc.tickBegan
          freedClosed := fun _ => rfl
          mainSender := hc.mainSender
          tickSender := hc.tickSender
          workers := hc.workers }
    · next hs =>
      exact
        { opened := fun h => (by cases h)
          overGone := hc.overGone
          handler := fun h => (by cases h)
          dead := fun ha => .inr ⟨rfl, by simpa using hs⟩
          beganStarted := hc.beganStarted
          mainBegan := hc.mainBegan
          tickBegan := hc.tickBegan
          freedClosed := fun _ => rfl
          mainSender := hc.mainSender
          tickSender := hc.tickSender
          workers := hc.workers }
  | _ => exact h

theorem inv_task {l : Life} (h : Inv l) (hn : l.aborted = false) (op : Op) : Inv (l.task op).1 := by
  cases op with
  | begin =>
    unfold Life.task
    dsimp only
    split
    · next hb =>
      have hb2 : l.began = false := by simpa using hb.2
      have hm : l.main = .notYet := Classical.byContradiction fun hh => by
        have := h.mainBegan hh; rw [hb2] at this; cases this
      have ht : l.ticker = .notYet := Classical.byContradiction fun hh => by
        have := h.tickBegan hh; rw [hb2] at this; cases this
      exact
        { opened := fun hc => by
            obtain ⟨a, b, c, d, e⟩ := h.opened hc
            exact ⟨a, b, c, fun h => (by cases h), e⟩
          overGone := fun ho => by
            have := h.overGone ho; rw [hm] at this; cases this
          handler := h.handler
          dead := h.dead
          beganStarted := fun _ => hb.1
          mainBegan := fun _ => rfl
          tickBegan := fun _ => rfl
          freedClosed := h.freedClosed
          mainSender := fun _ => h.mainSender (by rw [hm]; exact fun h => by cases h)
          tickSender := fun _ => h.tickSender (by rw [ht]; exact fun h => by cases h)
          workers := fun h => (by cases h) }
    · exact h
  | mainCheck =>
    unfold Life.task
    dsimp only
    split
    · next hm =>
      have hb : l.began = true := h.mainBegan (by rw [hm]; exact fun h => by cases h)
      split
      · next hc =>
        obtain ⟨a, b, c⟩ := drop_facts l.h .mainTask
        exact
          { opened := fun h => by rw [show l.closed = true from hc] at h; cases h
            overGone := fun _ => rfl
            handler := fun ha => (c _ (fun h => by cases h)).2 (h.handler (a.symm.trans ha))
            dead := fun _ => .inl rfl
            beganStarted := h.beganStarted
            mainBegan := fun _ => hb
            tickBegan := h.tickBegan
            freedClosed := h.freedClosed
            mainSender := fun hh => absurd rfl hh
            tickSender := fun hm => (c _ (fun h => by cases h)).2 (h.tickSender hm)
            workers := fun hb' => b.trans (h.workers hb') }
      · next hc =>
        exact
          { opened := fun hc => by
              obtain ⟨a, b, c, d, e⟩ := h.opened hc
              exact ⟨a, b, c, fun h => (by cases h), e⟩
            overGone := fun ho => by
              have := h.overGone ho; rw [hm] at this; cases this
            handler := h.handler
            dead := h.dead
            beganStarted := h.beganStarted
            mainBegan := fun _ => hb
            tickBegan := h.tickBegan
            freedClosed := h.freedClosed
            mainSender := fun _ => h.mainSender (by rw [hm]; exact fun h => by cases h)
            tickSender := h.tickSender
            workers := h.workers }
    · exact h
  | mainWork cmds conn =>
    unfold Life.task
    dsimp only
    split
    · next hm =>
      have hb : l.began = true := h.mainBegan (by rw [hm]; exact fun h => by cases h)
      have ha := alive_main h (.inr hm)
      have hi : Inv { l with main := .idle, conn := conn.getD l.conn } :=
        { opened := fun hc => by
            obtain ⟨a, b, c, d, e⟩ := h.opened hc
            exact ⟨a, b, c, fun h => (by cases h), e⟩
          overGone := fun ho => by
            have := h.overGone ho; rw [hm] at this; cases this
          handler := h.handler
          dead := h.dead
          beganStarted := h.beganStarted
          mainBegan := fun _ => hb
          tickBegan := h.tickBegan
          freedClosed := h.freedClosed
          mainSender := fun _ => h.mainSender (by rw [hm]; exact fun h => by cases h)
          tickSender := h.tickSender
          workers := h.workers }
      obtain ⟨h', k, w, e⟩ := sendAll_alive hi hn ha .mainTask cmds
      rw [e]
      exact inv_h hi k (fun hb => w.trans (h.workers hb))
    · exact h
  | tickCheck =>
    unfold Life.task
    dsimp only
    split
    · next hm =>
      have hb : l.began = true := h.tickBegan (by rw [hm]; exact fun h => by cases h)
      split
      · next hc =>
        obtain ⟨a, b, c⟩ := drop_facts l.h .periodic
        exact
          { opened := fun h => by rw [show l.closed = true from hc] at h; cases h
            overGone := h.overGone
            handler := fun ha => (c _ (fun h => by cases h)).2 (h.handler (a.symm.trans ha))
            dead := fun ha => h.dead (a.symm.trans ha)
            beganStarted := h.beganStarted
            mainBegan := h.mainBegan
            tickBegan := fun _ => hb
            freedClosed := h.freedClosed
            mainSender := fun hm => (c _ (fun h => by cases h)).2 (h.mainSender hm)
            tickSender := fun hh => absurd rfl hh
            workers := fun hb' => b.trans (h.workers hb') }
      · exact
          { opened := h.opened
            overGone := h.overGone
            handler := h.handler
            dead := h.dead
            beganStarted := h.beganStarted
            mainBegan := h.mainBegan
            tickBegan := fun _ => hb
            freedClosed := h.freedClosed
            mainSender := h.mainSender
            tickSender := fun _ => h.tickSender (by rw [hm]; exact fun h => by cases h)
            workers := h.workers }
    · exact h
  | tickSend =>
    unfold Life.task
    dsimp only
    split
    · next hm =>
      have hb : l.began = true := h.tickBegan (by rw [hm]; exact fun h => by cases h)
      have hi : Inv { l with ticker := .idle } :=
        { opened := h.opened
          overGone := h.overGone
          handler := h.handler
          dead := h.dead
          beganStarted := h.beganStarted
          mainBegan := h.mainBegan
          tickBegan := fun _ => hb
          freedClosed := h.freedClosed
          mainSender := h.mainSender
          tickSender := fun _ => h.tickSender (by rw [hm]; exact fun h => by cases h)
          workers := h.workers }
      cases ha : l.h.alive with
      | true =>
        rw [send_alive (l := { l with ticker := .idle }) ha]
        obtain ⟨k, w⟩ := keeps_send l.h .periodic .periodicNetworkScan
        exact inv_h hi k (fun hb => w.trans (h.workers hb))
      | false =>
        rw [Life.send, if_neg (by rw [show ({ l with ticker := Poll.idle } : Life).h.alive = false from ha]; exact Bool.false_ne_true)]
        exact
          { opened := fun hc => by
              have := (h.opened hc).2.1; rw [ha] at this; cases this
            overGone := h.overGone
            handler := h.handler
            dead := h.dead
            beganStarted := h.beganStarted
            mainBegan := h.mainBegan
            tickBegan := fun _ => hb
            freedClosed := h.freedClosed
            mainSender := h.mainSender
            tickSender := hi.tickSender
            workers := h.workers }
    · exact h
  | handle now =>
    unfold Life.task
    dsimp only
    split
    · next hb => exact inv_h h (keeps_handle (h.handler hb.2) now) (fun hb' => by rw [hb.1] at hb'; cases hb')
    · exact h
  | work i r =>
    unfold Life.task
    dsimp only
    split
    · next hw =>
      exact
        { opened := fun hc => absurd (h.opened hc).2.1 hw.2
          overGone := h.overGone
          handler := h.handler
          dead := h.dead
          beganStarted := h.beganStarted
          mainBegan := h.mainBegan
          tickBegan := h.tickBegan
          freedClosed := h.freedClosed
          mainSender := h.mainSender
          tickSender := h.tickSender
          workers := h.workers }
    · exact inv_h h (keeps_work l.h i r) (fun hb => workers_work i r (h.workers hb))
  | shutdown =>
    unfold Life.task
    dsimp only
    split
    · next ho =>
      exact
        { opened := fun hc => by
            have := (h.opened hc).2.2.1; rw [ho] at this; cases this
          overGone := h.overGone
          handler := fun h => (by cases h)
          dead := fun _ => .inl ho
          beganStarted := h.beganStarted
          mainBegan := h.mainBegan
          tickBegan := fun _ => h.mainBegan (by rw [h.overGone ho]; exact fun h => by cases h)
          freedClosed := h.freedClosed
          mainSender := fun hm => absurd (h.overGone ho) hm
          tickSender := fun ht => by
            have ht : (if l.ticker = .checked then Poll.checked else .gone) ≠ .gone := ht
            split at ht
            · next hc =>
              exact List.mem_filter.2 ⟨h.tickSender (by rw [hc]; exact fun h => by cases h), rfl⟩
            · exact absurd rfl ht
          workers := h.workers }
    · exact h
  | _ => exact h

theorem inv_step {l : Life} (h : Inv l) (op : Op) : Inv (l.step op).1 := by
  unfold Life.step
  split
  · exact h
  · next hn =>
    have hn : l.aborted = false := by simpa using hn
    split
    · split
      · exact h
      · next hf => exact inv_call h hn (by simpa using hf) op
    · exact inv_task h hn op

theorem run_cons {l : Life} {op : Op} {ops : List Op} :
    l.run (op :: ops) = (((l.step op).1.run ops).1, (l.step op).2 ++ ((l.step op).1.run ops).2) := rfl

theorem run_append {l : Life} {a b : List Op} :
    l.run (a ++ b) = (((l.run a).1.run b).1, (l.run a).2 ++ ((l.run a).1.run b).2) := by
  induction a generalizing l with
  | nil => rfl
  | cons op a ih => rw [List.cons_append, run_cons, run_cons, ih, List.append_assoc]

theorem inv_run {l : Life} (h : Inv l) (ops : List Op) : Inv (l.run ops).1 := by
  induction ops generalizing l with
  | nil => exact h
  | cons op ops ih => rw [run_cons]; exact ih (inv_step h op)

end Verif.Life
