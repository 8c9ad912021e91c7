import Verif.Lemmas.Life
/-!
# The steps of the life of a client, by cases
-/
namespace Verif.Life
open Spec.Life
open Verif.CmdHandler (H HOp HEv Cmd Owner Phase Msg)
open Verif.Reconnect (ConnState)

/-- What a step does, by cases. -/
inductive Did (l : Life) : Op → Life → List Ev → Prop where
  | nothing {op : Op} : (l.closed = false → op.isCall = false) → (l.aborted = true ∨ ∀ i r, op ≠ .work i r) → Did l op l []
  | startNull : l.started = true → Did l .start l [.startReturned false]
  | start : l.started = false → Did l .start { l with started := true } [.startReturned true]
  | scan (h' : H) : l.closed = false → h'.workers = l.h.workers → h'.alive = l.h.alive →
      Did l .scan { l with h := h' } [.sent .client .scanNetwork]
  | rescan (h' : H) : l.closed = false → h'.workers = l.h.workers → h'.alive = l.h.alive →
      Did l .rescan { l with h := h' } [.sent .client .resetServiceTable, .sent .client .scanNetwork]
  | close {op : Op} (h' : H) (f : Bool) : Closes op → h'.workers = l.h.workers → (l.h.alive = false → h'.alive = false) →
      Did l op { l with closed := true, freed := f, h := h' } []
  | begin : l.started = true → l.began = false → Did l .begin { l with began := true, main := .idle, ticker := .idle } []
  | mainEnd (h' : H) : l.main = .idle → l.closed = true → h'.workers = l.h.workers → h'.alive = l.h.alive →
      Did l .mainCheck { l with main := .gone, over := true, h := h' } [.ended]
  | mainChecked : l.main = .idle → l.closed = false → Did l .mainCheck { l with main := .checked } []
  | mainWork (cmds : List Cmd) (conn : Option ConnState) (h' : H) : l.main = .checked → h'.workers = l.h.workers →
      h'.alive = l.h.alive →
      Did l (.mainWork cmds conn) { l with main := .idle, conn := conn.getD l.conn, h := h' }
        (.worked :: cmds.map (.sent .mainTask))
  | tickGone (h' : H) : l.ticker = .idle → l.closed = true → h'.workers = l.h.workers → h'.alive = l.h.alive →
      Did l .tickCheck { l with ticker := .gone, h := h' } []
  | tickChecked : l.ticker = .idle → l.closed = false → Did l .tickCheck { l with ticker := .checked } []
  | tick (h' : H) : l.ticker = .checked → l.h.alive = true → h'.workers = l.h.workers → h'.alive = l.h.alive →
      Did l .tickSend { l with ticker := .idle, h := h' } [.sent .periodic .periodicNetworkScan]
  | tickAbort : l.ticker = .checked → l.h.alive = false →
      Did l .tickSend { l with ticker := .idle, aborted := true } [.abort]
  | handle (now : Nat) (h' : H) (es : List HEv) : l.began = true → l.h.alive = true → h'.alive = l.h.alive →
      Did l (.handle now) { l with h := h' } (es.map .handler)
  | work (i : Nat) (r : Option Nat) : ¬ (l.h.workers[i]? = some .cleared ∧ l.h.alive = false) →
      Did l (.work i r) { l with h := (l.h.step (.work i r)).1 } ((l.h.step (.work i r)).2.map .handler)
  | workAbort (i : Nat) (r : Option Nat) : l.h.workers[i]? = some .cleared → l.h.alive = false →
      Did l (.work i r) { l with aborted := true } [.abort]
  | shutdown (h' : H) : l.over = true → h'.workers = l.h.workers → h'.alive = false →
      Did l .shutdown { l with h := h', ticker := if l.ticker = .checked then .checked else .gone } []

theorem step_did {l : Life} (h : Inv l) (op : Op) : Did l op (l.step op).1 (l.step op).2 := by
  unfold Life.step
  split
  · next ha =>
    exact .nothing (fun hc => by have := (h.opened hc).1; rw [ha] at this; cases this) (.inl ha)
  · next ha =>
    have ha : l.aborted = false := by simpa using ha
    split
    · next hcall =>
      split
      · next hf => exact .nothing (fun hc => by rw [h.freedClosed hf] at hc; cases hc) (.inr fun i r e => by rw [e] at hcall; cases hcall)
      · next hf =>
        cases op with
        | start =>
          unfold Life.call
          dsimp only
          split
          · next hs => exact .startNull hs
          · next hs => exact .start (by simpa using hs)
        | scan =>
          unfold Life.call
          dsimp only
          split
          · next hc => exact .nothing (fun hc' => by rw [hc] at hc'; cases hc') (.inr fun i r e => by cases e)
          · next hc =>
            have hc : l.closed = false := by simpa using hc
            obtain ⟨h', k, w, e⟩ := sendAll_alive h ha (h.opened hc).2.1 .client [.scanNetwork]
            rw [e]
            exact .scan h' hc w k.1
        | rescan =>
          unfold Life.call
          dsimp only
          split
          · next hc => exact .nothing (fun hc' => by rw [hc] at hc'; cases hc') (.inr fun i r e => by cases e)
          · next hc =>
            have hc : l.closed = false := by simpa using hc
            obtain ⟨h', k, w, e⟩ := sendAll_alive h ha (h.opened hc).2.1 .client [.resetServiceTable, .scanNetwork]
            rw [e]
            exact .rescan h' hc w k.1
        | close =>
          obtain ⟨a, b, c⟩ := drop_facts l.h .client
          exact .close _ l.freed (.inl rfl) b (fun h => a.trans h)
        | free =>
          obtain ⟨a, b, c⟩ := drop_facts l.h .client
          unfold Life.call
          dsimp only
          split
          · exact .close _ true (.inr rfl) b (fun h => a.trans h)
          · exact .close { (l.h.step (.drop .client)).1 with alive := false } true (.inr rfl) b (fun _ => rfl)
        | _ => cases hcall
    · next hcall =>
      have hcall : op.isCall = false := by simpa using hcall
      cases op with
      | begin =>
        unfold Life.task
        dsimp only
        split
        · next hb => exact .begin hb.1 (by simpa using hb.2)
        · exact .nothing (fun _ => rfl) (.inr fun i r e => by cases e)
      | mainCheck =>
        unfold Life.task
        dsimp only
        split
        · next hm =>
          split
          · next hc =>
            obtain ⟨a, b, c⟩ := drop_facts l.h .mainTask
            exact .mainEnd _ hm hc b a
          · next hc => exact .mainChecked hm (by simpa using hc)
        · exact .nothing (fun _ => rfl) (.inr fun i r e => by cases e)
      | mainWork cmds conn =>
        unfold Life.task
        dsimp only
        split
        · next hm =>
          have hi : Inv { l with main := .idle, conn := conn.getD l.conn } := by
            have hn : l.main ≠ .notYet := by rw [hm]; exact fun h => by cases h
            exact
              { opened := fun hc => by
                  obtain ⟨a, b, c, d, e⟩ := h.opened hc
                  exact ⟨a, b, c, fun h => (by cases h), e⟩
                overGone := fun ho => by
                  have := h.overGone ho; rw [hm] at this; cases this
                handler := h.handler
                dead := h.dead
                beganStarted := h.beganStarted
                mainBegan := fun _ => h.mainBegan hn
                tickBegan := h.tickBegan
                freedClosed := h.freedClosed
                mainSender := fun _ => h.mainSender (by rw [hm]; exact fun h => by cases h)
                tickSender := h.tickSender
                workers := h.workers }
          obtain ⟨h', k, w, e⟩ := sendAll_alive hi ha (alive_main hi (.inl rfl)) .mainTask cmds
          rw [e]
          exact .mainWork cmds conn h' hm w k.1
        · exact .nothing (fun _ => rfl) (.inr fun i r e => by cases e)
      | tickCheck =>
        unfold Life.task
        dsimp only
        split
        · next hm =>
          split
          · next hc =>
            obtain ⟨a, b, c⟩ := drop_facts l.h .periodic
            exact .tickGone _ hm hc b a
          · next hc => exact .tickChecked hm (by simpa using hc)
        · exact .nothing (fun _ => rfl) (.inr fun i r e => by cases e)
      | tickSend =>
        unfold Life.task
        dsimp only
        split
        · next hm =>
          cases hl : l.h.alive with
          | true =>
            rw [send_alive (l := { l with ticker := .idle }) hl]
            obtain ⟨k, w⟩ := keeps_send l.h .periodic .periodicNetworkScan
            exact .tick _ hm hl w k.1
          | false =>
            rw [Life.send, if_neg (by rw [show ({ l with ticker := Poll.idle } : Life).h.alive = false from hl]; exact Bool.false_ne_true)]
            exact .tickAbort hm hl
        · exact .nothing (fun _ => rfl) (.inr fun i r e => by cases e)
      | handle now =>
        unfold Life.task
        dsimp only
        split
        · next hb => exact .handle now _ _ hb.1 hb.2 (keeps_handle (h.handler hb.2) now).1
        · exact .nothing (fun _ => rfl) (.inr fun i r e => by cases e)
      | work i r =>
        unfold Life.task
        dsimp only
        split
        · next hw => exact .workAbort i r hw.1 (by simpa using hw.2)
        · next hw => exact .work i r (by simpa using hw)
      | shutdown =>
        unfold Life.task
        dsimp only
        split
        · next ho => exact .shutdown { l.h with alive := false, queue := [], senders := l.h.senders.filter (· ≠ .handler) } ho rfl rfl
        · exact .nothing (fun _ => rfl) (.inr fun i r e => by cases e)
      | _ => cases hcall

/-! ## Books over the events -/

theorem sentBy_append (o : Owner) (a b : List Ev) : sentBy o (a ++ b) = sentBy o a ++ sentBy o b := List.filterMap_append

theorem starts_append (a b : List Ev) : starts (a ++ b) = starts a ++ starts b := List.filterMap_append

theorem workCount_append (a b : List Ev) : workCount (a ++ b) = workCount a + workCount b := List.countP_append

theorem sentBy_handler (o : Owner) (es : List HEv) : sentBy o (es.map Ev.handler) = [] := by
  induction es with
  | nil => rfl
  | cons e es ih => exact ih

theorem starts_handler (es : List HEv) : starts (es.map Ev.handler) = [] := by
  induction es with
  | nil => rfl
  | cons e es ih => exact ih

theorem workCount_handler (es : List HEv) : workCount (es.map Ev.handler) = 0 := by
  unfold workCount
  rw [List.countP_eq_zero]
  intro x hx
  obtain ⟨e, -, rfl⟩ := List.mem_map.1 hx
  simp

theorem sentBy_sent (o o' : Owner) (cs : List Cmd) : sentBy o (cs.map (Ev.sent o')) = if o' = o then cs else [] := by
  induction cs with
  | nil => simp [sentBy]
  | cons c cs ih =>
    rw [List.map_cons, sentBy, List.filterMap_cons]
    dsimp only
    unfold sentBy at ih
    split
    · next h =>
      split at h
      · cases h
      · next hn => rw [ih, if_neg hn, if_neg hn]
    · next b h =>
      split at h
      · next he => injection h with h; rw [ih, if_pos he, if_pos he, h]
      · cases h

theorem starts_sent (o' : Owner) (cs : List Cmd) : starts (cs.map (Ev.sent o')) = [] := by
  induction cs with
  | nil => rfl
  | cons c cs ih => exact ih

theorem workCount_sent (o' : Owner) (cs : List Cmd) : workCount (cs.map (Ev.sent o')) = 0 := by
  unfold workCount
  rw [List.countP_eq_zero]
  intro x hx
  obtain ⟨e, -, rfl⟩ := List.mem_map.1 hx
  simp

/-! ## Closing -/

theorem not_closes {op : Op} (h : op.isCall = false) : ¬ Closes op := by
  intro hc
  cases hc with
  | inl e => rw [e] at h; cases h
  | inr e => rw [e] at h; cases h

theorem closed_did {l l' : Life} {op : Op} {es : List Ev} (h : Did l op l' es) :
    l'.closed = true ↔ l.closed = true ∨ Closes op := by
  cases h with
  | nothing hn =>
    constructor
    · exact Or.inl
    · intro h
      cases hc : l.closed with
      | true => rfl
      | false =>
        cases h with
        | inl h => rw [hc] at h; cases h
        | inr h => exact absurd h (not_closes (hn hc))
  | close h' f hc => exact ⟨fun _ => .inr hc, fun _ => rfl⟩
  | _ =>
    refine ⟨Or.inl, fun h => ?_⟩
    cases h with
    | inl h => exact h
    | inr h => cases h with
      | inl e => cases e
      | inr e => cases e

theorem closed_run {l : Life} (h : Inv l) (ops : List Op) :
    (l.run ops).1.closed = true ↔ l.closed = true ∨ ∃ op ∈ ops, Closes op := by
  induction ops generalizing l with
  | nil => exact ⟨Or.inl, fun h => h.elim id fun ⟨_, hm, _⟩ => absurd hm List.not_mem_nil⟩
  | cons op ops ih =>
    rw [run_cons]
    dsimp only
    rw [ih (inv_step h op), closed_did (step_did h op)]
    constructor
    · rintro ((h | h) | ⟨o, ho, h⟩)
      · exact .inl h
      · exact .inr ⟨op, List.mem_cons_self, h⟩
      · exact .inr ⟨o, List.mem_cons_of_mem _ ho, h⟩
    · rintro (h | ⟨o, ho, h⟩)
      · exact .inl (.inl h)
      · cases ho with
        | head => exact .inl (.inr h)
        | tail _ ho => exact .inr ⟨o, ho, h⟩

/-! ## The commands of the application -/

theorem asked_cons (op : Op) (ops : List Op) :
    (Closes op → asked (op :: ops) = []) ∧ (¬ Closes op → asked (op :: ops) = asked [op] ++ asked ops) := by
  constructor
  · intro h
    cases h with
    | inl e => subst e; rfl
    | inr e => subst e; rfl
  · intro h
    cases op with
    | close => exact absurd (.inl rfl) h
    | free => exact absurd (.inr rfl) h
    | _ => rfl

theorem sentBy_client_did {l l' : Life} {op : Op} {es : List Ev} (h : Did l op l' es) :
    sentBy .client es = if l.closed = true then [] else asked [op] := by
  cases h with
  | nothing hn =>
    split
    · rfl
    · next hc =>
      have := hn (by simpa using hc)
      cases op with
      | start => cases this
      | scan => cases this
      | rescan => cases this
      | close => cases this
      | free => cases this
      | _ => rfl
  | scan h' hc => rw [if_neg (by rw [hc]; exact Bool.false_ne_true)]; rfl
  | rescan h' hc => rw [if_neg (by rw [hc]; exact Bool.false_ne_true)]; rfl
  | close h' f hc =>
    rw [((asked_cons op []).1 hc)]
    split <;> rfl
  | mainWork cmds conn h' =>
    have : sentBy .client (.worked :: cmds.map (.sent .mainTask)) = [] := by
      have := sentBy_sent .client .mainTask cmds
      rw [if_neg (by decide)] at this
      exact this
    rw [this]
    split <;> rfl
  | handle now h' es' => rw [sentBy_handler]; split <;> rfl
  | work i r => rw [sentBy_handler]; split <;> rfl
  | _ => split <;> rfl

theorem sentBy_client_run {l : Life} (h : Inv l) (ops : List Op) :
    sentBy .client (l.run ops).2 = if l.closed = true then [] else asked ops := by
  induction ops generalizing l with
  | nil => split <;> rfl
  | cons op ops ih =>
    have hd := step_did h op
    have hc := closed_did hd
    rw [run_cons]
    dsimp only
    rw [sentBy_append, sentBy_client_did hd, ih (inv_step h op)]
    by_cases hl : l.closed = true
    · rw [if_pos hl, if_pos hl, if_pos (hc.2 (.inl hl)), List.append_nil]
    · rw [if_neg hl, if_neg hl]
      by_cases ho : Closes op
      · rw [if_pos (hc.2 (.inr ho)), (asked_cons op ops).1 ho, (asked_cons op []).1 ho]; rfl
      · rw [if_neg (fun h => (hc.1 h).elim hl ho), (asked_cons op ops).2 ho]

/-! ## What is still done after the client was closed -/

/-- 1 if a poll is in flight. -/
def inFlight (p : Poll) : Nat := if p = .checked then 1 else 0

theorem after_did {l l' : Life} {op : Op} {es : List Ev} (h : Did l op l' es) (hc : l.closed = true) :
    workCount es + inFlight l'.main ≤ inFlight l.main
    ∧ (sentBy .periodic es).length + inFlight l'.ticker ≤ inFlight l.ticker
    ∧ (l.main ≠ .checked → l'.conn = l.conn ∧ l'.main ≠ .checked) := by
  have hz : workCount ([] : List Ev) = 0 := rfl
  cases h with
  | begin h1 h2 =>
    refine ⟨?_, ?_, fun _ => ⟨rfl, fun h => (by cases h)⟩⟩
    · exact Nat.zero_le _
    · exact Nat.zero_le _
  | mainEnd h' hm =>
    refine ⟨?_, ?_, fun _ => ⟨rfl, fun h => (by cases h)⟩⟩
    · exact Nat.zero_le _
    · exact Nat.le_of_eq (Nat.zero_add _)
  | mainChecked hm hc' => rw [hc] at hc'; cases hc'
  | tickChecked hm hc' => rw [hc] at hc'; cases hc'
  | mainWork cmds conn h' hm =>
    refine ⟨?_, ?_, fun hn => absurd hm hn⟩
    · have : workCount (.worked :: cmds.map (.sent .mainTask)) = 1 := by
        have := workCount_sent .mainTask cmds
        unfold workCount at this ⊢
        rw [List.countP_cons_of_pos (by simp), this]
      rw [this, hm]
      exact Nat.le_refl 1
    · have := sentBy_sent .periodic .mainTask cmds
      rw [if_neg (by decide)] at this
      have : sentBy .periodic (.worked :: cmds.map (.sent .mainTask)) = [] := this
      rw [this]
      exact Nat.le_of_eq (Nat.zero_add _)
  | tickGone h' hm =>
    refine ⟨?_, ?_, fun hn => ⟨rfl, hn⟩⟩
    · exact Nat.le_of_eq (Nat.zero_add _)
    · exact Nat.zero_le _
  | tick h' hm =>
    refine ⟨?_, ?_, fun hn => ⟨rfl, hn⟩⟩
    · exact Nat.le_of_eq (Nat.zero_add _)
    · rw [hm]; exact Nat.le_refl 1
  | tickAbort hm =>
    refine ⟨?_, ?_, fun hn => ⟨rfl, hn⟩⟩
    · exact Nat.le_of_eq (Nat.zero_add _)
    · rw [hm]; exact Nat.zero_le _
  | handle now h' es' =>
    rw [workCount_handler, sentBy_handler]
    exact ⟨Nat.le_of_eq (Nat.zero_add _), Nat.le_of_eq (Nat.zero_add _), fun hn => ⟨rfl, hn⟩⟩
  | work i r =>
    rw [workCount_handler, sentBy_handler]
    exact ⟨Nat.le_of_eq (Nat.zero_add _), Nat.le_of_eq (Nat.zero_add _), fun hn => ⟨rfl, hn⟩⟩
  | shutdown h' =>
    refine ⟨Nat.le_of_eq (Nat.zero_add _), ?_, fun hn => ⟨rfl, hn⟩⟩
    dsimp only
    by_cases ht : l.ticker = .checked
    · rw [if_pos ht, ht]; decide
    · rw [if_neg ht]; exact Nat.zero_le _
  | _ => exact ⟨Nat.le_of_eq (Nat.zero_add _), Nat.le_of_eq (Nat.zero_add _), fun hn => ⟨rfl, hn⟩⟩

theorem after_run {l : Life} (h : Inv l) (hc : l.closed = true) (ops : List Op) :
    workCount (l.run ops).2 ≤ inFlight l.main
    ∧ (sentBy .periodic (l.run ops).2).length ≤ inFlight l.ticker
    ∧ (l.main ≠ .checked → (l.run ops).1.conn = l.conn) := by
  induction ops generalizing l with
  | nil => exact ⟨Nat.zero_le _, Nat.zero_le _, fun _ => rfl⟩
  | cons op ops ih =>
    have hd := step_did h op
    obtain ⟨a, b, c⟩ := after_did hd hc
    obtain ⟨a', b', c'⟩ := ih (inv_step h op) ((closed_did hd).2 (.inl hc))
    rw [run_cons]
    dsimp only
    rw [workCount_append, sentBy_append, List.length_append]
    refine ⟨by omega, by omega, fun hm => ?_⟩
    obtain ⟨d, e⟩ := c hm
    exact (c' e).trans d

/-! ## Starting -/

theorem starts_did {l l' : Life} {op : Op} {es : List Ev} (h : Did l op l' es) :
    (starts es = [] ∧ l'.started = l.started) ∨ (starts es = [! l.started] ∧ l'.started = true) := by
  cases h with
  | startNull hs => exact .inr ⟨by rw [hs]; rfl, hs⟩
  | start hs => exact .inr ⟨by rw [hs]; rfl, rfl⟩
  | mainWork cmds conn h' => exact .inl ⟨starts_sent .mainTask cmds, rfl⟩
  | handle now h' es' => exact .inl ⟨starts_handler es', rfl⟩
  | work i r => exact .inl ⟨starts_handler _, rfl⟩
  | _ => exact .inl ⟨rfl, rfl⟩

theorem starts_run {l : Life} (h : Inv l) (ops : List Op) :
    (l.started = true → ∃ n, starts (l.run ops).2 = List.replicate n false)
    ∧ (l.started = false → starts (l.run ops).2 = [] ∨ ∃ n, starts (l.run ops).2 = true :: List.replicate n false) := by
  induction ops generalizing l with
  | nil => exact ⟨fun _ => ⟨0, rfl⟩, fun _ => .inl rfl⟩
  | cons op ops ih =>
    rw [run_cons]
    dsimp only
    rw [starts_append]
    obtain ⟨i1, i2⟩ := ih (inv_step h op)
    cases starts_did (step_did h op) with
    | inl h =>
      rw [h.1, List.nil_append]
      rw [h.2] at i1 i2
      exact ⟨i1, i2⟩
    | inr h =>
      obtain ⟨n, hn⟩ := i1 h.2
      rw [h.1, hn]
      constructor
      · intro hs; rw [hs]; exact ⟨n + 1, rfl⟩
      · intro hs; rw [hs]; exact .inr ⟨n, rfl⟩

theorem unstarted_did {l l' : Life} {op : Op} {es : List Ev} (hi : Inv l) (h : Did l op l' es) (hs : l.started = false)
    (he : starts es = []) : l'.started = false ∧ ∀ e ∈ es, ∃ c, e = .sent .client c := by
  have hb : l.began = false := by
    cases hb : l.began with
    | false => rfl
    | true => rw [hi.beganStarted hb] at hs; cases hs
  have hm : ∀ p, p ≠ .notYet → l.main ≠ p := fun p hp h => by
    have := hi.mainBegan (by rw [h]; exact hp)
    rw [hb] at this; cases this
  have ht : ∀ p, p ≠ .notYet → l.ticker ≠ p := fun p hp h => by
    have := hi.tickBegan (by rw [h]; exact hp)
    rw [hb] at this; cases this
  have hw := hi.workers hb
  have nil : ∀ e ∈ ([] : List Ev), ∃ c, e = .sent .client c := fun x hx => absurd hx List.not_mem_nil
  cases h with
  | nothing => exact ⟨hs, nil⟩
  | startNull h => rw [h] at hs; cases hs
  | start => cases he
  | scan h' => exact ⟨hs, fun e he => by rw [List.mem_singleton] at he; exact ⟨_, he⟩⟩
  | rescan h' =>
    refine ⟨hs, fun e he => ?_⟩
    cases he with
    | head => exact ⟨_, rfl⟩
    | tail _ he => exact ⟨_, List.mem_singleton.1 he⟩
  | close => exact ⟨hs, nil⟩
  | begin h => rw [h] at hs; cases hs
  | mainEnd h' h => exact absurd h (hm _ (by decide))
  | mainChecked h => exact absurd h (hm _ (by decide))
  | mainWork c d h' h => exact absurd h (hm _ (by decide))
  | tickGone h' h => exact absurd h (ht _ (by decide))
  | tickChecked h => exact absurd h (ht _ (by decide))
  | tick h' h => exact absurd h (ht _ (by decide))
  | tickAbort h => exact absurd h (ht _ (by decide))
  | handle now h' es' h => rw [h] at hb; cases hb
  | work i r =>
    refine ⟨hs, ?_⟩
    have : (l.h.step (.work i r)).2 = [] := by
      unfold H.step
      dsimp only
      unfold H.work
      rw [hw]
      rfl
    rw [this]
    exact nil
  | workAbort i r h => rw [hw] at h; cases h
  | shutdown => exact ⟨hs, nil⟩

theorem unstarted_run {l : Life} (hi : Inv l) (hs : l.started = false) (ops : List Op) (he : starts (l.run ops).2 = []) :
    ∀ e ∈ (l.run ops).2, ∃ c, e = .sent .client c := by
  induction ops generalizing l with
  | nil => exact fun x hx => absurd hx List.not_mem_nil
  | cons op ops ih =>
    rw [run_cons] at he ⊢
    dsimp only at he ⊢
    rw [starts_append] at he
    obtain ⟨h1, h2⟩ := List.append_eq_nil_iff.1 he
    obtain ⟨a, b⟩ := unstarted_did hi (step_did hi op) hs h1
    intro e hm
    cases List.mem_append.1 hm with
    | inl h => exact b e h
    | inr h => exact ih (inv_step hi op) a h2 e h

/-! ## The end of the task, and aborts -/

theorem handler_mem {e : Ev} (es : List HEv) (h : e ∈ es.map Ev.handler) (hn : ∀ x, e ≠ .handler x) : False := by
  obtain ⟨x, -, rfl⟩ := List.mem_map.1 h
  exact absurd rfl (hn x)

theorem ended_did {l l' : Life} {op : Op} {es : List Ev} (h : Did l op l' es) :
    (Ev.ended ∉ es ∧ (l'.over = l.over) ∧ (l.main = .gone → l'.main = .gone ∨ l.began = false))
    ∨ (es = [.ended] ∧ l.closed = true ∧ l.main = .idle ∧ l'.over = true ∧ l'.main = .gone) := by
  cases h with
  | mainEnd h' hm hc => exact .inr ⟨rfl, hc, hm, rfl, rfl⟩
  | nothing => exact .inl ⟨List.not_mem_nil, rfl, .inl⟩
  | startNull => exact .inl ⟨by decide, rfl, .inl⟩
  | start => exact .inl ⟨by decide, rfl, .inl⟩
  | scan => exact .inl ⟨by decide, rfl, .inl⟩
  | rescan => exact .inl ⟨by decide, rfl, .inl⟩
  | close => exact .inl ⟨List.not_mem_nil, rfl, .inl⟩
  | begin h1 h2 => exact .inl ⟨List.not_mem_nil, rfl, fun _ => .inr h2⟩
  | mainChecked hm => exact .inl ⟨List.not_mem_nil, rfl, fun h => by rw [hm] at h; cases h⟩
  | mainWork cmds conn h' hm =>
    refine .inl ⟨fun h => ?_, rfl, fun h => by rw [hm] at h; cases h⟩
    cases h with
    | tail _ h =>
      obtain ⟨x, -, hx⟩ := List.mem_map.1 h
      cases hx
  | tickGone => exact .inl ⟨List.not_mem_nil, rfl, .inl⟩
  | tickChecked => exact .inl ⟨List.not_mem_nil, rfl, .inl⟩
  | tick => exact .inl ⟨by decide, rfl, .inl⟩
  | tickAbort => exact .inl ⟨by decide, rfl, .inl⟩
  | handle now h' es' => exact .inl ⟨fun h => handler_mem es' h (fun x h => by cases h), rfl, .inl⟩
  | work i r => exact .inl ⟨fun h => handler_mem _ h (fun x h => by cases h), rfl, .inl⟩
  | workAbort => exact .inl ⟨by decide, rfl, .inl⟩
  | shutdown => exact .inl ⟨List.not_mem_nil, rfl, .inl⟩

theorem count_zero {e : Ev} {es : List Ev} (h : e ∉ es) : es.count e = 0 := List.count_eq_zero.2 h

theorem ended_run {l : Life} (h : Inv l) (ops : List Op) :
    ((l.run ops).2.count .ended = if (l.run ops).1.over = true ∧ l.over = false then 1 else 0)
    ∧ (l.over = true → (l.run ops).1.over = true) := by
  induction ops generalizing l with
  | nil =>
    refine ⟨?_, id⟩
    rw [if_neg]
    · rfl
    · show ¬ (l.over = true ∧ l.over = false)
      rintro ⟨a, b⟩
      rw [a] at b; cases b
  | cons op ops ih =>
    rw [run_cons]
    dsimp only
    rw [List.count_append]
    obtain ⟨i1, i2⟩ := ih (inv_step h op)
    rw [i1]
    cases ended_did (step_did h op) with
    | inl hn =>
      obtain ⟨a, b, c⟩ := hn
      rw [count_zero a, b, Nat.zero_add]
      rw [b] at i2
      exact ⟨rfl, i2⟩
    | inr hn =>
      obtain ⟨a, b, c, d, e⟩ := hn
      have ho : l.over = false := by
        cases ho : l.over with
        | false => rfl
        | true => have := h.overGone ho; rw [c] at this; cases this
      rw [a, d, ho, i2 d]
      exact ⟨rfl, fun h => (by cases h)⟩

theorem abort_did {l l' : Life} {op : Op} {es : List Ev} (h : Did l op l' es) :
    (Ev.abort ∉ es ∧ l'.aborted = l.aborted)
    ∨ (es = [.abort] ∧ l'.aborted = true ∧ l.h.alive = false
      ∧ ((op = .tickSend ∧ l.ticker = .checked) ∨ ∃ i r, op = .work i r ∧ l.h.workers[i]? = some .cleared)) := by
  cases h with
  | tickAbort h1 h2 => exact .inr ⟨rfl, rfl, h2, .inl ⟨rfl, h1⟩⟩
  | workAbort i r h1 h2 => exact .inr ⟨rfl, rfl, h2, .inr ⟨i, r, rfl, h1⟩⟩
  | mainWork cmds conn h' hm =>
    refine .inl ⟨fun h => ?_, rfl⟩
    cases h with
    | tail _ h =>
      obtain ⟨x, -, hx⟩ := List.mem_map.1 h
      cases hx
  | nothing => exact .inl ⟨List.not_mem_nil, rfl⟩
  | close => exact .inl ⟨List.not_mem_nil, rfl⟩
  | begin => exact .inl ⟨List.not_mem_nil, rfl⟩
  | mainChecked => exact .inl ⟨List.not_mem_nil, rfl⟩
  | tickGone => exact .inl ⟨List.not_mem_nil, rfl⟩
  | tickChecked => exact .inl ⟨List.not_mem_nil, rfl⟩
  | shutdown => exact .inl ⟨List.not_mem_nil, rfl⟩
  | handle now h' es' => exact .inl ⟨fun h => handler_mem es' h (fun x h => by cases h), rfl⟩
  | work i r => exact .inl ⟨fun h => handler_mem _ h (fun x h => by cases h), rfl⟩
  | _ => exact .inl ⟨by decide, rfl⟩

theorem abort_over {l l' : Life} {op : Op} {es : List Ev} (hi : Inv l) (h : Did l op l' es) (ha : Ev.abort ∈ es) :
    l.over = true ∧ l'.aborted = true
    ∧ ((op = .tickSend ∧ l.ticker = .checked) ∨ ∃ i r, op = .work i r ∧ l.h.workers[i]? = some .cleared) := by
  cases abort_did h with
  | inl hn => exact absurd ha hn.1
  | inr hn =>
    obtain ⟨a, b, c, d⟩ := hn
    refine ⟨?_, b, d⟩
    cases hi.dead c with
    | inl h => exact h
    | inr h =>
      have hb : l.began = false := by
        cases hb : l.began with
        | false => rfl
        | true => have := hi.beganStarted hb; rw [h.2] at this; cases this
      cases d with
      | inl d =>
        have := hi.tickBegan (by rw [d.2]; exact fun h => by cases h)
        rw [hb] at this; cases this
      | inr d =>
        obtain ⟨i, r, -, hw⟩ := d
        rw [hi.workers hb] at hw
        cases hw

theorem aborted_step {l : Life} (h : l.aborted = true) (op : Op) : l.step op = (l, []) := by
  rw [Life.step, if_pos h]

theorem aborted_run {l : Life} (h : l.aborted = true) (ops : List Op) : l.run ops = (l, []) := by
  induction ops with
  | nil => rfl
  | cons op ops ih => rw [run_cons, aborted_step h]; dsimp only; rw [ih]; rfl

/-- The process is aborted exactly when a panic happened. -/
theorem abort_run {l : Life} (h : Inv l) (hn : l.aborted = false) (ops : List Op) :
    .abort ∈ (l.run ops).2 ↔ (l.run ops).1.aborted = true := by
  induction ops generalizing l with
  | nil => exact ⟨fun h => absurd h List.not_mem_nil, fun h => by rw [show l.aborted = true from h] at hn; cases hn⟩
  | cons op ops ih =>
    rw [run_cons]
    dsimp only
    cases abort_did (step_did h op) with
    | inl hd =>
      rw [List.mem_append]
      rw [← ih (inv_step h op) (hd.2.trans hn)]
      exact ⟨fun h => h.elim (fun h => absurd h hd.1) id, .inr⟩
    | inr hd =>
      rw [hd.1, aborted_run hd.2.1]
      exact ⟨fun _ => hd.2.1, fun _ => List.mem_append_left _ List.mem_cons_self⟩

/-! ## A scanner thread without a receiver -/

/-- Steps before the thread sends its message. -/
def rank : Phase → Nat
  | .spawned => 5
  | .scanning => 4
  | .found _ => 3
  | .updated _ => 2
  | .stored => 1
  | _ => 0

theorem work_other {h : H} {i j : Nat} (hij : j ≠ i) (r : Option Nat) : (h.work j r).1.workers[i]? = h.workers[i]? := by
  unfold H.work
  split
  · exact List.getElem?_set_ne hij
  · split
    · exact List.getElem?_set_ne hij
    · exact List.getElem?_set_ne hij
  · exact List.getElem?_set_ne hij
  · exact List.getElem?_set_ne hij
  · exact List.getElem?_set_ne hij
  · exact List.getElem?_set_ne hij
  · rfl

theorem work_self {h : H} {i : Nat} {p : Phase} (r : Option Nat) (hp : h.workers[i]? = some p) (h1 : p ≠ .signalled) (h2 : p ≠ .dead)
    (h3 : p ≠ .cleared) :
    ∃ q, (h.work i r).1.workers[i]? = some q ∧ q ≠ .signalled ∧ q ≠ .dead ∧ rank q + 1 ≤ rank p := by
  have hs : ∀ q : Phase, (h.workers.set i q)[i]? = some q := fun q => by
    obtain ⟨hlt, -⟩ := List.getElem?_eq_some_iff.1 hp
    rw [List.getElem?_set_self hlt]
  unfold H.work
  rw [hp]
  cases p with
  | spawned => exact ⟨_, hs _, fun h => (by cases h), fun h => (by cases h), Nat.le_refl _⟩
  | scanning =>
    cases r with
    | none => exact ⟨_, hs _, fun h => (by cases h), fun h => (by cases h), by decide⟩
    | some n => exact ⟨_, hs _, fun h => (by cases h), fun h => (by cases h), Nat.le_refl _⟩
  | found n => exact ⟨_, hs _, fun h => (by cases h), fun h => (by cases h), Nat.le_refl _⟩
  | updated n => exact ⟨_, hs _, fun h => (by cases h), fun h => (by cases h), Nat.le_refl _⟩
  | stored => exact ⟨_, hs _, fun h => (by cases h), fun h => (by cases h), Nat.le_refl _⟩
  | cleared => exact absurd rfl h3
  | signalled => exact absurd rfl h1
  | dead => exact absurd rfl h2

/-- Is it a step of scanner thread `i`? -/
def isWork (i : Nat) : Op → Bool
  | .work j _ => j == i
  | _ => false

theorem dead_did {l l' : Life} {op : Op} {es : List Ev} (h : Did l op l' es) (ha : l.h.alive = false) {i : Nat} {p : Phase}
    (hp : l.h.workers[i]? = some p) (h1 : p ≠ .signalled) (h2 : p ≠ .dead) :
    l'.aborted = true ∨ (l'.h.alive = false ∧ ∃ q, l'.h.workers[i]? = some q ∧ q ≠ .signalled ∧ q ≠ .dead
      ∧ rank q + (if isWork i op = true then 1 else 0) ≤ rank p) := by
  have same : ∀ {l'' : Life}, l''.h.workers = l.h.workers → l''.h.alive = false → isWork i op = false →
      l''.aborted = true ∨ (l''.h.alive = false ∧ ∃ q, l''.h.workers[i]? = some q ∧ q ≠ .signalled ∧ q ≠ .dead
      ∧ rank q + (if isWork i op = true then 1 else 0) ≤ rank p) := by
    intro l'' hw ha' ho
    refine .inr ⟨ha', p, by rw [hw]; exact hp, h1, h2, ?_⟩
    rw [ho]
    exact Nat.le_refl _
  cases h with
  | nothing hn hw =>
    cases hw with
    | inl h => exact .inl h
    | inr h =>
      refine same rfl ha ?_
      cases op with
      | work j r => exact absurd rfl (h j r)
      | _ => rfl
  | tickAbort => exact .inl rfl
  | workAbort => exact .inl rfl
  | work j r hn =>
    right
    refine ⟨?_, ?_⟩
    · exact (keeps_work l.h j r).1.trans ha
    · by_cases hj : j = i
      · subst hj
        have hc : p ≠ .cleared := fun h => hn ⟨by rw [hp, h], ha⟩
        obtain ⟨q, a, b, c, d⟩ := work_self r hp h1 h2 hc
        refine ⟨q, a, b, c, ?_⟩
        rw [if_pos (by simp [isWork])]
        exact d
      · refine ⟨p, (work_other hj r).trans hp, h1, h2, ?_⟩
        rw [if_neg (by simpa [isWork] using hj)]
        exact Nat.le_refl _
  | close h' f hc hw hal =>
    refine same hw (hal ha) ?_
    cases hc with
    | inl e => rw [e]; rfl
    | inr e => rw [e]; rfl
  | startNull => exact same rfl ha rfl
  | start => exact same rfl ha rfl
  | begin => exact same rfl ha rfl
  | mainChecked => exact same rfl ha rfl
  | tickChecked => exact same rfl ha rfl
  | scan h' _ hw hal => exact same hw (hal.trans ha) rfl
  | rescan h' _ hw hal => exact same hw (hal.trans ha) rfl
  | mainEnd h' _ _ hw hal => exact same hw (hal.trans ha) rfl
  | mainWork _ _ h' _ hw hal => exact same hw (hal.trans ha) rfl
  | tickGone h' _ _ hw hal => exact same hw (hal.trans ha) rfl
  | tick h' _ _ hw hal => exact same hw (hal.trans ha) rfl
  | handle _ h' _ _ hal => rw [ha] at hal; cases hal
  | shutdown h' _ hw hal => exact same hw hal rfl

theorem scan_abort {l : Life} (hi : Inv l) (ha : l.h.alive = false) {i : Nat} {p : Phase}
    (hp : l.h.workers[i]? = some p) (h1 : p ≠ .signalled) (h2 : p ≠ .dead) (ops : List Op)
    (hn : rank p < ops.countP (isWork i)) : (l.run ops).1.aborted = true := by
  induction ops generalizing l p with
  | nil => exact absurd hn (Nat.not_lt_zero _)
  | cons op ops ih =>
    rw [run_cons]
    dsimp only
    rw [List.countP_cons] at hn
    cases dead_did (step_did hi op) ha hp h1 h2 with
    | inl h => rw [aborted_run h]; exact h
    | inr h =>
      obtain ⟨a, q, b, c, d, e⟩ := h
      exact ih (inv_step hi op) a b c d (by omega)

end Verif.Life
