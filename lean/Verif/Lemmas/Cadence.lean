import Verif.Spec.Cadence
/-!
# Lemmas: network scans over time
-/
namespace Verif.Cadence
open Verif Verif.CmdHandler Verif.Spec.Cadence
open Verif.Client (sec)

/-! ## Events -/

theorem doneTimes_append (a b : List (Nat × HEv)) : doneTimes (a ++ b) = doneTimes a ++ doneTimes b :=
  List.filterMap_append
theorem startTimes_append (a b : List (Nat × HEv)) : startTimes (a ++ b) = startTimes a ++ startTimes b :=
  List.filterMap_append
theorem reports_append (a b : List (Nat × HEv)) : reports (a ++ b) = reports a ++ reports b :=
  List.filterMap_append

/-- Events that say nothing about scans. -/
def Dull (l : List (Nat × HEv)) : Prop := startTimes l = [] ∧ doneTimes l = [] ∧ reports l = []

theorem dull_nil : Dull [] := ⟨rfl, rfl, rfl⟩

theorem Dull.append {a b : List (Nat × HEv)} (ha : Dull a) (hb : Dull b) : Dull (a ++ b) := by
  unfold Dull
  rw [startTimes_append, doneTimes_append, reports_append, ha.1, ha.2.1, ha.2.2, hb.1, hb.2.1, hb.2.2]
  exact ⟨rfl, rfl, rfl⟩

/-! ## The handler takes all messages -/

/-- The events of a poll. -/
def stamped (now : Nat) (l : List HEv) : List (Nat × HEv) := l.map fun e => (now, e)

theorem stamped_append (now : Nat) (a b : List HEv) : stamped now (a ++ b) = stamped now a ++ stamped now b :=
  List.map_append

/-- What the handler makes of its queue (cmd_handler.rs:190-195). -/
def drain (now : Nat) (h : H) : H × List HEv := h.run (List.replicate h.queue.length (.handle now))

theorem drain_nil {now : Nat} {h : H} (hq : h.queue = []) : drain now h = (h, []) := by
  unfold drain
  rw [hq]
  rfl

theorem drain_cons {now : Nat} {h : H} {m : Msg} {q : List Msg} (ha : h.alive = true) (hq : h.queue = m :: q)
    (hk : ({ h with queue := q }.processEvent now m).1.queue = q) :
    drain now h = ((drain now ({ h with queue := q }.processEvent now m).1).1,
      ({ h with queue := q }.processEvent now m).2 ++ (drain now ({ h with queue := q }.processEvent now m).1).2) := by
  unfold drain
  rw [hk, hq, List.length_cons, List.replicate_succ]
  have : h.step (.handle now) = { h with queue := q }.processEvent now m := by
    simp only [H.step, ha, hq, if_true]
  simp only [H.run, this]

/-- When a scan is due, for the handler. -/
def dueOf (h : H) : Nat :=
  match h.lastScan with
  | none => 0
  | some t => t + 300 * sec

theorem periodic_eq (h : H) (now : Nat) :
    h.processEvent now (.command .periodicNetworkScan) = if dueOf h ≤ now then h.scanNetwork else (h, []) := by
  unfold H.processEvent H.processCommand dueOf
  have hp : 0 < scanPeriod := by decide
  cases hl : h.lastScan with
  | none => simp
  | some t =>
    have : (now - t ≥ scanPeriod) ↔ t + 300 * sec ≤ now := by
      unfold scanPeriod at hp ⊢
      omega
    simp only [this]

theorem process_queue (h : H) (now : Nat) (m : Msg) : (h.processEvent now m).1.queue = h.queue := by
  have hn : h.scanNetwork.1.queue = h.queue := by unfold H.scanNetwork; split <;> rfl
  cases m with
  | command c =>
    cases c with
    | resetServiceTable => rfl
    | scanNetwork => exact hn
    | periodicNetworkScan =>
      rw [periodic_eq]
      split
      · exact hn
      · rfl
  | scanCompleted => rfl

/-- A scan is under way: commands change nothing. -/
theorem process_busy {h : H} {now : Nat} {c : Cmd} {i : Nat} (hs : h.scanner = some i) :
    (h.processEvent now (.command c)).1 = h ∧ Dull (stamped now (h.processEvent now (.command c)).2) := by
  have hn : h.scanNetwork = (h, []) := by
    unfold H.scanNetwork
    rw [if_pos (by rw [hs]; simp)]
  cases c with
  | resetServiceTable => exact ⟨rfl, rfl, rfl, rfl⟩
  | scanNetwork => simp only [H.processEvent, H.processCommand, hn]; exact ⟨trivial, rfl, rfl, rfl⟩
  | periodicNetworkScan =>
    rw [periodic_eq, hn, ite_self]
    exact ⟨rfl, rfl, rfl, rfl⟩

theorem drain_busy (now : Nat) (q : List Msg) : ∀ (h : H) (i : Nat), h.queue = q → h.alive = true → h.scanner = some i →
    Msg.scanCompleted ∉ q → (drain now h).1 = { h with queue := [] } ∧ Dull (stamped now (drain now h).2) := by
  induction q with
  | nil =>
    intro h i hq _ _ _
    rw [drain_nil hq]
    refine ⟨?_, dull_nil⟩
    cases h
    cases hq
    rfl
  | cons m q ih =>
    intro h i hq ha hs hn
    cases m with
    | scanCompleted => exact absurd List.mem_cons_self hn
    | command c =>
      rw [drain_cons ha hq (process_queue _ _ _)]
      obtain ⟨h1, h2⟩ := process_busy (h := { h with queue := q }) (now := now) (c := c) hs
      rw [h1]
      obtain ⟨h3, h4⟩ := ih { h with queue := q } i rfl ha hs fun hm => hn (List.mem_cons_of_mem _ hm)
      refine ⟨h3, ?_⟩
      rw [stamped_append]
      exact h2.append h4

/-- The handler after it has started a scan (cmd_handler.rs:143-158). -/
def launched (h : H) : H :=
  { h with workers := h.workers ++ [.spawned], senders := h.senders ++ [.worker h.workers.length],
           scanner := some h.workers.length }

/-- One event that is the start of a scan. -/
def Starts (now : Nat) (l : List (Nat × HEv)) : Prop := startTimes l = [now] ∧ doneTimes l = [] ∧ reports l = []

theorem starts_dull {now : Nat} {a b : List (Nat × HEv)} (ha : Starts now a) (hb : Dull b) : Starts now (a ++ b) := by
  unfold Starts
  rw [startTimes_append, doneTimes_append, reports_append, ha.1, ha.2.1, ha.2.2, hb.1, hb.2.1, hb.2.2]
  exact ⟨rfl, rfl, rfl⟩

theorem dull_starts {now : Nat} {a b : List (Nat × HEv)} (ha : Dull a) (hb : Starts now b) : Starts now (a ++ b) := by
  unfold Starts
  rw [startTimes_append, doneTimes_append, reports_append, ha.1, ha.2.1, ha.2.2, hb.1, hb.2.1, hb.2.2]
  exact ⟨rfl, rfl, rfl⟩

theorem process_idle {h : H} {now : Nat} {c : Cmd} (hd : h.discovery = true) (hs : h.scanner = none) :
    ((h.processEvent now (.command c)).1 = h ∧ Dull (stamped now (h.processEvent now (.command c)).2) ∧
      (c = .periodicNetworkScan → now < dueOf h)) ∨
    ((h.processEvent now (.command c)).1 = launched h ∧ Starts now (stamped now (h.processEvent now (.command c)).2)) := by
  have hn : h.scanNetwork = (launched h, [.started h.workers.length]) := by
    unfold H.scanNetwork
    rw [if_neg (by rw [hs, hd]; simp)]
    rfl
  cases c with
  | resetServiceTable => exact .inl ⟨rfl, ⟨rfl, rfl, rfl⟩, nofun⟩
  | scanNetwork =>
    simp only [H.processEvent, H.processCommand, hn]
    exact .inr ⟨trivial, rfl, rfl, rfl⟩
  | periodicNetworkScan =>
    rw [periodic_eq, hn]
    split
    · exact .inr ⟨rfl, rfl, rfl, rfl⟩
    · exact .inl ⟨rfl, ⟨rfl, rfl, rfl⟩, fun _ => by omega⟩

theorem drain_idle (now : Nat) (q : List Msg) : ∀ (h : H), h.queue = q → h.alive = true → h.discovery = true →
    h.scanner = none → Msg.scanCompleted ∉ q →
    ((drain now h).1 = { h with queue := [] } ∧ Dull (stamped now (drain now h).2) ∧
      (Msg.command .periodicNetworkScan ∈ q → now < dueOf h)) ∨
    ((drain now h).1 = { launched h with queue := [] } ∧ Starts now (stamped now (drain now h).2)) := by
  induction q with
  | nil =>
    intro h hq _ _ _ _
    rw [drain_nil hq]
    refine .inl ⟨?_, dull_nil, nofun⟩
    cases h
    cases hq
    rfl
  | cons m q ih =>
    intro h hq ha hd hs hn
    cases m with
    | scanCompleted => exact absurd List.mem_cons_self hn
    | command c =>
      have hn' : Msg.scanCompleted ∉ q := fun hm => hn (List.mem_cons_of_mem _ hm)
      rw [drain_cons ha hq (process_queue _ _ _)]
      rcases process_idle (h := { h with queue := q }) (now := now) (c := c) hd hs with ⟨h1, h2, h3⟩ | ⟨h1, h2⟩
      · rw [h1]
        rcases ih { h with queue := q } rfl ha hd hs hn' with ⟨k1, k2, k3⟩ | ⟨k1, k2⟩
        · refine .inl ⟨k1, ?_, ?_⟩
          · rw [stamped_append]; exact h2.append k2
          · intro hm
            rcases List.mem_cons.mp hm with e | hm
            · cases e; exact h3 rfl
            · exact k3 hm
        · refine .inr ⟨k1, ?_⟩
          rw [stamped_append]
          exact dull_starts h2 k2
      · rw [h1]
        obtain ⟨k1, k2⟩ := drain_busy now q (launched { h with queue := q }) _ rfl ha rfl hn'
        refine .inr ⟨k1, ?_⟩
        rw [stamped_append]
        exact starts_dull h2 k2

/-- The handler after it was told that the scan is over (cmd_handler.rs:169-177). -/
def ended (now : Nat) (h : H) : H := { h with queue := [], scanner := none, lastScan := some now }

theorem drain_over (now : Nat) (q : List Msg) : ∀ (h : H) (i : Nat), h.queue = q → h.alive = true → h.discovery = true →
    h.scanner = some i → q.count .scanCompleted = 1 →
    ((drain now h).1 = ended now h ∧ startTimes (stamped now (drain now h).2) = []
      ∨ (drain now h).1 = launched (ended now h) ∧ startTimes (stamped now (drain now h).2) = [now]) ∧
    doneTimes (stamped now (drain now h).2) = [now] ∧ reports (stamped now (drain now h).2) = [] := by
  induction q with
  | nil => intro h i _ _ _ _ hc; simp at hc
  | cons m q ih =>
    intro h i hq ha hd hs hc
    rw [drain_cons ha hq (process_queue _ _ _), stamped_append, startTimes_append, doneTimes_append, reports_append]
    cases m with
    | command c =>
      rw [List.count_cons_of_ne (by intro e; cases e)] at hc
      obtain ⟨h1, h2⟩ := process_busy (h := { h with queue := q }) (now := now) (c := c) hs
      rw [h1, h2.1, h2.2.1, h2.2.2]
      exact ih { h with queue := q } i rfl ha hd hs hc
    | scanCompleted =>
      rw [List.count_cons_self] at hc
      have hn : Msg.scanCompleted ∉ q := fun hm => by
        have := List.count_pos_iff.mpr hm
        omega
      have he : { h with queue := q }.processEvent now .scanCompleted =
        ({ h with queue := q, scanner := none, lastScan := some now }, [.completed now]) := rfl
      rw [he]
      have e1 : startTimes (stamped now [.completed now]) = [] := rfl
      have e2 : doneTimes (stamped now [.completed now]) = [now] := rfl
      have e3 : reports (stamped now [.completed now]) = [] := rfl
      dsimp only
      rw [e1, e2, e3]
      rcases drain_idle now q { h with queue := q, scanner := none, lastScan := some now } rfl ha hd rfl hn with
        ⟨k1, k2, _⟩ | ⟨k1, k2⟩
      · rw [k1, k2.1, k2.2.1, k2.2.2]
        exact ⟨.inl ⟨rfl, rfl⟩, rfl, rfl⟩
      · rw [k1, k2.1, k2.2.1, k2.2.2]
        exact ⟨.inr ⟨rfl, rfl⟩, rfl, rfl⟩

end Verif.Cadence
