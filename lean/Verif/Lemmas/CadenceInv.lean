import Verif.Lemmas.Cadence
/-!
# Lemmas: the deadlines of network scans are kept
-/
namespace Verif.Cadence
open Verif Verif.CmdHandler Verif.Spec.Cadence
open Verif.Client (sec)

/-- Where a scan is; `b` is the time when it is due, `p` the time of the last report. -/
inductive Ph (T : Timing) (s : Sys) (b p : Nat) : Prop
  /-- there is none -/
  | idle : s.h.scanner = none → Msg.scanCompleted ∉ s.h.queue → b ≤ p + T.scan + T.lag + 300 * sec →
      (s.tickDue ≤ b + T.tick ∨ (b ≤ s.now ∧ Msg.command .periodicNetworkScan ∈ s.h.queue ∧
        ∀ d, s.pollDue = some d → d ≤ b + T.tick + T.lag)) → Ph T s b p
  /-- it has not reported yet -/
  | early (i : Nat) (f : Phase) (q : Nat) : s.h.scanner = some i → s.h.workers[i]? = some f →
      (f = .spawned ∨ f = .scanning ∨ ∃ n, f = .found n) → Msg.scanCompleted ∉ s.h.queue →
      b ≤ p + T.scan + T.lag + 300 * sec → s.scanDue = some q → q ≤ b + T.tick + T.lag + T.scan → Ph T s b p
  /-- it has reported -/
  | late (i : Nat) (f : Phase) (q : Nat) : s.h.scanner = some i → s.h.workers[i]? = some f →
      ((∃ n, f = .updated n) ∨ f = .stored ∨ f = .cleared) → Msg.scanCompleted ∉ s.h.queue →
      s.scanDue = some q → q ≤ b + T.tick + T.lag + T.scan → q ≤ p + T.scan → Ph T s b p
  /-- the handler does not know yet that it is over -/
  | over (i : Nat) (d : Nat) : s.h.scanner = some i → s.h.workers[i]? = some .signalled →
      s.h.queue.count .scanCompleted = 1 → s.pollDue = some d → d ≤ b + T.tick + T.lag + T.scan + T.lag →
      d ≤ p + T.scan + T.lag → Ph T s b p

structure J (T : Timing) (s : Sys) (evs : List (Nat × HEv)) : Prop where
  disc : s.h.discovery = true
  alive : s.h.alive = true
  senders : ∀ o, o = .client ∨ o = .mainTask ∨ o = .periodic → o ∈ s.h.senders
  tick : s.now ≤ s.tickDue ∧ s.tickDue ≤ s.now + T.tick
  poll : ∀ d, s.pollDue = some d → s.now ≤ d ∧ d ≤ s.now + T.lag
  queue : s.h.queue = [] ↔ s.pollDue = none
  scan : ∀ d, s.scanDue = some d → s.now ≤ d ∧ d ≤ s.now + T.scan
  work : working s.h = false ↔ s.scanDue = none
  due : dueOf s.h = due evs
  report : lastReport evs ≤ s.now
  count : (startTimes evs).length = (doneTimes evs).length + (if s.h.scanner = none then 0 else 1)
  ph : Ph T s (dueOf s.h) (lastReport evs)

theorem J.new (T : Timing) : J T (Sys.new T true) [] where
  disc := rfl
  alive := rfl
  senders := by rintro o (rfl | rfl | rfl) <;> (show _ ∈ (H.new true).senders; decide)
  tick := ⟨Nat.zero_le _, by show T.tick ≤ 0 + T.tick; omega⟩
  poll := nofun
  queue := ⟨fun _ => rfl, fun _ => rfl⟩
  scan := nofun
  work := ⟨fun _ => rfl, fun _ => rfl⟩
  due := rfl
  report := Nat.le_refl _
  count := rfl
  ph := .idle rfl nofun (Nat.zero_le _) (.inl (by show T.tick ≤ 0 + T.tick; omega))

/-- What holds of the time. -/
theorem J.bound {T : Timing} {s : Sys} {evs : List (Nat × HEv)} (j : J T s evs) :
    s.now ≤ Spec.Cadence.due evs + T.tick + T.lag + T.scan + T.lag ∧
    ((startTimes evs).length = (doneTimes evs).length → s.now ≤ Spec.Cadence.due evs + T.tick + T.lag) ∧
    s.now ≤ lastReport evs + 300 * sec + T.tick + 2 * T.lag + 2 * T.scan := by
  have hc := j.count
  have ht := j.tick
  rw [← j.due]
  rcases j.ph with ⟨h1, h2, h3, h4⟩ | ⟨i, f, q, h1, h2, h3, h4, h5, h6, h7⟩ | ⟨i, f, q, h1, h2, h3, h4, h5, h6, h7⟩ |
    ⟨i, d, h1, h2, h3, h4, h5, h6⟩
  · have : s.now ≤ dueOf s.h + T.tick + T.lag := by
      rcases h4 with h4 | ⟨_, h5, h6⟩
      · omega
      · cases hp : s.pollDue with
        | none => rw [j.queue.mpr hp] at h5; cases h5
        | some d =>
          have := (j.poll d hp).1
          have := h6 d hp
          omega
    exact ⟨by omega, fun _ => this, by omega⟩
  · rw [h1, if_neg nofun] at hc
    have := (j.scan q h6).1
    exact ⟨by omega, fun h => by omega, by omega⟩
  · rw [h1, if_neg nofun] at hc
    have := (j.scan q h5).1
    exact ⟨by omega, fun h => by omega, by omega⟩
  · rw [h1, if_neg nofun] at hc
    have := (j.poll d h4).1
    exact ⟨by omega, fun h => by omega, by omega⟩

theorem J.wait {T : Timing} {s : Sys} {evs : List (Nat × HEv)} (j : J T s evs) (d : Nat)
    (h : s.canWait (s.now + d) = true) : J T { s with now := s.now + d } evs := by
  unfold Sys.canWait at h
  rw [Bool.and_eq_true, Bool.and_eq_true, decide_eq_true_eq] at h
  obtain ⟨⟨h1, h2⟩, h3⟩ := h
  have hp : ∀ x, s.pollDue = some x → s.now + d ≤ x := by
    intro x hx; rw [hx] at h2; simpa using h2
  have hq : ∀ x, s.scanDue = some x → s.now + d ≤ x := by
    intro x hx; rw [hx] at h3; simpa using h3
  have ht := j.tick
  refine ⟨j.disc, j.alive, j.senders, ⟨h1, by show s.tickDue ≤ s.now + d + T.tick; omega⟩, ?_, j.queue, ?_, j.work, j.due, ?_, j.count, ?_⟩
  · intro x hx
    have := j.poll x hx
    exact ⟨hp x hx, by show x ≤ s.now + d + T.lag; omega⟩
  · intro x hx
    have := j.scan x hx
    exact ⟨hq x hx, by show x ≤ s.now + d + T.scan; omega⟩
  · have := j.report
    show lastReport evs ≤ s.now + d
    omega
  · rcases j.ph with ⟨h1, h2, h3, h4⟩ | ⟨i, f, q, h1, h2, h3, h4, h5, h6, h7⟩ | ⟨i, f, q, h1, h2, h3, h4, h5, h6, h7⟩ |
      ⟨i, d', h1, h2, h3, h4, h5, h6⟩
    · exact .idle h1 h2 h3 (h4.imp_right fun h => ⟨by show dueOf s.h ≤ s.now + d; omega, h.2⟩)
    · exact .early i f q h1 h2 h3 h4 h5 h6 h7
    · exact .late i f q h1 h2 h3 h4 h5 h6 h7
    · exact .over i d' h1 h2 h3 h4 h5 h6

/-! ## A command is sent -/

theorem send_eq {h : H} {o : Owner} {c : Cmd} (ho : o = .client ∨ o = .mainTask ∨ o = .periodic) (hm : o ∈ h.senders)
    (ha : h.alive = true) : h.step (.send o c) = ({ h with queue := h.queue ++ [.command c] }, []) := by
  simp only [H.step]
  rw [if_pos ⟨hm, ho⟩, if_pos ha]

/-- The deadline of the poll after a command was sent. -/
theorem sent_due {T : Timing} {s : Sys} {evs : List (Nat × HEv)} (j : J T s evs) :
    (s.now ≤ s.pollDue.getD (s.now + T.lag) ∧ s.pollDue.getD (s.now + T.lag) ≤ s.now + T.lag) := by
  cases h : s.pollDue with
  | none => exact ⟨by show s.now ≤ s.now + T.lag; omega, Nat.le_refl _⟩
  | some d => exact j.poll d h

theorem J.send {T : Timing} {s : Sys} {evs : List (Nat × HEv)} (j : J T s evs) (c : Cmd) :
    J T (s.settle T { s.h with queue := s.h.queue ++ [.command c] }) evs ∧
    (c = .periodicNetworkScan →
      J T { s.settle T { s.h with queue := s.h.queue ++ [.command c] } with tickDue := s.now + T.tick } evs) := by
  have hq : s.h.queue ++ [Msg.command c] ≠ [] := by simp
  have hset : s.settle T { s.h with queue := s.h.queue ++ [.command c] } =
      { s with h := { s.h with queue := s.h.queue ++ [.command c] }, pollDue := some (s.pollDue.getD (s.now + T.lag)) } := by
    unfold Sys.settle
    dsimp only
    rw [if_neg hq]
    have hw : working { s.h with queue := s.h.queue ++ [.command c] } = working s.h := rfl
    rw [hw]
    have : (if working s.h = true then some (s.scanDue.getD (s.now + T.scan)) else none) = s.scanDue := by
      cases hwk : working s.h with
      | false => rw [if_neg nofun]; exact (j.work.mp hwk).symm
      | true =>
        rw [if_pos rfl]
        cases hd : s.scanDue with
        | none => rw [j.work.mpr hd] at hwk; cases hwk
        | some d => rfl
    rw [this]
  rw [hset]
  have hcnt : ∀ m ∈ s.h.queue ++ [Msg.command c], m = Msg.scanCompleted → m ∈ s.h.queue := by
    intro m hm e
    rcases List.mem_append.mp hm with h | h
    · exact h
    · rw [List.mem_singleton.mp h] at e; cases e
  have hcount : (s.h.queue ++ [Msg.command c]).count Msg.scanCompleted = s.h.queue.count Msg.scanCompleted := by
    rw [List.count_append, List.count_cons_of_ne (by intro e; cases e)]
    rfl
  have hpoll : ∀ d, some (s.pollDue.getD (s.now + T.lag)) = some d → s.now ≤ d ∧ d ≤ s.now + T.lag := by
    intro d e
    cases e
    exact sent_due j
  have hd := sent_due j
  have ht := j.tick
  have htd : ∀ d, s.pollDue = some d → s.pollDue.getD (s.now + T.lag) = d := fun d e => by rw [e]; rfl
  have hph : ∀ td, (s.h.scanner = none → td ≤ dueOf s.h + T.tick ∨
      (dueOf s.h ≤ s.now ∧ Msg.command .periodicNetworkScan ∈ s.h.queue ++ [Msg.command c] ∧
        s.pollDue.getD (s.now + T.lag) ≤ dueOf s.h + T.tick + T.lag)) →
      Ph T { s with h := { s.h with queue := s.h.queue ++ [.command c] }, tickDue := td, pollDue := some (s.pollDue.getD (s.now + T.lag)) }
        (dueOf s.h) (lastReport evs) := by
    intro td hidle
    rcases j.ph with ⟨h1, h2, h3, h4⟩ | ⟨i, f, q, h1, h2, h3, h4, h5, h6, h7⟩ | ⟨i, f, q, h1, h2, h3, h4, h5, h6, h7⟩ |
      ⟨i, d', h1, h2, h3, h4, h5, h6⟩
    · refine .idle h1 (fun hm => h2 (hcnt _ hm rfl)) h3 ((hidle h1).imp_right fun h => ⟨h.1, h.2.1, ?_⟩)
      intro d e
      cases e
      exact h.2.2
    · exact .early i f q h1 h2 h3 (fun hm => h4 (hcnt _ hm rfl)) h5 h6 h7
    · exact .late i f q h1 h2 h3 (fun hm => h4 (hcnt _ hm rfl)) h5 h6 h7
    · exact .over i d' h1 h2 (hcount.trans h3) (by show some _ = some _; rw [htd d' h4]) h5 h6
  refine ⟨⟨j.disc, j.alive, j.senders, j.tick, hpoll, ⟨fun e => absurd e hq, nofun⟩, j.scan, j.work, j.due, j.report, j.count,
    hph s.tickDue ?_⟩, fun hc => ⟨j.disc, j.alive, j.senders,
      ⟨by show s.now ≤ s.now + T.tick; omega, Nat.le_refl _⟩, hpoll, ⟨fun e => absurd e hq, nofun⟩, j.scan, j.work, j.due,
      j.report, j.count, hph (s.now + T.tick) ?_⟩⟩
  · intro hs
    rcases j.ph with ⟨h1, h2, h3, h4⟩ | ⟨i, f, q, h1, _⟩ | ⟨i, f, q, h1, _⟩ | ⟨i, d', h1, _⟩
    · rcases h4 with h4 | ⟨h4, h5, h6⟩
      · exact .inl h4
      · refine .inr ⟨h4, List.mem_append_left _ h5, ?_⟩
        cases hp : s.pollDue with
        | none => rw [j.queue.mpr hp] at h5; cases h5
        | some d => exact h6 d hp
    · rw [hs] at h1; cases h1
    · rw [hs] at h1; cases h1
    · rw [hs] at h1; cases h1
  · intro hs
    subst hc
    by_cases hb : s.now < dueOf s.h
    · exact .inl (by omega)
    · refine .inr ⟨by omega, List.mem_append_right _ (List.mem_singleton.mpr rfl), ?_⟩
      rcases j.ph with ⟨h1, h2, h3, h4⟩ | ⟨i, f, q, h1, _⟩ | ⟨i, f, q, h1, _⟩ | ⟨i, d', h1, _⟩
      · rcases h4 with h4 | ⟨h4, h5, h6⟩
        · omega
        · cases hp : s.pollDue with
          | none => rw [j.queue.mpr hp] at h5; cases h5
          | some d => exact h6 d hp
      · rw [hs] at h1; cases h1
      · rw [hs] at h1; cases h1
      · rw [hs] at h1; cases h1

/-! ## The handler is polled -/

theorem due_same {a b : List (Nat × HEv)} (h : doneTimes b = []) : due (a ++ b) = due a := by
  unfold due
  rw [doneTimes_append, h, List.append_nil]

theorem due_done {a b : List (Nat × HEv)} {now : Nat} (h : doneTimes b = [now]) : due (a ++ b) = now + 300 * sec := by
  unfold due
  rw [doneTimes_append, h, List.getLast?_concat]

theorem lastReport_same {a b : List (Nat × HEv)} (h : reports b = []) : lastReport (a ++ b) = lastReport a := by
  unfold lastReport
  rw [reports_append, h, List.append_nil]

theorem lastReport_new {a b : List (Nat × HEv)} {r : Nat × Nat} (h : reports b = [r]) : lastReport (a ++ b) = r.1 := by
  unfold lastReport
  rw [reports_append, h, List.getLast?_concat]

theorem working_idle {h : H} (hs : h.scanner = none) : working h = false := by
  unfold working
  rw [hs]

theorem working_launched (h : H) : working (launched h) = true := by
  unfold working launched
  dsimp only
  rw [List.getElem?_concat_length]

theorem getElem_launched (h : H) : (launched h).workers[h.workers.length]? = some .spawned := by
  unfold launched
  dsimp only
  rw [List.getElem?_concat_length]

/-- The state after a poll that started a scan. -/
theorem J.started {T : Timing} {s : Sys} {evs l : List (Nat × HEv)} (j : J T s evs) (h : H)
    (hw : working s.h = false) (hd : h.discovery = true) (ha : h.alive = true) (hm : h.senders = s.h.senders)
    (h1 : s.now ≤ dueOf h + T.tick + T.lag)
    (h2 : dueOf h = Spec.Cadence.due (evs ++ l)) (h3 : reports l = [])
    (h4 : dueOf h ≤ lastReport evs + T.scan + T.lag + 300 * sec)
    (h5 : (startTimes (evs ++ l)).length = (doneTimes (evs ++ l)).length + 1) :
    J T (s.settle T { launched h with queue := [] }) (evs ++ l) := by
  have hset : s.settle T { launched h with queue := [] } =
      { s with h := { launched h with queue := [] }, pollDue := none, scanDue := some (s.now + T.scan) } := by
    unfold Sys.settle
    have hwl : working { launched h with queue := [] } = true := working_launched h
    rw [hwl, j.work.mp hw, if_pos rfl, if_pos rfl]
    rfl
  rw [hset]
  refine ⟨hd, ha, ?_, j.tick, nofun, ⟨fun _ => rfl, fun _ => rfl⟩, ?_, ⟨fun e => ?_, nofun⟩, h2, ?_, h5, ?_⟩
  · intro o ho
    show o ∈ h.senders ++ _
    rw [hm]
    exact List.mem_append_left _ (j.senders o ho)
  · intro d e
    cases e
    exact ⟨by show s.now ≤ s.now + T.scan; omega, Nat.le_refl _⟩
  · have hwl : working { launched h with queue := [] } = true := working_launched h
    rw [hwl] at e
    cases e
  · rw [lastReport_same h3]; exact j.report
  · rw [lastReport_same h3]
    exact .early h.workers.length .spawned (s.now + T.scan) rfl (getElem_launched h) (.inl rfl) nofun h4 rfl
      (by show s.now + T.scan ≤ dueOf h + T.tick + T.lag + T.scan; omega)

theorem J.poll_step {T : Timing} {s : Sys} {evs : List (Nat × HEv)} (j : J T s evs) :
    J T (s.settle T (drain s.now s.h).1) (evs ++ stamped s.now (drain s.now s.h).2) := by
  have ht := j.tick
  have hb := j.bound
  have hcount := j.count
  generalize hl : stamped s.now (drain s.now s.h).2 = l
  rcases j.ph with ⟨h1, h2, h3, h4⟩ | ⟨i, f, q, h1, h2, h3, h4, h5, h6, h7⟩ | ⟨i, f, q, h1, h2, h3, h4, h5, h6, h7⟩ |
    ⟨i, d', h1, h2, h3, h4, h5, h6⟩
  · rw [h1, if_pos rfl, Nat.add_zero] at hcount
    have hnow : s.now ≤ dueOf s.h + T.tick + T.lag := by rw [j.due]; exact hb.2.1 hcount
    rcases drain_idle s.now s.h.queue s.h rfl j.alive j.disc h1 h2 with ⟨e, hdull, hper⟩ | ⟨e, hst⟩
    · rw [hl] at hdull
      rw [e]
      have hset : s.settle T { s.h with queue := [] } = { s with h := { s.h with queue := [] }, pollDue := none, scanDue := none } := by
        unfold Sys.settle
        have hw : working { s.h with queue := [] } = false := working_idle h1
        rw [hw, if_pos rfl, if_neg nofun]
      rw [hset]
      have hw : working s.h = false := working_idle h1
      refine ⟨j.disc, j.alive, j.senders, j.tick, nofun, ⟨fun _ => rfl, fun _ => rfl⟩, nofun, ⟨fun _ => rfl, fun _ => hw⟩, ?_, ?_, ?_, ?_⟩
      · rw [due_same hdull.2.1]; exact j.due
      · rw [lastReport_same hdull.2.2]; exact j.report
      · rw [startTimes_append, doneTimes_append, hdull.1, hdull.2.1, List.append_nil, List.append_nil]; exact j.count
      · rw [lastReport_same hdull.2.2]
        refine .idle h1 nofun h3 (.inl ?_)
        rcases h4 with h4 | ⟨h4, h5, _⟩
        · exact h4
        · have := hper h5; omega
    · rw [hl] at hst
      rw [e]
      refine j.started s.h (working_idle h1) j.disc j.alive rfl hnow ?_ hst.2.2 h3 ?_
      · rw [due_same hst.2.1]; exact j.due
      · rw [startTimes_append, doneTimes_append, hst.1, hst.2.1, List.append_nil, List.length_append, hcount]; rfl
  · have hdr := drain_busy s.now s.h.queue s.h i rfl j.alive h1 h4
    rw [hl] at hdr
    obtain ⟨e, hdull⟩ := hdr
    rw [e]
    have hw' : working s.h = true := by
      cases hw : working s.h with
      | true => rfl
      | false => rw [j.work.mp hw] at h6; cases h6
    have hset : s.settle T { s.h with queue := [] } = { s with h := { s.h with queue := [] }, pollDue := none } := by
      unfold Sys.settle
      have hw : working { s.h with queue := [] } = true := hw'
      rw [hw, if_pos rfl, if_pos rfl, h6]
      rfl
    rw [hset]
    refine ⟨j.disc, j.alive, j.senders, j.tick, nofun, ⟨fun _ => rfl, fun _ => rfl⟩, j.scan, j.work, ?_, ?_, ?_, ?_⟩
    · rw [due_same hdull.2.1]; exact j.due
    · rw [lastReport_same hdull.2.2]; exact j.report
    · rw [startTimes_append, doneTimes_append, hdull.1, hdull.2.1, List.append_nil, List.append_nil]; exact j.count
    · rw [lastReport_same hdull.2.2]
      exact .early i f q h1 h2 h3 nofun h5 h6 h7
  · have hdr := drain_busy s.now s.h.queue s.h i rfl j.alive h1 h4
    rw [hl] at hdr
    obtain ⟨e, hdull⟩ := hdr
    rw [e]
    have hw' : working s.h = true := by
      cases hw : working s.h with
      | true => rfl
      | false => rw [j.work.mp hw] at h5; cases h5
    have hset : s.settle T { s.h with queue := [] } = { s with h := { s.h with queue := [] }, pollDue := none } := by
      unfold Sys.settle
      have hw : working { s.h with queue := [] } = true := hw'
      rw [hw, if_pos rfl, if_pos rfl, h5]
      rfl
    rw [hset]
    refine ⟨j.disc, j.alive, j.senders, j.tick, nofun, ⟨fun _ => rfl, fun _ => rfl⟩, j.scan, j.work, ?_, ?_, ?_, ?_⟩
    · rw [due_same hdull.2.1]; exact j.due
    · rw [lastReport_same hdull.2.2]; exact j.report
    · rw [startTimes_append, doneTimes_append, hdull.1, hdull.2.1, List.append_nil, List.append_nil]; exact j.count
    · rw [lastReport_same hdull.2.2]
      exact .late i f q h1 h2 h3 nofun h5 h6 h7
  · rw [h1, if_neg nofun] at hcount
    have hw' : working s.h = false := by
      unfold working
      rw [h1]
      dsimp only
      rw [h2]
    have hnow := (j.poll d' h4).1
    have hdr := drain_over s.now s.h.queue s.h i rfl j.alive j.disc h1 h3
    rw [hl] at hdr
    obtain ⟨hdr, hdone, hrep⟩ := hdr
    have hdo : dueOf (ended s.now s.h) = s.now + 300 * sec := rfl
    rcases hdr with ⟨e, hst⟩ | ⟨e, hst⟩
    · rw [e]
      have hset : s.settle T (ended s.now s.h) = { s with h := ended s.now s.h, pollDue := none, scanDue := none } := by
        unfold Sys.settle
        have hw : working (ended s.now s.h) = false := working_idle rfl
        have hq : (ended s.now s.h).queue = [] := rfl
        rw [hw, hq, if_pos rfl, if_neg nofun]
      rw [hset]
      refine ⟨j.disc, j.alive, j.senders, j.tick, nofun, ⟨fun _ => rfl, fun _ => rfl⟩, nofun, ⟨fun _ => rfl, fun _ => working_idle rfl⟩, ?_, ?_, ?_, ?_⟩
      · rw [due_done hdone]; exact hdo
      · rw [lastReport_same hrep]; exact j.report
      · rw [startTimes_append, doneTimes_append, hst, hdone, List.append_nil, List.length_append, hcount]; rfl
      · rw [lastReport_same hrep]
        refine .idle rfl nofun ?_ (.inl ?_)
        · show dueOf (ended s.now s.h) ≤ _
          rw [hdo]; omega
        · show s.tickDue ≤ dueOf (ended s.now s.h) + T.tick
          rw [hdo]; omega
    · rw [e]
      refine j.started (l := l) (ended s.now s.h) hw' j.disc j.alive rfl ?_ ?_ hrep ?_ ?_
      · rw [hdo]; omega
      · rw [due_done hdone]; exact hdo
      · rw [hdo]; omega
      · rw [startTimes_append, doneTimes_append, hst, hdone, List.length_append, List.length_append, hcount]; rfl

/-! ## The scanner thread works -/

theorem settle_eq {T : Timing} {s : Sys} {evs : List (Nat × HEv)} (j : J T s evs) (h : H) (hq : h.queue = s.h.queue)
    (hw : working h = working s.h) : s.settle T h = { s with h := h } := by
  unfold Sys.settle
  rw [hw, hq]
  have h1 : (if working s.h = true then some (s.scanDue.getD (s.now + T.scan)) else none) = s.scanDue := by
    cases hwk : working s.h with
    | false => rw [if_neg nofun]; exact (j.work.mp hwk).symm
    | true =>
      rw [if_pos rfl]
      cases hd : s.scanDue with
      | none => rw [j.work.mpr hd] at hwk; cases hwk
      | some d => rfl
  have h2 : (if s.h.queue = [] then none else some (s.pollDue.getD (s.now + T.lag))) = s.pollDue := by
    by_cases he : s.h.queue = []
    · rw [if_pos he]; exact (j.queue.mp he).symm
    · rw [if_neg he]
      cases hd : s.pollDue with
      | none => exact absurd (j.queue.mpr hd) he
      | some d => rfl
  rw [h1, h2]

/-- A step of the thread that is not its last one. -/
theorem J.advance {T : Timing} {s : Sys} {evs l : List (Nat × HEv)} (j : J T s evs) {i : Nat} (f g : Phase) (b : Bool)
    (h1 : s.h.scanner = some i) (h2 : s.h.workers[i]? = some f) (hf : working s.h = true)
    (hg : g ≠ .signalled ∧ g ≠ .dead)
    (hs : startTimes l = []) (hd : doneTimes l = []) (hr : lastReport (evs ++ l) ≤ s.now)
    (hph : ∀ s', s' = { s with h := { s.h with workers := s.h.workers.set i g, flag := b } } → s'.h.workers[i]? = some g →
      Ph T s' (dueOf s.h) (lastReport (evs ++ l))) :
    J T (s.settle T { s.h with workers := s.h.workers.set i g, flag := b }) (evs ++ l) := by
  have hi : i < s.h.workers.length := (List.getElem?_eq_some_iff.mp h2).1
  have hg' : (s.h.workers.set i g)[i]? = some g := by rw [List.getElem?_set_self hi]
  have hw : working { s.h with workers := s.h.workers.set i g, flag := b } = true := by
    unfold working
    dsimp only
    rw [h1]
    dsimp only
    rw [hg']
    cases g with
    | signalled => exact absurd rfl hg.1
    | dead => exact absurd rfl hg.2
    | _ => rfl
  rw [settle_eq j _ (by rfl) (hw.trans hf.symm)]
  refine ⟨j.disc, j.alive, j.senders, j.tick, j.poll, j.queue, j.scan, ?_, ?_, hr, ?_, hph _ rfl hg'⟩
  · show working _ = false ↔ s.scanDue = none
    rw [hw, ← hf]
    exact j.work
  · rw [due_same hd]; exact j.due
  · rw [startTimes_append, doneTimes_append, hs, hd, List.append_nil, List.append_nil]; exact j.count

theorem J.work_step {T : Timing} {s : Sys} {evs : List (Nat × HEv)} (j : J T s evs) (n i : Nat) (hsc : s.h.scanner = some i) :
    J T (s.settle T (s.h.work i (some n)).1) (evs ++ stamped s.now (s.h.work i (some n)).2) := by
  have working_of : ∀ q, s.scanDue = some q → working s.h = true := by
    intro q hq
    cases hw : working s.h with
    | true => rfl
    | false => rw [j.work.mp hw] at hq; cases hq
  have hrep := j.report
  rcases j.ph with ⟨h1, h2, h3, h4⟩ | ⟨i', f, q, h1, h2, h3, h4, h5, h6, h7⟩ | ⟨i', f, q, h1, h2, h3, h4, h5, h6, h7⟩ |
    ⟨i', d', h1, h2, h3, h4, h5, h6⟩
  · rw [hsc] at h1; cases h1
  · rw [hsc] at h1
    cases h1
    unfold H.work
    rw [h2]
    rcases h3 with rfl | rfl | ⟨m, rfl⟩
    · dsimp only
      refine j.advance .spawned .scanning true hsc h2 (working_of q h6) ⟨nofun, nofun⟩ rfl rfl ?_ ?_
      · rw [lastReport_same rfl]; exact hrep
      · rintro s' rfl hg
        rw [lastReport_same rfl]
        exact .early i .scanning q hsc hg (.inr (.inl rfl)) h4 h5 h6 h7
    · dsimp only
      refine j.advance .scanning (.found n) s.h.flag hsc h2 (working_of q h6) ⟨nofun, nofun⟩ rfl rfl ?_ ?_
      · rw [lastReport_same rfl]; exact hrep
      · rintro s' rfl hg
        rw [lastReport_same rfl]
        exact .early i (.found n) q hsc hg (.inr (.inr ⟨n, rfl⟩)) h4 h5 h6 h7
    · dsimp only
      have hl : lastReport (evs ++ stamped s.now [.published i m]) = s.now := lastReport_new (r := (s.now, m)) rfl
      refine j.advance (.found m) (.updated m) s.h.flag hsc h2 (working_of q h6) ⟨nofun, nofun⟩ rfl rfl ?_ ?_
      · rw [hl]; exact Nat.le_refl _
      · rintro s' rfl hg
        rw [hl]
        exact .late i (.updated m) q hsc hg (.inl ⟨m, rfl⟩) h4 h6 h7 (j.scan q h6).2
  · rw [hsc] at h1
    cases h1
    unfold H.work
    rw [h2]
    rcases h3 with ⟨m, rfl⟩ | rfl | rfl
    · dsimp only
      refine j.advance (.updated m) .stored s.h.flag hsc h2 (working_of q h5) ⟨nofun, nofun⟩ rfl rfl ?_ ?_
      · rw [lastReport_same rfl]; exact hrep
      · rintro s' rfl hg
        rw [lastReport_same rfl]
        exact .late i .stored q hsc hg (.inr (.inl rfl)) h4 h5 h6 h7
    · dsimp only
      refine j.advance .stored .cleared false hsc h2 (working_of q h5) ⟨nofun, nofun⟩ rfl rfl ?_ ?_
      · rw [lastReport_same rfl]; exact hrep
      · rintro s' rfl hg
        rw [lastReport_same rfl]
        exact .late i .cleared q hsc hg (.inr (.inr rfl)) h4 h5 h6 h7
    · dsimp only
      have hi : i < s.h.workers.length := (List.getElem?_eq_some_iff.mp h2).1
      have hg : (s.h.workers.set i .signalled)[i]? = some Phase.signalled := by rw [List.getElem?_set_self hi]
      have hd := sent_due j
      have hq := j.scan q h5
      generalize hh : ({ s.h with workers := s.h.workers.set i .signalled, queue := s.h.queue ++ [.scanCompleted], senders := s.h.senders.filter (· ≠ .worker i) } : H) = h'
      have hw : working h' = false := by
        unfold working
        rw [← hh]
        dsimp only
        rw [hsc]
        dsimp only
        rw [hg]
      have hne : h'.queue ≠ [] := by rw [← hh]; simp
      have hset : s.settle T h' = { s with h := h', pollDue := some (s.pollDue.getD (s.now + T.lag)), scanDue := none } := by
        unfold Sys.settle
        rw [hw, if_neg hne, if_neg nofun]
      rw [hset]
      have hdue : dueOf h' = dueOf s.h := by rw [← hh]; rfl
      have hscn : h'.scanner = some i := by rw [← hh]; exact hsc
      refine ⟨?_, ?_, ?_, j.tick, ?_, ⟨fun e => absurd e hne, nofun⟩, nofun, ⟨fun _ => rfl, fun _ => hw⟩, ?_, ?_, ?_, ?_⟩
      · show h'.discovery = true
        rw [← hh]; exact j.disc
      · show h'.alive = true
        rw [← hh]; exact j.alive
      · intro o ho
        show o ∈ h'.senders
        rw [← hh]
        refine List.mem_filter.mpr ⟨j.senders o ho, ?_⟩
        rcases ho with rfl | rfl | rfl <;> rfl
      · intro d e
        cases e
        exact hd
      · rw [due_same rfl]
        exact hdue.trans j.due
      · rw [lastReport_same rfl]; exact hrep
      · have hc := j.count
        rw [hsc] at hc
        rw [startTimes_append, doneTimes_append]
        show (startTimes evs ++ []).length = (doneTimes evs ++ []).length + (if h'.scanner = none then 0 else 1)
        rw [hscn, List.append_nil, List.append_nil]
        exact hc
      · rw [lastReport_same rfl]
        show Ph T _ (dueOf h') _
        rw [hdue]
        refine .over i _ hscn (by show h'.workers[i]? = _; rw [← hh]; exact hg) ?_ rfl (by omega) (by omega)
        show h'.queue.count _ = 1
        rw [← hh]
        dsimp only
        rw [List.count_append, List.count_eq_zero_of_not_mem h4]
        rfl
  · rw [hsc] at h1
    cases h1
    unfold H.work
    rw [h2]
    dsimp only
    rw [settle_eq j s.h rfl rfl]
    show J T s (evs ++ [])
    rw [List.append_nil]
    exact j

/-! ## Histories -/

theorem J.step {T : Timing} {s : Sys} {evs : List (Nat × HEv)} (j : J T s evs) (op : Op) :
    J T (s.step T op).1 (evs ++ (s.step T op).2) := by
  cases op with
  | wait d =>
    show J T (if s.canWait (s.now + d) then { s with now := s.now + d } else s) (evs ++ [])
    rw [List.append_nil]
    by_cases h : s.canWait (s.now + d) = true
    · rw [if_pos h]; exact j.wait d h
    · rw [if_neg h]; exact j
  | tick =>
    unfold Sys.step
    rw [send_eq (.inr (.inr rfl)) (j.senders _ (.inr (.inr rfl))) j.alive]
    show J T _ (evs ++ [])
    rw [List.append_nil]
    exact (j.send .periodicNetworkScan).2 rfl
  | ask o c =>
    unfold Sys.step
    dsimp only
    by_cases ho : o = .client ∨ o = .mainTask
    · have ho' : o = .client ∨ o = .mainTask ∨ o = .periodic := ho.elim .inl fun h => .inr (.inl h)
      rw [if_pos ho, send_eq ho' (j.senders o ho') j.alive]
      show J T _ (evs ++ [])
      rw [List.append_nil]
      exact (j.send c).1
    · rw [if_neg ho]
      show J T s (evs ++ [])
      rw [List.append_nil]
      exact j
  | poll => exact j.poll_step
  | work n =>
    unfold Sys.step
    dsimp only
    cases hs : s.h.scanner with
    | none =>
      show J T s (evs ++ [])
      rw [List.append_nil]
      exact j
    | some i => exact j.work_step n i hs

theorem J.run {T : Timing} (ops : List Op) : ∀ {s : Sys} {evs : List (Nat × HEv)}, J T s evs →
    J T (s.run T ops).1 (evs ++ (s.run T ops).2) := by
  induction ops with
  | nil =>
    intro s evs j
    show J T s (evs ++ [])
    rw [List.append_nil]
    exact j
  | cons op ops ih =>
    intro s evs j
    have := ih (j.step op)
    rw [List.append_assoc] at this
    exact this

theorem J.reached (T : Timing) (ops : List Op) : J T ((Sys.new T true).run T ops).1 ((Sys.new T true).run T ops).2 :=
  J.run ops (J.new T)

end Verif.Cadence
