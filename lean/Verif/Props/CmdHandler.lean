import Verif.Spec.CmdHandler
/-!
# Properties of the command handler: C49, C50, C83
-/
namespace Verif.Props.CmdHandler
open Verif Verif.CmdHandler Verif.Client Verif.Spec.CmdHandler

/-- A history of the command handler. -/
def hist (discovery : Bool) (ops : List HOp) : H × List HEv := (H.new discovery).run ops

theorem run_append (h : H) (x y : List HOp) :
    h.run (x ++ y) = (((h.run x).1.run y).1, (h.run x).2 ++ ((h.run x).1.run y).2) := by
  induction x generalizing h with
  | nil => rfl
  | cons o x ih => simp [H.run, ih]

theorem after_append (s : Scan) (x y : List HEv) :
    s.after (x ++ y) = (s.after x).bind (fun s => s.after y) := by
  induction x generalizing s with
  | nil => rfl
  | cons e x ih =>
    simp only [List.cons_append, Scan.after]
    cases s.next e with
    | none => rfl
    | some s' => exact ih s'

/-- Where the scanner thread is, given what was observed of the scan. -/
def At (h : H) : Scan → Prop
  | .none => h.scanner = none ∧ h.flag = false
  | .started i => h.scanner = some i ∧ h.flag = false ∧
      (h.workers[i]? = some .spawned ∨ h.workers[i]? = some .dead)
  | .running i => h.scanner = some i ∧ h.flag = true ∧
      (h.workers[i]? = some .scanning ∨ (∃ n, h.workers[i]? = some (.found n)) ∨
        h.workers[i]? = some .stored ∨ h.workers[i]? = some .dead)
  | .published i n => h.scanner = some i ∧ h.flag = true ∧
      (h.workers[i]? = some (.updated n) ∨ h.workers[i]? = some .dead)
  | .stored i => h.scanner = some i ∧ h.flag = true ∧
      (h.workers[i]? = some .stored ∨ h.workers[i]? = some .dead)
  | .over i => h.scanner = some i ∧ h.flag = false ∧
      (h.workers[i]? = some .cleared ∨ h.workers[i]? = some .signalled ∨ h.workers[i]? = some .dead)

structure Inv (h : H) (s : Scan) : Prop where
  at_ : At h s
  only : ∀ i p, h.workers[i]? = some p → p ≠ .signalled → h.scanner = some i
  queued : h.queue.count .scanCompleted =
    match h.scanner with
    | some i => if h.workers[i]? = some .signalled then 1 else 0
    | none => 0
  handler : .handler ∈ h.senders
  alive : h.alive = true

theorem Inv.new (d : Bool) : Inv (H.new d) .none :=
  ⟨⟨rfl, rfl⟩, by simp [H.new], rfl, by simp [H.new], rfl⟩

theorem At.scanner {h : H} {s : Scan} (ha : At h s) (hs : h.scanner = none) : s = .none := by
  cases s with
  | none => rfl
  | _ => have := ha.1; rw [hs] at this; cases this

/-- The state after changing the phase of the scanner thread. -/
theorem only_set {h : H} (hi : ∀ i p, h.workers[i]? = some p → p ≠ .signalled → h.scanner = some i)
    {i : Nat} (hs : h.scanner = some i) (p : Phase) :
    ∀ j q, (h.workers.set i p)[j]? = some q → q ≠ .signalled → h.scanner = some j := by
  intro j q hj hq
  rw [List.getElem?_set] at hj
  by_cases hij : i = j
  · subst hij; exact hs
  · rw [if_neg hij] at hj; exact hi j q hj hq

theorem set_self {h : H} {i : Nat} {q : Phase} (hg : h.workers[i]? = some q) (p : Phase) :
    (h.workers.set i p)[i]? = some p := by
  have := (List.getElem?_eq_some_iff.mp hg).1
  simp [this]

theorem inv_scanNetwork {h : H} {s : Scan} (hi : Inv h s) :
    ∃ s', s.after h.scanNetwork.2 = some s' ∧ Inv h.scanNetwork.1 s' := by
  unfold H.scanNetwork
  split
  · exact ⟨s, rfl, hi⟩
  · rename_i hc
    simp only [Bool.or_eq_true, Bool.not_eq_true', not_or, Bool.not_eq_false, Option.not_isSome_iff_eq_none] at hc
    have hs := At.scanner hi.at_ hc.2
    subst hs
    refine ⟨.started h.workers.length, rfl, ?_⟩
    have hq := hi.queued
    rw [hc.2] at hq
    refine ⟨⟨rfl, hi.at_.2, .inl (by simp)⟩, ?_, ?_, List.mem_append_left _ hi.handler, hi.alive⟩
    · intro i p hg hp
      dsimp only at hg ⊢
      by_cases hl : i < h.workers.length
      · rw [List.getElem?_append_left hl] at hg
        have := hi.only i p hg hp
        rw [hc.2] at this; cases this
      · rw [List.getElem?_append_right (Nat.le_of_not_lt hl)] at hg
        have := (List.getElem?_eq_some_iff.mp hg).1
        simp only [List.length_singleton] at this
        rw [show i = h.workers.length by omega]
    · dsimp only
      rw [hq]
      simp

theorem inv_processEvent {h : H} {s : Scan} (hi : Inv h s) (now : Nat) (m : Msg) (q : List Msg)
    (hq : h.queue = m :: q) :
    ∃ s', s.after ({ h with queue := q }.processEvent now m).2 = some s' ∧
      Inv ({ h with queue := q }.processEvent now m).1 s' := by
  have hcmd : ∀ c, m = .command c → Inv { h with queue := q } s := by
    rintro c rfl
    refine ⟨?_, hi.only, ?_, hi.handler, hi.alive⟩
    · have := hi.at_
      cases s <;> exact this
    · have := hi.queued
      rw [hq, List.count_cons_of_ne (by simp)] at this
      exact this
  cases m with
  | command c =>
    have h' := hcmd c rfl
    cases c with
    | resetServiceTable =>
      refine ⟨s, ?_, h'⟩
      cases s <;> rfl
    | scanNetwork => exact inv_scanNetwork h'
    | periodicNetworkScan =>
      simp only [H.processEvent, H.processCommand]
      split
      · exact inv_scanNetwork h'
      · exact ⟨s, rfl, h'⟩
  | scanCompleted =>
    have hc := hi.queued
    rw [hq, List.count_cons_self] at hc
    cases hsc : h.scanner with
    | none => rw [hsc] at hc; simp at hc
    | some i =>
      rw [hsc] at hc
      dsimp only at hc
      have hsig : h.workers[i]? = some .signalled := by
        apply Decidable.byContradiction
        intro hn
        rw [if_neg hn] at hc
        omega
      rw [if_pos hsig] at hc
      have hs : s = .over i := by
        have := hi.at_
        cases s with
        | none => rw [this.1] at hsc; cases hsc
        | started j =>
          obtain ⟨h1, -, h3⟩ := this
          rw [hsc] at h1; cases h1
          rcases h3 with h3 | h3 <;> rw [hsig] at h3 <;> cases h3
        | running j =>
          obtain ⟨h1, -, h3⟩ := this
          rw [hsc] at h1; cases h1
          rcases h3 with h3 | ⟨n, h3⟩ | h3 | h3 <;> rw [hsig] at h3 <;> cases h3
        | published j n =>
          obtain ⟨h1, -, h3⟩ := this
          rw [hsc] at h1; cases h1
          rcases h3 with h3 | h3 <;> rw [hsig] at h3 <;> cases h3
        | stored j =>
          obtain ⟨h1, -, h3⟩ := this
          rw [hsc] at h1; cases h1
          rcases h3 with h3 | h3 <;> rw [hsig] at h3 <;> cases h3
        | over j =>
          have h1 := this.1
          rw [hsc] at h1; cases h1; rfl
      subst hs
      refine ⟨.none, rfl, ⟨rfl, hi.at_.2.1⟩, ?_, ?_, hi.handler, hi.alive⟩
      · intro j p hj hp
        exfalso
        have := hi.only j p hj hp
        rw [hsc] at this; cases this
        exact hp (Option.some.inj (hsig.symm.trans hj)).symm
      · show q.count .scanCompleted = 0
        omega

theorem inv_work {h : H} {s : Scan} (hi : Inv h s) (i : Nat) (result : Option Nat) :
    ∃ s', s.after (h.work i result).2 = some s' ∧ Inv (h.work i result).1 s' := by
  -- the phase of the scanner thread determines what was observed
  have hnot : ∀ p, h.workers[i]? = some p → p ≠ .signalled → h.scanner = some i := hi.only i
  have hq0 : ∀ p, h.workers[i]? = some p → p ≠ .signalled → h.queue.count .scanCompleted = 0 := by
    intro p hg hp
    have := hi.queued
    rw [hnot p hg hp] at this
    dsimp only at this
    rw [if_neg (by rw [hg]; simpa using hp)] at this
    exact this
  have hqq : ∀ p p', h.workers[i]? = some p → p ≠ .signalled → p' ≠ .signalled →
      h.queue.count .scanCompleted =
        match h.scanner with
        | some j => if (h.workers.set i p')[j]? = some .signalled then 1 else 0
        | none => 0 := by
    intro p p' hg hp hp'
    rw [hq0 p hg hp, hnot p hg hp]
    dsimp only
    rw [set_self hg, if_neg (by simpa using hp')]
  have hst : ∀ p, h.workers[i]? = some p → p ≠ .signalled → p ≠ .dead →
      s = (match p with
        | .spawned => Scan.started i
        | .scanning => .running i
        | .found _ => .running i
        | .updated n => .published i n
        | .stored => s
        | .cleared => .over i
        | _ => s) ∧ (p = .stored → s = .running i ∨ s = .stored i) := by
    intro p hg hp hd
    have hs := hnot p hg hp
    have ha := hi.at_
    cases s with
    | none => rw [ha.1] at hs; cases hs
    | started j =>
      obtain ⟨h1, -, h3⟩ := ha
      rw [hs] at h1; cases h1
      rcases h3 with h3 | h3 <;> rw [hg] at h3 <;> cases h3
      · exact ⟨rfl, nofun⟩
      · exact absurd rfl hd
    | running j =>
      obtain ⟨h1, -, h3⟩ := ha
      rw [hs] at h1; cases h1
      rcases h3 with h3 | ⟨n, h3⟩ | h3 | h3 <;> rw [hg] at h3 <;> cases h3
      · exact ⟨rfl, nofun⟩
      · exact ⟨rfl, nofun⟩
      · exact ⟨rfl, fun _ => .inl rfl⟩
      · exact absurd rfl hd
    | published j n =>
      obtain ⟨h1, -, h3⟩ := ha
      rw [hs] at h1; cases h1
      rcases h3 with h3 | h3 <;> rw [hg] at h3 <;> cases h3
      · exact ⟨rfl, nofun⟩
      · exact absurd rfl hd
    | stored j =>
      obtain ⟨h1, -, h3⟩ := ha
      rw [hs] at h1; cases h1
      rcases h3 with h3 | h3 <;> rw [hg] at h3 <;> cases h3
      · exact ⟨rfl, fun _ => .inr rfl⟩
      · exact absurd rfl hd
    | over j =>
      obtain ⟨h1, -, h3⟩ := ha
      rw [hs] at h1; cases h1
      rcases h3 with h3 | h3 | h3 <;> rw [hg] at h3 <;> cases h3
      · exact ⟨rfl, nofun⟩
      · exact absurd rfl hp
      · exact absurd rfl hd
  unfold H.work
  split
  · rename_i hg
    have hs := (hst _ hg nofun nofun).1
    dsimp only at hs
    subst hs
    have hsc := hnot _ hg nofun
    exact ⟨.running i, rfl, ⟨hsc, rfl, .inl (set_self hg _)⟩, only_set hi.only hsc _,
      hqq _ _ hg nofun nofun, hi.handler, hi.alive⟩
  · rename_i hg
    have hs := (hst _ hg nofun nofun).1
    dsimp only at hs
    subst hs
    have hsc := hnot _ hg nofun
    cases result with
    | some n =>
      exact ⟨.running i, rfl, ⟨hsc, hi.at_.2.1, .inr (.inl ⟨n, set_self hg _⟩)⟩, only_set hi.only hsc _,
        hqq _ _ hg nofun nofun, hi.handler, hi.alive⟩
    | none =>
      exact ⟨.running i, rfl, ⟨hsc, hi.at_.2.1, .inr (.inr (.inl (set_self hg _)))⟩,
        only_set hi.only hsc _, hqq _ _ hg nofun nofun, hi.handler, hi.alive⟩
  · rename_i n hg
    have hs := (hst _ hg nofun nofun).1
    dsimp only at hs
    subst hs
    have hsc := hnot _ hg nofun
    exact ⟨.published i n, by simp [Scan.after, Scan.next], ⟨hsc, hi.at_.2.1, .inl (set_self hg _)⟩,
      only_set hi.only hsc _, hqq _ _ hg nofun nofun, hi.handler, hi.alive⟩
  · rename_i n hg
    have hs := (hst _ hg nofun nofun).1
    dsimp only at hs
    subst hs
    have hsc := hnot _ hg nofun
    exact ⟨.stored i, by simp [Scan.after, Scan.next], ⟨hsc, hi.at_.2.1, .inl (set_self hg _)⟩,
      only_set hi.only hsc _, hqq _ _ hg nofun nofun, hi.handler, hi.alive⟩
  · rename_i hg
    have hsc := hnot _ hg nofun
    rcases (hst _ hg nofun nofun).2 rfl with rfl | rfl
    · exact ⟨.over i, rfl, ⟨hsc, rfl, .inl (set_self hg _)⟩, only_set hi.only hsc _,
        hqq _ _ hg nofun nofun, hi.handler, hi.alive⟩
    · exact ⟨.over i, rfl, ⟨hsc, rfl, .inl (set_self hg _)⟩, only_set hi.only hsc _,
        hqq _ _ hg nofun nofun, hi.handler, hi.alive⟩
  · rename_i hg
    have hs := (hst _ hg nofun nofun).1
    dsimp only at hs
    subst hs
    have hsc := hnot _ hg nofun
    refine ⟨.over i, rfl, ⟨hsc, hi.at_.2.1, .inr (.inl (set_self hg _))⟩, only_set hi.only hsc _, ?_,
      ?_, hi.alive⟩
    · dsimp only
      rw [hsc]
      dsimp only
      rw [set_self hg, if_pos rfl, List.count_append, hq0 _ hg nofun]
      rfl
    · exact List.mem_filter.mpr ⟨hi.handler, by simp⟩
  · exact ⟨s, rfl, hi⟩

theorem inv_crash {h : H} {s : Scan} (hi : Inv h s) (i : Nat) :
    ∃ s', s.after (h.crash i).2 = some s' ∧ Inv (h.crash i).1 s' := by
  unfold H.crash
  split
  · exact ⟨s, rfl, hi⟩
  · exact ⟨s, rfl, hi⟩
  · rename_i p hp hg
    have hp : p ≠ .signalled := fun hc => hp hc
    have hsc := hi.only i p hg hp
    have hself := set_self hg .dead
    refine ⟨s, rfl, ?_, only_set hi.only hsc _, ?_, List.mem_filter.mpr ⟨hi.handler, by simp⟩, hi.alive⟩
    · have ha := hi.at_
      cases s with
      | none => rw [ha.1] at hsc; cases hsc
      | started j =>
        have h1 := ha.1; rw [hsc] at h1; cases h1
        exact ⟨hsc, ha.2.1, .inr hself⟩
      | running j =>
        have h1 := ha.1; rw [hsc] at h1; cases h1
        exact ⟨hsc, ha.2.1, .inr (.inr (.inr hself))⟩
      | published j n =>
        have h1 := ha.1; rw [hsc] at h1; cases h1
        exact ⟨hsc, ha.2.1, .inr hself⟩
      | stored j =>
        have h1 := ha.1; rw [hsc] at h1; cases h1
        exact ⟨hsc, ha.2.1, .inr hself⟩
      | over j =>
        have h1 := ha.1; rw [hsc] at h1; cases h1
        exact ⟨hsc, ha.2.1, .inr (.inr hself)⟩
    · have := hi.queued
      rw [hsc] at this
      dsimp only at this ⊢
      rw [hsc]
      dsimp only
      rw [if_neg (by rw [hg]; simpa using hp)] at this
      rw [hself, if_neg nofun]
      exact this

theorem inv_step {h : H} {s : Scan} (hi : Inv h s) (op : HOp) :
    ∃ s', s.after (h.step op).2 = some s' ∧ Inv (h.step op).1 s' := by
  cases op with
  | send o c =>
    simp only [H.step]
    split
    · rw [if_pos hi.alive]
      refine ⟨s, rfl, ?_, hi.only, ?_, hi.handler, hi.alive⟩
      · have := hi.at_
        cases s <;> exact this
      · have := hi.queued
        dsimp only
        rw [List.count_append, this]
        simp
    · exact ⟨s, rfl, hi⟩
  | handle now =>
    simp only [H.step]
    rw [if_pos hi.alive]
    split
    · rename_i m q hq
      exact inv_processEvent hi now m q hq
    · rw [if_neg (by intro hc; have := hi.handler; rw [hc] at this; cases this)]
      exact ⟨s, rfl, hi⟩
  | work i result => exact inv_work hi i result
  | crash i => exact inv_crash hi i
  | drop o =>
    simp only [H.step]
    split
    · rename_i ho
      refine ⟨s, rfl, ?_, hi.only, hi.queued, ?_, hi.alive⟩
      · have := hi.at_
        cases s <;> exact this
      · refine List.mem_filter.mpr ⟨hi.handler, ?_⟩
        rcases ho with rfl | rfl | rfl <;> rfl
    · exact ⟨s, rfl, hi⟩

theorem inv_run (ops : List HOp) {h : H} {s : Scan} (hi : Inv h s) :
    ∃ s', s.after (h.run ops).2 = some s' ∧ Inv (h.run ops).1 s' := by
  induction ops generalizing h s with
  | nil => exact ⟨s, rfl, hi⟩
  | cons op ops ih =>
    obtain ⟨s1, h1, h2⟩ := inv_step hi op
    obtain ⟨s2, h3, h4⟩ := ih h2
    refine ⟨s2, ?_, h4⟩
    simp only [H.run, after_append, h1, Option.bind_some, h3]

theorem hist_inv (d : Bool) (ops : List HOp) :
    ∃ s, Scan.after .none (hist d ops).2 = some s ∧ Inv (hist d ops).1 s :=
  inv_run ops (Inv.new d)

/-! ### C49 -/

/-- C49: at most one scanner thread is at work. -/
theorem C49_at_most_one_scan (d : Bool) (ops : List HOp) (i j : Nat)
    (hi : Running (hist d ops).1 i) (hj : Running (hist d ops).1 j) : i = j := by
  obtain ⟨s, -, h⟩ := hist_inv d ops
  obtain ⟨p, h1, h2, -⟩ := hi
  obtain ⟨q, h3, h4, -⟩ := hj
  have e1 := h.only i p h1 h2
  have e2 := h.only j q h3 h4
  rw [e1] at e2
  exact Option.some.inj e2

/-- A scan is under way: started and its completion not handled. -/
def busy (d : Bool) (ops : List HOp) : Prop := Scan.after .none (hist d ops).2 ≠ some .none

theorem busy_iff (d : Bool) (ops : List HOp) : busy d ops ↔ (hist d ops).1.scanner ≠ none := by
  obtain ⟨s, h1, h2⟩ := hist_inv d ops
  unfold busy
  rw [h1]
  constructor
  · intro hn hc
    exact hn (by rw [h2.at_.scanner hc])
  · intro hn hc
    cases hc
    exact hn h2.at_.1

theorem discovery_run (ops : List HOp) (h : H) : (h.run ops).1.discovery = h.discovery := by
  have hstep : ∀ (h : H) (op : HOp), (h.step op).1.discovery = h.discovery := by
    intro h op
    have hscan : ∀ h : H, h.scanNetwork.1.discovery = h.discovery := by
      intro h; unfold H.scanNetwork; split <;> rfl
    cases op with
    | send o c => simp only [H.step]; split <;> (try split) <;> rfl
    | handle now =>
      simp only [H.step]
      split
      · split
        · rename_i m q hq
          cases m with
          | command c =>
            cases c with
            | resetServiceTable => rfl
            | scanNetwork => exact hscan _
            | periodicNetworkScan =>
              simp only [H.processEvent, H.processCommand]
              split
              · exact hscan _
              · rfl
          | scanCompleted => rfl
        · split <;> rfl
      · rfl
    | work i r =>
      simp only [H.step, H.work]
      split
      · rfl
      · cases r <;> rfl
      all_goals rfl
    | crash i => simp only [H.step, H.crash]; split <;> rfl
    | drop o => simp only [H.step]; split <;> rfl
  induction ops generalizing h with
  | nil => rfl
  | cons op ops ih => exact (ih _).trans (hstep h op)

theorem lastScan_run (ops : List HOp) (h : H) :
    (h.run ops).1.lastScan = ((lastCompleted (h.run ops).2).orElse fun _ => h.lastScan) := by
  have happ : ∀ x y, lastCompleted (x ++ y) = ((lastCompleted y).orElse fun _ => lastCompleted x) := by
    intro x y
    simp only [lastCompleted, List.filterMap_append, List.getLast?_append]
    cases (List.filterMap _ y).getLast? <;> rfl
  have hscan : ∀ h : H, h.scanNetwork.1.lastScan = h.lastScan ∧ lastCompleted h.scanNetwork.2 = none := by
    intro h; unfold H.scanNetwork; split <;> exact ⟨rfl, rfl⟩
  have hstep : ∀ (h : H) (op : HOp),
      (h.step op).1.lastScan = ((lastCompleted (h.step op).2).orElse fun _ => h.lastScan) := by
    intro h op
    cases op with
    | send o c => simp only [H.step]; split <;> (try split) <;> rfl
    | handle now =>
      simp only [H.step]
      split
      · split
        · rename_i m q hq
          cases m with
          | command c =>
            cases c with
            | resetServiceTable => rfl
            | scanNetwork =>
              have := hscan { h with queue := q }
              simp only [H.processEvent, H.processCommand, this.1, this.2]
              rfl
            | periodicNetworkScan =>
              simp only [H.processEvent, H.processCommand]
              split
              · have := hscan { h with queue := q }
                rw [this.1, this.2]
                rfl
              · rfl
          | scanCompleted => rfl
        · split <;> rfl
      · rfl
    | work i r =>
      simp only [H.step, H.work]
      split
      · rfl
      · cases r <;> rfl
      all_goals rfl
    | crash i => simp only [H.step, H.crash]; split <;> rfl
    | drop o => simp only [H.step]; split <;> rfl
  induction ops generalizing h with
  | nil => rfl
  | cons op ops ih =>
    simp only [H.run]
    rw [ih, happ, hstep h op]
    cases lastCompleted ((h.step op).1.run ops).2 <;> rfl

/-- C49: what handling a command starts. A request starts a scan iff discovery is enabled and no scan is under
way; a periodic trigger also needs that no scan was completed in the last 300 seconds. -/
theorem C49_when_scans_start (d : Bool) (ops : List HOp) (now : Nat) (m : Msg) (q : List Msg)
    (hq : (hist d ops).1.queue = m :: q) :
    starts ((hist d ops).1.step (.handle now)).2 ≠ [] ↔
      d = true ∧ ¬ busy d ops ∧
      (m = .command .scanNetwork ∨ (m = .command .periodicNetworkScan ∧
        ∀ t, lastCompleted (hist d ops).2 = some t → t + 300 * sec ≤ now)) := by
  have hb := busy_iff d ops
  have hd : (hist d ops).1.discovery = d := discovery_run ops (H.new d)
  have hl : (hist d ops).1.lastScan = lastCompleted (hist d ops).2 := by
    have h0 : (hist d ops).1.lastScan =
        ((lastCompleted (hist d ops).2).orElse fun _ => (H.new d).lastScan) := lastScan_run ops (H.new d)
    rw [h0]
    cases lastCompleted (hist d ops).2 <;> rfl
  obtain ⟨s, -, hinv⟩ := hist_inv d ops
  have hal := hinv.alive
  clear hinv
  rw [hb]
  generalize (hist d ops).1 = h at *
  generalize lastCompleted (hist d ops).2 = lc at *
  subst hd
  have hscan : ∀ h : H, starts h.scanNetwork.2 ≠ [] ↔ h.discovery = true ∧ ¬ (h.scanner ≠ none) := by
    intro h
    unfold H.scanNetwork
    cases hd : h.discovery <;> cases hs : h.scanner <;> simp [starts]
  simp only [H.step]
  rw [if_pos hal, hq]
  cases m with
  | command c =>
    cases c with
    | resetServiceTable => simp [H.processEvent, H.processCommand, starts]
    | scanNetwork =>
      simp only [H.processEvent, H.processCommand]
      rw [hscan]
      simp
    | periodicNetworkScan =>
      simp only [H.processEvent, H.processCommand]
      have hiff : ((match h.lastScan with
          | some t => now - t
          | none => scanPeriod) ≥ scanPeriod) ↔ ∀ t, lc = some t → t + 300 * sec ≤ now := by
        rw [hl]
        cases lc with
        | none => simp
        | some t =>
          simp only [Option.some.injEq, forall_eq', scanPeriod]
          have : 0 < sec := by decide
          omega
      split
      · rename_i hx
        have hc := hiff.mp hx
        rw [hscan]
        exact ⟨fun ⟨h1, h2⟩ => ⟨h1, h2, .inr ⟨trivial, hc⟩⟩, fun ⟨h1, h2, _⟩ => ⟨h1, h2⟩⟩
      · rename_i hx
        refine ⟨fun hn => absurd rfl hn, fun ⟨_, _, h3⟩ => ?_⟩
        rcases h3 with h3 | h3
        · cases h3
        · exact absurd (hiff.mpr h3.2) hx
  | scanCompleted => simp [H.processEvent, H.scanCompleted, starts]

/-- One scan, found 3 services; a second request while it runs and a periodic trigger too early are ignored. -/
def demoOps : List HOp :=
  [.send .periodic .periodicNetworkScan, .handle 0, .work 0 none, .send .client .scanNetwork, .handle 1,
   .work 0 (some 3), .work 0 none, .work 0 none, .work 0 none, .work 0 none, .handle 7,
   .send .periodic .periodicNetworkScan, .handle 8]

example : (hist true demoOps).2 =
    [.started 0, .scanning true, .published 0 3, .stored 0 3, .scanning false, .completed 7] := by
  decide +kernel

/-! ### C50 -/

/-- C50: in every history, with scanner threads panicking at any point or not, what is observed is a sequence
of scans one after the other, each with its steps in the right order; and the scanning flag is on exactly
from its start to its end. -/
theorem C50_scan_life (d : Bool) (ops : List HOp) :
    ∃ s, Scan.after .none (hist d ops).2 = some s ∧ (hist d ops).1.flag = s.on := by
  obtain ⟨s, h1, h2⟩ := hist_inv d ops
  refine ⟨s, h1, ?_⟩
  have := h2.at_
  cases s with
  | none => exact this.2
  | _ => exact this.2.1

/-- C50: if a scanner thread panics before it signalled its end, no scan is ever started again, and the flag stays as it
was. -/
theorem C50_dead_worker_blocks (d : Bool) (ops more : List HOp) (i : Nat)
    (hdead : (hist d ops).1.workers[i]? = some .dead) :
    starts (hist d (ops ++ more)).2 = starts (hist d ops).2 ∧
    (hist d (ops ++ more)).1.flag = (hist d ops).1.flag := by
  have hsc : ∀ h s, Inv h s → h.workers[i]? = some .dead → h.scanner = some i :=
    fun h s hi hd => hi.only i _ hd nofun
  -- one step keeps the dead thread
  have hstep : ∀ (h : H) (s : Scan) (op : HOp), Inv h s → h.workers[i]? = some .dead →
      (h.step op).1.workers[i]? = some .dead ∧ (h.step op).1.flag = h.flag ∧ starts (h.step op).2 = [] := by
    intro h s op hi hd
    have hs := hsc h s hi hd
    have honly : ∀ j p, h.workers[j]? = some p → p ≠ .signalled → j = i := by
      intro j p hj hp
      have := hi.only j p hj hp
      rw [hs] at this
      exact (Option.some.inj this).symm
    cases op with
    | send o c =>
      simp only [H.step]
      split
      · split <;> exact ⟨hd, rfl, rfl⟩
      · exact ⟨hd, rfl, rfl⟩
    | handle now =>
      simp only [H.step]
      split
      · split
        · rename_i m q hq
          have hscan : ({ h with queue := q } : H).scanNetwork = ({ h with queue := q }, []) := by
            unfold H.scanNetwork
            rw [if_pos (by simp [hs])]
          cases m with
          | command c =>
            cases c with
            | resetServiceTable => exact ⟨hd, rfl, rfl⟩
            | scanNetwork =>
              simp only [H.processEvent, H.processCommand, hscan]
              exact ⟨hd, trivial, rfl⟩
            | periodicNetworkScan =>
              simp only [H.processEvent, H.processCommand, hscan, ite_self]
              exact ⟨hd, trivial, rfl⟩
          | scanCompleted => exact ⟨hd, rfl, rfl⟩
        · split <;> exact ⟨hd, rfl, rfl⟩
      · exact ⟨hd, rfl, rfl⟩
    | work j r =>
      simp only [H.step, H.work]
      have hj : ∀ p, h.workers[j]? = some p → p ≠ .signalled → p ≠ .dead → False := by
        intro p hg hp hne
        have := honly j p hg hp
        subst this
        rw [hd] at hg
        exact hne (Option.some.inj hg).symm
      split
      · rename_i hg; exact (hj _ hg nofun nofun).elim
      · rename_i hg; exact (hj _ hg nofun nofun).elim
      · rename_i hg; exact (hj _ hg nofun nofun).elim
      · rename_i hg; exact (hj _ hg nofun nofun).elim
      · rename_i hg; exact (hj _ hg nofun nofun).elim
      · rename_i hg; exact (hj _ hg nofun nofun).elim
      · exact ⟨hd, rfl, rfl⟩
    | crash j =>
      simp only [H.step, H.crash]
      split
      · exact ⟨hd, rfl, rfl⟩
      · exact ⟨hd, rfl, rfl⟩
      · rename_i p hp hg
        have := honly j p hg (fun hc => hp hc)
        subst this
        exact ⟨set_self hg _, rfl, rfl⟩
    | drop o => simp only [H.step]; split <;> exact ⟨hd, rfl, rfl⟩
  have hrun : ∀ (more : List HOp) (h : H) (s : Scan), Inv h s → h.workers[i]? = some .dead →
      (h.run more).1.flag = h.flag ∧ starts (h.run more).2 = [] := by
    intro more
    induction more with
    | nil => intro h s _ _; exact ⟨rfl, rfl⟩
    | cons op more ih =>
      intro h s hi hd
      obtain ⟨h1, h2, h3⟩ := hstep h s op hi hd
      obtain ⟨s', -, hi'⟩ := inv_step hi op
      obtain ⟨h4, h5⟩ := ih _ s' hi' h1
      refine ⟨h4.trans h2, ?_⟩
      simp only [H.run]
      simp only [starts, List.filterMap_append] at h3 h5 ⊢
      rw [h3, h5]
      rfl
  obtain ⟨s, -, hi⟩ := hist_inv d ops
  have := hrun more _ s hi hdead
  unfold hist at *
  rw [run_append]
  refine ⟨?_, this.1⟩
  simp only [starts, List.filterMap_append] at this ⊢
  rw [this.2, List.append_nil]

example : (hist true [.send .client .scanNetwork, .handle 0, .work 0 none, .crash 0]).1.workers[0]? =
    some .dead ∧
    (hist true [.send .client .scanNetwork, .handle 0, .work 0 none, .crash 0]).1.flag = true := by
  decide +kernel

/-! ### C83 -/

/-- C83: the handler task never ends, whatever is closed or dropped; so sending a command never panics. -/
theorem C83_handler_never_ends (d : Bool) (ops : List HOp) :
    (hist d ops).1.alive = true ∧ .sendPanic ∉ (hist d ops).2 := by
  obtain ⟨s, h1, h2⟩ := hist_inv d ops
  refine ⟨h2.alive, ?_⟩
  intro hm
  have key : ∀ (es : List HEv) (s s' : Scan), s.after es = some s' → .sendPanic ∉ es := by
    intro es
    induction es with
    | nil => intro _ _ _; exact List.not_mem_nil
    | cons e es ih =>
      intro s s' h hm
      simp only [Scan.after] at h
      cases hn : s.next e with
      | none => rw [hn] at h; cases h
      | some t =>
        rw [hn] at h
        rcases List.mem_cons.mp hm with rfl | hm
        · cases s <;> cases hn
        · exact ih t s' h hm
  exact key _ _ _ h1 hm

/-- The client is closed and every event is handled: the handler goes on waiting. -/
example :
    let h := (hist true [.drop .periodic, .drop .mainTask, .drop .client, .handle 0]).1
    h.queue = [] ∧ h.workers = [] ∧ h.senders = [.handler] ∧ h.alive = true := by decide +kernel

end Verif.Props.CmdHandler
