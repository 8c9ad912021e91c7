import Verif.Spec.Appear
import Verif.Lemmas.CadenceTable
/-!
# Lemmas: every scan is reported, and the next one starts in time
-/
namespace Verif.Appear
open Verif Verif.Cadence Verif.CmdHandler Verif.Spec.Cadence Verif.Spec.Appear
open Verif.Client (sec)

theorem starts_append (a b : List (Nat × HEv)) : starts (a ++ b) = starts a ++ starts b := List.filterMap_append
theorem published_append (a b : List (Nat × HEv)) : published (a ++ b) = published a ++ published b := List.filterMap_append

theorem startTimes_eq (l : List (Nat × HEv)) : startTimes l = (starts l).map (·.1) := by
  induction l with
  | nil => rfl
  | cons e l ih =>
    obtain ⟨t, e⟩ := e
    cases e with
    | started i => exact congrArg (t :: ·) ih
    | _ => exact ih

theorem reports_eq (l : List (Nat × HEv)) : reports l = (published l).map fun p => (p.1, p.2.2) := by
  induction l with
  | nil => rfl
  | cons e l ih =>
    obtain ⟨t, e⟩ := e
    cases e with
    | published i n => exact congrArg ((t, n) :: ·) ih
    | _ => exact ih

theorem starts_nil {l : List (Nat × HEv)} (h : startTimes l = []) : starts l = [] := by
  rw [startTimes_eq] at h
  exact List.map_eq_nil_iff.mp h

theorem published_nil {l : List (Nat × HEv)} (h : reports l = []) : published l = [] := by
  rw [reports_eq] at h
  exact List.map_eq_nil_iff.mp h

/-! ## Scans are numbered -/

theorem starts_map (now : Nat) (l : List HEv) : (starts (stamped now l)).map (·.2) =
    l.filterMap (fun e => match e with | .started i => some i | _ => none) := by
  induction l with
  | nil => rfl
  | cons e l ih =>
    cases e with
    | started i => exact congrArg (i :: ·) ih
    | _ => exact ih

/-- What a step does to the numbers of the scans. -/
def Numbers (h h' : H) (l : List HEv) : Prop :=
  List.range h.workers.length ++ l.filterMap (fun e => match e with | .started i => some i | _ => none) =
    List.range h'.workers.length

theorem Numbers.same {h h' : H} {l : List HEv} (hw : h'.workers.length = h.workers.length)
    (hl : l.filterMap (fun e => match e with | .started i => some i | _ => none) = []) : Numbers h h' l := by
  unfold Numbers
  rw [hl, List.append_nil, hw]

theorem numbers_scan (h : H) : Numbers h h.scanNetwork.1 h.scanNetwork.2 := by
  unfold H.scanNetwork
  split
  · exact .same rfl rfl
  · unfold Numbers
    show List.range h.workers.length ++ [h.workers.length] = List.range (h.workers ++ [Phase.spawned]).length
    rw [List.length_append]
    exact List.range_succ.symm

theorem numbers_process (h : H) (now : Nat) (m : Msg) : Numbers h (h.processEvent now m).1 (h.processEvent now m).2 := by
  cases m with
  | scanCompleted => exact .same rfl rfl
  | command c =>
    cases c with
    | resetServiceTable => exact .same rfl rfl
    | scanNetwork => exact numbers_scan h
    | periodicNetworkScan =>
      rw [periodic_eq]
      split
      · exact numbers_scan h
      · exact .same rfl rfl

theorem numbers_step (h : H) (op : HOp) : Numbers h (h.step op).1 (h.step op).2 := by
  cases op with
  | send o c =>
    simp only [H.step]
    split
    · split
      · exact .same rfl rfl
      · exact .same rfl rfl
    · exact .same rfl rfl
  | handle now =>
    simp only [H.step]
    split
    · split
      · rename_i m q _
        exact numbers_process { h with queue := q } now m
      · split
        · exact .same rfl rfl
        · exact .same rfl rfl
    · exact .same rfl rfl
  | work i r =>
    have hset : ∀ p, (h.workers.set i p).length = h.workers.length := fun p => List.length_set
    simp only [H.step, H.work]
    split
    · exact .same (hset _) rfl
    · split
      · exact .same (hset _) rfl
      · exact .same (hset _) rfl
    · exact .same (hset _) rfl
    · exact .same (hset _) rfl
    · exact .same (hset _) rfl
    · exact .same (hset _) rfl
    · exact .same rfl rfl
  | crash i =>
    simp only [H.step, H.crash]
    split
    · exact .same rfl rfl
    · exact .same rfl rfl
    · exact .same List.length_set rfl
  | drop o =>
    simp only [H.step]
    split
    · exact .same rfl rfl
    · exact .same rfl rfl

theorem numbers_run (ops : List HOp) : ∀ h : H, Numbers h (h.run ops).1 (h.run ops).2 := by
  induction ops with
  | nil => intro h; exact .same rfl rfl
  | cons op ops ih =>
    intro h
    have h1 := numbers_step h op
    have h2 := ih (h.step op).1
    unfold Numbers at h1 h2 ⊢
    simp only [H.run]
    rw [List.filterMap_append, ← List.append_assoc, h1, h2]

theorem ids_step {T : Timing} {s : Sys} {evs : List (Nat × HEv)} (op : Op)
    (h : (starts evs).map (·.2) = List.range s.h.workers.length) :
    (starts (evs ++ (s.step T op).2)).map (·.2) = List.range (s.step T op).1.h.workers.length := by
  have key : ∀ (h' : H) (l : List HEv), Numbers s.h h' l →
      (starts (evs ++ stamped s.now l)).map (·.2) = List.range h'.workers.length := by
    intro h' l hn
    rw [starts_append, List.map_append, h, starts_map]
    exact hn
  have same : (starts (evs ++ [])).map (·.2) = List.range s.h.workers.length := by
    rw [List.append_nil]; exact h
  cases op with
  | wait d =>
    show (starts (evs ++ [])).map _ = List.range (if s.canWait (s.now + d) then { s with now := s.now + d } else s).h.workers.length
    split <;> exact same
  | tick => exact key _ _ (numbers_step s.h (.send .periodic .periodicNetworkScan))
  | ask o c =>
    unfold Sys.step
    dsimp only
    split
    · exact key _ _ (numbers_step s.h (.send o c))
    · exact same
  | poll => exact key _ _ (numbers_run _ s.h)
  | work n =>
    unfold Sys.step
    dsimp only
    split
    · exact key _ _ (numbers_step s.h (.work _ (some n)))
    · exact same

/-! ## The scan that runs -/

/-- When the last scan was started. -/
def lastStart (evs : List (Nat × HEv)) : Nat :=
  match (starts evs).getLast? with
  | none => 0
  | some p => p.1

theorem lastStart_same {a b : List (Nat × HEv)} (h : starts b = []) : lastStart (a ++ b) = lastStart a := by
  unfold lastStart
  rw [starts_append, h, List.append_nil]

theorem lastStart_new {a b : List (Nat × HEv)} {p : Nat × Nat} (h : starts b = [p]) : lastStart (a ++ b) = p.1 := by
  unfold lastStart
  rw [starts_append, h, List.getLast?_concat]

/-- The numbers of the scans that were reported. -/
def done (evs : List (Nat × HEv)) : List Nat := (published evs).map (·.2.1)

theorem done_same {a b : List (Nat × HEv)} (h : published b = []) : done (a ++ b) = done a := by
  unfold done
  rw [published_append, h, List.append_nil]

/-- Where a scan is. -/
inductive Mp (T : Timing) (s : Sys) (evs : List (Nat × HEv)) : Prop
  | idle : s.h.scanner = none → done evs = List.range s.h.workers.length →
      dueOf s.h ≤ lastStart evs + T.scan + T.lag + 300 * sec → Mp T s evs
  | early (i : Nat) (f : Phase) (q : Nat) : s.h.scanner = some i → s.h.workers[i]? = some f →
      (f = .spawned ∨ f = .scanning ∨ ∃ n, f = .found n) → s.scanDue = some q → q ≤ lastStart evs + T.scan →
      i + 1 = s.h.workers.length → done evs = List.range i → Mp T s evs
  | late (i : Nat) (f : Phase) (q : Nat) : s.h.scanner = some i → s.h.workers[i]? = some f →
      ((∃ n, f = .updated n) ∨ f = .stored ∨ f = .cleared) → s.scanDue = some q → q ≤ lastStart evs + T.scan →
      i + 1 = s.h.workers.length → done evs = List.range s.h.workers.length → Mp T s evs
  | over (i d : Nat) : s.h.scanner = some i → s.h.workers[i]? = some .signalled → s.pollDue = some d →
      d ≤ lastStart evs + T.scan + T.lag → done evs = List.range s.h.workers.length → Mp T s evs

structure M (T : Timing) (s : Sys) (evs : List (Nat × HEv)) : Prop where
  ids : (starts evs).map (·.2) = List.range s.h.workers.length
  past : ∀ p ∈ starts evs, p.1 ≤ s.now
  times : ∀ u i n t, (u, i, n) ∈ published evs → (t, i) ∈ starts evs → t ≤ u ∧ u ≤ t + T.scan
  ph : Mp T s evs

theorem M.new (T : Timing) : M T (Sys.new T true) [] where
  ids := rfl
  past := nofun
  times := nofun
  ph := .idle rfl rfl (by show 0 ≤ _; omega)

/-- The last scan started is the one with the greatest number. -/
theorem last_start {evs : List (Nat × HEv)} {i t : Nat} (h : (starts evs).map (·.2) = List.range (i + 1))
    (ht : (t, i) ∈ starts evs) : t = lastStart evs := by
  unfold lastStart
  rw [List.range_succ] at h
  obtain ⟨l, p, hl⟩ : ∃ l p, starts evs = l ++ [p] := by
    rcases List.eq_nil_or_concat (starts evs) with e | ⟨l, p, e⟩
    · rw [e] at ht; cases ht
    · exact ⟨l, p, by rw [e, List.concat_eq_append]⟩
  rw [hl] at h ht
  rw [hl, List.getLast?_concat]
  rw [List.map_append] at h
  have h1 := List.append_inj_left' h rfl
  rcases List.mem_append.mp ht with ht | ht
  · have : i ∈ l.map (·.2) := List.mem_map.mpr ⟨_, ht, rfl⟩
    rw [h1] at this
    exact absurd (List.mem_range.mp this) (by omega)
  · rw [List.mem_singleton] at ht
    rw [← ht]

/-- A step without events of scans that leaves the scan where it is. -/
theorem M.quiet {T : Timing} {s s' : Sys} {evs l : List (Nat × HEv)} (m : M T s evs) (hn : s.now ≤ s'.now)
    (hi : (starts (evs ++ l)).map (·.2) = List.range s'.h.workers.length)
    (hs : startTimes l = []) (hr : reports l = []) (hp : Mp T s' evs) : M T s' (evs ++ l) := by
  have h1 := starts_nil hs
  have h2 := published_nil hr
  refine ⟨hi, ?_, ?_, ?_⟩
  · intro p hp
    rw [starts_append, h1, List.append_nil] at hp
    exact Nat.le_trans (m.past p hp) hn
  · intro u i n t hu ht
    rw [published_append, h2, List.append_nil] at hu
    rw [starts_append, h1, List.append_nil] at ht
    exact m.times u i n t hu ht
  · cases hp with
    | idle a b c => exact .idle a (by rw [done_same h2]; exact b) (by rw [lastStart_same h1]; exact c)
    | early i f q a b c d e g k =>
      exact .early i f q a b c d (by rw [lastStart_same h1]; exact e) g (by rw [done_same h2]; exact k)
    | late i f q a b c d e g k =>
      exact .late i f q a b c d (by rw [lastStart_same h1]; exact e) g (by rw [done_same h2]; exact k)
    | over i d a b c e g =>
      exact .over i d a b c (by rw [lastStart_same h1]; exact e) (by rw [done_same h2]; exact g)

theorem no_message {T : Timing} {s : Sys} {evs : List (Nat × HEv)} (j : J T s evs)
    (h : s.h.scanner = none ∨ ∃ i f, s.h.scanner = some i ∧ s.h.workers[i]? = some f ∧ f ≠ .signalled) :
    Msg.scanCompleted ∉ s.h.queue := by
  rcases j.ph with ⟨h1, h2, h3, h4⟩ | ⟨i, f, q, h1, h2, h3, h4, h5, h6, h7⟩ | ⟨i, f, q, h1, h2, h3, h4, h5, h6, h7⟩ |
    ⟨i, d, h1, h2, h3, h4, h5, h6⟩
  · exact h2
  · exact h4
  · exact h4
  · rcases h with h | ⟨i', f, k1, k2, k3⟩
    · rw [h1] at h; cases h
    · rw [h1] at k1
      cases k1
      rw [h2] at k2
      cases k2
      exact absurd rfl k3

theorem one_message {T : Timing} {s : Sys} {evs : List (Nat × HEv)} (j : J T s evs) {i : Nat} (hs : s.h.scanner = some i)
    (hw : s.h.workers[i]? = some .signalled) : s.h.queue.count .scanCompleted = 1 := by
  rcases j.ph with ⟨h1, h2, h3, h4⟩ | ⟨i', f, q, h1, h2, h3, h4, h5, h6, h7⟩ | ⟨i', f, q, h1, h2, h3, h4, h5, h6, h7⟩ |
    ⟨i', d, h1, h2, h3, h4, h5, h6⟩
  · rw [hs] at h1; cases h1
  · rw [hs] at h1
    cases h1
    rw [hw] at h2
    cases h2
    rcases h3 with h | h | ⟨n, h⟩ <;> cases h
  · rw [hs] at h1
    cases h1
    rw [hw] at h2
    cases h2
    rcases h3 with ⟨n, h⟩ | h | h <;> cases h
  · exact h3

theorem settle_scanDue {T : Timing} {s : Sys} {h : H} {q : Nat} (hq : s.scanDue = some q) (hw : working h = true) :
    (s.settle T h).scanDue = some q := by
  unfold Sys.settle
  dsimp only
  rw [if_pos hw, hq]
  rfl

theorem settle_pollDue {T : Timing} {s : Sys} {h : H} {d : Nat} (hd : s.pollDue = some d) (hq : h.queue ≠ []) :
    (s.settle T h).pollDue = some d := by
  unfold Sys.settle
  dsimp only
  rw [if_neg hq, hd]
  rfl

theorem working_of {h : H} {i : Nat} {f : Phase} (hs : h.scanner = some i) (hw : h.workers[i]? = some f)
    (hf : f ≠ .signalled) (hf' : f ≠ .dead) : working h = true := by
  unfold working
  rw [hs]
  dsimp only
  rw [hw]
  cases f with
  | signalled => exact absurd rfl hf
  | dead => exact absurd rfl hf'
  | _ => rfl

/-- A new scan was started in a poll. -/
theorem M.launch {T : Timing} {s : Sys} {evs l : List (Nat × HEv)} (m : M T s evs) (h : H) (hn : s.scanDue = none)
    (hd : done evs = List.range s.h.workers.length) (hh : h.workers = s.h.workers)
    (hs : startTimes l = [s.now]) (hr : reports l = [])
    (hi : (starts (evs ++ l)).map (·.2) = List.range (s.settle T { launched h with queue := [] }).h.workers.length) :
    M T (s.settle T { launched h with queue := [] }) (evs ++ l) := by
  have hlen : (s.settle T { launched h with queue := [] }).h.workers.length = s.h.workers.length + 1 := by
    show (h.workers ++ [Phase.spawned]).length = _
    rw [List.length_append, hh]
    rfl
  have hl : starts l = [(s.now, s.h.workers.length)] := by
    rw [startTimes_eq] at hs
    have : ∃ k, starts l = [(s.now, k)] := by
      match hx : starts l, hs with
      | [(a, k)], hs =>
        have : [a] = [s.now] := hs
        cases this
        exact ⟨k, rfl⟩
    obtain ⟨k, hk⟩ := this
    rw [starts_append, List.map_append, m.ids, hk, hlen, List.range_succ] at hi
    have := List.append_cancel_left hi
    cases this
    exact hk
  have hp := published_nil hr
  have hset : (s.settle T { launched h with queue := [] }).scanDue = some (s.now + T.scan) := by
    unfold Sys.settle
    have hwl : working { launched h with queue := [] } = true := working_launched h
    dsimp only
    rw [hwl, hn, if_pos rfl]
    rfl
  refine ⟨hi, ?_, ?_, ?_⟩
  · intro p hp
    rw [starts_append, hl, List.mem_append, List.mem_singleton] at hp
    show p.1 ≤ s.now
    rcases hp with hp | rfl
    · exact m.past p hp
    · exact Nat.le_refl _
  · intro u i n t hu ht
    rw [published_append, hp, List.append_nil] at hu
    rw [starts_append, hl, List.mem_append, List.mem_singleton] at ht
    rcases ht with ht | ht
    · exact m.times u i n t hu ht
    · cases ht
      have : s.h.workers.length ∈ done evs := List.mem_map.mpr ⟨_, hu, rfl⟩
      rw [hd] at this
      exact absurd (List.mem_range.mp this) (by omega)
  · refine .early s.h.workers.length .spawned (s.now + T.scan) ?_ ?_ (.inl rfl) hset ?_ hlen.symm ?_
    · show some h.workers.length = _
      rw [hh]
    · rw [← hh]; exact getElem_launched h
    · rw [lastStart_new hl]; exact Nat.le_refl _
    · rw [done_same hp]; exact hd

theorem M.poll {T : Timing} {s : Sys} {evs : List (Nat × HEv)} (m : M T s evs) (j : J T s evs)
    (hi : (starts (evs ++ stamped s.now (drain s.now s.h).2)).map (·.2) =
      List.range (s.settle T (drain s.now s.h).1).h.workers.length) :
    M T (s.settle T (drain s.now s.h).1) (evs ++ stamped s.now (drain s.now s.h).2) := by
  rcases m.ph with ⟨a, b, c⟩ | ⟨i, f, q, a, b, c, d, e, g, k⟩ | ⟨i, f, q, a, b, c, d, e, g, k⟩ | ⟨i, d, a, b, c, e, g⟩
  · have hs : s.scanDue = none := j.work.mp (working_idle a)
    rcases drain_idle s.now s.h.queue s.h rfl j.alive j.disc a (no_message j (.inl a)) with ⟨hd, hdull, _⟩ | ⟨hd, hst⟩
    · rw [hd] at hi ⊢
      exact m.quiet (Nat.le_refl _) hi hdull.1 hdull.2.2 (.idle a b c)
    · rw [hd] at hi ⊢
      exact m.launch s.h hs b rfl hst.1 hst.2.2 hi
  · have hne : f ≠ .signalled ∧ f ≠ .dead := by
      rcases c with rfl | rfl | ⟨n, rfl⟩ <;> exact ⟨nofun, nofun⟩
    obtain ⟨hd, hdull⟩ := drain_busy s.now s.h.queue s.h i rfl j.alive a (no_message j (.inr ⟨i, f, a, b, hne.1⟩))
    rw [hd] at hi ⊢
    exact m.quiet (Nat.le_refl _) hi hdull.1 hdull.2.2
      (.early i f q a b c (settle_scanDue d (working_of (h := { s.h with queue := [] }) a b hne.1 hne.2)) e g k)
  · have hne : f ≠ .signalled ∧ f ≠ .dead := by
      rcases c with ⟨n, rfl⟩ | rfl | rfl <;> exact ⟨nofun, nofun⟩
    obtain ⟨hd, hdull⟩ := drain_busy s.now s.h.queue s.h i rfl j.alive a (no_message j (.inr ⟨i, f, a, b, hne.1⟩))
    rw [hd] at hi ⊢
    exact m.quiet (Nat.le_refl _) hi hdull.1 hdull.2.2
      (.late i f q a b c (settle_scanDue d (working_of (h := { s.h with queue := [] }) a b hne.1 hne.2)) e g k)
  · have hw : working s.h = false := by
      unfold working
      rw [a]
      dsimp only
      rw [b]
    have hs : s.scanDue = none := j.work.mp hw
    have hnow := (j.poll d c).1
    obtain ⟨hd, hdone, hrep⟩ := drain_over s.now s.h.queue s.h i rfl j.alive j.disc a (one_message j a b)
    rcases hd with ⟨hd, hst⟩ | ⟨hd, hst⟩
    · rw [hd] at hi ⊢
      refine m.quiet (Nat.le_refl _) hi hst hrep (.idle rfl g ?_)
      show s.now + 300 * sec ≤ _
      omega
    · rw [hd] at hi ⊢
      exact m.launch (ended s.now s.h) hs g rfl hst hrep hi

theorem M.sent {T : Timing} {s : Sys} {evs : List (Nat × HEv)} (m : M T s evs) (c : Cmd) (td : Nat) :
    M T { s.settle T { s.h with queue := s.h.queue ++ [.command c] } with tickDue := td } evs := by
  have hq : s.h.queue ++ [Msg.command c] ≠ [] := by simp
  have := M.quiet (l := []) (s' := { s.settle T { s.h with queue := s.h.queue ++ [.command c] } with tickDue := td }) m
    (Nat.le_refl _) (by rw [List.append_nil]; exact m.ids) rfl rfl ?_
  · rw [List.append_nil] at this
    exact this
  · rcases m.ph with ⟨a, b, c'⟩ | ⟨i, f, q, a, b, c', d, e, g, k⟩ | ⟨i, f, q, a, b, c', d, e, g, k⟩ | ⟨i, d, a, b, c', e, g⟩
    · exact .idle a b c'
    · have hne : f ≠ .signalled ∧ f ≠ .dead := by
        rcases c' with rfl | rfl | ⟨n, rfl⟩ <;> exact ⟨nofun, nofun⟩
      exact .early i f q a b c' (settle_scanDue d (working_of (h := { s.h with queue := _ }) a b hne.1 hne.2)) e g k
    · have hne : f ≠ .signalled ∧ f ≠ .dead := by
        rcases c' with ⟨n, rfl⟩ | rfl | rfl <;> exact ⟨nofun, nofun⟩
      exact .late i f q a b c' (settle_scanDue d (working_of (h := { s.h with queue := _ }) a b hne.1 hne.2)) e g k
    · exact .over i d a b (settle_pollDue c' hq) e g

theorem M.work {T : Timing} {s : Sys} {evs : List (Nat × HEv)} (m : M T s evs) (j : J T s evs) (n i : Nat)
    (hsc : s.h.scanner = some i)
    (hi : (starts (evs ++ stamped s.now (s.h.work i (some n)).2)).map (·.2) =
      List.range (s.settle T (s.h.work i (some n)).1).h.workers.length) :
    M T (s.settle T (s.h.work i (some n)).1) (evs ++ stamped s.now (s.h.work i (some n)).2) := by
  have hset : ∀ (f : Phase), s.h.workers[i]? = some f → ∀ p : Phase, (s.h.workers.set i p)[i]? = some p := fun f hf p =>
    List.getElem?_set_self (List.getElem?_eq_some_iff.mp hf).1
  have hlen : ∀ p : Phase, (s.h.workers.set i p).length = s.h.workers.length := fun p => List.length_set
  rcases m.ph with ⟨a, b, c⟩ | ⟨i', f, q, a, b, c, d, e, g, k⟩ | ⟨i', f, q, a, b, c, d, e, g, k⟩ | ⟨i', d, a, b, c, e, g⟩
  · rw [hsc] at a; cases a
  · rw [hsc] at a
    cases a
    unfold H.work at hi ⊢
    rw [b] at hi ⊢
    rcases c with rfl | rfl | ⟨r, rfl⟩
    · dsimp only at hi ⊢
      exact m.quiet (Nat.le_refl _) hi rfl rfl (.early i .scanning q hsc (hset _ b _) (.inr (.inl rfl))
        (settle_scanDue d (working_of (h := { s.h with workers := _, flag := true }) hsc (hset _ b .scanning) nofun nofun)) e
        (by rw [g]; exact (hlen _).symm) k)
    · dsimp only at hi ⊢
      exact m.quiet (Nat.le_refl _) hi rfl rfl (.early i (.found n) q hsc (hset _ b _) (.inr (.inr ⟨n, rfl⟩))
        (settle_scanDue d (working_of (h := { s.h with workers := _ }) hsc (hset _ b (.found n)) nofun nofun)) e
        (by rw [g]; exact (hlen _).symm) k)
    · dsimp only at hi ⊢
      have hp : published (stamped s.now [.published i r]) = [(s.now, i, r)] := rfl
      have hs : starts (stamped s.now [.published i r]) = [] := rfl
      have hq := (j.scan q d).1
      refine ⟨hi, ?_, ?_, ?_⟩
      · intro p hp
        rw [starts_append, hs, List.append_nil] at hp
        exact m.past p hp
      · intro u i' n' t hu ht
        rw [starts_append, hs, List.append_nil] at ht
        rw [published_append, hp, List.mem_append, List.mem_singleton] at hu
        rcases hu with hu | hu
        · exact m.times u i' n' t hu ht
        · cases hu
          refine ⟨m.past _ ht, ?_⟩
          have := last_start (by rw [m.ids, g]) ht
          omega
      · refine .late i (.updated r) q hsc (hset _ b _) (.inl ⟨r, rfl⟩)
          (settle_scanDue d (working_of (h := { s.h with workers := _ }) hsc (hset _ b (.updated r)) nofun nofun))
          (by rw [lastStart_same hs]; exact e) (by rw [g]; exact (hlen _).symm) ?_
        have : (s.settle T { s.h with workers := s.h.workers.set i (.updated r) }).h.workers.length = i + 1 := by
          rw [g]; exact hlen _
        rw [this]
        unfold done
        rw [published_append, hp, List.map_append, List.range_succ, ← k]
        rfl
  · rw [hsc] at a
    cases a
    have keep : ∀ p : Phase, done evs = List.range (s.h.workers.set i p).length := fun p => by rw [hlen]; exact k
    unfold H.work at hi ⊢
    rw [b] at hi ⊢
    rcases c with ⟨r, rfl⟩ | rfl | rfl
    · dsimp only at hi ⊢
      exact m.quiet (Nat.le_refl _) hi rfl rfl (.late i .stored q hsc (hset _ b _) (.inr (.inl rfl))
        (settle_scanDue d (working_of (h := { s.h with workers := _ }) hsc (hset _ b .stored) nofun nofun)) e
        (by rw [g]; exact (hlen _).symm) (keep _))
    · dsimp only at hi ⊢
      exact m.quiet (Nat.le_refl _) hi rfl rfl (.late i .cleared q hsc (hset _ b _) (.inr (.inr rfl))
        (settle_scanDue d (working_of (h := { s.h with workers := _, flag := false }) hsc (hset _ b .cleared) nofun nofun)) e
        (by rw [g]; exact (hlen _).symm) (keep _))
    · dsimp only at hi ⊢
      have hq := (j.scan q d).1
      have hd := sent_due j
      refine m.quiet (Nat.le_refl _) hi rfl rfl (.over i (s.pollDue.getD (s.now + T.lag)) hsc (hset _ b _) ?_ (by omega) (keep _))
      unfold Sys.settle
      dsimp only
      rw [if_neg (by simp)]
  · rw [hsc] at a
    cases a
    unfold H.work at hi ⊢
    rw [b] at hi ⊢
    dsimp only at hi ⊢
    rw [settle_eq j s.h rfl rfl] at hi ⊢
    exact m.quiet (Nat.le_refl _) hi rfl rfl (.over i d hsc b c e g)

theorem M.step {T : Timing} {s : Sys} {evs : List (Nat × HEv)} (m : M T s evs) (j : J T s evs) (op : Op) :
    M T (s.step T op).1 (evs ++ (s.step T op).2) := by
  have hi := ids_step (T := T) op m.ids
  cases op with
  | wait d =>
    revert hi
    show (starts (evs ++ [])).map _ = List.range (if s.canWait (s.now + d) then { s with now := s.now + d } else s).h.workers.length →
      M T (if s.canWait (s.now + d) then { s with now := s.now + d } else s) (evs ++ [])
    split
    · intro hi
      refine m.quiet (by show s.now ≤ s.now + d; omega) hi rfl rfl ?_
      rcases m.ph with ⟨a, b, c⟩ | ⟨i, f, q, a, b, c, d, e, g, k⟩ | ⟨i, f, q, a, b, c, d, e, g, k⟩ | ⟨i, d, a, b, c, e, g⟩
      · exact .idle a b c
      · exact .early i f q a b c d e g k
      · exact .late i f q a b c d e g k
      · exact .over i d a b c e g
    · intro _
      rw [List.append_nil]
      exact m
  | tick =>
    unfold Sys.step
    rw [send_eq (.inr (.inr rfl)) (j.senders _ (.inr (.inr rfl))) j.alive]
    show M T _ (evs ++ [])
    rw [List.append_nil]
    exact m.sent .periodicNetworkScan _
  | ask o c =>
    unfold Sys.step
    dsimp only
    by_cases ho : o = .client ∨ o = .mainTask
    · have ho' : o = .client ∨ o = .mainTask ∨ o = .periodic := ho.elim .inl fun h => .inr (.inl h)
      rw [if_pos ho, send_eq ho' (j.senders o ho') j.alive]
      show M T _ (evs ++ [])
      rw [List.append_nil]
      exact m.sent c _
    · rw [if_neg ho]
      show M T s (evs ++ [])
      rw [List.append_nil]
      exact m
  | poll => exact m.poll j hi
  | work n =>
    revert hi
    unfold Sys.step
    dsimp only
    cases hs : s.h.scanner with
    | none =>
      intro _
      show M T s (evs ++ [])
      rw [List.append_nil]
      exact m
    | some i => exact fun hi => m.work j n i hs hi

theorem M.run {T : Timing} (ops : List Op) : ∀ {s : Sys} {evs : List (Nat × HEv)}, M T s evs → J T s evs →
    M T (s.run T ops).1 (evs ++ (s.run T ops).2) := by
  induction ops with
  | nil =>
    intro s evs m _
    show M T s (evs ++ [])
    rw [List.append_nil]
    exact m
  | cons op ops ih =>
    intro s evs m j
    have := ih (m.step j op) (j.step op)
    rw [List.append_assoc] at this
    exact this

theorem M.reached (T : Timing) (ops : List Op) : M T ((Sys.new T true).run T ops).1 ((Sys.new T true).run T ops).2 :=
  M.run ops (M.new T) (J.new T)

theorem run_snoc {T : Timing} (ops : List Op) (op : Op) : ∀ s : Sys, s.run T (ops ++ [op]) =
    (((s.run T ops).1.step T op).1, (s.run T ops).2 ++ ((s.run T ops).1.step T op).2) := by
  induction ops with
  | nil =>
    intro s
    show ((s.step T op).1, (s.step T op).2 ++ []) = ((s.step T op).1, [] ++ (s.step T op).2)
    rw [List.append_nil, List.nil_append]
  | cons o ops ih =>
    intro s
    show (((s.step T o).1.run T (ops ++ [op])).1, (s.step T o).2 ++ ((s.step T o).1.run T (ops ++ [op])).2) = _
    rw [ih, ← List.append_assoc]
    rfl

/-- When time passes nothing else happens. -/
theorem no_start_late {T : Timing} (s : Sys) (op : Op) (h : s.now < (s.step T op).1.now) : starts (s.step T op).2 = [] := by
  cases op with
  | wait d => rfl
  | tick => exact absurd h (Nat.lt_irrefl _)
  | ask o c =>
    revert h
    unfold Sys.step
    dsimp only
    split
    · exact fun h => absurd h (Nat.lt_irrefl _)
    · exact fun h => absurd h (Nat.lt_irrefl _)
  | poll => exact absurd h (Nat.lt_irrefl _)
  | work n =>
    revert h
    unfold Sys.step
    dsimp only
    split
    · exact fun h => absurd h (Nat.lt_irrefl _)
    · exact fun h => absurd h (Nat.lt_irrefl _)

theorem starts_ordered {now : Nat} {evs : List (Nat × HEv)} (h : Ordered now evs) :
    (starts evs).Pairwise (fun a b => a.1 ≤ b.1) := by
  refine List.pairwise_filterMap.mpr (h.1.imp ?_)
  intro a b hab p hp q hq
  have key : ∀ {e : Nat × HEv} {r : Nat × Nat}, (match e.2 with
      | .started i => some (e.1, i)
      | _ => none) = some r → r.1 = e.1 := by
    intro e r he
    split at he
    · cases he; rfl
    · cases he
  rw [key hp, key hq]
  exact hab

/-- A scan with a greater number was not started earlier. -/
theorem starts_sorted {evs : List (Nat × HEv)} {k : Nat} (hi : (starts evs).map (·.2) = List.range k)
    (ho : (starts evs).Pairwise (fun a b => a.1 ≤ b.1)) {t i t' i' : Nat} (h : (t, i) ∈ starts evs) (h' : (t', i') ∈ starts evs)
    (hle : i ≤ i') : t ≤ t' := by
  generalize starts evs = l at *
  have hg : ∀ (n : Nat) (p : Nat × Nat), l[n]? = some p → p.2 = n := by
    intro n p hn
    have h1 : (l.map (·.2))[n]? = some p.2 := by rw [List.getElem?_map, hn]; rfl
    rw [hi] at h1
    rw [List.getElem?_eq_some_iff] at h1
    obtain ⟨h2, h3⟩ := h1
    rw [List.getElem_range] at h3
    exact h3.symm
  obtain ⟨a, ha⟩ := List.mem_iff_getElem?.mp h
  obtain ⟨b, hb⟩ := List.mem_iff_getElem?.mp h'
  have h1 := hg a _ ha
  have h2 := hg b _ hb
  dsimp only at h1 h2
  by_cases e : a = b
  · subst e
    rw [ha] at hb
    cases hb
    exact Nat.le_refl _
  · obtain ⟨la, ga⟩ := List.getElem?_eq_some_iff.mp ha
    obtain ⟨lb, gb⟩ := List.getElem?_eq_some_iff.mp hb
    have := List.pairwise_iff_getElem.mp ho a b la lb (by omega)
    rw [ga, gb] at this
    exact this

end Verif.Appear
