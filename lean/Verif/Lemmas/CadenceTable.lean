import Verif.Lemmas.CadenceInv
import Verif.Lemmas.Found
/-!
# Lemmas: scans are not too frequent, events in order, and what scans do to the service table
-/
namespace Verif.Cadence
open Verif Verif.CmdHandler Verif.Spec.Cadence
open Verif.Client (sec)

/-! ## The order of events -/

/-- Events in the order of time, none after `now`. -/
def Ordered (now : Nat) (evs : List (Nat × HEv)) : Prop :=
  evs.Pairwise (fun a b => a.1 ≤ b.1) ∧ ∀ e ∈ evs, e.1 ≤ now

theorem step_times {T : Timing} (s : Sys) (op : Op) :
    s.now ≤ (s.step T op).1.now ∧ ∀ e ∈ (s.step T op).2, e.1 = s.now := by
  have hm : ∀ (l : List HEv), ∀ e ∈ l.map (fun e => (s.now, e)), e.1 = s.now := by
    intro l e he
    obtain ⟨x, _, rfl⟩ := List.mem_map.mp he
    rfl
  cases op with
  | wait d =>
    refine ⟨?_, nofun⟩
    show s.now ≤ (if s.canWait (s.now + d) then { s with now := s.now + d } else s).now
    split
    · exact Nat.le_add_right _ _
    · exact Nat.le_refl _
  | tick => exact ⟨Nat.le_refl _, hm _⟩
  | ask o c =>
    unfold Sys.step
    dsimp only
    split
    · exact ⟨Nat.le_refl _, hm _⟩
    · exact ⟨Nat.le_refl _, nofun⟩
  | poll => exact ⟨Nat.le_refl _, hm _⟩
  | work n =>
    unfold Sys.step
    dsimp only
    split
    · exact ⟨Nat.le_refl _, hm _⟩
    · exact ⟨Nat.le_refl _, nofun⟩

theorem ordered_run {T : Timing} (ops : List Op) : ∀ (s : Sys) (evs : List (Nat × HEv)), Ordered s.now evs →
    Ordered (s.run T ops).1.now (evs ++ (s.run T ops).2) := by
  induction ops with
  | nil =>
    intro s evs h
    show Ordered s.now (evs ++ [])
    rw [List.append_nil]
    exact h
  | cons op ops ih =>
    intro s evs h
    obtain ⟨h1, h2⟩ := step_times (T := T) s op
    have := ih (s.step T op).1 (evs ++ (s.step T op).2) ⟨?_, ?_⟩
    · rw [List.append_assoc] at this
      exact this
    · refine List.pairwise_append.mpr ⟨h.1, ?_, ?_⟩
      · exact List.pairwise_of_forall_mem_list fun a ha b hb => by rw [h2 a ha, h2 b hb]; exact Nat.le_refl _
      · intro a ha b hb
        rw [h2 b hb]
        exact h.2 a ha
    · intro e he
      rcases List.mem_append.mp he with he | he
      · exact Nat.le_trans (h.2 e he) h1
      · rw [h2 e he]; exact h1

theorem reports_ordered {now : Nat} {evs : List (Nat × HEv)} (h : Ordered now evs) :
    (reports evs).Pairwise (fun a b => a.1 ≤ b.1) ∧ ∀ r ∈ reports evs, r.1 ≤ now := by
  have key : ∀ {e : Nat × HEv} {r : Nat × Nat}, (match e.2 with
      | .published _ n => some (e.1, n)
      | _ => none) = some r → r.1 = e.1 := by
    intro e r he
    split at he
    · cases he; rfl
    · cases he
  constructor
  · refine List.pairwise_filterMap.mpr (h.1.imp ?_)
    intro a b hab x hx y hy
    rw [key hx, key hy]
    exact hab
  · intro r hr
    obtain ⟨e, he, hx⟩ := List.mem_filterMap.mp hr
    rw [key hx]
    exact h.2 e he

/-! ## Scans are not too frequent -/

/-- A scan begins at least five minutes after each scan before it. -/
def Spaced (evs : List (Nat × HEv)) : Prop :=
  ∀ a t i b, evs = a ++ (t, HEv.started i) :: b → ∀ c ∈ doneTimes a, c + 300 * sec ≤ t

theorem spaced_snoc {evs : List (Nat × HEv)} {e : Nat × HEv} (h : Spaced evs)
    (he : ∀ i, e.2 = .started i → ∀ c ∈ doneTimes evs, c + 300 * sec ≤ e.1) : Spaced (evs ++ [e]) := by
  intro a t i b hab
  rcases List.eq_nil_or_concat b with rfl | ⟨b', x, rfl⟩
  · obtain ⟨rfl, h2⟩ := List.append_inj' hab rfl
    cases h2
    exact he i rfl
  · have : evs ++ [e] = (a ++ (t, HEv.started i) :: b') ++ [x] := by rw [hab]; simp
    obtain ⟨h1, _⟩ := List.append_inj' this rfl
    exact h a t i b' h1

structure Q (now : Nat) (h : H) (evs : List (Nat × HEv)) : Prop where
  noAsk : Msg.command .scanNetwork ∉ h.queue
  last : ∀ c ∈ doneTimes evs, c + 300 * sec ≤ dueOf h
  past : dueOf h ≤ now + 300 * sec
  spaced : Spaced evs

theorem Q.event {now : Nat} {h : H} {evs : List (Nat × HEv)} (q : Q now h evs) (h' : H) (e : HEv)
    (h1 : Msg.command .scanNetwork ∉ h'.queue) (h2 : dueOf h' = dueOf h) (h3 : ∀ n, e ≠ .completed n)
    (h4 : ∀ i, e = .started i → dueOf h ≤ now) : Q now h' (evs ++ [(now, e)]) := by
  have hd : doneTimes (evs ++ [(now, e)]) = doneTimes evs := by
    rw [doneTimes_append]
    cases e with
    | completed n => exact absurd rfl (h3 n)
    | _ => exact List.append_nil _
  refine ⟨h1, ?_, by rw [h2]; exact q.past, spaced_snoc q.spaced ?_⟩
  · rw [hd, h2]; exact q.last
  · intro i hi c hc
    exact Nat.le_trans (q.last c hc) (h4 i hi)

theorem Q.quiet {now : Nat} {h : H} {evs : List (Nat × HEv)} (q : Q now h evs) (h' : H)
    (h1 : Msg.command .scanNetwork ∉ h'.queue) (h2 : dueOf h' = dueOf h) : Q now h' (evs ++ []) := by
  rw [List.append_nil]
  exact ⟨h1, by rw [h2]; exact q.last, by rw [h2]; exact q.past, q.spaced⟩

theorem Q.process {now : Nat} {h : H} {evs : List (Nat × HEv)} {m : Msg} (q : Q now h evs) (hm : m ≠ .command .scanNetwork) :
    Q now (h.processEvent now m).1 (evs ++ stamped now (h.processEvent now m).2) := by
  cases m with
  | command c =>
    cases c with
    | scanNetwork => exact absurd rfl hm
    | resetServiceTable => exact q.event _ .reset q.noAsk rfl nofun nofun
    | periodicNetworkScan =>
      rw [periodic_eq]
      by_cases hdue : dueOf h ≤ now
      · rw [if_pos hdue]
        unfold H.scanNetwork
        split
        · exact q.quiet _ q.noAsk rfl
        · exact q.event _ (.started _) q.noAsk rfl nofun fun _ _ => hdue
      · rw [if_neg hdue]
        exact q.quiet _ q.noAsk rfl
  | scanCompleted =>
    have hd : doneTimes (evs ++ stamped now [.completed now]) = doneTimes evs ++ [now] := by rw [doneTimes_append]; rfl
    show Q now { h with scanner := none, lastScan := some now } (evs ++ stamped now [.completed now])
    have hdue : dueOf { h with scanner := none, lastScan := some now } = now + 300 * sec := rfl
    refine ⟨q.noAsk, ?_, Nat.le_of_eq hdue, spaced_snoc q.spaced nofun⟩
    intro c hc
    rw [hd] at hc
    rw [hdue]
    rcases List.mem_append.mp hc with hc | hc
    · exact Nat.le_trans (q.last c hc) q.past
    · rw [List.mem_singleton.mp hc]; exact Nat.le_refl _

theorem Q.handle {now : Nat} {h : H} {evs : List (Nat × HEv)} (q : Q now h evs) :
    Q now (h.step (.handle now)).1 (evs ++ stamped now (h.step (.handle now)).2) := by
  unfold H.step
  dsimp only
  by_cases ha : h.alive = true
  · rw [if_pos ha]
    cases hq : h.queue with
    | nil =>
      dsimp only
      split
      · exact q.quiet _ nofun rfl
      · exact q.quiet _ q.noAsk rfl
    | cons m l =>
      have hn := q.noAsk
      rw [hq] at hn
      have q' : Q now { h with queue := l } evs := ⟨fun h => hn (List.mem_cons_of_mem _ h), q.last, q.past, q.spaced⟩
      exact q'.process (by rintro rfl; exact hn List.mem_cons_self)
  · rw [if_neg ha]
    exact q.quiet _ q.noAsk rfl

theorem Q.handles {now : Nat} (n : Nat) : ∀ {h : H} {evs : List (Nat × HEv)}, Q now h evs →
    Q now (h.run (List.replicate n (.handle now))).1 (evs ++ stamped now (h.run (List.replicate n (.handle now))).2) := by
  induction n with
  | zero =>
    intro h evs q
    exact q.quiet _ q.noAsk rfl
  | succ n ih =>
    intro h evs q
    have := ih q.handle
    rw [List.append_assoc, ← stamped_append] at this
    exact this

theorem Q.work {now : Nat} {h : H} {evs : List (Nat × HEv)} (q : Q now h evs) (i : Nat) (r : Option Nat) :
    Q now (h.work i r).1 (evs ++ stamped now (h.work i r).2) := by
  unfold H.work
  cases h.workers[i]? with
  | none => exact q.quiet _ q.noAsk rfl
  | some f =>
    cases f with
    | spawned => exact q.event _ (.scanning true) q.noAsk rfl nofun nofun
    | scanning =>
      cases r with
      | none => exact q.quiet _ q.noAsk rfl
      | some n => exact q.quiet _ q.noAsk rfl
    | found n => exact q.event _ (.published i n) q.noAsk rfl nofun nofun
    | updated n => exact q.event _ (.stored i n) q.noAsk rfl nofun nofun
    | stored => exact q.event _ (.scanning false) q.noAsk rfl nofun nofun
    | cleared =>
      refine q.quiet _ ?_ rfl
      intro hm
      rcases List.mem_append.mp hm with hm | hm
      · exact q.noAsk hm
      · cases List.mem_singleton.mp hm
    | signalled => exact q.quiet _ q.noAsk rfl
    | dead => exact q.quiet _ q.noAsk rfl

theorem Q.send {now : Nat} {h : H} {evs : List (Nat × HEv)} (q : Q now h evs) (o : Owner) (c : Cmd) (hc : c ≠ .scanNetwork) :
    Q now (h.step (.send o c)).1 (evs ++ stamped now (h.step (.send o c)).2) := by
  unfold H.step
  dsimp only
  split
  · split
    · refine q.quiet _ ?_ rfl
      intro hm
      rcases List.mem_append.mp hm with hm | hm
      · exact q.noAsk hm
      · injection List.mem_singleton.mp hm with e
        exact hc e.symm
    · exact q.event _ .sendPanic q.noAsk rfl nofun nofun
  · exact q.quiet _ q.noAsk rfl

theorem Q.run {T : Timing} (ops : List Op) : ∀ {s : Sys} {evs : List (Nat × HEv)}, Q s.now s.h evs →
    (∀ o, Op.ask o .scanNetwork ∉ ops) → Spaced (evs ++ (s.run T ops).2) := by
  induction ops with
  | nil =>
    intro s evs q _
    show Spaced (evs ++ [])
    rw [List.append_nil]
    exact q.spaced
  | cons op ops ih =>
    intro s evs q hops
    have hrest : ∀ o, Op.ask o .scanNetwork ∉ ops := fun o h => hops o (List.mem_cons_of_mem _ h)
    have key : Q (s.step T op).1.now (s.step T op).1.h (evs ++ (s.step T op).2) → Spaced (evs ++ (s.run T (op :: ops)).2) := by
      intro q'
      have := ih q' hrest
      rw [List.append_assoc] at this
      exact this
    apply key
    cases op with
    | wait d =>
      show Q (if s.canWait (s.now + d) then { s with now := s.now + d } else s).now
        (if s.canWait (s.now + d) then { s with now := s.now + d } else s).h (evs ++ [])
      rw [List.append_nil]
      split
      · have := q.past
        exact ⟨q.noAsk, q.last, by show dueOf s.h ≤ s.now + d + 300 * sec; omega, q.spaced⟩
      · exact q
    | tick => exact q.send .periodic .periodicNetworkScan nofun
    | ask o c =>
      have hc : c ≠ .scanNetwork := by rintro rfl; exact hops o List.mem_cons_self
      unfold Sys.step
      dsimp only
      split
      · exact q.send o c hc
      · exact q.quiet _ q.noAsk rfl
    | poll => exact q.handles _
    | work n =>
      unfold Sys.step
      dsimp only
      split
      · exact q.work _ _
      · exact q.quiet _ q.noAsk rfl

theorem spaced_reached (T : Timing) (d : Bool) (ops : List Op) (h : ∀ o, Op.ask o .scanNetwork ∉ ops) :
    Spaced ((Sys.new T d).run T ops).2 := by
  refine Q.run (s := Sys.new T d) (evs := []) ops ⟨nofun, nofun, Nat.zero_le _, ?_⟩ h
  intro a t i b hab
  cases a <;> cases hab

/-! ## The service table -/
open Verif.SvcTable Verif.Spec.SvcTable Verif.Found

/-- The operations that reports lead to. -/
def opsOf (found : Nat → List Service) (clock : Nat → Int64) (l : List (Nat × Nat)) : List TOp :=
  l.flatMap fun r => reportOps (found r.2) (clock r.1)

theorem tableOps_eq (found : Nat → List Service) (clock : Nat → Int64) (evs : List (Nat × HEv)) :
    tableOps found clock evs = opsOf found clock (reports evs) := by
  induction evs with
  | nil => rfl
  | cons e evs ih =>
    have h1 : reports (e :: evs) = reports [e] ++ reports evs := reports_append [e] evs
    have h2 : tableOps found clock (e :: evs) = tableOps found clock [e] ++ tableOps found clock evs := by
      unfold tableOps
      rw [List.flatMap_cons, List.flatMap_singleton]
    rw [h1, h2, ih]
    unfold opsOf
    rw [List.flatMap_append]
    congr 1
    obtain ⟨t, e⟩ := e
    cases e <;> rfl

theorem adds_reportOps (k : ServiceIdentifier) (services : List Service) (now : Int64) :
    adds k (reportOps services now) = (services.filter fun s => s.toIdentifier = k).map fun s => (false, now, s) := by
  unfold reportOps
  rw [adds_append]
  have : adds k [TOp.updateActive now] = [] := rfl
  rw [this, List.append_nil]
  induction services with
  | nil => rfl
  | cons s l ih =>
    by_cases h : s.toIdentifier = k
    · rw [List.filter_cons_of_pos (by simpa using h), List.map_cons, List.map_cons, ← ih]
      unfold adds
      rw [List.filterMap_cons_some (f := added) (b := (false, now, s)) rfl, List.filter_cons_of_pos (by simpa using h)]
    · rw [List.filter_cons_of_neg (by simpa using h), ← ih, List.map_cons]
      unfold adds
      rw [List.filterMap_cons_some (f := added) (b := (false, now, s)) rfl, List.filter_cons_of_neg (by simpa using h)]

theorem adds_opsOf {k : ServiceIdentifier} {found : Nat → List Service} {clock : Nat → Int64} {l : List (Nat × Nat)}
    {a : Bool × Int64 × Service} :
    a ∈ adds k (opsOf found clock l) ↔ ∃ r ∈ l, ∃ s ∈ found r.2, s.toIdentifier = k ∧ a = (false, clock r.1, s) := by
  unfold opsOf
  induction l with
  | nil => simp [adds]
  | cons r l ih =>
    rw [List.flatMap_cons, adds_append, List.mem_append, ih, adds_reportOps, List.mem_map]
    constructor
    · rintro (⟨s, hs, rfl⟩ | ⟨q, hq, h⟩)
      · obtain ⟨h1, h2⟩ := List.mem_filter.mp hs
        exact ⟨r, List.mem_cons_self, s, h1, by simpa using h2, rfl⟩
      · exact ⟨q, List.mem_cons_of_mem _ hq, h⟩
    · rintro ⟨q, hq, s, h1, h2, rfl⟩
      rcases List.mem_cons.mp hq with rfl | hq
      · exact .inl ⟨s, List.mem_filter.mpr ⟨h1, by simpa using h2⟩, rfl⟩
      · exact .inr ⟨q, hq, s, h1, h2, rfl⟩

end Verif.Cadence
