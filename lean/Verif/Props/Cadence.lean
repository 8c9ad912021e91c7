import Verif.Lemmas.CadenceTable
import Verif.Props.SvcTable
/-!
# Properties of network scans over time: C128

The times of `Timing` say how late things can be: the task that triggers scans sends a trigger at least every `tick`, the
handler is polled at most `lag` after a message, a scan takes at most `scan`. The program sleeps a second between triggers.
-/
namespace Verif.Props.Cadence
open Verif Verif.Cadence Verif.CmdHandler Verif.SvcTable Verif.Spec.SvcTable Verif.Spec.Cadence
open Verif.Client (sec)

/-! ### A concrete history, for the examples -/

/-- A trigger every second, a lag of a tenth of a second, scans of at most a minute. -/
def demoT : Timing := ⟨sec, sec / 10, 60 * sec⟩

/-- A scan from the trigger to its end, with a report. -/
def demoScan (report : Nat) : List Op :=
  [.tick, .poll, .work report, .work report, .wait (sec / 2), .work report, .work report, .work report, .work report, .poll]

/-- So many seconds in which nothing but triggers happens. -/
def demoIdle : Nat → List Op
  | 0 => []
  | n + 1 => .wait sec :: .tick :: .poll :: demoIdle n

def demoHistory : List Op := demoScan 1 ++ .ask .client .resetServiceTable :: .poll :: .wait (sec / 2) :: .tick :: .poll :: demoIdle 300 ++ demoScan 2

def demoRun : Sys × List (Nat × HEv) := (Sys.new demoT true).run demoT demoHistory

theorem demo_events : startTimes demoRun.2 = [0, 301 * sec] ∧ doneTimes demoRun.2 = [sec / 2, 301 * sec + sec / 2] ∧
    reports demoRun.2 = [(sec / 2, 1), (301 * sec + sec / 2, 2)] ∧ demoRun.1.now = 301 * sec + sec / 2 := by
  decide +kernel

/-! ### C128 -/

/-- C128: scans do not cease. The time never passes the moment when the next scan is due, at once and then five minutes after
the last, by more than the time for a trigger, the handler, the scan itself and the handler again. -/
theorem C128_scans_recur (T : Timing) (ops : List Op) :
    ((Sys.new T true).run T ops).1.now ≤
      due ((Sys.new T true).run T ops).2 + T.tick + T.lag + T.scan + T.lag :=
  (J.reached T ops).bound.1

/-- C128: while no scan runs, the next one starts in time. -/
theorem C128_starts_in_time (T : Timing) (ops : List Op)
    (h : (startTimes ((Sys.new T true).run T ops).2).length = (doneTimes ((Sys.new T true).run T ops).2).length) :
    ((Sys.new T true).run T ops).1.now ≤ due ((Sys.new T true).run T ops).2 + T.tick + T.lag :=
  (J.reached T ops).bound.2.1 h

/-- C128: at most one scan runs at a time. -/
theorem C128_one_scan (T : Timing) (ops : List Op) :
    (startTimes ((Sys.new T true).run T ops).2).length = (doneTimes ((Sys.new T true).run T ops).2).length ∨
    (startTimes ((Sys.new T true).run T ops).2).length = (doneTimes ((Sys.new T true).run T ops).2).length + 1 := by
  have h := (J.reached T ops).count
  split at h
  · exact .inl h
  · exact .inr h

/-- C128: unless somebody asks for a scan, no scan starts earlier than five minutes after the end of one before it, however
often the trigger is sent. -/
theorem C128_not_before (T : Timing) (discovery : Bool) (ops : List Op) (h : ∀ o, Op.ask o .scanNetwork ∉ ops)
    (a b : List (Nat × HEv)) (t i : Nat)
    (hs : ((Sys.new T discovery).run T ops).2 = a ++ (t, .started i) :: b) :
    ∀ c ∈ doneTimes a, c + 300 * sec ≤ t :=
  spaced_reached T discovery ops h a t i b hs

/-- C128: the service table is told about a scan again and again. -/
theorem C128_reports_recur (T : Timing) (ops : List Op) :
    ((Sys.new T true).run T ops).1.now ≤
      lastReport ((Sys.new T true).run T ops).2 + 300 * sec + T.tick + 2 * T.lag + 2 * T.scan :=
  (J.reached T ops).bound.2.2

example : due demoRun.2 = 601 * sec + sec / 2 ∧ lastReport demoRun.2 = 301 * sec + sec / 2 := by decide +kernel
/-- Time cannot pass a deadline: without a trigger, for instance, it stands still after a second. -/
example : ((Sys.new demoT true).run demoT [.wait sec, .wait 1, .wait (5 * sec)]).1.now = sec := by decide +kernel
/-- A scan that was asked for may start at once. -/
example : startTimes ((Sys.new demoT true).run demoT (demoScan 1 ++ [.ask .mainTask .scanNetwork, .poll])).2 = [0, sec / 2] := by
  decide +kernel
example : (∀ o, Op.ask o .scanNetwork ∉ demoScan 1) ∧ (demoScan 1).length = 10 := by
  refine ⟨?_, rfl⟩
  intro o h
  simp [demoScan] at h

/-- C128: when the table was told about a scan, a service is visible exactly if it is not the control service, it is the form
in which its identity was last added, and its first addition was static or its last was at most 1200 seconds before the last
report. -/
theorem C128_visible (T : Timing) (ops : List Op) (farm : Bytes → UInt64) (start : Int64) (found : Nat → List Service)
    (clock : Nat → Int64) (pre : List TOp) (t : Table) (s : Service)
    (hrep : reports ((Sys.new T true).run T ops).2 ≠ [])
    (hs : Services (pre ++ tableOps found clock ((Sys.new T true).run T ops).2))
    (ht : (Table.new start).run farm (pre ++ tableOps found clock ((Sys.new T true).run T ops).2) = some t)
    (hclock : ∀ a ∈ adds s.toIdentifier (pre ++ tableOps found clock ((Sys.new T true).run T ops).2),
      a.2.1.toInt + 1200 < 9223372036854775808) :
    (∃ i, (i, s) ∈ t.visible) ↔
      s.isControl = false ∧ ∃ first last,
        (adds s.toIdentifier (pre ++ tableOps found clock ((Sys.new T true).run T ops).2)).head? = some first ∧
        (adds s.toIdentifier (pre ++ tableOps found clock ((Sys.new T true).run T ops).2)).getLast? = some last ∧
        last.2.2 = s ∧
        (first.1 = true ∨ (clock (lastReport ((Sys.new T true).run T ops).2)).toInt ≤ last.2.1.toInt + 1200) := by
  generalize ((Sys.new T true).run T ops).2 = evs at *
  obtain ⟨l, r, hl⟩ := (List.eq_nil_or_concat (reports evs)).resolve_left hrep
  have hlast : lastReport evs = r.1 := by
    unfold lastReport
    rw [hl, List.concat_eq_append, List.getLast?_concat]
  rw [tableOps_eq, hl] at hs ht hclock
  rw [tableOps_eq, hl]
  have hops : pre ++ opsOf found clock (l.concat r) =
      (pre ++ opsOf found clock l ++ (found r.2).map (TOp.add (clock r.1) ·)) ++ [.updateActive (clock r.1)] := by
    unfold opsOf reportOps
    rw [List.concat_eq_append, List.flatMap_append, List.flatMap_singleton]
    simp only [List.append_assoc]
  rw [hops] at hs ht hclock ⊢
  rw [hlast]
  generalize pre ++ opsOf found clock l ++ (found r.2).map (TOp.add (clock r.1) ·) = o at *
  have hadds : adds s.toIdentifier (o ++ [.updateActive (clock r.1)]) = adds s.toIdentifier o := by
    rw [Found.adds_append]
    exact List.append_nil _
  rw [hadds] at hclock ⊢
  rw [SvcTable.run_append] at ht
  obtain ⟨t1, h1, h2⟩ := Option.bind_eq_some_iff.mp ht
  have h2 : some (t1.updateActive (clock r.1)) = some t := h2
  cases h2
  exact SvcTable.C42_visible_after_expiry farm start (clock r.1) o t1
    (fun op hop a ha => hs op (List.mem_append_left _ hop) a ha) h1 s hclock

/-- C128: a service that was never added as a static one and that no scan has reported since the time `v` is no longer visible
1201 seconds plus the time between two reports after `v`. -/
theorem C128_vanished (T : Timing) (ops : List Op) (farm : Bytes → UInt64) (start : Int64) (found : Nat → List Service)
    (clock : Nat → Int64) (pre : List TOp) (t : Table) (s : Service) (v : Nat)
    (hk : Keeps clock ((Sys.new T true).run T ops).1.now)
    (hover : ∀ x ≤ ((Sys.new T true).run T ops).1.now, (clock x).toInt + 1200 < 9223372036854775808)
    (hpre : ∀ a ∈ adds s.toIdentifier pre, a.1 = false ∧ a.2.1.toInt ≤ (clock 0).toInt)
    (hs : Services (pre ++ tableOps found clock ((Sys.new T true).run T ops).2))
    (ht : (Table.new start).run farm (pre ++ tableOps found clock ((Sys.new T true).run T ops).2) = some t)
    (hgone : ∀ r ∈ reports ((Sys.new T true).run T ops).2, v < r.1 → ∀ s' ∈ found r.2, s'.toIdentifier ≠ s.toIdentifier)
    (hlate : v + 1201 * sec + 300 * sec + T.tick + 2 * T.lag + 2 * T.scan < ((Sys.new T true).run T ops).1.now) :
    ∀ i s', s'.toIdentifier = s.toIdentifier → (i, s') ∉ t.visible := by
  have hb := C128_reports_recur T ops
  have hr := (J.reached T ops).report
  intro i s' hid hvis
  have hadds : ∀ a ∈ adds s'.toIdentifier (pre ++ tableOps found clock ((Sys.new T true).run T ops).2),
      a.1 = false ∧ a.2.1.toInt ≤ (clock v).toInt := by
    intro a ha
    rw [hid, Found.adds_append, List.mem_append, tableOps_eq, adds_opsOf] at ha
    rcases ha with ha | ⟨r, hr, s2, h1, h2, rfl⟩
    · have := hk 0 v 0 (by omega) (by omega)
      have := hpre a ha
      exact ⟨this.1, by omega⟩
    · refine ⟨rfl, ?_⟩
      by_cases hv : v < r.1
      · exact absurd h2 (hgone r hr hv s2 h1)
      · have := hk r.1 v 0 (by omega) (by omega)
        show (clock r.1).toInt ≤ _
        omega
  have hrep : reports ((Sys.new T true).run T ops).2 ≠ [] := by
    intro e
    unfold lastReport at hb
    rw [e] at hb
    have hb : ((Sys.new T true).run T ops).1.now ≤ 0 + 300 * sec + T.tick + 2 * T.lag + 2 * T.scan := hb
    omega
  obtain ⟨_, first, last, h1, h2, h3, h4⟩ := (C128_visible T ops farm start found clock pre t s' hrep hs ht (by
    intro a ha
    have := (hadds a ha).2
    have := hover v (by omega)
    omega)).mp ⟨i, hvis⟩
  rcases h4 with h4 | h4
  · have := (hadds first (List.mem_of_mem_head? h1)).1
    rw [h4] at this
    cases this
  · have h5 := (hadds last (List.mem_of_mem_getLast? h2)).2
    have h6 := hk v (lastReport ((Sys.new T true).run T ops).2) 1201 (by omega) hr
    omega

/-- C128: a service that a scan has found stays visible until the first report more than 1200 seconds later, even if scans miss
it meanwhile, provided that no scan finds another form of it. -/
theorem C128_kept (T : Timing) (ops : List Op) (farm : Bytes → UInt64) (start : Int64) (found : Nat → List Service)
    (clock : Nat → Int64) (pre : List TOp) (t : Table) (s : Service) (a b : List (Nat × Nat)) (r : Nat × Nat)
    (hk : Keeps clock ((Sys.new T true).run T ops).1.now)
    (hover : ∀ x ≤ ((Sys.new T true).run T ops).1.now, (clock x).toInt + 1200 < 9223372036854775808)
    (hpre : ∀ a ∈ adds s.toIdentifier pre, a.2.1.toInt + 1200 < 9223372036854775808)
    (hs : Services (pre ++ tableOps found clock ((Sys.new T true).run T ops).2))
    (ht : (Table.new start).run farm (pre ++ tableOps found clock ((Sys.new T true).run T ops).2) = some t)
    (hc : s.isControl = false) (hrep : reports ((Sys.new T true).run T ops).2 = a ++ r :: b) (hfound : s ∈ found r.2)
    (honly : ∀ q ∈ r :: b, ∀ s' ∈ found q.2, s'.toIdentifier = s.toIdentifier → s' = s)
    (hfresh : (clock (lastReport ((Sys.new T true).run T ops).2)).toInt ≤ (clock r.1).toInt + 1200) :
    ∃ i, (i, s) ∈ t.visible := by
  have hord := reports_ordered (ordered_run (T := T) ops (Sys.new T true) [] ⟨List.Pairwise.nil, nofun⟩)
  rw [List.nil_append, hrep] at hord
  have hpast := hord.2
  have hord := hord.1
  have hord := (List.pairwise_cons.mp (List.pairwise_append.mp hord).2.1).1
  refine (C128_visible T ops farm start found clock pre t s (by rw [hrep]; simp) hs ht ?_).mpr ⟨hc, ?_⟩
  · intro x hx
    rw [Found.adds_append, List.mem_append, tableOps_eq, adds_opsOf] at hx
    rw [hrep] at hx
    rcases hx with hx | ⟨q, hq, s2, _, _, rfl⟩
    · exact hpre x hx
    · exact hover q.1 (hpast q hq)
  · have hsplit : adds s.toIdentifier (pre ++ tableOps found clock ((Sys.new T true).run T ops).2) =
        adds s.toIdentifier (pre ++ opsOf found clock a) ++ adds s.toIdentifier (opsOf found clock (r :: b)) := by
      rw [← Found.adds_append, tableOps_eq, hrep, List.append_assoc]
      unfold opsOf
      rw [List.flatMap_append]
    have hne : adds s.toIdentifier (opsOf found clock (r :: b)) ≠ [] := by
      have : (false, clock r.1, s) ∈ adds s.toIdentifier (opsOf found clock (r :: b)) :=
        adds_opsOf.mpr ⟨r, List.mem_cons_self, s, hfound, rfl, rfl⟩
      exact List.ne_nil_of_mem this
    rw [hsplit]
    generalize adds s.toIdentifier (pre ++ opsOf found clock a) = x
    obtain ⟨first, hfirst⟩ : ∃ f, (x ++ adds s.toIdentifier (opsOf found clock (r :: b))).head? = some f := by
      cases h : (x ++ adds s.toIdentifier (opsOf found clock (r :: b))).head? with
      | some f => exact ⟨f, rfl⟩
      | none =>
        rw [List.head?_eq_none_iff] at h
        exact absurd (List.append_eq_nil_iff.mp h).2 hne
    have hl := List.getLast?_eq_some_getLast hne
    have hm := List.getLast_mem hne
    generalize (adds s.toIdentifier (opsOf found clock (r :: b))).getLast hne = z at hl hm
    obtain ⟨q, hq, s2, h1, h2, rfl⟩ := adds_opsOf.mp hm
    refine ⟨first, (false, clock q.1, s2), hfirst, ?_, honly q hq s2 h1 h2, .inr ?_⟩
    · rw [List.getLast?_append, hl]
      rfl
    · show _ ≤ (clock q.1).toInt + 1200
      rcases List.mem_cons.mp hq with rfl | hq
      · exact hfresh
      · have := hk r.1 q.1 0 (by have := hord q hq; omega) (hpast q (List.mem_append_right _ (List.mem_cons_of_mem _ hq)))
        omega

/-! Beside the theorems about the table: a service is found by the first scan and missed by the second. -/

def demoFound : Nat → List Service
  | 1 => [SvcTable.svcA, SvcTable.svcB]
  | _ => [SvcTable.svcB]

/-- The time in seconds. -/
def demoClock (x : Nat) : Int64 := Int64.ofNat (x / sec)

/-- A scan and then five minutes without one. -/
def demoCycle (report : Nat) : List Op := demoScan report ++ .wait (sec / 2) :: .tick :: .poll :: demoIdle 300

/-- A history of half an hour. -/
def demoLong : List Op := (List.range' 1 6).flatMap demoCycle

def demoLongRun : Sys × List (Nat × HEv) := (Sys.new demoT true).run demoT demoLong

theorem demo_long : reports demoLongRun.2 = [(sec / 2, 1), (301 * sec + sec / 2, 2), (602 * sec + sec / 2, 3),
      (903 * sec + sec / 2, 4), (1204 * sec + sec / 2, 5), (1505 * sec + sec / 2, 6)] ∧
    demoLongRun.1.now = 1806 * sec := by decide +kernel

theorem demo_clock (last : Nat) (h : last < 9000000000000000000 * sec) :
    Keeps demoClock last ∧ ∀ x ≤ last, (demoClock x).toInt + 1200 < 9223372036854775808 := by
  have key : ∀ x ≤ last, (demoClock x).toInt = (x / sec : Nat) := by
    intro x hx
    unfold demoClock
    rw [Int64.toInt_ofNat_of_lt]
    have : x / sec < 9000000000000000000 := Nat.div_lt_of_lt_mul (by rw [Nat.mul_comm]; omega)
    omega
  refine ⟨?_, ?_⟩
  · intro a b n hab hb
    have hp : 0 < sec := by decide
    have h1 := key a (by
      have : 0 ≤ n * sec := Nat.zero_le _
      omega)
    have h2 := key b hb
    have : a / sec + n ≤ b / sec := by
      rw [← Nat.add_mul_div_right _ _ hp]
      exact Nat.div_le_div_right hab
    rw [h1, h2]
    omega
  · intro x hx
    rw [key x hx]
    have : x / sec < 9000000000000000000 := Nat.div_lt_of_lt_mul (by rw [Nat.mul_comm]; omega)
    omega

theorem demo_services (evs : List (Nat × HEv)) : Services (tableOps demoFound demoClock evs) := by
  intro op hop a ha
  rw [tableOps_eq] at hop
  obtain ⟨r, _, hr⟩ := List.mem_flatMap.mp hop
  rcases List.mem_append.mp hr with hr | hr
  · obtain ⟨s, hs, rfl⟩ := List.mem_map.mp hr
    injection ha with ha
    subst ha
    have : s = SvcTable.svcA ∨ s = SvcTable.svcB := by
      unfold demoFound at hs
      split at hs
      · simpa using hs
      · exact .inr (by simpa using hs)
    rcases this with rfl | rfl
    · exact .http _ _
    · exact .rtsp _ _ _
  · rw [List.mem_singleton.mp hr] at ha
    cases ha

def demoEnd : Table := ((Table.new 0).run SvcTable.demoFarm ([] ++ tableOps demoFound demoClock demoLongRun.2)).getD (Table.new 0)

theorem demo_table : (Table.new 0).run SvcTable.demoFarm ([] ++ tableOps demoFound demoClock demoLongRun.2) = some demoEnd := by
  have : ((Table.new 0).run SvcTable.demoFarm ([] ++ tableOps demoFound demoClock demoLongRun.2)).isSome = true := by
    decide +kernel
  unfold demoEnd
  cases h : (Table.new 0).run SvcTable.demoFarm ([] ++ tableOps demoFound demoClock demoLongRun.2) with
  | none => rw [h] at this; cases this
  | some t => rfl

theorem demo_now : demoLongRun.1.now < 9000000000000000000 * sec := by
  rw [demo_long.2]
  decide

/-- The first service is only in the first report. Half an hour later it is not visible. -/
example : ∀ i s', s'.toIdentifier = SvcTable.svcA.toIdentifier → (i, s') ∉ demoEnd.visible := by
  refine C128_vanished demoT demoLong SvcTable.demoFarm 0 demoFound demoClock [] demoEnd SvcTable.svcA sec
    (demo_clock _ demo_now).1 (demo_clock _ demo_now).2 nofun (demo_services _) demo_table ?_ ?_
  · intro r hr hv s' hs'
    have hr : r ∈ reports demoLongRun.2 := hr
    rw [demo_long.1] at hr
    have : s' = SvcTable.svcB := by
      simp only [List.mem_cons, List.not_mem_nil, or_false] at hr
      rcases hr with rfl | rfl | rfl | rfl | rfl | rfl
      · exact absurd hv (by decide)
      all_goals exact List.mem_singleton.mp hs'
    rw [this]
    decide +kernel
  · show _ < demoLongRun.1.now
    rw [demo_long.2]
    decide

/-- The second service is in all reports. -/
example : ∃ i, (i, SvcTable.svcB) ∈ demoEnd.visible := by
  refine C128_kept demoT demoLong SvcTable.demoFarm 0 demoFound demoClock [] demoEnd SvcTable.svcB
    [(sec / 2, 1), (301 * sec + sec / 2, 2), (602 * sec + sec / 2, 3), (903 * sec + sec / 2, 4), (1204 * sec + sec / 2, 5)] []
    (1505 * sec + sec / 2, 6) (demo_clock _ demo_now).1 (demo_clock _ demo_now).2 nofun (demo_services _) demo_table rfl
    demo_long.1 List.mem_cons_self ?_ ?_
  · intro q hq s' hs' _
    rw [List.mem_singleton.mp hq] at hs'
    exact List.mem_singleton.mp hs'
  · show (demoClock (lastReport demoLongRun.2)).toInt ≤ _
    unfold lastReport
    rw [demo_long.1]
    decide +kernel

/-- With three scans that miss it the first service is still visible, after the fourth it is not. -/
example :
    (((Table.new 0).run SvcTable.demoFarm (tableOps demoFound demoClock (demoLongRun.2.filter (·.1 < 1204 * sec)))).map (·.visible)) =
      some [(0xffff, SvcTable.svcA), (1, SvcTable.svcB)] ∧
    (((Table.new 0).run SvcTable.demoFarm (tableOps demoFound demoClock (demoLongRun.2.filter (·.1 < 1205 * sec)))).map (·.visible)) =
      some [(1, SvcTable.svcB)] := by
  decide +kernel

end Verif.Props.Cadence
