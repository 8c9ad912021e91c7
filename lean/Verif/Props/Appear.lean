import Verif.Lemmas.AppearTable
import Verif.Lemmas.Told
import Verif.Props.Cadence
import Verif.Props.Silence
/-!
# From a device on the network to the server: C130

The times of `Timing` say how late things can be, as for C128.
-/
namespace Verif.Props.Appear
open Verif Verif.Appear Verif.Cadence Verif.CmdHandler Verif.SvcTable Verif.Control Verif.Spec.SvcTable Verif.Spec.Cadence Verif.Spec.Appear
open Verif.Client (sec Cfg Env COp Cli NEv)
open Verif.Spec.Client

/-! ### Scans -/

/-- C130: every scan that was started is reported in time. -/
theorem C130_scan_reported (T : Timing) (ops : List Op) (t i : Nat)
    (h : (t, i) ∈ starts ((Sys.new T true).run T ops).2)
    (hl : t + T.scan < ((Sys.new T true).run T ops).1.now) :
    ∃ u n, (u, i, n) ∈ published ((Sys.new T true).run T ops).2 ∧ t ≤ u ∧ u ≤ t + T.scan := by
  have m := M.reached T ops
  have j := J.reached T ops
  generalize (Sys.new T true).run T ops = r at *
  have hin : i ∈ done r.2 := by
    have hi : i ∈ (starts r.2).map (·.2) := List.mem_map.mpr ⟨_, h, rfl⟩
    rw [m.ids, List.mem_range] at hi
    rcases m.ph with ⟨a, b, c⟩ | ⟨i', f, q, a, b, c, d, e, g, k⟩ | ⟨i', f, q, a, b, c, d, e, g, k⟩ | ⟨i', d, a, b, c, e, g⟩
    · rw [b]; exact List.mem_range.mpr hi
    · rw [k, List.mem_range]
      by_cases he : i = i'
      · subst he
        have h1 := last_start (by rw [m.ids, g]) h
        have h2 := (j.scan q d).1
        omega
      · omega
    · rw [k]; exact List.mem_range.mpr hi
    · rw [g]; exact List.mem_range.mpr hi
  obtain ⟨⟨u, i', n⟩, hp, rfl⟩ := List.mem_map.mp hin
  exact ⟨u, n, hp, m.times u i' n t hp h⟩

theorem all_before (T : Timing) (ops : List Op) (v : Nat)
    (h : ∀ p ∈ starts ((Sys.new T true).run T ops).2, p.1 ≤ v) :
    ((Sys.new T true).run T ops).1.now ≤ v + wait T := by
  have m := M.reached T ops
  have j := J.reached T ops
  have hb := j.bound.2.1
  have hc := j.count
  have hd := j.due
  generalize (Sys.new T true).run T ops = r at *
  have hl : lastStart r.2 ≤ v := by
    unfold lastStart
    split
    · omega
    · rename_i p hp
      exact h p (List.mem_of_mem_getLast? hp)
  unfold wait
  rcases m.ph with ⟨a, b, c⟩ | ⟨i', f, q, a, b, c, d, e, g, k⟩ | ⟨i', f, q, a, b, c, d, e, g, k⟩ | ⟨i', d, a, b, c, e, g⟩
  · rw [a, if_pos rfl, Nat.add_zero] at hc
    have := hb hc
    rw [← hd] at this
    omega
  · have := (j.scan q d).1
    omega
  · have := (j.scan q d).1
    omega
  · have := (j.poll d c).1
    omega

/-- C130: after any moment the next scan starts in time. -/
theorem C130_next_scan (T : Timing) (ops : List Op) (v : Nat) (hl : v + wait T < ((Sys.new T true).run T ops).1.now) :
    ∃ t i, (t, i) ∈ starts ((Sys.new T true).run T ops).2 ∧ v < t ∧ t ≤ v + wait T := by
  have key : ∀ (l : List Op), v + wait T < ((Sys.new T true).run T l.reverse).1.now →
      ∃ t i, (t, i) ∈ starts ((Sys.new T true).run T l.reverse).2 ∧ v < t ∧ t ≤ v + wait T := by
    intro l
    induction l with
    | nil => intro h; exact absurd h (by show ¬ v + wait T < 0; omega)
    | cons op l ih =>
      intro h
      rw [List.reverse_cons, run_snoc] at h ⊢
      by_cases hp : v + wait T < ((Sys.new T true).run T l.reverse).1.now
      · obtain ⟨t, i, h1, h2⟩ := ih hp
        refine ⟨t, i, ?_, h2⟩
        rw [starts_append]
        exact List.mem_append_left _ h1
      · have hm := M.reached T (l.reverse ++ [op])
        rw [run_snoc] at hm
        have hno : starts (((Sys.new T true).run T l.reverse).1.step T op).2 = [] := by
          refine no_start_late _ op ?_
          show _ < (((Sys.new T true).run T l.reverse).1.step T op).1.now
          have h : v + wait T < (((Sys.new T true).run T l.reverse).1.step T op).1.now := h
          omega
        have hex : ¬ ∀ p ∈ starts (((Sys.new T true).run T l.reverse).2 ++
            (((Sys.new T true).run T l.reverse).1.step T op).2), p.1 ≤ v := by
          intro hall
          have := all_before T (l.reverse ++ [op]) v (by rw [run_snoc]; exact hall)
          rw [run_snoc] at this
          omega
        have hm1 := M.reached T l.reverse
        rw [starts_append, hno, List.append_nil] at hex
        have : ∃ p ∈ starts ((Sys.new T true).run T l.reverse).2, ¬ p.1 ≤ v := by
          apply Classical.byContradiction
          intro hn
          exact hex fun p hp => Classical.byContradiction fun hv => hn ⟨p, hp, hv⟩
        obtain ⟨p, hp1, hp2⟩ := this
        refine ⟨p.1, p.2, ?_, by omega, ?_⟩
        · rw [starts_append]
          exact List.mem_append_left _ hp1
        · have := hm1.past p hp1
          omega
  have := key ops.reverse
  rw [List.reverse_reverse] at this
  exact this hl

/-- The last report is of a scan that started after `v`. -/
theorem last_report (T : Timing) (ops : List Op) (v : Nat)
    (hl : v + wait T + T.scan < ((Sys.new T true).run T ops).1.now) :
    ∃ t i u n l, (t, i) ∈ starts ((Sys.new T true).run T ops).2 ∧ v < t ∧
      published ((Sys.new T true).run T ops).2 = l ++ [(u, i, n)] := by
  obtain ⟨t, i, h1, h2, h3⟩ := C130_next_scan T ops v (by omega)
  obtain ⟨u, n, h4, h5, h6⟩ := C130_scan_reported T ops t i h1 (by omega)
  have m := M.reached T ops
  have ho := ordered_run (T := T) ops (Sys.new T true) [] ⟨List.Pairwise.nil, nofun⟩
  rw [List.nil_append] at ho
  generalize (Sys.new T true).run T ops = r at *
  rcases List.eq_nil_or_concat (published r.2) with e | ⟨l, ⟨u', i', n'⟩, e⟩
  · rw [e] at h4; cases h4
  rw [List.concat_eq_append] at e
  have hi' : i' ∈ done r.2 := List.mem_map.mpr ⟨_, by rw [e]; exact List.mem_append_right _ (List.mem_singleton.mpr rfl), rfl⟩
  have hdone : ∃ k, done r.2 = List.range k ∧ k ≤ r.1.h.workers.length := by
    rcases m.ph with ⟨a, b, c⟩ | ⟨_, f, q, a, b, c, d, e, g, k⟩ | ⟨_, f, q, a, b, c, d, e, g, k⟩ | ⟨_, d, a, b, c, e, g⟩
    · exact ⟨_, b, Nat.le_refl _⟩
    · exact ⟨_, k, by omega⟩
    · exact ⟨_, k, Nat.le_refl _⟩
    · exact ⟨_, g, Nat.le_refl _⟩
  obtain ⟨k, hk, hkl⟩ := hdone
  have hii : i ≤ i' := by
    have hlast : i' + 1 = k := by
      have hk' := hk
      unfold done at hk'
      rw [e, List.map_append] at hk'
      cases k with
      | zero => simp at hk'
      | succ k =>
        rw [List.range_succ] at hk'
        have := List.append_inj_right' hk' rfl
        have : [i'] = [k] := this
        cases this
        rfl
    have hi : i ∈ done r.2 := List.mem_map.mpr ⟨_, h4, rfl⟩
    rw [hk, List.mem_range] at hi
    omega
  rw [hk, List.mem_range] at hi'
  have hs' : i' ∈ (starts r.2).map (·.2) := by
    rw [m.ids]; exact List.mem_range.mpr (by omega)
  obtain ⟨⟨t', j'⟩, hs, rfl⟩ := List.mem_map.mp hs'
  refine ⟨t', j', u', n', l, hs, ?_, e⟩
  have := starts_sorted m.ids (starts_ordered ho) h1 hs hii
  omega

/-- C130: a service that every scan after the time `v` finds, in the same form, is visible once the next scan has had its time,
and from then on. -/
theorem C130_appears (T : Timing) (ops : List Op) (farm : Bytes → UInt64) (start : Int64) (found : Nat → List Service)
    (clock : Nat → Int64) (pre : List TOp) (tb : Table) (s : Service) (v : Nat)
    (hk : Keeps clock ((Sys.new T true).run T ops).1.now)
    (hover : ∀ x ≤ ((Sys.new T true).run T ops).1.now, (clock x).toInt + 1200 < 9223372036854775808)
    (hpre : ∀ a ∈ adds s.toIdentifier pre, a.2.1.toInt + 1200 < 9223372036854775808)
    (hs : Services (pre ++ tableOps found clock ((Sys.new T true).run T ops).2))
    (ht : (Table.new start).run farm (pre ++ tableOps found clock ((Sys.new T true).run T ops).2) = some tb)
    (hc : s.isControl = false)
    (hfound : ∀ t i u n, (t, i) ∈ starts ((Sys.new T true).run T ops).2 → v < t →
      (u, i, n) ∈ published ((Sys.new T true).run T ops).2 →
      s ∈ found n ∧ ∀ s' ∈ found n, s'.toIdentifier = s.toIdentifier → s' = s)
    (hlate : v + wait T + T.scan < ((Sys.new T true).run T ops).1.now) :
    ∃ i, (i, s) ∈ tb.visible := by
  obtain ⟨t, i, u, n, l, h1, h2, h3⟩ := last_report T ops v hlate
  have hf := hfound t i u n h1 h2 (by rw [h3]; exact List.mem_append_right _ (List.mem_singleton.mpr rfl))
  have hrep : reports ((Sys.new T true).run T ops).2 = l.map (fun p => (p.1, p.2.2)) ++ [(u, n)] := by
    rw [reports_eq, h3, List.map_append]
    rfl
  refine Cadence.C128_kept T ops farm start found clock pre tb s _ [] (u, n) hk hover hpre hs ht hc hrep hf.1 ?_ ?_
  · intro q hq
    rw [List.mem_singleton] at hq
    subst hq
    exact hf.2
  · unfold lastReport
    rw [hrep, List.getLast?_concat]
    show (clock u).toInt ≤ (clock u).toInt + 1200
    omega

/-! ### The server -/

/-- The history up to an operation is a part of the whole one. -/
theorem prefix_of {T : Timing} {ops a b : List Op} (h : ops = a ++ b) :
    ((Sys.new T true).run T a).1.now ≤ ((Sys.new T true).run T ops).1.now ∧
    ∃ l, ((Sys.new T true).run T ops).2 = ((Sys.new T true).run T a).2 ++ l := by
  subst h
  rw [Verif.Appear.run_append]
  exact ⟨run_now b _, _, rfl⟩

theorem keeps_mono {clock : Nat → Int64} {x y : Nat} (h : Keeps clock y) (hxy : x ≤ y) : Keeps clock x :=
  fun a b n h1 h2 => h a b n h1 (Nat.le_trans h2 hxy)

theorem services_prefix {a b : List TOp} (h : Services (a ++ b)) : Services a :=
  fun op hop => h op (List.mem_append_left _ hop)

/-- Two readings with the same version show the same services. -/
theorem reads_same {T : Timing} {ops : List Op} {farm : Bytes → UInt64} {start : Int64} {found : Nat → List Service}
    {clock : Nat → Int64} {pre : List TOp} {x y : Env}
    (hs : Services (pre ++ tableOps found clock ((Sys.new T true).run T ops).2))
    (hcost : costs (pre ++ tableOps found clock ((Sys.new T true).run T ops).2) < 4294967296)
    (hx : Reads T ops farm start found clock pre x) (hy : Reads T ops farm start found clock pre y)
    (hv : x.version = y.version) : ∀ p, p ∈ x.visible ↔ p ∈ y.visible := by
  have key : ∀ {z : Env}, Reads T ops farm start found clock pre z → ∃ t, Spec.Naming.Stages farm (Table.new start)
      (pre ++ tableOps found clock ((Sys.new T true).run T ops).2) t ∧ z.visible = t.visible ∧ z.version = t.visVersion := by
    rintro z ⟨a, op, b, p, rest, t, h1, -, h3, h4, h5, h6, -⟩
    obtain ⟨-, l, hl⟩ := prefix_of (T := T) (ops := ops) (a := a ++ [op]) (b := b) (by rw [h1, List.append_assoc]; rfl)
    refine ⟨t, ⟨_, rest ++ tableOps found clock l, ?_, h4⟩, h5, h6⟩
    rw [hl, tableOps_append, h3]
    simp only [List.append_assoc]
  obtain ⟨t, h1, h2, h3⟩ := key hx
  obtain ⟨t', k1, k2, k3⟩ := key hy
  have := Found.stages_version (inv_new start) hs hcost h1 k1 (by rw [← h3, ← k3]; exact hv)
  intro p
  rw [h2, k2]
  exact this p

theorem reads_ids {T : Timing} {ops : List Op} {farm : Bytes → UInt64} {start : Int64} {found : Nat → List Service}
    {clock : Nat → Int64} {pre : List TOp} {x : Env}
    (hs : Services (pre ++ tableOps found clock ((Sys.new T true).run T ops).2))
    (hx : Reads T ops farm start found clock pre x) : (x.visible.map (·.1)).Nodup := by
  obtain ⟨a, op, b, p, rest, t, h1, -, h3, h4, h5, h6, -⟩ := hx
  obtain ⟨-, l, hl⟩ := prefix_of (T := T) (ops := ops) (a := a ++ [op]) (b := b) (by rw [h1, List.append_assoc]; rfl)
  rw [h5]
  refine vis_ids (inv_run (inv_new start) ?_ h4)
  rw [hl, tableOps_append, h3] at hs
  refine services_prefix (b := rest ++ tableOps found clock l) ?_
  simpa only [List.append_assoc] using hs

/-- A service found by every scan after `v` is in what a connection reads. -/
theorem reads_appears {T : Timing} {ops : List Op} {farm : Bytes → UInt64} {start : Int64} {found : Nat → List Service}
    {clock : Nat → Int64} {pre : List TOp} {s : Service} {v : Nat} {x : Env}
    (hk : Keeps clock ((Sys.new T true).run T ops).1.now)
    (hover : ∀ x ≤ ((Sys.new T true).run T ops).1.now, (clock x).toInt + 1200 < 9223372036854775808)
    (hpre : ∀ a ∈ adds s.toIdentifier pre, a.2.1.toInt + 1200 < 9223372036854775808)
    (hs : Services (pre ++ tableOps found clock ((Sys.new T true).run T ops).2))
    (hc : s.isControl = false)
    (hfound : ∀ t i u n, (t, i) ∈ starts ((Sys.new T true).run T ops).2 → v < t →
      (u, i, n) ∈ published ((Sys.new T true).run T ops).2 →
      s ∈ found n ∧ ∀ s' ∈ found n, s'.toIdentifier = s.toIdentifier → s' = s)
    (hx : Reads T ops farm start found clock pre x) (hlate : v + wait T + T.scan < x.now) :
    ∃ i, (i, s) ∈ x.visible := by
  obtain ⟨a, op, b, p, rest, t, h1, h2, h3, h4, h5, -, -⟩ := hx
  obtain ⟨hn1, l1, hl1⟩ := prefix_of (T := T) (ops := ops) (a := a ++ [op]) (b := b) (by rw [h1, List.append_assoc]; rfl)
  obtain ⟨hn2, l2, hl2⟩ := prefix_of (T := T) (a := a) (b := op :: b) h1
  rw [h5]
  -- the theorem for a part of the history
  have part : ∀ (o : List Op) (l : List (Nat × HEv)) (tb : Table), ((Sys.new T true).run T o).1.now ≤ ((Sys.new T true).run T ops).1.now →
      ((Sys.new T true).run T ops).2 = ((Sys.new T true).run T o).2 ++ l → v + wait T + T.scan < ((Sys.new T true).run T o).1.now →
      (Table.new start).run farm (pre ++ tableOps found clock ((Sys.new T true).run T o).2) = some tb →
      ∃ i, (i, s) ∈ tb.visible := by
    intro o l tb hn hl hlt htb
    refine C130_appears T o farm start found clock pre tb s v (keeps_mono hk hn) (fun x hx => hover x (Nat.le_trans hx hn)) hpre ?_
      htb hc ?_ hlt
    · rw [hl, tableOps_append, ← List.append_assoc] at hs
      exact services_prefix hs
    · intro t i u n q1 q2 q3
      refine hfound t i u n ?_ q2 ?_
      · rw [hl, starts_append]; exact List.mem_append_left _ q1
      · rw [hl, published_append]; exact List.mem_append_left _ q3
  rcases reads_cases h3 with he | ⟨hn, i, n, l, hpub, hp, hsub⟩
  · rw [he] at h4
    exact part (a ++ [op]) l1 t hn1 hl1 (by rw [← h2]; exact hlate) h4
  · have hlate' : v + wait T + T.scan < ((Sys.new T true).run T a).1.now := by rw [← hn, ← h2]; exact hlate
    rw [← List.append_assoc, SvcTable.run_append] at h4
    obtain ⟨ta, g1, g2⟩ := Option.bind_eq_some_iff.mp h4
    have hsa : Services (pre ++ tableOps found clock ((Sys.new T true).run T a).2 ++ p) := by
      rw [hl1, tableOps_append, h3] at hs
      refine services_prefix (b := rest ++ tableOps found clock l1) ?_
      simpa only [List.append_assoc] using hs
    have hva := part a l2 ta hn2 hl2 hlate' g1
    subst hp
    refine adds_keep l (inv_run (inv_new start) (services_prefix hsa) g1)
      (fun op hop => hsa op (List.mem_append_right _ hop)) g2 ?_ hva
    intro s' hs' hid
    obtain ⟨t', i', u', n', l', q1, q2, q3⟩ := last_report T (a ++ [op]) v (by rw [hn]; exact hlate')
    rw [hpub] at q3
    have := List.append_inj_right' q3 rfl
    have : (i, n) = (i', n') := by
      injection this with this
      injection this with _ this
    cases this
    refine (hfound t' i ((Sys.new T true).run T a).1.now n ?_ q2 ?_).2 s' (hsub s' hs') hid
    · rw [hl1, starts_append]; exact List.mem_append_left _ q1
    · rw [hl1, published_append, hpub]
      exact List.mem_append_left _ (List.mem_append_right _ (List.mem_singleton.mpr rfl))

/-- A service no scan has found since `v` is not in what a connection reads. -/
theorem reads_vanished {T : Timing} {ops : List Op} {farm : Bytes → UInt64} {start : Int64} {found : Nat → List Service}
    {clock : Nat → Int64} {pre : List TOp} {s : Service} {v : Nat} {x : Env}
    (hk : Keeps clock ((Sys.new T true).run T ops).1.now)
    (hover : ∀ x ≤ ((Sys.new T true).run T ops).1.now, (clock x).toInt + 1200 < 9223372036854775808)
    (hpre : ∀ a ∈ adds s.toIdentifier pre, a.1 = false ∧ a.2.1.toInt ≤ (clock 0).toInt)
    (hs : Services (pre ++ tableOps found clock ((Sys.new T true).run T ops).2))
    (hgone : ∀ r ∈ reports ((Sys.new T true).run T ops).2, v < r.1 → ∀ s' ∈ found r.2, s'.toIdentifier ≠ s.toIdentifier)
    (hx : Reads T ops farm start found clock pre x)
    (hlate : v + 1201 * sec + 300 * sec + T.tick + 2 * T.lag + 2 * T.scan < x.now) :
    ∀ i s', s'.toIdentifier = s.toIdentifier → (i, s') ∉ x.visible := by
  obtain ⟨a, op, b, p, rest, t, h1, h2, h3, h4, h5, -, -⟩ := hx
  obtain ⟨hn1, l1, hl1⟩ := prefix_of (T := T) (ops := ops) (a := a ++ [op]) (b := b) (by rw [h1, List.append_assoc]; rfl)
  obtain ⟨hn2, l2, hl2⟩ := prefix_of (T := T) (a := a) (b := op :: b) h1
  rw [h5]
  have part : ∀ (o : List Op) (l : List (Nat × HEv)) (tb : Table), ((Sys.new T true).run T o).1.now ≤ ((Sys.new T true).run T ops).1.now →
      ((Sys.new T true).run T ops).2 = ((Sys.new T true).run T o).2 ++ l →
      v + 1201 * sec + 300 * sec + T.tick + 2 * T.lag + 2 * T.scan < ((Sys.new T true).run T o).1.now →
      (Table.new start).run farm (pre ++ tableOps found clock ((Sys.new T true).run T o).2) = some tb →
      ∀ i s', s'.toIdentifier = s.toIdentifier → (i, s') ∉ tb.visible := by
    intro o l tb hn hl hlt htb
    refine Cadence.C128_vanished T o farm start found clock pre tb s v (keeps_mono hk hn) (fun x hx => hover x (Nat.le_trans hx hn)) hpre ?_
      htb ?_ hlt
    · rw [hl, tableOps_append, ← List.append_assoc] at hs
      exact services_prefix hs
    · intro r hr
      refine hgone r ?_
      rw [hl, Verif.Cadence.reports_append]
      exact List.mem_append_left _ hr
  rcases reads_cases h3 with he | ⟨hn, i, n, l, hpub, hp, hsub⟩
  · rw [he] at h4
    exact part (a ++ [op]) l1 t hn1 hl1 (by rw [← h2]; exact hlate) h4
  · have hlate' : v + 1201 * sec + 300 * sec + T.tick + 2 * T.lag + 2 * T.scan < ((Sys.new T true).run T a).1.now := by
      rw [← hn, ← h2]; exact hlate
    rw [← List.append_assoc, SvcTable.run_append] at h4
    obtain ⟨ta, g1, g2⟩ := Option.bind_eq_some_iff.mp h4
    have hsa : Services (pre ++ tableOps found clock ((Sys.new T true).run T a).2 ++ p) := by
      rw [hl1, tableOps_append, h3] at hs
      refine services_prefix (b := rest ++ tableOps found clock l1) ?_
      simpa only [List.append_assoc] using hs
    have hva := part a l2 ta hn2 hl2 hlate' g1
    subst hp
    intro j s' hid
    refine adds_absent l (inv_run (inv_new start) (services_prefix hsa) g1)
      (fun op hop => hsa op (List.mem_append_right _ hop)) g2 ?_ (fun i => hva i s' hid) j
    intro s2 hs2
    rw [hid]
    refine hgone (((Sys.new T true).run T a).1.now, n) ?_ (by show v < ((Sys.new T true).run T a).1.now; omega) s2 (hsub s2 hs2)
    rw [hl1, Verif.Cadence.reports_append, reports_eq, hpub, List.map_append]
    exact List.mem_append_left _ (List.mem_append_right _ (List.mem_singleton.mpr rfl))

/-- C130: from the network to the server. A service is found by every scan after the time `v`, in the same form. Five seconds
after the next scan has had its time, and from then on, the server of an established connection has been told about it, with
the last timer event. The table must not have changed more often than its version can count; 60000 reports of small networks, one every five
minutes, are not too many. -/
theorem C130_announced (T : Timing) (ops : List Op) (farm : Bytes → UInt64) (start : Int64) (found : Nat → List Service)
    (clock : Nat → Int64) (pre : List TOp) (s : Service) (v : Nat) (cfg : Cfg) (env : Env) (cops : List COp) (e : Env) (c c' : Cli)
    (hk : Keeps clock ((Sys.new T true).run T ops).1.now)
    (hover : ∀ x ≤ ((Sys.new T true).run T ops).1.now, (clock x).toInt + 1200 < 9223372036854775808)
    (hpre : ∀ a ∈ adds s.toIdentifier pre, a.2.1.toInt + 1200 < 9223372036854775808)
    (hs : Services (pre ++ tableOps found clock ((Sys.new T true).run T ops).2))
    (hcost : costs (pre ++ tableOps found clock ((Sys.new T true).run T ops).2) < 4294967296)
    (hc : s.isControl = false)
    (hfound : ∀ t i u n, (t, i) ∈ starts ((Sys.new T true).run T ops).2 → v < t →
      (u, i, n) ∈ published ((Sys.new T true).run T ops).2 →
      s ∈ found n ∧ ∀ s' ∈ found n, s'.toIdentifier = s.toIdentifier → s' = s)
    (hreads : ∀ x ∈ env :: envs (cops ++ [.tick e]), Reads T ops farm start found clock pre x)
    (hm : Monotone env.now (cops ++ [.tick e])) (hl : (Client.hist cfg env cops).1 = .live c)
    (hl' : (Client.hist cfg env (cops ++ [.tick e])).1 = .live c')
    (hh : hsRun (register cfg env) (Client.hist cfg env cops).2 = .established)
    (hlate : v + wait T + T.scan + 5 * sec ≤ e.now) :
    ∃ i, Spec.Found.Listed (Client.hist cfg env (cops ++ [.tick e])).2 i s := by
  obtain ⟨x, hx, y, hy, h1, h2, h3⟩ := Told.told cfg env cops e c c' (fun x hx => by
    obtain ⟨a, op, b, p, rest, t, -, -, -, -, -, h6, h7⟩ := hreads x hx
    rw [h6, h7]) hm hl hl' hh
  have hsec : 5 * sec = 5000000000 := rfl
  obtain ⟨i, hi⟩ := reads_appears hk hover hpre hs hc hfound (hreads y hy) (by omega)
  have hi' := (reads_same hs hcost (hreads x hx) (hreads y hy) h2 (i, s)).mpr hi
  exact ⟨i, _, h1, (Found.mem_ofServices (reads_ids hs (hreads x hx)) i s).mpr hi'⟩

/-- C130: and back. A service was never static, and no scan has reported it since the time `v`. Five seconds after the time of
`C128_vanished`, and from then on, it is not among the services the server has last been told about, with the last timer
event. -/
theorem C130_withdrawn (T : Timing) (ops : List Op) (farm : Bytes → UInt64) (start : Int64) (found : Nat → List Service)
    (clock : Nat → Int64) (pre : List TOp) (s : Service) (v : Nat) (cfg : Cfg) (env : Env) (cops : List COp) (e : Env) (c c' : Cli)
    (hk : Keeps clock ((Sys.new T true).run T ops).1.now)
    (hover : ∀ x ≤ ((Sys.new T true).run T ops).1.now, (clock x).toInt + 1200 < 9223372036854775808)
    (hpre : ∀ a ∈ adds s.toIdentifier pre, a.1 = false ∧ a.2.1.toInt ≤ (clock 0).toInt)
    (hs : Services (pre ++ tableOps found clock ((Sys.new T true).run T ops).2))
    (hcost : costs (pre ++ tableOps found clock ((Sys.new T true).run T ops).2) < 4294967296)
    (hgone : ∀ r ∈ reports ((Sys.new T true).run T ops).2, v < r.1 → ∀ s' ∈ found r.2, s'.toIdentifier ≠ s.toIdentifier)
    (hreads : ∀ x ∈ env :: envs (cops ++ [.tick e]), Reads T ops farm start found clock pre x)
    (hm : Monotone env.now (cops ++ [.tick e])) (hl : (Client.hist cfg env cops).1 = .live c)
    (hl' : (Client.hist cfg env (cops ++ [.tick e])).1 = .live c')
    (hh : hsRun (register cfg env) (Client.hist cfg env cops).2 = .established)
    (hlate : v + 1201 * sec + 300 * sec + T.tick + 2 * T.lag + 2 * T.scan + 5 * sec ≤ e.now) :
    ∀ i s', s'.toIdentifier = s.toIdentifier → ¬ Spec.Found.Listed (Client.hist cfg env (cops ++ [.tick e])).2 i s' := by
  obtain ⟨x, hx, y, hy, h1, h2, h3⟩ := Told.told cfg env cops e c c' (fun x hx => by
    obtain ⟨a, op, b, p, rest, t, -, -, -, -, -, h6, h7⟩ := hreads x hx
    rw [h6, h7]) hm hl hl' hh
  have hsec : 5 * sec = 5000000000 := rfl
  rintro i s' hid ⟨t, g1, g2⟩
  rw [h1] at g1
  cases g1
  have hi := (Found.mem_ofServices (reads_ids hs (hreads x hx)) i s').mp g2
  have hi' := (reads_same hs hcost (hreads x hx) (hreads y hy) h2 (i, s')).mp hi
  exact reads_vanished hk hover hpre hs hgone (hreads y hy) (by omega) i s' hid hi'

/-! ### A concrete case

A trigger every 100 seconds, a lag of at most a second, scans of at most a second. The first scan finds nothing, the second one,
after 400 seconds, finds a service. A connection is made after 399 seconds. -/

deriving instance DecidableEq for TOp
deriving instance DecidableEq for Op

def demoT : Timing := ⟨100 * sec, sec, sec⟩

def demoService : Service := .http .zero ⟨.v4 127 0 0 1, 80⟩

def demoFound : Nat → List Service
  | 1 => []
  | _ => [demoService]

def demoFarm : Bytes → UInt64 := fun _ => 1

/-- Until one second before the second scan. -/
def demoBefore : List Op :=
  Cadence.demoScan 1 ++ [.wait (99 * sec + sec / 2), .tick, .poll, .wait (100 * sec), .tick, .poll, .wait (100 * sec), .tick, .poll]

/-- The second scan. -/
def demoScan2 : List Op := .wait sec :: Cadence.demoScan 2

def demoOps : List Op := demoBefore ++ .wait (99 * sec) :: (demoScan2 ++ [.wait (3 * sec + sec / 2), .wait (6 * sec)])

/-- The connection: the server answers, and two timer events. -/
def demoConn : List COp :=
  [.poll .pending [], .poll (.msg (Client.demoEnv 399 0) (Client.demoAck 0)) [], .tick (Client.demoEnv 404 1), .poll .pending []]

theorem demo_starts : starts ((Sys.new demoT true).run demoT demoOps).2 = [(0, 0), (400 * sec, 1)] ∧
    published ((Sys.new demoT true).run demoT demoOps).2 = [(sec / 2, 0, 1), (400 * sec + sec / 2, 1, 2)] ∧
    ((Sys.new demoT true).run demoT demoOps).1.now = 410 * sec := by decide +kernel

theorem demo_tableOps : tableOps demoFound Cadence.demoClock ((Sys.new demoT true).run demoT demoOps).2 =
    [.updateActive (Cadence.demoClock (sec / 2)), .add (Cadence.demoClock (400 * sec + sec / 2)) demoService,
      .updateActive (Cadence.demoClock (400 * sec + sec / 2))] := by decide +kernel

theorem demo_services : Services ([] ++ tableOps demoFound Cadence.demoClock ((Sys.new demoT true).run demoT demoOps).2) := by
  rw [List.nil_append, demo_tableOps]
  intro op hop a ha
  simp only [List.mem_cons, List.not_mem_nil, or_false] at hop
  rcases hop with rfl | rfl | rfl
  · cases ha
  · cases ha
    exact .http _ _
  · cases ha

/-- A reading of the table as it is after an operation that does not change it. -/
theorem demo_read (found : Nat → List Service) (ops : List Op) (n : Nat) (op : Op) (hn : ops[n]? = some op) (x : Env) (t : Table)
    (h1 : x.now = ((Sys.new demoT true).run demoT (ops.take n ++ [op])).1.now)
    (h2 : tableOps found Cadence.demoClock ((Sys.new demoT true).run demoT (ops.take n ++ [op])).2 =
      tableOps found Cadence.demoClock ((Sys.new demoT true).run demoT (ops.take n)).2)
    (h3 : (Table.new 0).run demoFarm (tableOps found Cadence.demoClock ((Sys.new demoT true).run demoT (ops.take n)).2) = some t)
    (h4 : x.visible = t.visible ∧ x.version = t.visVersion ∧ x.versionAfter = t.visVersion) :
    Reads demoT ops demoFarm 0 found Cadence.demoClock [] x := by
  obtain ⟨hl, ho⟩ := List.getElem?_eq_some_iff.mp hn
  refine ⟨ops.take n, op, ops.drop (n + 1), [], [], t, ?_, h1, ?_, ?_, h4⟩
  · rw [← ho, ← List.drop_eq_getElem_cons hl, List.take_append_drop]
  · rw [h2]
    simp
  · simpa using h3

def demoTable0 : Table := (Table.new 0).updateActive (Cadence.demoClock (sec / 2))
def demoTable1 : Table :=
  (demoTable0.add demoFarm (Cadence.demoClock (400 * sec + sec / 2)) demoService).elim demoTable0
    fun r => r.1.updateActive (Cadence.demoClock (400 * sec + sec / 2))

theorem demo_reads : ∀ x ∈ Client.demoEnv 399 0 :: envs (demoConn ++ [.tick (Client.demoEnv 410 1)]),
    Reads demoT demoOps demoFarm 0 demoFound Cadence.demoClock [] x := by
  have h399 : Reads demoT demoOps demoFarm 0 demoFound Cadence.demoClock [] (Client.demoEnv 399 0) :=
    demo_read demoFound demoOps 19 (.wait (99 * sec)) (by decide +kernel) _ demoTable0 (by decide +kernel) (by decide +kernel)
      (by decide +kernel) (by decide +kernel)
  have h404 : Reads demoT demoOps demoFarm 0 demoFound Cadence.demoClock [] (Client.demoEnv 404 1) :=
    demo_read demoFound demoOps 31 (.wait (3 * sec + sec / 2)) (by decide +kernel) _ demoTable1 (by decide +kernel)
      (by decide +kernel) (by decide +kernel) (by decide +kernel)
  have h410 : Reads demoT demoOps demoFarm 0 demoFound Cadence.demoClock [] (Client.demoEnv 410 1) :=
    demo_read demoFound demoOps 32 (.wait (6 * sec)) (by decide +kernel) _ demoTable1 (by decide +kernel)
      (by decide +kernel) (by decide +kernel) (by decide +kernel)
  intro x hx
  simp only [demoConn, List.cons_append, List.nil_append, envs, Spec.Client.Incoming.envs, List.flatMap_nil, List.append_nil,
    List.mem_cons, List.not_mem_nil, or_false] at hx
  rcases hx with rfl | rfl | rfl | rfl
  · exact h399
  · exact h399
  · exact h404
  · exact h410

theorem demo_live (env : Env) (ops : List COp)
    (h : (match (Client.hist Client.demoCfg env ops).1 with | .live _ => true | _ => false) = true) :
    ∃ c, (Client.hist Client.demoCfg env ops).1 = .live c := by
  split at h
  · exact ⟨_, by assumption⟩
  · cases h

/-- The second scan starts within the bound and reports within the bound. -/
example : (∃ u n, (u, 1, n) ∈ published ((Sys.new demoT true).run demoT demoOps).2 ∧ 400 * sec ≤ u ∧ u ≤ 400 * sec + sec) ∧
    ∃ t i, (t, i) ∈ starts ((Sys.new demoT true).run demoT demoOps).2 ∧ 0 < t ∧ t ≤ 0 + 403 * sec := by
  refine ⟨C130_scan_reported demoT demoOps _ 1 ?_ ?_, C130_next_scan demoT demoOps 0 ?_⟩
  · rw [demo_starts.1]
    decide
  · rw [demo_starts.2.2]
    decide
  · rw [demo_starts.2.2]
    decide

theorem demo_found (t i u n : Nat) (h1 : (t, i) ∈ starts ((Sys.new demoT true).run demoT demoOps).2) (h2 : 0 < t)
    (h3 : (u, i, n) ∈ published ((Sys.new demoT true).run demoT demoOps).2) :
    demoService ∈ demoFound n ∧ ∀ s' ∈ demoFound n, s'.toIdentifier = demoService.toIdentifier → s' = demoService := by
  rw [demo_starts.1] at h1
  rw [demo_starts.2.1] at h3
  simp only [List.mem_cons, List.not_mem_nil, or_false, Prod.mk.injEq] at h1 h3
  rcases h1 with ⟨rfl, rfl⟩ | ⟨rfl, rfl⟩
  · omega
  · rcases h3 with ⟨_, h, _⟩ | ⟨_, _, rfl⟩
    · cases h
    · exact ⟨List.mem_singleton.mpr rfl, fun s' hs' _ => List.mem_singleton.mp hs'⟩

theorem demo_last : ((Sys.new demoT true).run demoT demoOps).1.now < 9000000000000000000 * sec := by
  rw [demo_starts.2.2]
  decide

/-- After 410 seconds the service is visible. -/
example : ∃ i, (i, demoService) ∈ demoTable1.visible := by
  refine C130_appears demoT demoOps demoFarm 0 demoFound Cadence.demoClock [] demoTable1 demoService 0
    (Cadence.demo_clock _ demo_last).1 (Cadence.demo_clock _ demo_last).2 nofun demo_services ?_ rfl demo_found ?_
  · rw [List.nil_append, demo_tableOps]
    decide +kernel
  · rw [demo_starts.2.2]
    decide

/-- Before the scan the server has been told that there is no service; in the end it knows the one. -/
example : (∃ i, Spec.Found.Listed
      (Client.hist Client.demoCfg (Client.demoEnv 399 0) (demoConn ++ [.tick (Client.demoEnv 410 1)])).2 i demoService) ∧
    announced (Client.hist Client.demoCfg (Client.demoEnv 399 0) (demoConn.take 2)).2 = some ⟨[]⟩ := by
  obtain ⟨c, hc⟩ := demo_live (Client.demoEnv 399 0) demoConn (by decide +kernel)
  obtain ⟨c', hc'⟩ := demo_live (Client.demoEnv 399 0) (demoConn ++ [.tick (Client.demoEnv 410 1)]) (by decide +kernel)
  refine ⟨C130_announced demoT demoOps demoFarm 0 demoFound Cadence.demoClock [] demoService 0 _ _ _ _ c c'
    (Cadence.demo_clock _ demo_last).1 (Cadence.demo_clock _ demo_last).2 nofun demo_services ?_ rfl demo_found demo_reads ?_ hc hc'
    ?_ ?_, ?_⟩
  · rw [List.nil_append, demo_tableOps]
    decide
  · simp [Monotone, demoConn, times, Spec.Client.Incoming.times, Client.demoEnv]
  · decide +kernel
  · decide
  · decide +kernel

/-! ### A service that disappears

Only the first scan finds the service. A connection is made after 1590 seconds, and the scan after 1600 seconds hides it. -/

def demoLost : Nat → List Service
  | 1 => [demoService]
  | _ => []

/-- The three triggers after a scan that come too early for the next one. -/
def demoEarly : List Op :=
  [.wait (99 * sec + sec / 2), .tick, .poll, .wait (100 * sec), .tick, .poll, .wait (100 * sec), .tick, .poll]

def demoOps2 : List Op :=
  Cadence.demoScan 1 ++ demoEarly ++ .wait (100 * sec) :: Cadence.demoScan 2 ++ demoEarly ++ .wait (100 * sec) ::
    Cadence.demoScan 3 ++ demoEarly ++ .wait (100 * sec) :: Cadence.demoScan 4 ++ demoEarly ++ .wait (90 * sec) ::
    .wait (10 * sec) :: Cadence.demoScan 5 ++ [.wait (4 * sec + sec / 2), .wait (7 * sec)]

def demoEnv2 (t : Nat) : Env := { Client.demoEnv t 2 with visible := [] }

def demoConn2 : List COp :=
  [.poll .pending [], .poll (.msg (Client.demoEnv 1590 1) (Client.demoAck 0)) [], .tick (demoEnv2 1605), .poll .pending []]

theorem demo_reports2 : reports ((Sys.new demoT true).run demoT demoOps2).2 =
      [(sec / 2, 1), (400 * sec + sec / 2, 2), (800 * sec + sec / 2, 3), (1200 * sec + sec / 2, 4), (1600 * sec + sec / 2, 5)] ∧
    ((Sys.new demoT true).run demoT demoOps2).1.now = 1612 * sec := by decide +kernel

theorem demo_tableOps2 : tableOps demoLost Cadence.demoClock ((Sys.new demoT true).run demoT demoOps2).2 =
    [.add (Cadence.demoClock (sec / 2)) demoService, .updateActive (Cadence.demoClock (sec / 2)),
      .updateActive (Cadence.demoClock (400 * sec + sec / 2)), .updateActive (Cadence.demoClock (800 * sec + sec / 2)),
      .updateActive (Cadence.demoClock (1200 * sec + sec / 2)), .updateActive (Cadence.demoClock (1600 * sec + sec / 2))] := by
  decide +kernel

theorem demo_services2 : Services ([] ++ tableOps demoLost Cadence.demoClock ((Sys.new demoT true).run demoT demoOps2).2) := by
  rw [List.nil_append, demo_tableOps2]
  intro op hop a ha
  simp only [List.mem_cons, List.not_mem_nil, or_false] at hop
  rcases hop with rfl | rfl | rfl | rfl | rfl | rfl
  · cases ha
    exact .http _ _
  all_goals cases ha

def demoTable2 : Table :=
  ((Table.new 0).run demoFarm
    [.add (Cadence.demoClock (sec / 2)) demoService, .updateActive (Cadence.demoClock (1200 * sec + sec / 2))]).getD (Table.new 0)
def demoTable3 : Table := demoTable2.updateActive (Cadence.demoClock (1600 * sec + sec / 2))

theorem demo_reads2 : ∀ x ∈ Client.demoEnv 1590 1 :: envs (demoConn2 ++ [.tick (demoEnv2 1612)]),
    Reads demoT demoOps2 demoFarm 0 demoLost Cadence.demoClock [] x := by
  have h1 : Reads demoT demoOps2 demoFarm 0 demoLost Cadence.demoClock [] (Client.demoEnv 1590 1) :=
    demo_read demoLost demoOps2 79 (.wait (90 * sec)) (by decide +kernel) _ demoTable2 (by decide +kernel) (by decide +kernel)
      (by decide +kernel) (by decide +kernel)
  have h2 : Reads demoT demoOps2 demoFarm 0 demoLost Cadence.demoClock [] (demoEnv2 1605) :=
    demo_read demoLost demoOps2 91 (.wait (4 * sec + sec / 2)) (by decide +kernel) _ demoTable3 (by decide +kernel)
      (by decide +kernel) (by decide +kernel) (by decide +kernel)
  have h3 : Reads demoT demoOps2 demoFarm 0 demoLost Cadence.demoClock [] (demoEnv2 1612) :=
    demo_read demoLost demoOps2 92 (.wait (7 * sec)) (by decide +kernel) _ demoTable3 (by decide +kernel)
      (by decide +kernel) (by decide +kernel) (by decide +kernel)
  intro x hx
  simp only [demoConn2, List.cons_append, List.nil_append, envs, Spec.Client.Incoming.envs, List.flatMap_nil, List.append_nil,
    List.mem_cons, List.not_mem_nil, or_false] at hx
  rcases hx with rfl | rfl | rfl | rfl
  · exact h1
  · exact h1
  · exact h2
  · exact h3

/-- The server is told of the service at first; in the end it knows that there is none. -/
example : (∀ i, ¬ Spec.Found.Listed
      (Client.hist Client.demoCfg (Client.demoEnv 1590 1) (demoConn2 ++ [.tick (demoEnv2 1612)])).2 i demoService) ∧
    Spec.Found.Listed (Client.hist Client.demoCfg (Client.demoEnv 1590 1) (demoConn2.take 2)).2 1 demoService := by
  obtain ⟨c, hc⟩ := demo_live (Client.demoEnv 1590 1) demoConn2 (by decide +kernel)
  obtain ⟨c', hc'⟩ := demo_live (Client.demoEnv 1590 1) (demoConn2 ++ [.tick (demoEnv2 1612)]) (by decide +kernel)
  have hlast : ((Sys.new demoT true).run demoT demoOps2).1.now < 9000000000000000000 * sec := by
    rw [demo_reports2.2]
    decide
  refine ⟨fun i => C130_withdrawn demoT demoOps2 demoFarm 0 demoLost Cadence.demoClock [] demoService sec _ _ _ _ c c'
    (Cadence.demo_clock _ hlast).1 (Cadence.demo_clock _ hlast).2 nofun demo_services2 ?_ ?_ demo_reads2 ?_ hc hc' ?_ ?_ i
    demoService rfl, ?_⟩
  · rw [List.nil_append, demo_tableOps2]
    decide
  · intro r hr hlt s' hs'
    rw [demo_reports2.1] at hr
    simp only [List.mem_cons, List.not_mem_nil, or_false] at hr
    rcases hr with rfl | rfl | rfl | rfl | rfl
    · exact absurd hlt (by decide)
    all_goals cases hs'
  · simp [Monotone, demoConn2, times, Spec.Client.Incoming.times, Client.demoEnv, demoEnv2]
  · decide +kernel
  · decide
  · exact ⟨⟨[⟨1, demoService⟩]⟩, by decide +kernel, by decide +kernel⟩

end Verif.Props.Appear
