import Verif.Spec.Tls
/-!
# Lemmas about connecting
-/
namespace Verif.Tls
open Verif Verif.Spec.Tls

theorem by_mono {x : Option Nat} {t u : Nat} (h : By x t) (htu : t ≤ u) : By x u :=
  let ⟨s, hs, hl⟩ := h; ⟨s, hs, Nat.le_trans hl htu⟩

theorem notBefore_mono {x : Option Nat} {t u : Nat} (h : NotBefore x u) (htu : t ≤ u) : NotBefore x t :=
  fun s hs => Nat.le_trans htu (h s hs)

theorem exactly {x : Option Nat} {t : Nat} (h : By x t) (h' : NotBefore x t) : x = some t := by
  obtain ⟨s, rfl, hs⟩ := h
  rw [Nat.le_antisymm hs (h' s rfl)]

theorem later_some {x y : Option Nat} {s : Nat} (h : later x y = some s) : ∃ a b, x = some a ∧ y = some b ∧ s = max a b := by
  unfold later at h
  split at h
  · cases h; exact ⟨_, _, rfl, rfl, rfl⟩
  · cases h

theorem later_by {x y : Option Nat} {t : Nat} (hx : By x t) (hy : By y t) : By (later x y) t := by
  obtain ⟨a, rfl, ha⟩ := hx
  obtain ⟨b, rfl, hb⟩ := hy
  exact ⟨max a b, rfl, Nat.max_le.2 ⟨ha, hb⟩⟩

theorem later_left {x y : Option Nat} {t : Nat} (h : NotBefore x t) : NotBefore (later x y) t := by
  intro s hs
  obtain ⟨a, b, rfl, rfl, rfl⟩ := later_some hs
  exact Nat.le_trans (h a rfl) (Nat.le_max_left _ _)

theorem later_right {x y : Option Nat} {t : Nat} (h : NotBefore y t) : NotBefore (later x y) t := by
  intro s hs
  obtain ⟨a, b, rfl, rfl, rfl⟩ := later_some hs
  exact Nat.le_trans (h b rfl) (Nat.le_max_right _ _)

theorem after_some {x d : Option Nat} {s : Nat} (h : after x d = some s) : ∃ a b, x = some a ∧ d = some b ∧ s = a + b := by
  unfold after at h
  cases x with
  | none => cases h
  | some a =>
    cases d with
    | none => cases h
    | some b => cases h; exact ⟨a, b, rfl, rfl, rfl⟩

theorem after_notBefore {x d : Option Nat} {t : Nat} (h : NotBefore x t) : NotBefore (after x d) t := by
  intro s hs
  obtain ⟨a, b, rfl, rfl, rfl⟩ := after_some hs
  exact Nat.le_trans (h a rfl) (Nat.le_add_right _ _)

theorem enumerate_length (k : Nat) (l : List Attempt) : (enumerate k l).length = l.length := by
  induction l generalizing k with
  | nil => rfl
  | cons a l ih => rw [enumerate, List.length_cons, ih]; rfl

theorem enumerate_append (k : Nat) (l m : List Attempt) : enumerate k (l ++ m) = enumerate k l ++ enumerate (k + l.length) m := by
  induction l generalizing k with
  | nil => rfl
  | cons a l ih =>
    rw [List.cons_append, enumerate, ih, enumerate, List.cons_append, List.length_cons]
    rw [Nat.add_assoc, Nat.add_comm 1]

/-- An attempt as it is in the queue. -/
def flight (S : Nat → Option Nat) (x : Nat × Attempt) : InFlight := ⟨x.1, after (S x.1) x.2.delay, x.2.ok⟩

/-- What holds during the poll at time `t`: `p` attempts were taken from the queue, `q` were started. -/
structure M (l : List Attempt) (S G : Nat → Option Nat) (t p q : Nat) (r : Race) : Prop where
  pq : p ≤ q
  q4 : q ≤ p + 4
  qn : q ≤ l.length
  source : r.source = enumerate q (l.drop q)
  queue : r.queue = (enumerate p ((l.drop p).take (q - p))).map (flight S)
  started : r.started = (List.range q).map fun i => (i, (S i).getD 0)
  gone : ∀ i, i < p → By (G i) t
  bad : ∀ (i : Nat) (a : Attempt), i < p → l[i]? = some a → a.ok = false
  runs : ∀ i, i < q → By (S i) t
  nextG : p < l.length → NotBefore (G p) t
  lastG : 0 < p → p = l.length → NotBefore (G (p - 1)) t
  nextS : q < l.length → NotBefore (S q) t
  sleep : ∀ u, r.sleep = some u → 0 < q ∧ q < l.length ∧ S q = some u
  awake : r.sleep = none → 0 < q → q < l.length → q < p + 4 → S q = some (t + 1000)

theorem M.length {l : List Attempt} {S G : Nat → Option Nat} {t p q : Nat} {r : Race} (m : M l S G t p q r) :
    r.queue.length = q - p := by
  have h1 := m.qn
  rw [m.queue, List.length_map, enumerate_length, List.length_take, List.length_drop]
  omega

theorem M.new {l : List Attempt} {S G : Nat → Option Nat} : M l S G 0 0 0 (Race.new l) where
  pq := Nat.le_refl _
  q4 := Nat.zero_le _
  qn := Nat.zero_le _
  source := rfl
  queue := by simp [Race.new, enumerate]
  started := rfl
  gone := fun i h => absurd h (Nat.not_lt_zero i)
  bad := fun i a h => absurd h (Nat.not_lt_zero i)
  runs := fun i h => absurd h (Nat.not_lt_zero i)
  nextG := fun _ s _ => Nat.zero_le s
  lastG := fun h => absurd h (Nat.lt_irrefl 0)
  nextS := fun _ s _ => Nat.zero_le s
  sleep := fun u h => by cases h
  awake := fun _ h => absurd h (Nat.lt_irrefl 0)

/-- When the next attempt is made. -/
theorem start_eq {l : List Attempt} {S G : Nat → Option Nat} (T : Timing l S G) {q : Nat} (hq : q + 1 < l.length) :
    S (q + 1) = after (later (S q) (if 3 ≤ q then G (q - 3) else some 0)) (some 1000) := by
  by_cases h : 3 ≤ q
  · obtain ⟨i, rfl⟩ : ∃ i, q = i + 3 := ⟨q - 3, by omega⟩
    rw [if_pos h, show i + 3 + 1 = i + 4 from rfl, T.start_more i hq, Nat.add_sub_cancel]
  · rw [if_neg h, T.start_few q hq (by omega)]
    cases S q with
    | none => rfl
    | some a => show _ = after (some (max a 0)) _; rw [Nat.max_zero]

/-- Starting an attempt. -/
theorem M.push {l : List Attempt} {S G : Nat → Option Nat} (T : Timing l S G) {t p q : Nat} {r : Race} (m : M l S G t p q r)
    (hq : q < l.length) (hp : q < p + 4) (hS : S q = some t) {rest : List (Nat × Attempt)} {a : Attempt}
    (hs : r.source = (q, a) :: rest) :
    M l S G t p (q + 1) ⟨rest, none, r.queue ++ [⟨q, a.delay.map (t + ·), a.ok⟩], r.started ++ [(q, t)]⟩ := by
  have hpq := m.pq
  have hd : l.drop q = l[q] :: l.drop (q + 1) := List.drop_eq_getElem_cons hq
  have hsrc := m.source
  rw [hs, hd, enumerate] at hsrc
  injection hsrc with h1 h2
  injection h1 with _ h1
  have hnext : q + 1 < l.length → NotBefore (S (q + 1)) (t + 1000) := by
    intro h s hs
    rw [start_eq T h] at hs
    obtain ⟨x, y, hx, hy, rfl⟩ := after_some hs
    obtain ⟨x1, x2, hx1, -, rfl⟩ := later_some hx
    rw [hS] at hx1
    cases hx1
    cases hy
    have := Nat.le_max_left t x2
    omega
  refine ⟨by omega, by omega, by omega, h2, ?_, ?_, m.gone, m.bad, ?_, m.nextG, m.lastG, ?_, ?_, ?_⟩
  · show r.queue ++ _ = _
    have ht : (l.drop p).take (q + 1 - p) = (l.drop p).take (q - p) ++ [l[q]] := by
      rw [show q + 1 - p = (q - p) + 1 by omega, List.take_add_one]
      congr 1
      rw [List.getElem?_drop, show p + (q - p) = q by omega, List.getElem?_eq_getElem hq]
      rfl
    rw [ht, enumerate_append, List.map_append, ← m.queue]
    congr 1
    have hlen : ((l.drop p).take (q - p)).length = q - p := by
      rw [List.length_take, List.length_drop]; omega
    rw [hlen, show p + (q - p) = q by omega, ← h1]
    show _ = [flight S (q, a)]
    unfold flight
    rw [hS]
    rfl
  · show r.started ++ _ = _
    rw [List.range_succ, List.map_append, ← m.started, List.map_singleton, hS]
    rfl
  · intro i hi
    rcases Nat.lt_succ_iff_lt_or_eq.1 hi with h | rfl
    · exact m.runs i h
    · exact ⟨t, hS, Nat.le_refl _⟩
  · intro h
    exact notBefore_mono (hnext h) (Nat.le_add_right _ _)
  · intro u hu; cases hu
  · intro _ _ h h4
    rw [start_eq T h, hS]
    have hby : By (if 3 ≤ q then G (q - 3) else some 0) t := by
      split
      · exact m.gone _ (by omega)
      · exact ⟨0, rfl, Nat.zero_le _⟩
    obtain ⟨b, hb, hbt⟩ := hby
    rw [hb]
    show some (max t b + 1000) = _
    rw [Nat.max_eq_left hbt]

/-- Nothing can be started at time `t`. -/
def Full (l : List Attempt) (t p q : Nat) (r : Race) : Prop :=
  q = l.length ∨ q = p + 4 ∨ ∃ u, r.sleep = some u ∧ t < u

theorem fill_at {l : List Attempt} {S G : Nat → Option Nat} (T : Timing l S G) {t p : Nat} (n : Nat) :
    ∀ {q : Nat} {r : Race}, M l S G t p q r → r.source.length ≤ n →
      ∃ q', q ≤ q' ∧ M l S G t p q' (fill t n r) ∧ Full l t p q' (fill t n r) := by
  induction n with
  | zero =>
    intro q r m hn
    refine ⟨q, Nat.le_refl _, m, .inl ?_⟩
    have h := m.qn
    rw [m.source, enumerate_length, List.length_drop] at hn
    omega
  | succ n ih =>
    intro q r m hn
    have hqn := m.qn
    unfold fill
    by_cases h4 : r.queue.length < 4
    · rw [if_pos h4]
      have hp4 : q < p + 4 := by
        have := m.length; have := m.pq; omega
      unfold pollThen
      cases hs : r.source with
      | nil =>
        refine ⟨q, Nat.le_refl _, m, .inl ?_⟩
        have h := m.source
        rw [hs] at h
        have := congrArg List.length h
        rw [enumerate_length, List.length_drop] at this
        simp only [List.length_nil] at this
        omega
      | cons x rest =>
        obtain ⟨i, a⟩ := x
        have hq : q < l.length := by
          have h := m.source
          rw [hs] at h
          have := congrArg List.length h
          rw [enumerate_length, List.length_drop] at this
          simp only [List.length_cons] at this
          omega
        have hi : i = q := by
          have h := m.source
          rw [hs, List.drop_eq_getElem_cons hq, enumerate] at h
          injection h with h _
          exact congrArg Prod.fst h
        subst hi
        dsimp only
        have step : S i = some t → ∀ z, z = ⟨rest, none, r.queue ++ [⟨i, a.delay.map (t + ·), a.ok⟩], r.started ++ [(i, t)]⟩ →
            ∃ q', i ≤ q' ∧ M l S G t p q' (fill t n z) ∧ Full l t p q' (fill t n z) := by
          intro hS z hz
          subst hz
          obtain ⟨q', h1, h2, h3⟩ := ih (m.push T hq hp4 hS hs) (by
            rw [hs, List.length_cons] at hn
            exact Nat.le_of_succ_le_succ hn)
          exact ⟨q', by omega, h2, h3⟩
        cases hsl : r.sleep with
        | some u =>
          dsimp only
          by_cases hu : u ≤ t
          · rw [if_pos hu]
            dsimp only
            refine step ?_ _ rfl
            have h1 := (m.sleep u hsl).2.2
            have h2 := m.nextS hq u h1
            rw [h1, Nat.le_antisymm hu h2]
          · rw [if_neg hu]
            exact ⟨i, Nat.le_refl _, m, .inr (.inr ⟨u, hsl, Nat.lt_of_not_le hu⟩)⟩
        | none =>
          dsimp only
          by_cases h0 : i > 0
          · rw [if_pos h0]
            refine ⟨i, Nat.le_refl _, ?_, .inr (.inr ⟨t + 1000, rfl, by omega⟩)⟩
            have hS := m.awake hsl h0 hq hp4
            exact { m with
              source := by rw [← hs]; exact m.source
              sleep := fun u hu => by cases hu; exact ⟨h0, hq, hS⟩
              awake := fun h => by cases h }
          · rw [if_neg h0]
            dsimp only
            have hz : i = 0 := by omega
            refine step ?_ _ rfl
            subst hz
            have h1 := m.nextS hq 0 T.start_first
            rw [T.start_first]
            congr 1
            omega
    · rw [if_neg h4]
      refine ⟨q, Nat.le_refl _, m, .inr (.inl ?_)⟩
      have := m.length; have := m.q4; omega

/-- When all up to an address have been answered. -/
theorem gone_eq {l : List Attempt} {S G : Nat → Option Nat} (T : Timing l S G) {p : Nat} {a : Attempt} (ha : l[p]? = some a) :
    G p = later (if 0 < p then G (p - 1) else some 0) (after (S p) a.delay) := by
  cases p with
  | zero =>
    rw [T.gone_first a ha, T.start_first]
    cases a.delay with
    | none => rfl
    | some d => show _ = some (max 0 (0 + d)); rw [Nat.zero_max]; rfl
  | succ p =>
    rw [T.gone_next p a ha, if_pos (Nat.succ_pos p)]
    rfl

theorem gone_before {l : List Attempt} {S G : Nat → Option Nat} {t p q : Nat} {r : Race} (m : M l S G t p q r) :
    By (if 0 < p then G (p - 1) else some 0) t := by
  split
  · exact m.gone _ (by omega)
  · exact ⟨0, rfl, Nat.zero_le _⟩

/-- Taking a refused attempt from the queue. -/
theorem M.pop {l : List Attempt} {S G : Nat → Option Nat} (T : Timing l S G) {t p q : Nat} {r : Race} (m : M l S G t p q r)
    (hf : Full l t p q r) (hpq : p < q) {a : Attempt} (ha : l[p]? = some a) (hok : a.ok = false) (hG : By (G p) t) :
    M l S G t (p + 1) q { r with queue := r.queue.tail } := by
  have hqn := m.qn
  have hpl : p < l.length := by omega
  have hGp : G p = some t := exactly hG (m.nextG hpl)
  refine ⟨hpq, by have := m.q4; omega, hqn, m.source, ?_, m.started, ?_, ?_, m.runs, ?_, ?_, m.nextS, m.sleep, ?_⟩
  · show r.queue.tail = _
    rw [m.queue, List.drop_eq_getElem_cons hpl, show q - p = (q - (p + 1)) + 1 by omega, List.take_succ_cons, enumerate,
      List.map_cons, List.tail_cons]
  · intro i hi
    rcases Nat.lt_succ_iff_lt_or_eq.1 hi with h | rfl
    · exact m.gone i h
    · exact hG
  · intro i b hi hb
    rcases Nat.lt_succ_iff_lt_or_eq.1 hi with h | rfl
    · exact m.bad i b h hb
    · rw [ha] at hb; cases hb; exact hok
  · intro h
    rw [gone_eq T (List.getElem?_eq_getElem h), if_pos (Nat.succ_pos p)]
    refine later_left ?_
    rw [Nat.add_sub_cancel, hGp]
    intro s hs
    cases hs
    exact Nat.le_refl _
  · intro _ _
    rw [Nat.add_sub_cancel, hGp]
    intro s hs
    cases hs
    exact Nat.le_refl _
  · intro hs h0 hq h4
    rcases hf with h | h | ⟨u, h, _⟩
    · omega
    · obtain ⟨k, rfl⟩ : ∃ k, q = k + 1 := ⟨q - 1, by omega⟩
      rw [start_eq T hq, if_pos (by omega), show k - 3 = p by omega, hGp]
      obtain ⟨s, hs, hst⟩ := m.runs k (by omega)
      rw [hs]
      show some (max s t + 1000) = _
      rw [Nat.max_eq_right hst]
    · rw [h] at hs; cases hs

/-- What a poll at time `t` yields. -/
inductive Polled (l : List Attempt) (S G : Nat → Option Nat) (t : Nat) : Race × Option (Option Nat) → Prop
  | pending {p q : Nat} {r : Race} (m : M l S G (t + 1) p q r) (hq : p < l.length) (hr : ∀ i, i < q → By (S i) t) : Polled l S G t (r, none)
  | failed {r : Race} (h : ∀ (i : Nat) (a : Attempt), l[i]? = some a → a.ok = false) (hb : ∀ i, i < l.length → By (G i) t)
      (hl : 0 < l.length → NotBefore (G (l.length - 1)) t) (hs : r.started = (List.range l.length).map fun i => (i, (S i).getD 0))
      (hr : ∀ i, i < l.length → By (S i) t) : Polled l S G t (r, some none)
  | found {r : Race} {k q : Nat} (h : First l k) (hg : G k = some t) (hs : r.started = (List.range q).map fun i => (i, (S i).getD 0))
      (hr : ∀ i, i < q → By (S i) t) (hq : q ≤ l.length) : Polled l S G t (r, some (some k))

theorem Full.later {l : List Attempt} {S G : Nat → Option Nat} (T : Timing l S G) {t p q : Nat} {r : Race} (m : M l S G t p q r)
    (hf : Full l t p q r) (hp : p < l.length) (hG : NotBefore (G p) (t + 1)) : M l S G (t + 1) p q r := by
  refine { m with gone := fun i hi => by_mono (m.gone i hi) (Nat.le_succ t), runs := fun i hi => by_mono (m.runs i hi) (Nat.le_succ t),
                  nextG := fun _ => hG, lastG := fun _ h => by omega, nextS := ?_, awake := ?_ }
  · intro hq
    rcases hf with h | h | ⟨u, h, hu⟩
    · omega
    · obtain ⟨k, rfl⟩ : ∃ k, q = k + 1 := ⟨q - 1, by omega⟩
      rw [start_eq T hq, if_pos (by omega), show k - 3 = p by omega]
      exact after_notBefore (later_right hG)
    · rw [(m.sleep u h).2.2]
      intro s hs
      cases hs
      exact hu
  · intro hs h0 hq h4
    rcases hf with h | h | ⟨u, h, hu⟩
    · omega
    · omega
    · rw [h] at hs; cases hs

theorem poll_at {l : List Attempt} {S G : Nat → Option Nat} (T : Timing l S G) {t : Nat} (n : Nat) :
    ∀ {p q : Nat} {r : Race}, M l S G t p q r → l.length - p < n → Polled l S G t (poll t n r) := by
  induction n with
  | zero => intro p q r m hn; omega
  | succ n ih =>
    intro p q r m hn
    unfold poll
    obtain ⟨q', -, m', hf⟩ := fill_at T r.source.length m (Nat.le_refl _)
    generalize fill t r.source.length r = r' at m' hf
    dsimp only
    have hqn := m'.qn
    have hpq := m'.pq
    cases hq : r'.queue with
    | nil =>
      dsimp only
      have hpq' : p = q' := by
        have := m'.length
        rw [hq] at this
        simp only [List.length_nil] at this
        omega
      subst hpq'
      by_cases hs : r'.source.isEmpty = true
      · rw [if_pos hs]
        have hl : p = l.length := by
          have h := m'.source
          rw [List.isEmpty_iff.1 hs] at h
          have := congrArg List.length h
          rw [enumerate_length, List.length_drop, List.length_nil] at this
          omega
        refine .failed (fun i a h => m'.bad i a ?_ h) (fun i h => m'.gone i (by omega)) (fun h => ?_) ?_ (fun i h => m'.runs i (by omega))
        · have := (List.getElem?_eq_some_iff.1 h).1
          omega
        · rw [← hl]
          exact m'.lastG (by omega) hl
        · rw [← hl]; exact m'.started
      · rw [if_neg hs]
        have hl : p < l.length := by
          apply Nat.lt_of_not_le
          intro h
          apply hs
          rw [m'.source, List.drop_of_length_le h]
          rfl
        refine .pending (hf.later T m' hl ?_) hl m'.runs
        rw [gone_eq T (List.getElem?_eq_getElem hl)]
        refine later_right (after_notBefore ?_)
        rcases hf with h | h | ⟨u, h, hu⟩
        · omega
        · omega
        · rw [(m'.sleep u h).2.2]
          intro s hs
          cases hs
          exact hu
    | cons f rest =>
      dsimp only
      have hlt : p < q' := by
        have := m'.length
        rw [hq, List.length_cons] at this
        omega
      have hpl : p < l.length := by omega
      have hfl : f = flight S (p, l[p]) := by
        have h := m'.queue
        rw [hq, List.drop_eq_getElem_cons hpl, show q' - p = (q' - (p + 1)) + 1 by omega, List.take_succ_cons, enumerate,
          List.map_cons] at h
        exact (List.cons.inj h).1
      have ha : l[p]? = some l[p] := List.getElem?_eq_getElem hpl
      have hdone : f.doneAt = after (S p) l[p].delay := by rw [hfl]; rfl
      cases hd : f.doneAt with
      | none =>
        dsimp only
        refine .pending (hf.later T m' hpl ?_) hpl m'.runs
        rw [gone_eq T ha, ← hdone, hd]
        refine later_right ?_
        intro s hs
        cases hs
      | some d =>
        dsimp only
        by_cases hdt : d ≤ t
        · rw [if_pos hdt]
          have hG : By (G p) t := by
            rw [gone_eq T ha]
            exact later_by (gone_before m') ⟨d, by rw [← hdone, hd], hdt⟩
          have hok : f.ok = l[p].ok := by rw [hfl]; rfl
          by_cases hk : f.ok = true
          · rw [if_pos hk]
            have hidx : f.idx = p := by rw [hfl]; rfl
            rw [hidx]
            refine .found ⟨⟨_, ha, by rw [← hok]; exact hk⟩, fun j b hj hb => m'.bad j b hj hb⟩ (exactly hG (m'.nextG hpl))
              m'.started m'.runs m'.qn
          · rw [if_neg hk]
            have := m'.pop T hf hlt ha (by rw [← hok]; exact Bool.not_eq_true _ ▸ hk) hG
            rw [hq, List.tail_cons] at this
            exact ih this (by omega)
        · rw [if_neg hdt]
          refine .pending (hf.later T m' hpl ?_) hpl m'.runs
          rw [gone_eq T ha, ← hdone, hd]
          refine later_right ?_
          intro s hs
          cases hs
          omega

theorem rounds_enough {l : List Attempt} {S G : Nat → Option Nat} {t p q : Nat} {r : Race} (m : M l S G t p q r) :
    l.length - p < rounds r := by
  have := m.length
  have := m.qn
  have := m.pq
  unfold rounds
  rw [m.length, m.source, enumerate_length, List.length_drop]
  omega

/-- The state at every time: pending, or it ended at some time before. -/
theorem race_at {l : List Attempt} {S G : Nat → Option Nat} (T : Timing l S G) (t : Nat) :
    Polled l S G t (race l t) ∨ ∃ t', t' < t ∧ Polled l S G t' (race l t) ∧ (race l t).2.isSome = true ∧ race l t = race l t' := by
  induction t with
  | zero => exact .inl (poll_at T _ (M.new (S := S) (G := G)) (rounds_enough (M.new (S := S) (G := G))))
  | succ t ih =>
    rcases ih with h | ⟨t', ht, h, hs, he⟩
    · cases hr : race l t with
      | mk r o =>
        rw [hr] at h
        cases o with
        | none =>
          left
          unfold race
          rw [hr]
          dsimp only
          cases h with
          | pending m hq hr => exact poll_at T _ m (rounds_enough m)
        | some o =>
          right
          refine ⟨t, Nat.lt_succ_self t, ?_, ?_, ?_⟩ <;> unfold race <;> rw [hr]
          · exact h
          · rfl
          · dsimp only
            cases t with
            | zero => rw [← hr]; rfl
            | succ t => rw [← hr]; rfl
    · right
      have hstep : race l (t + 1) = race l t := by
        cases hr : race l t with
        | mk r o =>
          rw [hr] at hs
          cases o with
          | none => cases hs
          | some o =>
            show (match race l t with
              | (r, none) => poll (t + 1) (rounds r) r
              | done => done) = _
            rw [hr]
      exact ⟨t', by omega, by rw [hstep]; exact h, by rw [hstep]; exact hs, by rw [hstep]; exact he⟩

end Verif.Tls
