import Verif.Lemmas.Tls
import Verif.Props.Args
/-!
# C97: connecting to the service
-/
namespace Verif.Props.Tls
open Verif Verif.Tls Verif.Spec.Tls

/-! ### The times exist -/

/-- The times, computed. -/
def times (l : List Attempt) : Nat → Option Nat × Option Nat
  | 0 => (some 0, after (some 0) (l[0]?.bind (·.delay)))
  | 1 =>
    let s := after (times l 0).1 (some 1000)
    (s, later (times l 0).2 (after s (l[1]?.bind (·.delay))))
  | 2 =>
    let s := after (times l 1).1 (some 1000)
    (s, later (times l 1).2 (after s (l[2]?.bind (·.delay))))
  | 3 =>
    let s := after (times l 2).1 (some 1000)
    (s, later (times l 2).2 (after s (l[3]?.bind (·.delay))))
  | n + 4 =>
    let s := after (later (times l (n + 3)).1 (times l n).2) (some 1000)
    (s, later (times l (n + 3)).2 (after s (l[n + 4]?.bind (·.delay))))

theorem times_gone (l : List Attempt) : ∀ i, (times l (i + 1)).2 = later (times l i).2 (after (times l (i + 1)).1 (l[i + 1]?.bind (·.delay)))
  | 0 => rfl
  | 1 => rfl
  | 2 => rfl
  | _ + 3 => rfl

/-- For all addresses there are the times of the specification. -/
theorem C97_timing (l : List Attempt) : ∃ S G, Timing l S G := by
  refine ⟨fun i => (times l i).1, fun i => (times l i).2, ⟨rfl, ?_, fun _ _ => rfl, ?_, ?_⟩⟩
  · intro i _ h
    match i with
    | 0 => rfl
    | 1 => rfl
    | 2 => rfl
    | i + 3 => omega
  · intro a ha
    show after (some 0) (l[0]?.bind (·.delay)) = _
    rw [ha]
    rfl
  · intro i a ha
    rw [times_gone, ha]
    rfl

/-! ### The result -/

theorem gone_mono {l : List Attempt} {S G : Nat → Option Nat} (T : Timing l S G) {t : Nat} :
    ∀ (d p : Nat), p + d < l.length → By (G (p + d)) t → By (G p) t
  | 0, _, _, h => h
  | d + 1, p, hl, h => by
    apply gone_mono T d p (by omega)
    rw [show p + (d + 1) = (p + d) + 1 from rfl, T.gone_next (p + d) _ (List.getElem?_eq_getElem hl)] at h
    obtain ⟨s, hs, hst⟩ := h
    obtain ⟨a, b, ha, hb, rfl⟩ := later_some hs
    exact ⟨a, ha, Nat.le_trans (Nat.le_max_left _ _) hst⟩

theorem start_mono {l : List Attempt} {S G : Nat → Option Nat} (T : Timing l S G) {t : Nat} :
    ∀ (d p : Nat), p + d < l.length → By (S (p + d)) t → By (S p) t
  | 0, _, _, h => h
  | d + 1, p, hl, h => by
    apply start_mono T d p (by omega)
    rw [show p + (d + 1) = (p + d) + 1 from rfl, start_eq T (q := p + d) hl] at h
    obtain ⟨s, hs, hst⟩ := h
    obtain ⟨a, b, ha, hb, rfl⟩ := after_some hs
    obtain ⟨x, y, hx, hy, rfl⟩ := later_some ha
    exact ⟨x, hx, by have := Nat.le_max_left x y; omega⟩

theorem first_unique {l : List Attempt} {i j : Nat} (hi : First l i) (hj : First l j) : i = j := by
  obtain ⟨⟨a, ha, hao⟩, h1⟩ := hi
  obtain ⟨⟨b, hb, hbo⟩, h2⟩ := hj
  rcases Nat.lt_trichotomy i j with h | h | h
  · rw [h2 i a h ha] at hao; cases hao
  · exact h
  · rw [h1 j b h hb] at hbo; cases hbo

theorem no_first {l : List Attempt} (h : ¬ ∃ k, First l k) : ∀ a ∈ l, a.ok = false := by
  have key : ∀ (k : Nat) (a : Attempt), l[k]? = some a → a.ok = false := by
    intro k
    induction k using Nat.strongRecOn with
    | ind k ih =>
      intro a ha
      cases hk : a.ok with
      | false => rfl
      | true => exact absurd ⟨k, ⟨a, ha, hk⟩, fun j b hj hb => ih j hj b hb⟩ h
  intro a ha
  obtain ⟨k, hk⟩ := List.getElem?_of_mem ha
  exact key k a hk

/-- The socket that is used is that of the first address, in the order of the name lookup, that accepts; it is available when
this address and all before it have been answered, and not before. If none accepts, this is known when all have been
answered. -/
theorem C97_result (l : List Attempt) (S G : Nat → Option Nat) (T : Timing l S G) (t : Nat) :
    (∀ k, First l k → (By (G k) t → (race l t).2 = some (some k)) ∧ (¬ By (G k) t → (race l t).2 = none))
    ∧ ((∀ a ∈ l, a.ok = false) → l ≠ [] →
        (By (G (l.length - 1)) t → (race l t).2 = some none) ∧ (¬ By (G (l.length - 1)) t → (race l t).2 = none))
    ∧ (l = [] → (race l t).2 = some none) := by
  have key : ∃ t', t' ≤ t ∧ Polled l S G t' (race l t) ∧ ((race l t).2 = none → t' = t) := by
    rcases race_at T t with h | ⟨t', h1, h2, h3, -⟩
    · exact ⟨t, Nat.le_refl _, h, fun _ => rfl⟩
    · exact ⟨t', Nat.le_of_lt h1, h2, fun h => by rw [h] at h3; cases h3⟩
  obtain ⟨t', ht, hp, hn⟩ := key
  refine ⟨fun k hk => ?_, fun hbad hne => ?_, fun he => ?_⟩
  · generalize race l t = x at hp hn
    cases hp with
    | @pending p q r m hq _ =>
      refine ⟨fun hb => ?_, fun _ => rfl⟩
      rw [hn rfl] at m
      exfalso
      obtain ⟨⟨a, ha, hao⟩, -⟩ := hk
      have hkl := (List.getElem?_eq_some_iff.1 ha).1
      have hpk : p ≤ k := by
        apply Nat.le_of_not_lt
        intro h
        rw [m.bad k a h ha] at hao
        cases hao
      obtain ⟨s, hs, hst⟩ := gone_mono T (k - p) p (by omega) (by rw [show p + (k - p) = k by omega]; exact hb)
      have := m.nextG hq s hs
      omega
    | failed h hb hl hs hr =>
      obtain ⟨⟨a, ha, hao⟩, -⟩ := hk
      rw [h k a ha] at hao
      cases hao
    | found h hg hs hr =>
      rw [first_unique h hk] at hg ⊢
      exact ⟨fun _ => rfl, fun hb => absurd ⟨t', hg, ht⟩ hb⟩
  · have hlen : 0 < l.length := List.length_pos_iff.2 hne
    generalize race l t = x at hp hn
    cases hp with
    | @pending p q r m hq _ =>
      refine ⟨fun hb => ?_, fun _ => rfl⟩
      rw [hn rfl] at m
      exfalso
      obtain ⟨s, hs, hst⟩ := gone_mono T (l.length - 1 - p) p (by omega)
        (by rw [show p + (l.length - 1 - p) = l.length - 1 by omega]; exact hb)
      have := m.nextG hq s hs
      omega
    | failed h hb hl hs hr =>
      exact ⟨fun _ => rfl, fun hx => absurd (by_mono (hb _ (by omega)) ht) hx⟩
    | found h hg hs hr =>
      obtain ⟨⟨a, ha, hao⟩, -⟩ := h
      rw [hbad a (List.mem_of_getElem? ha)] at hao
      cases hao
  · subst he
    generalize race [] t = x at hp hn
    cases hp with
    | pending m hq hr => cases hq
    | failed h hb hl hs hr => rfl
    | found h hg hs hr =>
      obtain ⟨⟨a, ha, -⟩, -⟩ := h
      cases ha

/-- Attempts are started at the times of the specification: none at another time, and while there is no result all that are
due. -/
theorem C97_starts (l : List Attempt) (S G : Nat → Option Nat) (T : Timing l S G) (t i s : Nat) :
    ((i, s) ∈ (race l t).1.started → i < l.length ∧ S i = some s ∧ s ≤ t)
    ∧ ((race l t).2 = none → i < l.length → S i = some s → s ≤ t → (i, s) ∈ (race l t).1.started) := by
  have key : ∃ t', t' ≤ t ∧ Polled l S G t' (race l t) ∧ ((race l t).2 = none → t' = t) := by
    rcases race_at T t with h | ⟨t', h1, h2, h3, -⟩
    · exact ⟨t, Nat.le_refl _, h, fun _ => rfl⟩
    · exact ⟨t', Nat.le_of_lt h1, h2, fun h => by rw [h] at h3; cases h3⟩
  obtain ⟨t', ht, hp, hn⟩ := key
  have sound : ∀ {q : Nat} {st : List (Nat × Nat)}, st = ((List.range q).map fun i => (i, (S i).getD 0)) → q ≤ l.length →
      (∀ i, i < q → By (S i) t') → (i, s) ∈ st → i < l.length ∧ S i = some s ∧ s ≤ t := by
    intro q st hst hq hr hm
    rw [hst] at hm
    obtain ⟨j, hj, he⟩ := List.mem_map.1 hm
    injection he with h1 h2
    subst h1
    have hj := List.mem_range.1 hj
    obtain ⟨x, hx, hxt⟩ := hr j hj
    rw [hx] at h2 ⊢
    have h2 : x = s := h2
    subst h2
    exact ⟨by omega, rfl, Nat.le_trans hxt ht⟩
  generalize race l t = x at hp hn
  cases hp with
  | @pending p q r m hq hr =>
    refine ⟨sound m.started m.qn hr, fun _ hi hs hst => ?_⟩
    have hiq : i < q := by
      apply Nat.lt_of_not_le
      intro hqi
      obtain ⟨x, hx, hxt⟩ := start_mono T (i - q) q (by omega) (by rw [show q + (i - q) = i by omega]; exact ⟨s, hs, hst⟩)
      have := m.nextS (by omega) x hx
      have := hn rfl
      omega
    rw [m.started]
    exact List.mem_map.2 ⟨i, List.mem_range.2 hiq, by rw [hs]; rfl⟩
  | failed h hb hl hs hr => exact ⟨sound hs (Nat.le_refl _) hr, fun h => by cases h⟩
  | found h hg hs hr hq => exact ⟨sound hs hq hr, fun h => by cases h⟩

/-- Consecutive attempts are at least 1 s apart, and before an attempt is made the fourth one before it has been answered for
at least 1 s. So there are never more than four attempts without an answer. -/
theorem C97_spacing (l : List Attempt) (t i s s' : Nat) (hi : (i, s) ∈ (race l t).1.started) :
    ((i + 1, s') ∈ (race l t).1.started → s + 1000 ≤ s')
    ∧ ((i + 4, s') ∈ (race l t).1.started → ∃ a d, l[i]? = some a ∧ a.delay = some d ∧ s + d + 1000 ≤ s') := by
  obtain ⟨S, G, T⟩ := C97_timing l
  obtain ⟨h1, h2, -⟩ := (C97_starts l S G T t i s).1 hi
  refine ⟨fun h => ?_, fun h => ?_⟩
  · obtain ⟨h3, h4, -⟩ := (C97_starts l S G T t (i + 1) s').1 h
    rw [start_eq T h3] at h4
    obtain ⟨x, y, hx, hy, rfl⟩ := after_some h4
    obtain ⟨x1, x2, hx1, -, rfl⟩ := later_some hx
    rw [h2] at hx1
    cases hx1
    cases hy
    have := Nat.le_max_left s x2
    omega
  · obtain ⟨h3, h4, -⟩ := (C97_starts l S G T t (i + 4) s').1 h
    rw [T.start_more i h3] at h4
    obtain ⟨x, y, hx, hy, rfl⟩ := after_some h4
    obtain ⟨x1, x2, -, hx2, rfl⟩ := later_some hx
    cases hy
    have ha : l[i]? = some l[i] := List.getElem?_eq_getElem h1
    rw [gone_eq T ha, h2] at hx2
    obtain ⟨g, e, -, he, rfl⟩ := later_some hx2
    obtain ⟨s1, d, hs1, hd, rfl⟩ := after_some he
    cases hs1
    refine ⟨_, d, ha, hd, ?_⟩
    have := Nat.le_max_right x1 (max g (s + d))
    have := Nat.le_max_right g (s + d)
    omega

/-! ### With the timeout -/

theorem findSome_range {α : Type} (f : Nat → Option α) (m t : Nat) (x : α) (ht : t ≤ m) (hf : f t = some x)
    (hb : ∀ s, s < t → f s = none) : (List.range (m + 1)).findSome? f = some x := by
  have hsplit : List.range (m + 1) = List.range t ++ (List.range (m + 1 - t)).map (t + ·) := by
    rw [← List.range_add]
    congr 1
    omega
  rw [hsplit, List.findSome?_append, List.findSome?_eq_none_iff.2 (fun s hs => hb s (List.mem_range.1 hs))]
  rw [show m + 1 - t = (m - t) + 1 by omega, List.range_succ_eq_map, List.map_cons, List.findSome?_cons]
  rw [Nat.add_zero, hf]
  rfl

/-- The result is there at its time, if this is not too late. -/
theorem firstDone_at {l : List Attempt} {m : Nat} {e : Option Nat} {x : Option Nat}
    (h : ∀ t, (By e t → (race l t).2 = some x) ∧ (¬ By e t → (race l t).2 = none)) :
    firstDone l m = e.bind fun g => if g ≤ m then some (g, x) else none := by
  unfold firstDone
  have hnone : (∀ t, t ≤ m → ¬ By e t) → (List.range (m + 1)).findSome? (fun t => (race l t).2.map fun x => (t, x)) = none := by
    intro hb
    refine List.findSome?_eq_none_iff.2 fun t ht => ?_
    rw [(h t).2 (hb t (Nat.lt_succ_iff.1 (List.mem_range.1 ht)))]
    rfl
  cases e with
  | none => exact hnone fun t _ hb => by obtain ⟨s, hs, -⟩ := hb; cases hs
  | some g =>
    rw [Option.bind_some]
    by_cases hg : g ≤ m
    · rw [if_pos hg]
      refine findSome_range _ m g (g, x) hg ?_ fun s hs => ?_
      · rw [(h g).1 ⟨g, rfl, Nat.le_refl _⟩]; rfl
      · rw [(h s).2 (fun hb => by obtain ⟨y, hy, hys⟩ := hb; cases hy; omega)]; rfl
    · rw [if_neg hg]
      refine hnone fun t ht hb => ?_
      obtain ⟨y, hy, hys⟩ := hb
      cases hy
      omega

/-- How connecting ends. After a lookup that took `L`: with the first address that accepts, once it and all before it have been
answered and the TLS handshake is done, if this is within 20 s of the call; only this address gets a handshake. If all refuse,
with an error once all have been answered. Otherwise, with a timeout after 20 s. In any case within 20 s. -/
theorem C97_connect (n : Net) (L : Nat) (l : List Attempt) (hL : n.lookup = some L) (hl : n.addrs = some l)
    (S G : Nat → Option Nat) (T : Timing l S G) :
    (∀ k, First l k → connect n =
      match after (after (some L) (G k)) (n.handshake k).delay with
      | some e => if e ≤ 20000 then (if (n.handshake k).ok then .connected k else .tlsFailed k, e) else (.timeout, 20000)
      | none => (.timeout, 20000))
    ∧ ((∀ a ∈ l, a.ok = false) → connect n =
      match after (some L) (if l = [] then some 0 else G (l.length - 1)) with
      | some e => if e ≤ 20000 then (.unreachable, e) else (.timeout, 20000)
      | none => (.timeout, 20000))
    ∧ (connect n).2 ≤ 20000 := by
  have h1 : ∀ k, First l k → connect n =
      match after (after (some L) (G k)) (n.handshake k).delay with
      | some e => if e ≤ 20000 then (if (n.handshake k).ok then .connected k else .tlsFailed k, e) else (.timeout, 20000)
      | none => (.timeout, 20000) := by
    intro k hk
    have hf := firstDone_at (m := limit - L) fun t => (C97_result l S G T t).1 k hk
    unfold connect
    rw [hL, hl]
    dsimp only
    rw [hf]
    cases hg : G k with
    | none =>
      show (if L ≤ 20000 then _ else _) = _
      split <;> rfl
    | some g =>
      rw [Option.bind_some]
      cases hd : (n.handshake k).delay with
      | none =>
        show (if L ≤ 20000 then _ else _) = _
        by_cases h1 : L ≤ 20000
        · rw [if_pos h1]
          by_cases h2 : g ≤ limit - L
          · rw [if_pos h2]
            dsimp only
            rw [hd]
            rfl
          · rw [if_neg h2]
            rfl
        · rw [if_neg h1]
          rfl
      | some d =>
        show (if L ≤ 20000 then _ else _) = if L + g + d ≤ 20000 then _ else _
        by_cases h1 : L ≤ 20000
        · rw [if_pos h1]
          by_cases h2 : g ≤ limit - L
          · rw [if_pos h2]
            dsimp only
            rw [hd]
            rfl
          · rw [if_neg h2, if_neg (by unfold limit at h2; omega)]
            rfl
        · rw [if_neg h1, if_neg (by omega)]
          rfl
  have h2 : (∀ a ∈ l, a.ok = false) → connect n =
      match after (some L) (if l = [] then some 0 else G (l.length - 1)) with
      | some e => if e ≤ 20000 then (.unreachable, e) else (.timeout, 20000)
      | none => (.timeout, 20000) := by
    intro hbad
    have hf : firstDone l (limit - L) = (if l = [] then some 0 else G (l.length - 1)).bind fun g =>
        if g ≤ limit - L then some (g, none) else none := by
      apply firstDone_at
      intro t
      by_cases he : l = []
      · rw [if_pos he]
        exact ⟨fun _ => (C97_result l S G T t).2.2 he, fun h => absurd ⟨0, rfl, Nat.zero_le _⟩ h⟩
      · rw [if_neg he]
        exact (C97_result l S G T t).2.1 hbad he
    unfold connect
    rw [hL, hl]
    dsimp only
    rw [hf]
    generalize (if l = [] then some 0 else G (l.length - 1)) = e
    cases e with
    | none =>
      show (if L ≤ 20000 then _ else _) = _
      split <;> rfl
    | some g =>
      show (if L ≤ 20000 then _ else _) = if L + g ≤ 20000 then _ else _
      rw [Option.bind_some]
      by_cases h1 : L ≤ 20000
      · rw [if_pos h1]
        by_cases h2 : g ≤ limit - L
        · rw [if_pos h2, if_pos (by unfold limit at h2; omega)]
        · rw [if_neg h2, if_neg (by unfold limit at h2; omega)]
          rfl
      · rw [if_neg h1, if_neg (by omega)]
        rfl
  refine ⟨h1, h2, ?_⟩
  by_cases hk : ∃ k, First l k
  · obtain ⟨k, hk⟩ := hk
    rw [h1 k hk]
    split
    · split
      · assumption
      · exact Nat.le_refl _
    · exact Nat.le_refl _
  · rw [h2 (no_first hk)]
    split
    · split
      · assumption
      · exact Nat.le_refl _
    · exact Nat.le_refl _

/-- Without a lookup there is nothing to connect to. -/
theorem C97_lookup (n : Net) :
    (n.lookup = none → connect n = (.timeout, 20000))
    ∧ (∀ L, n.lookup = some L → 20000 < L → connect n = (.timeout, 20000))
    ∧ (∀ L, n.lookup = some L → L ≤ 20000 → n.addrs = none → connect n = (.lookupFailed, L)) := by
  refine ⟨fun h => ?_, fun L h hL => ?_, fun L h hL ha => ?_⟩ <;> unfold connect <;> rw [h]
  · rfl
  · dsimp only
    rw [if_neg (by unfold limit; omega)]
    rfl
  · dsimp only
    rw [if_pos (show L ≤ limit from hL), ha]

/-- **Finding.** One address that never answers blocks all addresses after it: connecting ends with a timeout, although others
would accept (and may even have accepted). -/
theorem C97_silent (n : Net) (L : Nat) (l : List Attempt) (hL : n.lookup = some L) (hl : n.addrs = some l)
    (j : Nat) (a : Attempt) (hj : l[j]? = some a) (hs : a.delay = none) (hk : ∀ k, First l k → j < k) :
    connect n = (.timeout, 20000) := by
  obtain ⟨S, G, T⟩ := C97_timing l
  have hGj : G j = none := by
    rw [gone_eq T hj, hs]
    cases S j <;> cases (if 0 < j then G (j - 1) else some 0) <;> rfl
  have hjl := (List.getElem?_eq_some_iff.1 hj).1
  have up : ∀ k, j ≤ k → k < l.length → G k = none := by
    intro k hjk hkl
    cases hg : G k with
    | none => rfl
    | some g =>
      exfalso
      obtain ⟨s, hs, -⟩ := gone_mono T (t := g) (k - j) j (by omega)
        (by rw [show j + (k - j) = k by omega]; exact ⟨g, hg, Nat.le_refl _⟩)
      rw [hGj] at hs
      cases hs
  by_cases hf : ∃ k, First l k
  · obtain ⟨k, hf⟩ := hf
    have hkl : k < l.length := by
      obtain ⟨⟨b, hb, -⟩, -⟩ := hf
      exact (List.getElem?_eq_some_iff.1 hb).1
    rw [(C97_connect n L l hL hl S G T).1 k hf, up k (Nat.le_of_lt (hk k hf)) hkl]
    rfl
  · rw [(C97_connect n L l hL hl S G T).2.1 (no_first hf), if_neg (by rintro rfl; cases hj), up _ (by omega) (by omega)]
    rfl

/-- If all addresses before the first one that accepts are answered (refused) within 1 s, then this one is tried after 1 s for each
of them, and connecting takes as long as its own answer and handshake on top of that. So the 21st and later addresses are
never reached. -/
theorem C97_refused (n : Net) (L : Nat) (l : List Attempt) (hL : n.lookup = some L) (hl : n.addrs = some l)
    (k : Nat) (hk : First l k) (hq : ∀ (i : Nat) (a : Attempt), i < k → l[i]? = some a → ∃ d, a.delay = some d ∧ d ≤ 1000)
    (a : Attempt) (ha : l[k]? = some a) (d e : Nat) (hd : a.delay = some d) (he : (n.handshake k).delay = some e) :
    connect n = if L + 1000 * k + d + e ≤ 20000 then
        (if (n.handshake k).ok then .connected k else .tlsFailed k, L + 1000 * k + d + e)
      else (.timeout, 20000) := by
  obtain ⟨S, G, T⟩ := C97_timing l
  have hkl := (List.getElem?_eq_some_iff.1 ha).1
  have key : ∀ i, i ≤ k → S i = some (1000 * i) ∧ ∀ j, j < i → By (G j) (1000 * j + 1000) := by
    intro i
    induction i with
    | zero => exact fun _ => ⟨T.start_first, fun j h => absurd h (Nat.not_lt_zero j)⟩
    | succ i ih =>
      intro hi
      obtain ⟨h1, h2⟩ := ih (by omega)
      have hil : i < l.length := by omega
      have hGi : By (G i) (1000 * i + 1000) := by
        have hai : l[i]? = some l[i] := List.getElem?_eq_getElem hil
        obtain ⟨x, hx, hx1⟩ := hq i _ (by omega) hai
        rw [gone_eq T hai, h1, hx]
        refine later_by ?_ ⟨1000 * i + x, rfl, by omega⟩
        split
        · exact by_mono (h2 (i - 1) (by omega)) (by omega)
        · exact ⟨0, rfl, Nat.zero_le _⟩
      refine ⟨?_, fun j hj => ?_⟩
      · rw [start_eq T (by omega), h1]
        have : By (if 3 ≤ i then G (i - 3) else some 0) (1000 * i) := by
          split
          · exact by_mono (h2 (i - 3) (by omega)) (by omega)
          · exact ⟨0, rfl, Nat.zero_le _⟩
        obtain ⟨b, hb, hbi⟩ := this
        rw [hb]
        show some (max (1000 * i) b + 1000) = _
        rw [Nat.max_eq_left hbi]
        rfl
      · rcases Nat.lt_succ_iff_lt_or_eq.1 hj with h | rfl
        · exact h2 j h
        · exact hGi
  obtain ⟨h1, h2⟩ := key k (Nat.le_refl _)
  have hG : G k = some (1000 * k + d) := by
    rw [gone_eq T ha, h1, hd]
    have : By (if 0 < k then G (k - 1) else some 0) (1000 * k) := by
      split
      · exact by_mono (h2 (k - 1) (by omega)) (by omega)
      · exact ⟨0, rfl, Nat.zero_le _⟩
    obtain ⟨b, hb, hbi⟩ := this
    rw [hb]
    show some (max b (1000 * k + d)) = _
    rw [Nat.max_eq_right (by omega)]
  rw [(C97_connect n L l hL hl S G T).1 k hk, hG, he]
  show (if L + (1000 * k + d) + e ≤ 20000 then (_, L + (1000 * k + d) + e) else _) = _
  rw [show L + (1000 * k + d) = L + 1000 * k + d by omega]

/-! ### The name in the certificate -/

theorem takeWhile_colon (p r : Bytes) (hp : 58 ∉ p) : (p ++ 58 :: r).takeWhile (· ≠ 58) = p := by
  rw [List.takeWhile_append_of_pos]
  · simp
  · intro a ha
    simp only [ne_eq, decide_not, Bool.not_eq_true', decide_eq_false_iff_not]
    rintro rfl
    exact hp ha

/-- The certificate is checked for the host of the address, the port is not part of it. -/
theorem C97_hostname (h p : Bytes) (hp : 58 ∉ p) : hostname (h ++ 58 :: p) = h := by
  unfold hostname rfind
  rw [if_pos (List.mem_append_right _ List.mem_cons_self)]
  dsimp only
  have hr : ((h ++ 58 :: p).reverse.takeWhile (· ≠ 58)).length = p.length := by
    rw [List.reverse_append, List.reverse_cons, List.append_assoc, List.singleton_append,
      takeWhile_colon _ _ (fun hx => hp (List.mem_reverse.1 hx)), List.length_reverse]
  rw [hr, List.length_append, List.length_cons, show h.length + (p.length + 1) - 1 - p.length = h.length by omega,
    List.take_left]

/-- **Finding.** For an IPv6 address the name is the address in its brackets, which is neither an IP address nor a host name of
any certificate. -/
theorem C97_hostname_v6 (ip p : Bytes) (hp : 58 ∉ p) : hostname ((91 :: ip ++ [93]) ++ 58 :: p) = 91 :: ip ++ [93] :=
  C97_hostname _ p hp

/-- The name is what was given on the command line, if this was a host without a port. -/
theorem C97_hostname_given (E : Args.Env) (a : Bytes) (args : List Bytes) (p : Args.Parser)
    (hv : ∀ w ∈ args, Utf8.valid w = true) (h : Args.parse E (a :: args) = .ok p) (ha : 58 ∉ a) : hostname p.address = a := by
  rw [(Props.Args.C54_service_address E a args p hv h).1 ha]
  exact C97_hostname a (asc "8900") (by decide)

example : ∃ p, Args.parse Props.Args.demoEnv [asc "host"] = .ok p ∧ hostname p.address = asc "host" :=
  ⟨_, rfl, by decide +kernel⟩

/-! ### Examples -/

/-- Two addresses: the first refuses after 30 ms, the second accepts after 40 ms. -/
def demoAddrs : List Attempt := [⟨some 30, false⟩, ⟨some 40, true⟩]

def demoNet : Net := ⟨some 5, some demoAddrs, fun _ => ⟨some 100, true⟩⟩

theorem demo_first : First demoAddrs 1 := by
  refine ⟨⟨_, rfl, rfl⟩, fun j b hj hb => ?_⟩
  match j with
  | 0 => cases hb; rfl
  | j + 1 => omega

example : connect demoNet = (.connected 1, 1145) := by
  rw [C97_refused demoNet 5 demoAddrs rfl rfl 1 demo_first (fun i a hi ha => ?_) _ rfl 40 100 rfl rfl]
  · rfl
  · match i with
    | 0 => cases ha; exact ⟨30, rfl, by decide⟩
    | i + 1 => omega

/-- An address that does not answer, before one that accepts at once. -/
def silentNet : Net := ⟨some 5, some [⟨none, false⟩, ⟨some 0, true⟩], fun _ => ⟨some 100, true⟩⟩

example : connect silentNet = (.timeout, 20000) := by
  refine C97_silent silentNet 5 _ rfl rfl 0 ⟨none, false⟩ rfl rfl fun k hk => ?_
  obtain ⟨⟨a, ha, hao⟩, -⟩ := hk
  match k with
  | 0 => cases ha; cases hao
  | k + 1 => exact Nat.succ_pos k

/-- All but the last refuse at once: the four in the queue, then one more. -/
example : (race ((List.replicate 5 ⟨some 0, false⟩) ++ [⟨some 7, true⟩]) 5).1.started = [(0, 0)]
    ∧ (race [⟨some 3, true⟩, ⟨some 3, true⟩] 3).2 = some (some 0) ∧ (race [⟨some 3, true⟩, ⟨some 3, true⟩] 2).2 = none := by
  decide +kernel

example : hostname (asc "arr-rs.angelcam.com:8900") = asc "arr-rs.angelcam.com" ∧ hostname (asc "[::1]:8900") = asc "[::1]" := by
  decide +kernel

end Verif.Props.Tls
