import Verif.Lemmas.ScanResult
/-! # Lemmas about the duplicate filter -/
namespace Verif.Scan
open Verif Spec.Scan

/-- The priority of a port. -/
def prioOf (prio : AMap UInt16 Nat) (p : UInt16) : Nat := (AMap.get prio p).getD 0

theorem get_prioritiesFrom (len : Nat) (q : UInt16) (ps : List UInt16) : ∀ (i : Nat) (m : AMap UInt16 Nat), ps.Nodup →
    AMap.get (prioritiesFrom len i ps m) q
      = if q ∈ ps then some (len - (i + ps.idxOf q)) else AMap.get m q := by
  induction ps with
  | nil => intro i m _; simp [prioritiesFrom]
  | cons p ps ih =>
    intro i m hn
    rw [List.nodup_cons] at hn
    rw [prioritiesFrom, ih _ _ hn.2, AMap.get_insert, List.idxOf_cons]
    by_cases hq : q ∈ ps
    · have hpq : ¬ q = p := fun h => hn.1 (h ▸ hq)
      have hpq' : (p == q) = false := by
        simp only [beq_eq_false_iff_ne]; exact fun h => hpq h.symm
      simp only [hq, if_true, List.mem_cons, or_true, hpq', cond_false]
      congr 1
      omega
    · by_cases hpq : q = p
      · subst hpq
        simp [hq]
      · simp [hq, hpq]

theorem prioOf_eq (ports : List UInt16) (hn : ports.Nodup) (q : UInt16) :
    prioOf (getPortPriorities ports) q = ports.length - ports.idxOf q := by
  unfold prioOf getPortPriorities
  rw [get_prioritiesFrom _ _ _ _ _ hn]
  by_cases hq : q ∈ ports
  · simp [hq]
  · rw [if_neg hq, List.idxOf_eq_length hq]
    simp

theorem preferred_iff (ports : List UInt16) (p q : UInt16) :
    Preferred ports p q ↔ ports.idxOf p < ports.idxOf q := by
  induction ports with
  | nil =>
    simp only [List.idxOf_nil, Nat.lt_irrefl, iff_false]
    rintro ⟨a, b, h, _⟩
    simp at h
  | cons x ports ih =>
    rw [List.idxOf_cons, List.idxOf_cons]
    by_cases hq : x = q
    · subst hq
      simp only [beq_self_eq_true, cond_true, Nat.not_lt_zero, iff_false]
      rintro ⟨a, b, h, h1, h2⟩
      cases a with
      | nil =>
        simp only [List.nil_append, List.cons.injEq] at h
        exact h2 h.1
      | cons y a =>
        simp only [List.cons_append, List.cons.injEq] at h
        exact h1 (by simp [h.1])
    · have hq' : (x == q) = false := by simpa using hq
      rw [hq', cond_false]
      by_cases hp : x = p
      · subst hp
        simp only [beq_self_eq_true, cond_true, Nat.zero_lt_succ, iff_true]
        exact ⟨[], ports, rfl, by simp, fun h => hq h.symm⟩
      · have hp' : (x == p) = false := by simpa using hp
        rw [hp', cond_false, Nat.add_lt_add_iff_right, ← ih]
        constructor
        · rintro ⟨a, b, h, h1, h2⟩
          cases a with
          | nil =>
            simp only [List.nil_append, List.cons.injEq] at h
            exact absurd h.1 hp
          | cons y a =>
            simp only [List.cons_append, List.cons.injEq] at h
            exact ⟨a, b, h.2, fun hm => h1 (by simp [hm]), h2⟩
        · rintro ⟨a, b, h, h1, h2⟩
          refine ⟨x :: a, b, by rw [h]; rfl, ?_, h2⟩
          intro hm
          rcases List.mem_cons.1 hm with h0 | h0
          · exact hq h0.symm
          · exact h1 h0

theorem prioOf_lt_iff (ports : List UInt16) (hn : ports.Nodup) (p q : UInt16) :
    prioOf (getPortPriorities ports) q < prioOf (getPortPriorities ports) p ↔ Preferred ports p q := by
  rw [prioOf_eq _ hn, prioOf_eq _ hn, preferred_iff]
  have h1 : ports.idxOf p ≤ ports.length := List.idxOf_le_length
  have h2 : ports.idxOf q ≤ ports.length := List.idxOf_le_length
  omega

/-- What the map of the filter holds after some of the services. -/
structure FilterOk (prio : AMap UInt16 Nat) (l : List (MacAddr × SocketAddr))
    (m : AMap IpAddr (MacAddr × UInt16)) : Prop where
  keys : m.keys.Nodup
  every : ∀ x ∈ l, (AMap.get m x.2.ip).isSome = true
  best : ∀ ip v, AMap.get m ip = some v → ∃ a b, l = a ++ (v.1, ⟨ip, v.2⟩) :: b
    ∧ (∀ x ∈ a, x.2.ip = ip → prioOf prio x.2.port < prioOf prio v.2)
    ∧ (∀ x ∈ b, x.2.ip = ip → prioOf prio x.2.port ≤ prioOf prio v.2)

theorem filterOk_step {prio : AMap UInt16 Nat} {l : List (MacAddr × SocketAddr)}
    {m : AMap IpAddr (MacAddr × UInt16)} (h : FilterOk prio l m) (s : MacAddr × SocketAddr) :
    FilterOk prio (l ++ [s]) (filterStep prio m s) := by
  obtain ⟨mac, ip, port⟩ := s
  unfold filterStep
  simp only
  -- replacing
  have hrep : (∀ x ∈ l, x.2.ip = ip → prioOf prio x.2.port < prioOf prio port) →
      FilterOk prio (l ++ [(mac, ⟨ip, port⟩)]) (AMap.insert m ip (mac, port)) := by
    intro hl
    refine ⟨AMap.nodup_insert h.keys _ _, ?_, ?_⟩
    · intro x hx
      rw [AMap.get_insert]
      by_cases hi : x.2.ip = ip
      · simp [hi]
      · rw [if_neg hi]
        rcases List.mem_append.1 hx with hx | hx
        · exact h.every x hx
        · simp only [List.mem_singleton] at hx
          rw [hx] at hi
          exact absurd rfl hi
    · intro j v hg
      rw [AMap.get_insert] at hg
      by_cases hi : j = ip
      · subst hi
        rw [if_pos rfl, Option.some.injEq] at hg
        subst hg
        exact ⟨l, [], rfl, hl, fun x hx => absurd hx List.not_mem_nil⟩
      · rw [if_neg hi] at hg
        obtain ⟨a, b, he, ha, hb⟩ := h.best j v hg
        refine ⟨a, b ++ [(mac, ⟨ip, port⟩)], by rw [he]; simp, ha, ?_⟩
        intro x hx hxi
        rcases List.mem_append.1 hx with hx | hx
        · exact hb x hx hxi
        · simp only [List.mem_singleton] at hx
          rw [hx] at hxi
          exact absurd hxi.symm hi
  cases hg : AMap.get m ip with
  | none =>
    simp only
    apply hrep
    intro x hx hxi
    have := h.every x hx
    rw [hxi, hg] at this
    cases this
  | some old =>
    simp only
    obtain ⟨a, b, he, ha, hb⟩ := h.best ip old hg
    by_cases hgt : ((AMap.get prio port).getD 0) > ((AMap.get prio old.2).getD 0)
    · rw [if_pos hgt]
      have hgt' : prioOf prio old.2 < prioOf prio port := hgt
      apply hrep
      intro x hx hxi
      rw [he] at hx
      rcases List.mem_append.1 hx with hx | hx
      · exact Nat.lt_trans (ha x hx hxi) hgt'
      · rcases List.mem_cons.1 hx with hx | hx
        · rw [hx]; exact hgt'
        · exact Nat.lt_of_le_of_lt (hb x hx hxi) hgt'
    · rw [if_neg hgt]
      have hgt' : prioOf prio port ≤ prioOf prio old.2 := Nat.le_of_not_lt hgt
      refine ⟨h.keys, ?_, ?_⟩
      · intro x hx
        rcases List.mem_append.1 hx with hx | hx
        · exact h.every x hx
        · simp only [List.mem_singleton] at hx
          rw [hx, hg]; rfl
      · intro j v hv
        obtain ⟨a', b', he', ha', hb'⟩ := h.best j v hv
        refine ⟨a', b' ++ [(mac, ⟨ip, port⟩)], by rw [he']; simp, ha', ?_⟩
        intro x hx hxi
        rcases List.mem_append.1 hx with hx | hx
        · exact hb' x hx hxi
        · simp only [List.mem_singleton] at hx
          rw [hx] at hxi ⊢
          have hji : ip = j := hxi
          subst hji
          rw [hg, Option.some.injEq] at hv
          subst hv
          exact hgt'

theorem filterOk_foldl (prio : AMap UInt16 Nat) (l' : List (MacAddr × SocketAddr)) :
    ∀ (l : List (MacAddr × SocketAddr)) (m : AMap IpAddr (MacAddr × UInt16)), FilterOk prio l m →
      FilterOk prio (l ++ l') (l'.foldl (filterStep prio) m) := by
  induction l' with
  | nil => intro l m h; rw [List.append_nil]; exact h
  | cons s l' ih =>
    intro l m h
    have := ih (l ++ [s]) (filterStep prio m s) (filterOk_step h s)
    rw [List.append_assoc] at this
    exact this

theorem filterOk (prio : AMap UInt16 Nat) (l : List (MacAddr × SocketAddr)) :
    FilterOk prio l (l.foldl (filterStep prio) []) := by
  have := filterOk_foldl prio l [] [] ⟨List.nodup_nil, fun x hx => absurd hx List.not_mem_nil,
    fun ip v h => by cases h⟩
  exact this

end Verif.Scan
