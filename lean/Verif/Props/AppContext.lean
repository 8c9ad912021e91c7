import Verif.Spec.AppContext
/-!
# Properties of the application context: C48
-/
namespace Verif.Props.AppContext
open Verif Verif.AppContext Verif.Spec.AppContext
open Verif.Reconnect (ConnState)

/-- A history of the context. -/
def hist (ops : List AOp) : App × List AEv := App.new.run ops

/-- The listener is held by the call. -/
def Call.has (c : Call) (l : Nat) : Prop := l ∈ c.todo ∨ l ∈ c.told

/-- The listener is not held by any call, except possibly by that of thread `tid`. -/
def Free (a : App) (l : Nat) (tid : Option Nat) : Prop :=
  ∀ t c, a.calls t = some c → some t ≠ tid → ¬ Call.has c l

/-- Where a listener is and what that means for what it was told. -/
inductive Place (a : App) (l : Nat) (s : Seen) : Prop where
  | notYet (h : a.next ≤ l) (hr : s.registered = false) (hall : s.all = []) (hal : s.alone = [])
      (ht : s.told = []) (hl : l ∉ a.listeners) (hf : Free a l none)
  | shared (h : l < a.next) (hr : s.registered = true) (hl : l ∈ a.listeners) (hf : Free a l none)
      (h1 : s.alone.Sublist s.told) (h2 : s.told.Sublist s.all)
  | todo (h : l < a.next) (hr : s.registered = true) (hl : l ∉ a.listeners) (tid : Nat) (c : Call)
      (hc : a.calls tid = some c) (hf : Free a l (some tid)) (hm : l ∈ c.todo) (hn : l ∉ c.told)
      (h1 : s.alone.Sublist (s.told ++ [c.change])) (h2 : (s.told ++ [c.change]).Sublist s.all)
  | told (h : l < a.next) (hr : s.registered = true) (hl : l ∉ a.listeners) (tid : Nat) (c : Call)
      (hc : a.calls tid = some c) (hf : Free a l (some tid)) (hm : l ∈ c.told) (hn : l ∉ c.todo)
      (h1 : s.alone.Sublist s.told) (h2 : s.told.Sublist s.all)

/-- The invariant: `f l` are the books of listener `l`, `n` is the number of calls in flight. -/
structure Good (a : App) (f : Nat → Seen) (n : Nat) : Prop where
  live : ∃ ts : List Nat, ts.Nodup ∧ ts.length = n ∧ ∀ t, a.calls t ≠ none ↔ t ∈ ts
  nodup : a.listeners.Nodup
  nodups : ∀ t c, a.calls t = some c → (c.todo ++ c.told).Nodup
  inFlight : ∀ l, (f l).inFlight = n
  place : ∀ l, Place a l (f l)

theorem Good.zero {a f n} (h : Good a f n) : n = 0 ↔ ∀ t, a.calls t = none := by
  obtain ⟨ts, -, h2, h3⟩ := h.live
  constructor
  · intro h0 t
    rw [h0, List.length_eq_zero_iff] at h2
    subst h2
    have := h3 t
    simpa using this
  · intro hn
    cases ts with
    | nil => exact h2.symm
    | cons t ts => exact absurd (hn t) ((h3 t).mpr (List.mem_cons_self ..))

theorem Good.new : Good App.new (fun _ => ⟨0, false, [], [], []⟩) 0 :=
  ⟨⟨[], List.nodup_nil, rfl, by simp [App.new]⟩, List.nodup_nil, by simp [App.new], fun _ => rfl,
    fun _ => .notYet (Nat.zero_le _) rfl rfl rfl rfl (by simp [App.new]) (by intro t c h; cases h)⟩

/-- A listener held by a call is not in the shared list. -/
theorem Place.notShared {a l s} (h : Place a l s) {t c} (h1 : a.calls t = some c) (hc : Call.has c l) :
    l ∉ a.listeners := by
  cases h with
  | notYet _ _ _ _ _ hl _ => exact hl
  | shared _ _ _ hf _ _ => exact absurd hc (hf t c h1 nofun)
  | todo _ _ hl => exact hl
  | told _ _ hl => exact hl

theorem setCall_self (a : App) (tid : Nat) (c : Option Call) : (a.setCall tid c).calls tid = c := by
  simp [App.setCall]

theorem setCall_ne (a : App) (tid : Nat) (c : Option Call) {t : Nat} (h : t ≠ tid) :
    (a.setCall tid c).calls t = a.calls t := by
  simp [App.setCall, h]

theorem apply_listeners (a : App) (c : Change) : (a.apply c).listeners = a.listeners ∧
    (a.apply c).calls = a.calls ∧ (a.apply c).next = a.next := by
  cases c <;> exact ⟨rfl, rfl, rfl⟩

theorem good_set {a f n} (h : Good a f n) (tid : Nat) (c : Change) (hn : a.calls tid = none) :
    Good ({ a.apply c with listeners := [] }.setCall tid (some ⟨c, a.listeners, []⟩))
      (fun l => (f l).step l (.changed c)) (n + 1) := by
  obtain ⟨e1, e2, e3⟩ := apply_listeners a c
  have hcalls : ∀ t, t ≠ tid → ({ a.apply c with listeners := [] }.setCall tid
      (some ⟨c, a.listeners, []⟩)).calls t = a.calls t := by
    intro t ht
    rw [setCall_ne _ _ _ ht]
    exact congrFun e2 t
  have hself := setCall_self { a.apply c with listeners := [] } tid (some ⟨c, a.listeners, []⟩)
  have hnext : ({ a.apply c with listeners := [] }.setCall tid (some ⟨c, a.listeners, []⟩)).next = a.next := e3
  have hlist : ({ a.apply c with listeners := [] }.setCall tid (some ⟨c, a.listeners, []⟩)).listeners = [] := rfl
  have hfree : ∀ l o, l ∉ a.listeners → Free a l o →
      Free ({ a.apply c with listeners := [] }.setCall tid (some ⟨c, a.listeners, []⟩)) l o := by
    intro l o hl hf t d ht ho
    by_cases htt : t = tid
    · subst htt
      rw [hself] at ht
      cases ht
      rintro (hx | hx)
      · exact hl hx
      · cases hx
    · rw [hcalls t htt] at ht
      exact hf t d ht ho
  generalize hb : ({ a.apply c with listeners := [] }.setCall tid (some ⟨c, a.listeners, []⟩) : App) = b at *
  refine ⟨?_, ?_, ?_, ?_, ?_⟩
  · obtain ⟨ts, h1, h2, h3⟩ := h.live
    refine ⟨tid :: ts, List.nodup_cons.mpr ⟨fun hm => (h3 tid).mpr hm hn, h1⟩, by simp [h2], ?_⟩
    intro t
    by_cases ht : t = tid
    · subst ht; rw [hself]; simp
    · rw [hcalls t ht, h3, List.mem_cons]
      constructor
      · exact .inr
      · rintro (hx | hx)
        · exact absurd hx ht
        · exact hx
  · rw [hlist]; exact List.nodup_nil
  · intro t d ht
    by_cases htt : t = tid
    · subst htt
      rw [hself] at ht
      cases ht
      simpa using h.nodup
    · rw [hcalls t htt] at ht
      exact h.nodups t d ht
  · intro l
    have := h.inFlight l
    simp only [Seen.step]
    split <;> simp [this]
  · intro l
    have hin := h.inFlight l
    have hbusy : ∀ t d, a.calls t = some d → n ≠ 0 := by
      intro t d ht h0
      rw [h.zero.mp h0 t] at ht; cases ht
    cases h.place l with
    | notYet h1 hr hall hal ht hl hf =>
      have hs : (f l).step l (.changed c) = { f l with inFlight := (f l).inFlight + 1 } := by
        simp [Seen.step, hr]
      rw [hs]
      exact .notYet (by rw [hnext]; exact h1) hr hall hal ht (by rw [hlist]; simp) (hfree l none hl hf)
    | shared h1 hr hl hf hs1 hs2 =>
      have hs : (f l).step l (.changed c) = { f l with inFlight := (f l).inFlight + 1, all := (f l).all ++ [c], alone := if (f l).inFlight = 0 then (f l).alone ++ [c] else (f l).alone } := by
        simp [Seen.step, hr]
      rw [hs]
      refine .todo (by rw [hnext]; exact h1) hr (by rw [hlist]; simp) tid _ hself ?_ hl (by simp) ?_ ?_
      · intro t d ht ho
        have htt : t ≠ tid := by simpa using ho
        rw [hcalls t htt] at ht
        exact hf t d ht nofun
      · dsimp only
        split
        · exact hs1.append (List.Sublist.refl _)
        · exact hs1.trans (List.sublist_append_left _ _)
      · exact hs2.append (List.Sublist.refl _)
    | todo h1 hr hl t d hd hf hm hnt hs1 hs2 =>
      have hs : (f l).step l (.changed c) = { f l with inFlight := (f l).inFlight + 1, all := (f l).all ++ [c] } := by
        have := hbusy t d hd
        simp [Seen.step, hr, hin, this]
      rw [hs]
      have htt : t ≠ tid := by rintro rfl; rw [hn] at hd; cases hd
      exact .todo (by rw [hnext]; exact h1) hr (by rw [hlist]; simp) t d (by rw [hcalls t htt]; exact hd)
        (hfree l _ hl hf) hm hnt hs1 (hs2.trans (List.sublist_append_left _ _))
    | told h1 hr hl t d hd hf hm hnt hs1 hs2 =>
      have hs : (f l).step l (.changed c) = { f l with inFlight := (f l).inFlight + 1, all := (f l).all ++ [c] } := by
        have := hbusy t d hd
        simp [Seen.step, hr, hin, this]
      rw [hs]
      have htt : t ≠ tid := by rintro rfl; rw [hn] at hd; cases hd
      exact .told (by rw [hnext]; exact h1) hr (by rw [hlist]; simp) t d (by rw [hcalls t htt]; exact hd)
        (hfree l _ hl hf) hm hnt hs1 (hs2.trans (List.sublist_append_left _ _))

/-- Moving one call's listeners around changes nothing for a listener the call does not hold. -/
theorem place_other {a : App} {l : Nat} {s : Seen} (h : Place a l s) {tid : Nat} {c d : Call}
    (hc : a.calls tid = some c) (hl : ¬ Call.has c l) (hd : ¬ Call.has d l) :
    Place (a.setCall tid (some d)) l s := by
  have hfree : ∀ o, Free a l o → Free (a.setCall tid (some d)) l o := by
    intro o hf t e ht ho
    by_cases htt : t = tid
    · subst htt; rw [setCall_self] at ht; cases ht; exact hd
    · rw [setCall_ne _ _ _ htt] at ht; exact hf t e ht ho
  cases h with
  | notYet h1 hr hall hal ht hl hf => exact .notYet h1 hr hall hal ht hl (hfree _ hf)
  | shared h1 hr hl hf hs1 hs2 => exact .shared h1 hr hl (hfree _ hf) hs1 hs2
  | todo h1 hr hl' t e he hf hm hnt hs1 hs2 =>
    have htt : t ≠ tid := by
      rintro rfl
      rw [hc] at he; cases he
      exact hl (.inl hm)
    exact .todo h1 hr hl' t e (by rw [setCall_ne _ _ _ htt]; exact he) (hfree _ hf) hm hnt hs1 hs2
  | told h1 hr hl' t e he hf hm hnt hs1 hs2 =>
    have htt : t ≠ tid := by
      rintro rfl
      rw [hc] at he; cases he
      exact hl (.inr hm)
    exact .told h1 hr hl' t e (by rw [setCall_ne _ _ _ htt]; exact he) (hfree _ hf) hm hnt hs1 hs2

theorem good_tell {a f n} (h : Good a f n) (tid : Nat) (c : Change) (x : Nat) (ls d : List Nat)
    (hc : a.calls tid = some ⟨c, x :: ls, d⟩) :
    Good (a.setCall tid (some ⟨c, ls, d ++ [x]⟩)) (fun l => (f l).step l (.told x c)) n := by
  have hnd := h.nodups tid _ hc
  refine ⟨?_, h.nodup, ?_, ?_, ?_⟩
  · obtain ⟨ts, h1, h2, h3⟩ := h.live
    refine ⟨ts, h1, h2, ?_⟩
    intro t
    by_cases ht : t = tid
    · subst ht
      rw [setCall_self, ← h3, hc]; simp
    · rw [setCall_ne _ _ _ ht, h3]
  · intro t e ht
    by_cases htt : t = tid
    · subst htt
      rw [setCall_self] at ht; cases ht
      dsimp only at hnd ⊢
      rw [← List.append_assoc, List.nodup_append]
      rw [List.cons_append, List.nodup_cons] at hnd
      refine ⟨hnd.2, by simp, ?_⟩
      rintro y hy z hz rfl
      simp only [List.mem_singleton] at hz
      subst hz
      exact hnd.1 hy
    · rw [setCall_ne _ _ _ htt] at ht
      exact h.nodups t e ht
  · intro l
    have := h.inFlight l
    simp only [Seen.step]
    split <;> exact this
  · intro l
    have hp := h.place l
    by_cases hx : x = l
    · subst hx
      have hs : (f x).step x (.told x c) = { f x with told := (f x).told ++ [c] } := by simp [Seen.step]
      rw [hs]
      dsimp only at hnd
      rw [List.cons_append, List.nodup_cons, List.mem_append] at hnd
      cases hp with
      | notYet _ _ _ _ _ _ hf => exact absurd (.inl (List.mem_cons_self ..)) (hf _ _ hc nofun)
      | shared _ _ _ hf _ _ => exact absurd (.inl (List.mem_cons_self ..)) (hf _ _ hc nofun)
      | todo h1 hr hl t e he hf hm hnt hs1 hs2 =>
        have htt : tid = t := by
          apply Decidable.byContradiction
          intro hne
          exact hf _ _ hc (by simpa using hne) (.inl (List.mem_cons_self ..))
        subst htt
        rw [hc] at he; cases he
        refine .told h1 hr hl tid _ (setCall_self ..) ?_ (by simp) ?_ hs1 hs2
        · intro t e ht ho
          have htt : t ≠ tid := by simpa using ho
          rw [setCall_ne _ _ _ htt] at ht
          exact hf t e ht ho
        · exact fun hm => hnd.1 (.inl hm)
      | told h1 hr hl t e he hf hm hnt hs1 hs2 =>
        have htt : tid = t := by
          apply Decidable.byContradiction
          intro hne
          exact hf _ _ hc (by simpa using hne) (.inl (List.mem_cons_self ..))
        subst htt
        rw [hc] at he; cases he
        exact absurd (List.mem_cons_self ..) hnt
    · have hs : (f l).step l (.told x c) = f l := by simp [Seen.step, hx]
      rw [hs]
      by_cases hh : Call.has ⟨c, x :: ls, d⟩ l
      · cases hp with
        | notYet _ _ _ _ _ _ hf => exact absurd hh (hf _ _ hc nofun)
        | shared _ _ _ hf _ _ => exact absurd hh (hf _ _ hc nofun)
        | todo h1 hr hl t e he hf hm hnt hs1 hs2 =>
          have htt : tid = t := by
            apply Decidable.byContradiction
            intro hne
            exact hf _ _ hc (by simpa using hne) hh
          subst htt
          rw [hc] at he; cases he
          refine .todo h1 hr hl tid _ (setCall_self ..) ?_ ?_ ?_ hs1 hs2
          · intro t e ht ho
            have htt : t ≠ tid := by simpa using ho
            rw [setCall_ne _ _ _ htt] at ht
            exact hf t e ht ho
          · exact (List.mem_cons.mp hm).resolve_left (Ne.symm hx)
          · simp only [List.mem_append, List.mem_singleton]
            rintro (hm | hm)
            · exact hnt hm
            · exact hx hm.symm
        | told h1 hr hl t e he hf hm hnt hs1 hs2 =>
          have htt : tid = t := by
            apply Decidable.byContradiction
            intro hne
            exact hf _ _ hc (by simpa using hne) hh
          subst htt
          rw [hc] at he; cases he
          refine .told h1 hr hl tid _ (setCall_self ..) ?_ ?_ ?_ hs1 hs2
          · intro t e ht ho
            have htt : t ≠ tid := by simpa using ho
            rw [setCall_ne _ _ _ htt] at ht
            exact hf t e ht ho
          · exact List.mem_append_left _ hm
          · exact fun hm => hnt (List.mem_cons_of_mem _ hm)
      · refine place_other hp hc hh ?_
        rintro (hm | hm)
        · exact hh (.inl (List.mem_cons_of_mem _ hm))
        · simp only [List.mem_append, List.mem_singleton] at hm
          rcases hm with hm | hm
          · exact hh (.inr hm)
          · exact hx hm.symm

theorem good_finish {a f n} (h : Good a f n) (tid : Nat) (c : Change) (d : List Nat)
    (hc : a.calls tid = some ⟨c, [], d⟩) :
    Good ({ a with listeners := d ++ a.listeners }.setCall tid none)
      (fun l => (f l).step l .finished) (n - 1) := by
  have hcalls : ∀ t, t ≠ tid → ({ a with listeners := d ++ a.listeners }.setCall tid none).calls t =
      a.calls t := by
    intro t ht
    rw [setCall_ne _ _ _ ht]
  have hself := setCall_self { a with listeners := d ++ a.listeners } tid none
  have hlist : ({ a with listeners := d ++ a.listeners }.setCall tid none).listeners = d ++ a.listeners := rfl
  have hnext : ({ a with listeners := d ++ a.listeners }.setCall tid none).next = a.next := rfl
  generalize hb : ({ a with listeners := d ++ a.listeners }.setCall tid none : App) = b at *
  have hnd := h.nodups tid _ hc
  simp only [List.nil_append] at hnd
  have hfree : ∀ l o, Free a l o → Free b l o := by
    intro l o hf t e ht ho
    by_cases htt : t = tid
    · subst htt; rw [hself] at ht; cases ht
    · rw [hcalls t htt] at ht; exact hf t e ht ho
  refine ⟨?_, ?_, ?_, ?_, ?_⟩
  · obtain ⟨ts, h1, h2, h3⟩ := h.live
    have hm : tid ∈ ts := (h3 tid).mp (by rw [hc]; simp)
    refine ⟨ts.erase tid, h1.erase _, by rw [List.length_erase_of_mem hm, h2], ?_⟩
    intro t
    rw [h1.mem_erase_iff]
    by_cases ht : t = tid
    · subst ht; rw [hself]; simp
    · rw [hcalls t ht, h3]; simp [ht]
  · rw [hlist, List.nodup_append]
    refine ⟨hnd, h.nodup, ?_⟩
    rintro x hx y hy rfl
    exact (h.place x).notShared hc (.inr hx) hy
  · intro t e ht
    by_cases htt : t = tid
    · subst htt; rw [hself] at ht; cases ht
    · rw [hcalls t htt] at ht
      exact h.nodups t e ht
  · intro l
    have := h.inFlight l
    simp only [Seen.step, this]
  · intro l
    have hs : (f l).step l .finished = { f l with inFlight := (f l).inFlight - 1 } := rfl
    rw [hs]
    cases h.place l with
    | notYet h1 hr hall hal ht hl hf =>
      refine .notYet (by rw [hnext]; exact h1) hr hall hal ht ?_ (hfree _ _ hf)
      rw [hlist, List.mem_append]
      rintro (hm | hm)
      · exact hf _ _ hc nofun (.inr hm)
      · exact hl hm
    | shared h1 hr hl hf hs1 hs2 =>
      exact .shared (by rw [hnext]; exact h1) hr (by rw [hlist]; exact List.mem_append_right _ hl)
        (hfree _ _ hf) hs1 hs2
    | todo h1 hr hl t e he hf hm hnt hs1 hs2 =>
      have htt : t ≠ tid := by rintro rfl; rw [hc] at he; cases he; cases hm
      refine .todo (by rw [hnext]; exact h1) hr ?_ t e (by rw [hcalls t htt]; exact he) (hfree _ _ hf) hm hnt
        hs1 hs2
      rw [hlist, List.mem_append]
      rintro (hx | hx)
      · exact hf _ _ hc (by simpa using Ne.symm htt) (.inr hx)
      · exact hl hx
    | told h1 hr hl t e he hf hm hnt hs1 hs2 =>
      by_cases htt : t = tid
      · subst htt
        rw [hc] at he; cases he
        refine .shared (by rw [hnext]; exact h1) hr (by rw [hlist]; exact List.mem_append_left _ hm) ?_ hs1 hs2
        intro u e hu _
        by_cases hut : u = t
        · subst hut; rw [hself] at hu; cases hu
        · rw [hcalls u hut] at hu
          exact hf u e hu (by simpa using hut)
      · refine .told (by rw [hnext]; exact h1) hr ?_ t e (by rw [hcalls t htt]; exact he) (hfree _ _ hf) hm hnt
          hs1 hs2
        rw [hlist, List.mem_append]
        rintro (hx | hx)
        · exact hf _ _ hc (by simpa using Ne.symm htt) (.inr hx)
        · exact hl hx

theorem good_add {a f n} (h : Good a f n) :
    Good { a with listeners := a.listeners ++ [a.next], next := a.next + 1 }
      (fun l => (f l).step l (.added a.next)) n := by
  have hnew : a.next ∉ a.listeners := by
    intro hm
    cases h.place a.next with
    | notYet _ _ _ _ _ hl _ => exact hl hm
    | shared h1 => exact absurd h1 (Nat.lt_irrefl _)
    | todo h1 => exact absurd h1 (Nat.lt_irrefl _)
    | told h1 => exact absurd h1 (Nat.lt_irrefl _)
  refine ⟨h.live, ?_, h.nodups, ?_, ?_⟩
  · rw [List.nodup_append]
    refine ⟨h.nodup, by simp, ?_⟩
    rintro x hx y hy rfl
    simp only [List.mem_singleton] at hy
    subst hy
    exact hnew hx
  · intro l
    have := h.inFlight l
    simp only [Seen.step]
    split <;> exact this
  · intro l
    by_cases hx : a.next = l
    · subst hx
      have hs : (f a.next).step a.next (.added a.next) = { f a.next with registered := true } := by
        simp [Seen.step]
      rw [hs]
      cases h.place a.next with
      | notYet h1 hr hall hal ht hl hf =>
        exact .shared (Nat.lt_succ_self _) rfl (by simp) hf (by simp [hal]) (by simp [ht])
      | shared h1 => exact absurd h1 (Nat.lt_irrefl _)
      | todo h1 => exact absurd h1 (Nat.lt_irrefl _)
      | told h1 => exact absurd h1 (Nat.lt_irrefl _)
    · have hs : (f l).step l (.added a.next) = f l := by simp [Seen.step, hx]
      rw [hs]
      have hnm : ∀ {l'}, l' = l → l ∉ a.listeners → l ∉ a.listeners ++ [a.next] := by
        rintro _ rfl hl hm
        simp only [List.mem_append, List.mem_singleton] at hm
        rcases hm with hm | hm
        · exact hl hm
        · exact hx hm.symm
      cases h.place l with
      | notYet h1 hr hall hal ht hl hf =>
        exact .notYet (by show a.next + 1 ≤ l; omega) hr hall hal ht (hnm rfl hl) hf
      | shared h1 hr hl hf hs1 hs2 =>
        exact .shared (Nat.lt_succ_of_lt h1) hr (List.mem_append_left _ hl) hf hs1 hs2
      | todo h1 hr hl t e he hf hm hnt hs1 hs2 =>
        exact .todo (Nat.lt_succ_of_lt h1) hr (hnm rfl hl) t e he hf hm hnt hs1 hs2
      | told h1 hr hl t e he hf hm hnt hs1 hs2 =>
        exact .told (Nat.lt_succ_of_lt h1) hr (hnm rfl hl) t e he hf hm hnt hs1 hs2

theorem good_step {a f n} (h : Good a f n) (op : AOp) :
    ∃ n', Good (a.step op).1 (fun l => (a.step op).2.foldl (Seen.step l) (f l)) n' := by
  cases op with
  | set tid c =>
    simp only [App.step]
    split
    · exact ⟨n, h⟩
    · rename_i hn
      split
      · exact ⟨n, h⟩
      · exact ⟨_, good_set h tid c hn⟩
  | tell tid =>
    simp only [App.step]
    split
    · rename_i c x ls d hc
      exact ⟨_, good_tell h tid c x ls d hc⟩
    · exact ⟨n, h⟩
  | finish tid =>
    simp only [App.step]
    split
    · rename_i c d hc
      exact ⟨_, good_finish h tid c d hc⟩
    · exact ⟨n, h⟩
  | add => exact ⟨_, good_add h⟩

theorem good_run (ops : List AOp) {a f n} (h : Good a f n) :
    ∃ n', Good (a.run ops).1 (fun l => (a.run ops).2.foldl (Seen.step l) (f l)) n' := by
  induction ops generalizing a f n with
  | nil => exact ⟨n, h⟩
  | cons op ops ih =>
    obtain ⟨n1, h1⟩ := good_step h op
    obtain ⟨n2, h2⟩ := ih h1
    refine ⟨n2, ?_⟩
    simp only [App.run, List.foldl_append]
    exact h2

theorem good_hist (ops : List AOp) : ∃ n, Good (hist ops).1 (fun l => seen l (hist ops).2) n :=
  good_run ops Good.new

/-- C48: in every interleaving of state changes,
notifications and registrations, a listener is told only about changes that really happened since it was
registered, in the order in which they happened and about each at most once. It may not be told about
all of them: see `C48_overlap_loses`. -/
theorem C48_only_real_changes (ops : List AOp) (l : Nat) :
    (seen l (hist ops).2).told.Sublist (seen l (hist ops).2).all := by
  obtain ⟨n, h⟩ := good_hist ops
  cases h.place l with
  | notYet h1 hr hall hal ht hl hf => rw [ht]; exact List.nil_sublist _
  | shared h1 hr hl hf hs1 hs2 => exact hs2
  | todo h1 hr hl t e he hf hm hnt hs1 hs2 => exact (List.sublist_append_left _ _).trans hs2
  | told h1 hr hl t e he hf hm hnt hs1 hs2 => exact hs2

/-- C48: once no change is being reported, a
listener was told about every change that was made while no other change was being reported. -/
theorem C48_undisturbed_changes_reported (ops : List AOp) (l : Nat)
    (hq : (seen l (hist ops).2).inFlight = 0) :
    (seen l (hist ops).2).alone.Sublist (seen l (hist ops).2).told := by
  obtain ⟨n, h⟩ := good_hist ops
  have hn := h.inFlight l
  rw [hq] at hn
  have hz := h.zero.mp hn.symm
  cases h.place l with
  | notYet h1 hr hall hal ht hl hf => rw [hal]; exact List.nil_sublist _
  | shared h1 hr hl hf hs1 hs2 => exact hs1
  | todo h1 hr hl t e he hf hm hnt hs1 hs2 => rw [hz t] at he; cases he
  | told h1 hr hl t e he hf hm hnt hs1 hs2 => rw [hz t] at he; cases he

/-- C48: if the reports of changes never overlap, every listener is told about every change since it was
registered exactly once and in order, and about nothing else. -/
theorem C48_sequential (ops : List AOp) (l : Nat) (hq : (seen l (hist ops).2).inFlight = 0)
    (hseq : (seen l (hist ops).2).alone = (seen l (hist ops).2).all) :
    (seen l (hist ops).2).told = (seen l (hist ops).2).all := by
  have h1 := C48_only_real_changes ops l
  have h2 := C48_undisturbed_changes_reported ops l hq
  rw [hseq] at h2
  exact h1.eq_of_length_le h2.length_le

/-- C48 is false for overlapping calls: thread 1 reports the end of a scan while thread 0 changes the
connection state; listener 0 is never told that the connection was lost although both calls are over. -/
theorem C48_overlap_loses : ∃ ops : List AOp,
    (seen 0 (hist ops).2).inFlight = 0 ∧ (hist ops).1.conn = .unauthorized ∧
    (seen 0 (hist ops).2).told = [.conn .connected, .scan true] ∧
    (seen 0 (hist ops).2).all = [.conn .connected, .scan true, .conn .unauthorized] :=
  ⟨[.add, .set 0 (.conn .connected), .tell 0, .finish 0, .set 1 (.scan true),
    .set 0 (.conn .unauthorized), .finish 0, .tell 1, .finish 1], by decide +kernel⟩

/-- Two listeners, the second one registered later; no overlap. -/
example :
    let ops := [AOp.add, .set 0 (.conn .connected), .tell 0, .add, .finish 0, .set 1 (.scan true), .tell 1,
      .tell 1, .finish 1, .set 1 (.scan true), .set 0 (.conn .unauthorized), .tell 0, .tell 0, .finish 0]
    (seen 0 (hist ops).2).inFlight = 0 ∧ (seen 0 (hist ops).2).alone = (seen 0 (hist ops).2).all ∧
    (seen 0 (hist ops).2).told = [.conn .connected, .scan true, .conn .unauthorized] ∧
    (seen 1 (hist ops).2).told = [.scan true, .conn .unauthorized] := by decide +kernel

/-! ### The state itself -/

theorem state_run (ops : List AOp) (a : App) :
    (a.run ops).1.conn = ((connChanges (a.run ops).2).getLast?).getD a.conn ∧
    (a.run ops).1.scanning = ((scanChanges (a.run ops).2).getLast?).getD a.scanning := by
  induction ops generalizing a with
  | nil => exact ⟨rfl, rfl⟩
  | cons op ops ih =>
    have hc : ∀ x y, connChanges (x ++ y) = connChanges x ++ connChanges y := by
      intro x y; simp [connChanges]
    have hs : ∀ x y, scanChanges (x ++ y) = scanChanges x ++ scanChanges y := by
      intro x y; simp [scanChanges]
    have h1 : (a.step op).1.conn = ((connChanges (a.step op).2).getLast?).getD a.conn ∧
        (a.step op).1.scanning = ((scanChanges (a.step op).2).getLast?).getD a.scanning := by
      cases op with
      | set tid c =>
        simp only [App.step]
        split
        · exact ⟨rfl, rfl⟩
        · split
          · exact ⟨rfl, rfl⟩
          · cases c <;> exact ⟨rfl, rfl⟩
      | tell tid => simp only [App.step]; split <;> exact ⟨rfl, rfl⟩
      | finish tid => simp only [App.step]; split <;> exact ⟨rfl, rfl⟩
      | add => exact ⟨rfl, rfl⟩
    have h2 := ih (a.step op).1
    simp only [App.run, hc, hs, List.getLast?_append]
    rw [h2.1, h2.2, h1.1, h1.2]
    constructor
    · cases (connChanges ((a.step op).1.run ops).2).getLast? <;> rfl
    · cases (scanChanges ((a.step op).1.run ops).2).getLast? <;> rfl

/-- C48: in every interleaving the state read is the latest one set. -/
theorem C48_state_is_latest (ops : List AOp) :
    (hist ops).1.conn = ((connChanges (hist ops).2).getLast?).getD .disconnected ∧
    (hist ops).1.scanning = ((scanChanges (hist ops).2).getLast?).getD false :=
  state_run ops App.new

/-- C48: setting a state reports a change exactly if the state differs. -/
theorem C48_changed_iff (a : App) (tid : Nat) (s : ConnState) (b : Bool) (hn : a.calls tid = none) :
    ((a.step (.set tid (.conn s))).2 = if a.conn = s then [] else [.changed (.conn s)]) ∧
    ((a.step (.set tid (.scan b))).2 = if a.scanning = b then [] else [.changed (.scan b)]) := by
  simp only [App.step, hn, App.same]
  constructor
  · by_cases h : a.conn = s
    · simp [h]
    · simp [h, Ne.symm h]
  · by_cases h : a.scanning = b
    · simp [h]
    · simp [h, Ne.symm h]

end Verif.Props.AppContext
