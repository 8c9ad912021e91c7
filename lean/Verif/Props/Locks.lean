import Verif.Spec.Locks
/-!
# C132: no deadlock
-/
namespace Verif.Props.Locks

open Verif.Locks Verif.Spec.Locks

/-- The order in which mutexes are taken. -/
def rank (l : Lock) : Nat :=
  match l.kind with
  | .client => 0
  | .session => 1
  | .context => 2
  | .logger => 3
  | .table => 4
  | .capture => 5

/-- Mutexes are taken in order, given back in reverse order, and none is left. -/
def Ok : List Lock → List Instr → Prop
  | h, [] => h = []
  | h, .work :: r => Ok h r
  | h, .acq l :: r => (∀ k ∈ h, rank k < rank l) ∧ Ok (l :: h) r
  | h, .rel l :: r => ∃ h', h = l :: h' ∧ Ok h' r

/-- Code that may run while mutexes below `n` are held. -/
def Fits (n : Nat) (b : List Instr) : Prop :=
  ∀ h r, (∀ k ∈ h, rank k < n) → Ok h r → Ok h (b ++ r)

theorem Fits.mono {m n b} (hb : Fits n b) (h : m ≤ n) : Fits m b :=
  fun hs r hh ho => hb hs r (fun k hk => Nat.lt_of_lt_of_le (hh k hk) h) ho

theorem Fits.nil {n} : Fits n [] := fun _ _ _ h => h

theorem Fits.append {n a b} (ha : Fits n a) (hb : Fits n b) : Fits n (a ++ b) := by
  intro h r hh ho
  rw [List.append_assoc]
  exact ha h _ hh (hb h r hh ho)

theorem Fits.work {n b} (hb : Fits n b) : Fits n (.work :: b) :=
  fun h r hh ho => hb h r hh ho

theorem Fits.crit {n b} (l : Lock) (hn : n ≤ rank l) (hb : Fits (rank l + 1) b) : Fits n (crit l b) := by
  intro h r hh ho
  refine ⟨fun k hk => Nat.lt_of_lt_of_le (hh k hk) hn, ?_⟩
  show Ok (l :: h) ((b ++ [.rel l]) ++ r)
  rw [List.append_assoc]
  refine hb _ _ ?_ ⟨h, rfl, ho⟩
  intro k hk
  rcases List.mem_cons.1 hk with rfl | hk
  · exact Nat.lt_succ_self _
  · have := hh k hk; omega

theorem Fits.leaf {n} (l : Lock) (hn : n ≤ rank l) : Fits n (Locks.crit l [.work]) :=
  Fits.crit l hn (Fits.work Fits.nil)

theorem Fits.flatMap {α : Type} {n} (f : α → List Instr) (xs : List α) (h : ∀ x ∈ xs, Fits n (f x)) :
    Fits n (xs.flatMap f) := by
  induction xs with
  | nil => exact Fits.nil
  | cons x xs ih =>
    rw [List.flatMap_cons]
    exact Fits.append (h x (by simp)) (ih fun y hy => h y (by simp [hy]))

theorem fits_call (f : Call) : Fits 2 f.code := by
  cases f with
  | get c => exact Fits.leaf _ (Nat.le_refl 2)
  | services c t => exact Fits.append (Fits.leaf _ (Nat.le_refl 2)) (Fits.leaf _ (show 2 ≤ 4 by omega))
  | command => exact Fits.work Fits.nil
  | level g => exact Fits.leaf _ (show 2 ≤ 3 by omega)

theorem fits_log {m : Log} (hm : QuietLog m) : Fits 3 m.code := by
  refine Fits.crit _ (Nat.le_refl 3) (Fits.append (Fits.flatMap _ _ fun t _ => Fits.leaf _ (Nat.le_refl 4)) (Fits.work ?_))
  refine Fits.flatMap _ _ fun f hf => ?_
  rw [hm f hf]
  exact Fits.work Fits.nil

theorem fits_act {a : Act} (ha : QuietAct a) : Fits 2 a.code := by
  cases a with
  | call f => exact fits_call f
  | log m => exact (fits_log ha).mono (by omega)

theorem fits_storage {a : Act} (ha : StorageAct a) : Fits 3 a.code := by
  cases a with
  | call f =>
    have : f = .command := ha
    subst this
    exact Fits.work Fits.nil
  | log m => exact fits_log ha

theorem fits_cstep {u : CStep} (hu : PoliteStep u) : Fits 3 u.code := by
  cases u with
  | table t => exact Fits.leaf _ (show 3 ≤ 4 by omega)
  | log m => exact fits_log hu
  | storage acts => exact Fits.work (Fits.flatMap _ _ fun a ha => fits_storage (hu a ha))

theorem fits_sub {u : Sub} (hu : PoliteSub u) : Fits 1 u.code := by
  cases u with
  | get c => exact Fits.leaf _ (show 1 ≤ 2 by omega)
  | table t => exact Fits.leaf _ (show 1 ≤ 4 by omega)
  | session s => exact Fits.leaf _ (Nat.le_refl 1)
  | log m => exact (fits_log hu).mono (by omega)

theorem fits_op {o : Op} (ho : Polite o) : Fits 0 o.code := by
  cases o with
  | app a => exact (fits_act ho).mono (by omega)
  | client p subs =>
    exact Fits.crit _ (Nat.zero_le _) (Fits.work (Fits.flatMap _ _ fun u hu => fits_sub (ho u hu)))
  | plain subs => exact Fits.work (Fits.flatMap _ _ fun u hu => (fits_sub (ho u hu)).mono (by omega))
  | session s => exact Fits.leaf _ (Nat.zero_le _)
  | context c steps =>
    exact Fits.crit _ (Nat.zero_le _) (Fits.work (Fits.flatMap _ _ fun u hu => fits_cstep (ho u hu)))
  | setState c steps told =>
    exact Fits.append
      (Fits.crit _ (Nat.zero_le _) (Fits.work (Fits.flatMap _ _ fun u hu => fits_cstep (ho.1 u hu))))
      (Fits.append (Fits.flatMap _ _ fun a ha => (fits_act (ho.2 a ha)).mono (by omega)) (Fits.leaf _ (Nat.zero_le _)))
  | capture d => exact Fits.leaf _ (Nat.zero_le _)

/-- The invariant of the process. -/
def Inv (s : List Thread) : Prop := ∀ t ∈ s, Ok t.held t.rest

theorem inv_start {threads : List (List Op)} (h : AllPolite threads) : Inv (start threads) := by
  intro t ht
  obtain ⟨ops, hops, rfl⟩ := List.mem_map.1 ht
  have hf : Fits 0 (ops.flatMap Op.code) := Fits.flatMap _ _ fun o ho => fits_op (h ops hops o ho)
  have := hf [] [] (by simp) rfl
  simpa using this

/-- No mutex has two holders. -/
def Excl (s : List Thread) : Prop :=
  ∀ (i j : Nat) (ti tj : Thread) (l : Lock), s[i]? = some ti → s[j]? = some tj → l ∈ ti.held → l ∈ tj.held → i = j

/-- What one step does. -/
theorem step_cases {s s' : List Thread} {i : Nat} (h : step s i = some s') :
    ∃ t x r, s[i]? = some t ∧ t.rest = x :: r ∧
      ((∃ l, x = .acq l ∧ free s l = true ∧ s' = s.set i ⟨l :: t.held, r⟩) ∨
       (∃ l, x = .rel l ∧ s' = s.set i ⟨t.held.erase l, r⟩) ∨
       (x = .work ∧ s' = s.set i ⟨t.held, r⟩)) := by
  unfold step at h
  cases ht : s[i]? with
  | none => rw [ht] at h; cases h
  | some t =>
    rw [ht] at h
    obtain ⟨held, rest⟩ := t
    cases rest with
    | nil => cases h
    | cons x r =>
      refine ⟨_, x, r, rfl, rfl, ?_⟩
      cases x with
      | acq l =>
        replace h : (if free s l then some (s.set i ⟨l :: held, r⟩) else none) = some s' := h
        by_cases hf : free s l = true
        · rw [if_pos hf] at h
          exact Or.inl ⟨l, rfl, hf, (Option.some.inj h).symm⟩
        · rw [if_neg hf] at h; cases h
      | rel l => exact Or.inr (Or.inl ⟨l, rfl, (Option.some.inj h).symm⟩)
      | work => exact Or.inr (Or.inr ⟨rfl, (Option.some.inj h).symm⟩)

theorem mem_of_get {s : List Thread} {i : Nat} {t : Thread} (h : s[i]? = some t) : t ∈ s := List.mem_of_getElem? h

theorem free_iff {s : List Thread} {l : Lock} : free s l = true ↔ ∀ t ∈ s, l ∉ t.held := by
  simp [free, List.all_eq_true]

theorem inv_step {s s' : List Thread} {i : Nat} (hI : Inv s) (h : step s i = some s') : Inv s' := by
  obtain ⟨t, x, r, ht, hr, hc⟩ := step_cases h
  have hok := hI t (mem_of_get ht)
  rw [hr] at hok
  rcases hc with ⟨l, rfl, hf, rfl⟩ | ⟨l, rfl, rfl⟩ | ⟨rfl, rfl⟩ <;> intro u hu <;>
    rcases List.mem_or_eq_of_mem_set hu with hu | rfl
  · exact hI u hu
  · exact hok.2
  · exact hI u hu
  · obtain ⟨h', he, ho⟩ := hok
    show Ok (t.held.erase l) r
    rw [he, List.erase_cons_head]
    exact ho
  · exact hI u hu
  · exact hok

theorem excl_step {s s' : List Thread} {i : Nat} (hE : Excl s) (h : step s i = some s') : Excl s' := by
  obtain ⟨t, x, r, ht, hr, hc⟩ := step_cases h
  have key : ∀ (H : List Lock), (∀ l ∈ H, l ∈ t.held ∨ free s l = true) → Excl (s.set i ⟨H, r⟩) := by
    intro H hH a b ta tb l ha hb hla hlb
    rw [List.getElem?_set] at ha hb
    by_cases hia : i = a <;> by_cases hib : i = b
    · omega
    · rw [if_neg hib] at hb
      rw [if_pos hia] at ha
      split at ha
      · cases ha
        rcases hH l hla with h1 | h1
        · exact hE a b t tb l (hia ▸ ht) hb h1 hlb
        · exact absurd hlb (free_iff.1 h1 tb (mem_of_get hb))
      · cases ha
    · rw [if_neg hia] at ha
      rw [if_pos hib] at hb
      split at hb
      · cases hb
        rcases hH l hlb with h1 | h1
        · exact hE a b ta t l ha (hib ▸ ht) hla h1
        · exact absurd hla (free_iff.1 h1 ta (mem_of_get ha))
      · cases hb
    · rw [if_neg hia] at ha
      rw [if_neg hib] at hb
      exact hE a b ta tb l ha hb hla hlb
  rcases hc with ⟨l, rfl, hf, rfl⟩ | ⟨l, rfl, rfl⟩ | ⟨rfl, rfl⟩
  · refine key _ fun k hk => ?_
    rcases List.mem_cons.1 hk with rfl | hk
    · exact Or.inr hf
    · exact Or.inl hk
  · exact key _ fun k hk => Or.inl (List.mem_of_mem_erase hk)
  · exact key _ fun k hk => Or.inl hk

theorem todo_set {s : List Thread} : ∀ {i : Nat} {t : Thread} (u : Thread), s[i]? = some t →
    todo (s.set i u) + t.rest.length = todo s + u.rest.length := by
  induction s with
  | nil => intro i t u h; cases h
  | cons a s ih =>
    intro i t u h
    cases i with
    | zero =>
      cases h
      simp only [List.set_cons_zero, todo, List.map_cons, List.sum_cons]
      omega
    | succ i =>
      have := ih u (i := i) (t := t) (by simpa using h)
      simp only [List.set_cons_succ, todo, List.map_cons, List.sum_cons] at this ⊢
      omega

theorem todo_step {s s' : List Thread} {i : Nat} (h : step s i = some s') : todo s = todo s' + 1 := by
  obtain ⟨t, x, r, ht, hr, hc⟩ := step_cases h
  have hl : t.rest.length = r.length + 1 := by rw [hr]; rfl
  rcases hc with ⟨l, rfl, hf, rfl⟩ | ⟨l, rfl, rfl⟩ | ⟨rfl, rfl⟩
  · have := todo_set ⟨l :: t.held, r⟩ ht; simp only [hl] at this; omega
  · have := todo_set ⟨t.held.erase l, r⟩ ht; simp only [hl] at this; omega
  · have := todo_set ⟨t.held, r⟩ ht; simp only [hl] at this; omega

theorem run_inv {is : List Nat} : ∀ {s s' : List Thread}, Inv s → Excl s → run s is = some s' →
    Inv s' ∧ Excl s' ∧ todo s = todo s' + is.length := by
  induction is with
  | nil => intro s s' hI hE h; cases h; exact ⟨hI, hE, rfl⟩
  | cons i is ih =>
    intro s s' hI hE h
    unfold run at h
    cases hs : step s i with
    | none => rw [hs] at h; cases h
    | some s1 =>
      rw [hs] at h
      obtain ⟨h1, h2, h3⟩ := ih (inv_step hI hs) (excl_step hE hs) h
      refine ⟨h1, h2, ?_⟩
      have := todo_step hs
      simp only [List.length_cons]
      omega

theorem excl_start (threads : List (List Op)) : Excl (start threads) := by
  intro i j ti tj l hi _ hl _
  obtain ⟨ops, _, rfl⟩ := List.mem_map.1 (mem_of_get hi)
  cases hl

theorem rank_le (l : Lock) : rank l ≤ 5 := by
  unfold rank
  cases l.kind <;> decide

/-- Whoever waits, waits for a thread that waits for a higher mutex; so not everybody waits. -/
theorem someone {s : List Thread} (hI : Inv s) (n : Nat) : ∀ (i : Nat) (t : Thread) (l : Lock) (r : List Instr),
    s[i]? = some t → t.rest = .acq l :: r → 5 - rank l ≤ n → ∃ j, (step s j).isSome := by
  induction n with
  | zero =>
    intro i t l r hi hr hn
    have hl := rank_le l
    by_cases hf : free s l = true
    · exact ⟨i, by simp [step, hi, hr, hf]⟩
    · have : ∃ u ∈ s, l ∈ u.held := by
        apply Classical.byContradiction
        intro hc
        exact hf (free_iff.2 fun u hu hm => hc ⟨u, hu, hm⟩)
      obtain ⟨u, hu, hm⟩ := this
      obtain ⟨j, hj⟩ := List.getElem?_of_mem hu
      have hok := hI u hu
      refine ⟨j, ?_⟩
      cases hur : u.rest with
      | nil => rw [hur] at hok; rw [show u.held = [] from hok] at hm; cases hm
      | cons x q =>
        rw [hur] at hok
        cases x with
        | acq k => have := hok.1 l hm; have := rank_le k; omega
        | rel k => simp [step, hj, hur]
        | work => simp [step, hj, hur]
  | succ n ih =>
    intro i t l r hi hr hn
    by_cases hf : free s l = true
    · exact ⟨i, by simp [step, hi, hr, hf]⟩
    · have : ∃ u ∈ s, l ∈ u.held := by
        apply Classical.byContradiction
        intro hc
        exact hf (free_iff.2 fun u hu hm => hc ⟨u, hu, hm⟩)
      obtain ⟨u, hu, hm⟩ := this
      obtain ⟨j, hj⟩ := List.getElem?_of_mem hu
      have hok := hI u hu
      cases hur : u.rest with
      | nil => rw [hur] at hok; rw [show u.held = [] from hok] at hm; cases hm
      | cons x q =>
        rw [hur] at hok
        cases x with
        | acq k =>
          have := hok.1 l hm
          exact ih j u k q hj hur (by omega)
        | rel k => exact ⟨j, by simp [step, hj, hur]⟩
        | work => exact ⟨j, by simp [step, hj, hur]⟩

theorem progress {s : List Thread} (hI : Inv s) (h : ∃ t ∈ s, t.rest ≠ []) : ∃ j, (step s j).isSome := by
  obtain ⟨t, ht, hne⟩ := h
  obtain ⟨i, hi⟩ := List.getElem?_of_mem ht
  cases hr : t.rest with
  | nil => exact absurd hr hne
  | cons x r =>
    cases x with
    | acq l => exact someone hI 5 i t l r hi hr (by omega)
    | rel l => exact ⟨i, by simp [step, hi, hr]⟩
    | work => exact ⟨i, by simp [step, hi, hr]⟩

theorem inv_done {s : List Thread} (hI : Inv s) (h : ∀ t ∈ s, t.rest = []) : Done s := by
  intro t ht
  have hok := hI t ht
  rw [h t ht] at hok
  exact ⟨h t ht, hok⟩

/-- **C132.** Whatever the threads of a process do, and however their steps interleave: no deadlock is reached, as long as the
callbacks of storages ask the client for nothing and those of loggers are quiet. -/
theorem C132_no_deadlock {threads : List (List Op)} (h : AllPolite threads) {is : List Nat} {s : List Thread}
    (hr : run (start threads) is = some s) : ¬ Deadlock s := by
  intro hd
  obtain ⟨j, hj⟩ := progress (run_inv (inv_start h) (excl_start threads) hr).1 hd.1
  rw [hd.2 j] at hj
  cases hj

/-- **C132.** A mutex has at most one holder at any moment, and no thread takes one twice. -/
theorem C132_exclusive {threads : List (List Op)} (h : AllPolite threads) {is : List Nat} {s : List Thread}
    (hr : run (start threads) is = some s) {i j : Nat} {ti tj : Thread} {l : Lock}
    (hi : s[i]? = some ti) (hj : s[j]? = some tj) (hli : l ∈ ti.held) (hlj : l ∈ tj.held) : i = j :=
  (run_inv (inv_start h) (excl_start threads) hr).2.1 i j ti tj l hi hj hli hlj

theorem exists_rest {s : List Thread} (h : ¬ ∀ t ∈ s, t.rest = []) : ∃ t ∈ s, t.rest ≠ [] := by
  apply Classical.byContradiction
  intro hc
  exact h fun t ht => Classical.byContradiction fun hne => hc ⟨t, ht, hne⟩

/-- **C132.** The threads make at most as many steps as their code has, and when no thread can make another one, all code has
run and nothing is held. -/
theorem C132_completes {threads : List (List Op)} (h : AllPolite threads) {is : List Nat} {s : List Thread}
    (hr : run (start threads) is = some s) :
    is.length ≤ todo (start threads) ∧ ((∀ i, step s i = none) → Done s) := by
  obtain ⟨hI, _, hn⟩ := run_inv (inv_start h) (excl_start threads) hr
  refine ⟨by omega, fun hs => ?_⟩
  by_cases hd : ∀ t ∈ s, t.rest = []
  · exact inv_done hI hd
  · obtain ⟨j, hj⟩ := progress hI (exists_rest hd)
    rw [hs j] at hj
    cases hj

theorem turns_inv (is : List Nat) : ∀ {s : List Thread}, Inv s →
    Inv (turns s is) ∧ todo (turns s is) ≤ todo s ∧ (turns s is).length = s.length ∧
    ((∃ i ∈ is, (step s i).isSome) → todo (turns s is) < todo s) := by
  induction is with
  | nil => intro s hI; exact ⟨hI, Nat.le_refl _, rfl, fun ⟨i, hi, _⟩ => by cases hi⟩
  | cons i is ih =>
    intro s hI
    cases hs : step s i with
    | none =>
      have e : turns s (i :: is) = turns s is := by simp [turns, hs]
      rw [e]
      obtain ⟨a, b, c, d⟩ := ih hI
      refine ⟨a, b, c, ?_⟩
      rintro ⟨j, hj, hjs⟩
      rcases List.mem_cons.1 hj with rfl | hj
      · rw [hs] at hjs; cases hjs
      · exact d ⟨j, hj, hjs⟩
    | some s1 =>
      have e : turns s (i :: is) = turns s1 is := by simp [turns, hs]
      rw [e]
      obtain ⟨a, b, c, _⟩ := ih (inv_step hI hs)
      have ht := todo_step hs
      have hl : s1.length = s.length := by
        obtain ⟨t, x, r, _, _, hc⟩ := step_cases hs
        rcases hc with ⟨l, rfl, hf, rfl⟩ | ⟨l, rfl, rfl⟩ | ⟨rfl, rfl⟩ <;> exact List.length_set
      exact ⟨a, by omega, by omega, fun _ => by omega⟩

theorem step_lt {s : List Thread} {i : Nat} (h : (step s i).isSome) : i < s.length := by
  cases hs : step s i with
  | none => rw [hs] at h; cases h
  | some s1 =>
    obtain ⟨t, _, _, ht, _⟩ := step_cases hs
    exact (List.getElem?_eq_some_iff.1 ht).1

theorem todo_zero {s : List Thread} (h : todo s = 0) : ∀ t ∈ s, t.rest = [] := by
  induction s with
  | nil => intro t ht; cases ht
  | cons a s ih =>
    simp only [todo, List.map_cons, List.sum_cons] at h
    intro t ht
    rcases List.mem_cons.1 ht with rfl | ht
    · exact List.eq_nil_of_length_eq_zero (by omega)
    · exact ih (by unfold todo; omega) t ht

theorem fair_done (rounds : List (List Nat)) : ∀ {s : List Thread}, Inv s →
    (∀ r ∈ rounds, ∀ i, i < s.length → i ∈ r) → todo s ≤ rounds.length → Done (turns s rounds.flatten) := by
  induction rounds with
  | nil =>
    intro s hI _ hn
    have h0 : todo s = 0 := by simpa using hn
    exact inv_done hI (todo_zero h0)
  | cons r rounds ih =>
    intro s hI hf hn
    have e : ∀ (a b : List Nat) (s : List Thread), turns s (a ++ b) = turns (turns s a) b := by
      intro a
      induction a with
      | nil => intro b s; rfl
      | cons i a iha => intro b s; exact iha b _
    rw [List.flatten_cons, e]
    obtain ⟨h1, h2, h3, h4⟩ := turns_inv r hI
    simp only [List.length_cons] at hn
    refine ih h1 (fun q hq i hi => hf q (by simp [hq]) i (by omega)) ?_
    by_cases hd : ∀ t ∈ s, t.rest = []
    · have : todo s = 0 := by
        unfold todo
        have : s.map (fun t => t.rest.length) = s.map (fun _ => 0) :=
          List.map_congr_left fun t ht => by rw [hd t ht]; rfl
        rw [this]
        clear hd hn h1 h2 h3 h4 hf hI this
        induction s with
        | nil => rfl
        | cons a s ihs => simpa using ihs
      omega
    · obtain ⟨j, hj⟩ := progress hI (exists_rest hd)
      have := h4 ⟨j, hf r (by simp) j (step_lt hj), hj⟩
      omega

/-- **C132.** Under every scheduler that lets each thread try again and again, every operation ends: after as many rounds as
there are steps, all code has run and nothing is held. -/
theorem C132_fair {threads : List (List Op)} (h : AllPolite threads) {rounds : List (List Nat)}
    (hf : ∀ r ∈ rounds, ∀ i, i < threads.length → i ∈ r) (hn : todo (start threads) ≤ rounds.length) :
    Done (turns (start threads) rounds.flatten) :=
  fair_done rounds (inv_start h) (by simpa [start] using hf) hn

/-- A client at work: its connection is polled while a scan updates the table and tells the listeners, which ask the client
for everything, and another thread of the application asks as well. -/
def busy : List (List Op) :=
  [[.client 0 [.get 0, .table 0, .session 1, .log ⟨0, [0], [.command]⟩]],
   [.context 0 [.table 0, .storage [.log ⟨0, [], []⟩], .log ⟨0, [], []⟩],
    .setState 0 [] [.call (.services 0 0), .call (.get 0), .log ⟨0, [], []⟩, .call (.level 0)]],
   [.app (.call (.services 0 0)), .session 1, .capture 0]]

example : AllPolite busy := by
  simp [AllPolite, busy, Polite, PoliteSub, PoliteStep, StorageAct, QuietAct, QuietLog]

/-- The threads really wait for each other: after these steps the first waits for the second. -/
example : (run (start busy) [0, 0, 1]).isSome = true ∧
    ((run (start busy) [0, 0, 1]).bind (step · 0)).isNone = true := by decide +kernel

example : (turns (start busy) (List.replicate 90 [2, 0, 1]).flatten).map (fun t => (t.held, t.rest)) =
    [([], []), ([], []), ([], [])] := by decide +kernel

/-- **C132.** A callback of the storage that asks the client for something hangs forever: the thread waits for a mutex it
holds itself. -/
theorem C132_storage_callback_hangs (c : Nat) :
    ∃ is s, run (start [[.context c [.storage [.call (.get c)]]]]) is = some s ∧ Deadlock s := by
  refine ⟨[0, 0, 0], [⟨[⟨.context, c⟩],
    [.acq ⟨.context, c⟩, .work, .rel ⟨.context, c⟩, .rel ⟨.context, c⟩]⟩], ?_, ?_, ?_⟩
  · simp [run, step, start, free, crit, Op.code, CStep.code, Act.code, Call.code]
  · exact ⟨_, List.mem_singleton.2 rfl, by simp⟩
  · intro i
    cases i with
    | zero => simp [step, free]
    | succ i => simp [step]

/-- **C132.** A callback of a logger that asks the client for something can hang forever, although it asks from a thread that
holds nothing of the client: the client may be logging at that moment. -/
theorem C132_logger_callback_hangs (c g : Nat) :
    ∃ is s, run (start [[.app (.log ⟨g, [], [.get c]⟩)], [.context c [.log ⟨g, [], []⟩]]]) is = some s ∧
      Deadlock s := by
  refine ⟨[0, 0, 1, 1], [⟨[⟨.logger, g⟩],
      [.acq ⟨.context, c⟩, .work, .rel ⟨.context, c⟩, .rel ⟨.logger, g⟩]⟩,
    ⟨[⟨.context, c⟩], [.acq ⟨.logger, g⟩, .work, .rel ⟨.logger, g⟩, .rel ⟨.context, c⟩]⟩], ?_, ?_, ?_⟩
  · simp [run, step, start, free, crit, Op.code, CStep.code, Act.code, Call.code, Log.code]
  · exact ⟨_, List.mem_cons_self, by simp⟩
  · intro i
    match i with
    | 0 => simp [step, free]
    | 1 => simp [step, free]
    | i + 2 => simp [step]

end Verif.Props.Locks
