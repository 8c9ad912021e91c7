import Verif.Lemmas.CApi
/-!
# Lemmas about what is left when the application has given everything back
-/
namespace Verif.CApi
open Verif Verif.Spec.CApi
open Verif.Life (Life)
open Verif.CmdHandler (Phase)

/-! ## What the calls do, by cases -/

/-- Objects are dropped, but no handles. -/
structure Shrinks (s s' : State) : Prop where
  heap : ∀ p o, s'.heap p = some o → s.heap p = some o
  handles : ∀ p c, s.heap p = some (.handle c) → s'.heap p = some (.handle c)
  clients : s'.clients = s.clients
  nextOpaque : s'.nextOpaque = s.nextOpaque
  next : s'.next = s.next

theorem Shrinks.rfl {s : State} : Shrinks s s := ⟨fun _ _ h => h, fun _ _ h => h, by rfl, by rfl, by rfl⟩

theorem Shrinks.drop {s s' : State} (h : Shrinks s s') {p : Nat} {o : Obj} (hp : s'.heap p = some o) (hk : o.kind ≠ .handle) :
    Shrinks s (s'.drop p) where
  heap := fun q o' hq => by
    dsimp only [State.drop] at hq
    split at hq
    · cases hq
    · exact h.heap q o' hq
  handles := fun q c hq => by
    dsimp only [State.drop]
    rw [if_neg]
    · exact h.handles q c hq
    · rintro e
      subst e
      rw [h.handles _ _ hq] at hp
      cases hp
      exact hk (by rfl)
  clients := h.clients
  nextOpaque := h.nextOpaque
  next := h.next

theorem Shrinks.freeAll {s : State} : ∀ (ps : List Nat) {s1 s' : State}, Shrinks s s1 → s1.freeAll ps = some s' → Shrinks s s'
  | [], s1, s', h, e => by cases e; exact h
  | p :: ps, s1, s', h, e => by
    unfold State.freeAll at e
    split at e
    · next hp => exact Shrinks.freeAll ps (h.drop hp (by intro h; cases h)) e
    · cases e

/-- What is lent to these is held by an object of the heap. -/
def From (s : State) (rs : List Res) : Prop := ∀ n, .opaque n ∈ rs → ∃ p o, s.heap p = some o ∧ .opaque n ∈ o.res

theorem from_nil (s : State) : From s [] := fun _ h => absurd h List.not_mem_nil

theorem from_lock (s : State) (f : Nat) : From s [.lock f] := fun n h => by
  rw [List.mem_singleton] at h
  cases h

theorem from_obj {s : State} {p : Nat} {o : Obj} (hp : s.heap p = some o) {rs : List Res} (hr : ∀ r ∈ rs, r ∈ o.res) :
    From s rs := fun n h => ⟨p, o, hp, hr _ h⟩

theorem from_append {s : State} {a b : List Res} (ha : From s a) (hb : From s b) : From s (a ++ b) := fun n h => by
  rcases List.mem_append.mp h with h | h
  · exact ha n h
  · exact hb n h

inductive Eff (s : State) (c : Call) : State → Prop where
  | shrink {s' : State} : Shrinks s s' → Eff s c s'
  | dropHandle {p i : Nat} : s.heap p = some (.handle i) →
      (c = .handleFree p ∨ ∃ x, s.clients[i]? = some x ∧ x.ended = true) → Eff s c (s.drop p)
  | make {s1 : State} {o : Obj} : Shrinks s s1 → From s o.res → o.kind ≠ .client → o.kind ≠ .handle →
      (∀ r d, o = .config r d → d = false) → Eff s c (s1.alloc o).1
  | lend {o : Obj} : o.res = [.opaque s.nextOpaque] → o.kind ≠ .client → o.kind ≠ .handle →
      o.kind ≠ .config → Eff s c (({ s with nextOpaque := s.nextOpaque + 1 } : State).alloc o).1
  | change {s1 : State} {p : Nat} {o o' : Obj} : Shrinks s s1 → s1.heap p = some o → o'.kind = o.kind →
      o.kind ≠ .client → o.kind ≠ .handle → From s o'.res →
      ((∀ r d, o' = .config r d → ∃ r', o = .config r' d ∨ d = false) ∨ c = .configSetDiscovery p true) → Eff s c (s1.put p o')
  | newClient {s1 : State} {d : Bool} {rs : List Res} : Shrinks s s1 → From s rs →
      (∃ b r, s.heap b = some (.config r d)) →
      Eff s c (({ s1 with clients := s1.clients ++ [⟨Life.new d, rs, false⟩] } : State).alloc (.client s1.clients.length)).1
  | life {p i : Nat} {x : Client} {op : Life.Op} : s.heap p = some (.client i) → s.clients[i]? = some x →
      ((x.life.step op).1.started = x.life.started ∨ c = .clientStartBlocking p) →
      Eff s c (s.setClient i { x with life := (x.life.step op).1 })
  | free {p i : Nat} {x : Client} : s.heap p = some (.client i) → s.clients[i]? = some x →
      (x.life.step .free).1.started = x.life.started →
      Eff s c ((s.setClient i { x with life := (x.life.step .free).1 }).drop p)
  | start {p i : Nat} {x : Client} : s.heap p = some (.client i) → s.clients[i]? = some x →
      Eff s c ((s.setClient i { x with life := (x.life.step .start).1 }).alloc (.handle i)).1
  | listen {p i : Nat} {x : Client} : s.heap p = some (.client i) → s.clients[i]? = some x →
      Eff s c (({ s with nextOpaque := s.nextOpaque + 1 } : State).setClient i
        { x with res := x.res ++ [.opaque s.nextOpaque] })

/-- Does the application give an opaque pointer with this call? -/
def lends : Call → Bool
  | .loggerCustom | .customNew | .clientAddCallback _ => true
  | _ => false

theorem started_step {l : Life} (h : Life.Inv l) {op : Life.Op} (ho : op ≠ .start) :
    (l.step op).1.started = l.started := by
  have hd := Life.step_did h op
  generalize l.step op = r at hd ⊢
  obtain ⟨l', es⟩ := r
  dsimp only at hd ⊢
  cases hd <;> first | rfl | exact absurd rfl ho

theorem start_null {l : Life} (ha : l.aborted = false) (h : .startReturned true ∉ (l.step .start).2) :
    (l.step .start).1.started = l.started := by
  unfold Life.step at h ⊢
  rw [ha] at h ⊢
  rw [if_neg (fun h => by cases h), if_pos (show Life.Op.start.isCall = true from rfl)] at h ⊢
  split
  · rfl
  · rename_i hf
    rw [if_neg hf] at h
    unfold Life.call at h ⊢
    dsimp only at h ⊢
    split
    · rfl
    · rename_i hs
      rw [if_neg hs] at h
      exact absurd (List.mem_singleton.mpr rfl) h

theorem eff_release {s s' : State} {c : Call} {p : Nat} {k : Kind} {r : Ret} (hk : k ≠ .handle)
    (h : s.release p k = .ok s' r) : Eff s c s' := by
  unfold State.release at h
  split at h
  · next o ho =>
    split at h
    · next hko =>
      cases h
      exact .shrink (Shrinks.rfl.drop ho (hko ▸ hk))
    · cases h
  · cases h

theorem eff_touch {s s' : State} {c : Call} {p : Nat} {k : Kind} {r : Ret} (h : s.touch p k = .ok s' r) : Eff s c s' := by
  unfold State.touch at h
  split at h
  · split at h
    · cases h
      exact .shrink .rfl
    · cases h
  · cases h

theorem eff_life {s s' : State} {l : Ledger} (hi : CInv s l) {c : Call} {p : Nat} {op : Life.Op} {r : Ret}
    {k : State → Nat → List Life.Ev → Out}
    (hk : ∀ i x, s.heap p = some (.client i) → s.clients[i]? = some x → Life.Inv x.life → x.life.aborted = false →
      k (s.setClient i { x with life := (x.life.step op).1 }) i (x.life.step op).2 = .ok s' r → Eff s c s')
    (h : s.lifeCall p op k = .ok s' r) : Eff s c s' := by
  unfold State.lifeCall at h
  split at h
  · next i hp =>
    split at h
    · next x hx =>
      dsimp only at h
      split at h
      · cases h
      · exact hk i x hp hx (hi.life x (List.mem_of_getElem? hx)).1 (hi.life x (List.mem_of_getElem? hx)).2.1 h
    · cases h
  · cases h

theorem eff_give {s s1 s' : State} {c : Call} {o : Obj} {r : Ret} (h : s1.give o = .ok s' r) (hs : Shrinks s s1) (hf : From s o.res)
    (h1 : o.kind ≠ .client) (h2 : o.kind ≠ .handle) (h3 : ∀ r d, o = .config r d → d = false) : Eff s c s' := by
  cases h
  exact .make hs hf h1 h2 h3

theorem call_eff {s s' : State} {l : Ledger} (hi : CInv s l) {c : Call} {r : Ret} (h : s.call c = .ok s' r) : Eff s c s' := by
  unfold State.call at h
  cases c <;> dsimp only at h
  case malloc => exact eff_give h .rfl (from_nil s) (by intro h; cases h) (by intro h; cases h) (by intro _ _ h; cases h)
  case free => exact eff_release (by intro h; cases h) h
  case loggerCustom =>
    cases h
    exact .lend rfl (by intro h; cases h) (by intro h; cases h) (by intro h; cases h)
  case loggerPlain => exact eff_give h .rfl (from_nil s) (by intro h; cases h) (by intro h; cases h) (by intro _ _ h; cases h)
  case loggerFile =>
    split at h
    · exact eff_give h .rfl (from_nil s) (by intro h; cases h) (by intro h; cases h) (by intro _ _ h; cases h)
    · cases h; exact .shrink .rfl
  case loggerClone =>
    split at h
    · next hp => exact eff_give h .rfl (from_obj hp fun _ h => h) (by intro h; cases h) (by intro h; cases h) (by intro _ _ h; cases h)
    · cases h
  case loggerFree => exact eff_release (by intro h; cases h) h
  case configNew => exact eff_give h .rfl (from_nil s) (by intro h; cases h) (by intro h; cases h) (by intro _ _ h; cases h; rfl)
  case configFree => exact eff_release (by intro h; cases h) h
  case configSetLogger =>
    split at h
    · next hl =>
      split at h
      · next hp =>
        cases h
        exact .change (Shrinks.rfl.drop hl (by intro h; cases h)) hp rfl (by intro h; cases h) (by intro h; cases h)
          (from_obj hl fun _ h => h) (.inl fun _ _ h => by cases h; exact ⟨_, .inl rfl⟩)
      · cases h
    · cases h
  case configSetDiscovery p on =>
    split at h
    · next hp =>
      cases h
      refine .change .rfl hp rfl (by intro h; cases h) (by intro h; cases h) (from_obj hp fun _ h => h) ?_
      cases on
      · exact .inl fun _ _ h => by cases h; exact ⟨[], .inr rfl⟩
      · exact .inr rfl
    · cases h
  case configSet => exact eff_touch h
  case defaultNew =>
    split at h
    · exact eff_give h .rfl (from_nil s) (by intro h; cases h) (by intro h; cases h) (by intro _ _ h; cases h)
    · split at h
      · exact eff_give h .rfl (from_lock s _) (by intro h; cases h) (by intro h; cases h) (by intro _ _ h; cases h)
      · cases h; exact .shrink .rfl
  case defaultFree => exact eff_release (by intro h; cases h) h
  case defaultSet => exact eff_touch h
  case defaultSetLogger =>
    split at h
    · next hl =>
      split at h
      · next hp =>
        cases h
        have hs := Shrinks.rfl.drop hl (by intro h; cases h)
        exact .change hs hp rfl (by intro h; cases h) (by intro h; cases h)
          (from_append (from_obj (hs.heap _ _ hp) fun _ h => List.mem_append_left _ h) (from_obj hl fun _ h => h))
          (.inl fun _ _ h => by cases h)
      · cases h
    · cases h
  case defaultBuild =>
    split at h
    · next hp =>
      exact eff_give h (Shrinks.rfl.drop hp (by intro h; cases h)) (from_obj hp fun _ h => h) (by intro h; cases h)
        (by intro h; cases h) (by intro _ _ h; cases h)
    · cases h
  case customNew =>
    cases h
    exact .lend rfl (by intro h; cases h) (by intro h; cases h) (by intro h; cases h)
  case customFree => exact eff_release (by intro h; cases h) h
  case customSet => exact eff_touch h
  case customBuild =>
    split at h
    · next hp =>
      exact eff_give h (Shrinks.rfl.drop hp (by intro h; cases h)) (from_obj hp fun _ h => h) (by intro h; cases h)
        (by intro h; cases h) (by intro _ _ h; cases h)
    · cases h
  case storageFree => exact eff_release (by intro h; cases h) h
  case clientNew =>
    split at h
    · next hb =>
      have h1 := Shrinks.rfl.drop hb (by intro h; cases h)
      split at h
      · next hst =>
        have h2 := h1.drop hst (by intro h; cases h)
        split at h
        · next s2 e =>
          have h3 := Shrinks.freeAll _ h2 e
          split at h
          · cases h
            exact .newClient h3 (from_append (from_obj hb fun _ h => h) (from_obj (h1.heap _ _ hst) fun _ h => h)) ⟨_, _, hb⟩
          · cases h
            exact .shrink h3
        · cases h
      · cases h
    · cases h
  case clientFree =>
    refine eff_life hi (fun i x hp hx h1 h2 h => ?_) h
    cases h
    exact .free hp hx (started_step h1 (fun h => by cases h))
  case clientStart =>
    refine eff_life hi (fun i x hp hx h1 h2 h => ?_) h
    split at h
    · cases h
      exact .start hp hx
    · next hn =>
      cases h
      exact .life hp hx (.inl (start_null h2 hn))
  case clientStartBlocking =>
    refine eff_life hi (fun i x hp hx h1 h2 h => ?_) h
    cases h
    exact .life hp hx (.inr rfl)
  case clientClose =>
    refine eff_life hi (fun i x hp hx h1 h2 h => ?_) h
    cases h
    exact .life hp hx (.inl (started_step h1 (fun h => by cases h)))
  case clientAddCallback =>
    split at h
    · next hp =>
      split at h
      · next hx =>
        cases h
        exact .listen hp hx
      · cases h
    · cases h
  case clientGet => exact eff_touch h
  case clientTable =>
    split at h
    · exact eff_give h .rfl (from_nil s) (by intro h; cases h) (by intro h; cases h) (by intro _ _ h; cases h)
    · cases h
  case clientScan =>
    refine eff_life hi (fun i x hp hx h1 h2 h => ?_) h
    cases h
    exact .life hp hx (.inl (started_step h1 (fun h => by cases h)))
  case clientRescan =>
    refine eff_life hi (fun i x hp hx h1 h2 h => ?_) h
    cases h
    exact .life hp hx (.inl (started_step h1 (fun h => by cases h)))
  case handleFree =>
    unfold State.release at h
    split at h
    · next o ho =>
      split at h
      · next hk =>
        cases h
        cases o <;> try cases hk
        exact .dropHandle ho (.inl rfl)
      · cases h
    · cases h
  case handleJoin =>
    split at h
    · next c hp =>
      split at h
      · next he =>
        cases h
        refine .dropHandle hp (.inr ?_)
        cases hx : s.clients[c]? with
        | none => rw [hx] at he; cases he
        | some x => rw [hx] at he; exact ⟨x, rfl, he⟩
      · cases h
    · cases h
  case tableFree => exact eff_release (by intro h; cases h) h
  case tableCount => split at h <;> cases h; exact .shrink .rfl
  case tableService =>
    split at h
    · split at h
      · cases h; exact .shrink .rfl
      · cases h
    · cases h
  case serviceGet =>
    split at h
    · split at h
      · cases h; exact .shrink .rfl
      · cases h
    · cases h

/-! ## The number of opaque pointers -/

theorem freeAll_opaque : ∀ (ps : List Nat) {s s' : State}, s.freeAll ps = some s' → s'.nextOpaque = s.nextOpaque
  | [], s, s', e => by cases e; rfl
  | p :: ps, s, s', e => by
    unfold State.freeAll at e
    split at e
    · exact (freeAll_opaque ps e).trans rfl
    · cases e

theorem call_opaque {s s' : State} {c : Call} {r : Ret} (h : s.call c = .ok s' r) :
    s'.nextOpaque = s.nextOpaque + (if lends c then 1 else 0) := by
  unfold State.call State.release State.touch State.lifeCall State.give at h
  cases c <;> dsimp only at h <;> (repeat' split at h) <;> first
    | (cases h; done)
    | (cases h; rfl)
    | (rename_i e _; cases h; exact (freeAll_opaque _ e).trans rfl)

theorem given_append (a b : List Ev) : given (a ++ b) = given a + given b := List.countP_append

theorem given_returned (c : Call) (r : Ret) : given [.returned c r] = if lends c then 1 else 0 := by
  cases c <;> rfl

theorem step_opaque (s : State) (op : Op) : (s.step op).1.nextOpaque = s.nextOpaque + given (s.step op).2 := by
  unfold State.step
  split
  · rfl
  · cases op with
    | call c =>
      dsimp only
      split
      · rfl
      · rfl
      · rfl
      · next e => rw [given_returned]; exact call_opaque e
    | inner c op =>
      dsimp only
      split
      · split
        · rfl
        · split <;> rfl
      · rfl
    | threadEnds c => dsimp only; repeat' split
                      all_goals rfl
    | callback who n => dsimp only; split <;> rfl

theorem run_opaque (s : State) (ops : List Op) : (s.run ops).1.nextOpaque = s.nextOpaque + given (s.run ops).2 := by
  induction ops generalizing s with
  | nil => rfl
  | cons op ops ih =>
    unfold State.run
    dsimp only
    rw [ih, step_opaque, given_append]
    omega

/-! ## After everything was given back -/

/-- Nothing that was lent before is held by anybody: `g` opaque pointers had been given, `b` clients made. -/
structure Post (g b : Nat) (s : State) : Prop where
  heap : ∀ p o, s.heap p = some o → (∀ n, .opaque n ∈ o.res → g ≤ n) ∧ ∀ c, o = .client c → b ≤ c
  old : ∀ c x, s.clients[c]? = some x → c < b → Quiet x.life ∧ (x.life.started = true → x.ended = true)
  new : ∀ c x, s.clients[c]? = some x → b ≤ c → ∀ n, .opaque n ∈ x.res → g ≤ n
  count : b ≤ s.clients.length
  next : g ≤ s.nextOpaque

theorem Post.shrink {g b : Nat} {s s' : State} (h : Post g b s) (hs : Shrinks s s') : Post g b s' where
  heap := fun p o hp => h.heap p o (hs.heap p o hp)
  old := fun c x hx => h.old c x (hs.clients ▸ hx)
  new := fun c x hx => h.new c x (hs.clients ▸ hx)
  count := hs.clients ▸ h.count
  next := hs.nextOpaque ▸ h.next

theorem Post.opaques {g b : Nat} {s : State} (h : Post g b s) {n : Nat} (hn : s.nextOpaque ≤ n) :
    Post g b { s with nextOpaque := n } := ⟨h.heap, h.old, h.new, h.count, Nat.le_trans h.next hn⟩

theorem Post.drop {g b : Nat} {s : State} (h : Post g b s) (p : Nat) : Post g b (s.drop p) where
  heap := fun q o hq => by
    dsimp only [State.drop] at hq
    split at hq
    · cases hq
    · exact h.heap q o hq
  old := h.old
  new := h.new
  count := h.count
  next := h.next

theorem Post.put {g b : Nat} {s : State} (h : Post g b s) {p : Nat} {o : Obj} (ho : ∀ n, .opaque n ∈ o.res → g ≤ n)
    (hc : ∀ c, o = .client c → b ≤ c) : Post g b (s.put p o) where
  heap := fun q o' hq => by
    dsimp only [State.put] at hq
    split at hq
    · cases hq
      exact ⟨ho, hc⟩
    · exact h.heap q o' hq
  old := h.old
  new := h.new
  count := h.count
  next := h.next

theorem Post.alloc {g b : Nat} {s : State} (h : Post g b s) {o : Obj} (ho : ∀ n, .opaque n ∈ o.res → g ≤ n)
    (hc : ∀ c, o = .client c → b ≤ c) : Post g b (s.alloc o).1 where
  heap := fun q o' hq => by
    dsimp only [State.alloc] at hq
    split at hq
    · cases hq
      exact ⟨ho, hc⟩
    · exact h.heap q o' hq
  old := h.old
  new := h.new
  count := h.count
  next := h.next

theorem Post.setNew {g b : Nat} {s : State} (h : Post g b s) {c : Nat} {x : Client} (hc : b ≤ c)
    (hx : ∀ n, .opaque n ∈ x.res → g ≤ n) : Post g b (s.setClient c x) where
  heap := h.heap
  old := fun d y hy hd => by
    dsimp only [State.setClient] at hy
    rw [List.getElem?_set_ne (by omega)] at hy
    exact h.old d y hy hd
  new := fun d y hy hd => by
    dsimp only [State.setClient] at hy
    by_cases e : c = d
    · subst e
      have hl : c < s.clients.length := by
        have := (List.getElem?_eq_some_iff.mp hy).1
        rwa [List.length_set] at this
      rw [List.getElem?_set_self hl] at hy
      cases hy
      exact hx
    · rw [List.getElem?_set_ne e] at hy
      exact h.new d y hy hd
  count := by
    dsimp only [State.setClient]
    rw [List.length_set]
    exact h.count
  next := h.next

theorem Post.append {g b : Nat} {s : State} (h : Post g b s) {x : Client} (hx : ∀ n, .opaque n ∈ x.res → g ≤ n) :
    Post g b { s with clients := s.clients ++ [x] } where
  heap := h.heap
  old := fun d y hy hd => by
    dsimp only at hy
    rw [List.getElem?_append_left (Nat.lt_of_lt_of_le hd h.count)] at hy
    exact h.old d y hy hd
  new := fun d y hy hd => by
    dsimp only at hy
    by_cases e : d < s.clients.length
    · rw [List.getElem?_append_left e] at hy
      exact h.new d y hy hd
    · rw [List.getElem?_append_right (by omega)] at hy
      have : y = x := by
        have := List.mem_of_getElem? hy
        simpa using this
      rw [this]
      exact hx
  count := by
    dsimp only
    rw [List.length_append]
    exact Nat.le_trans h.count (Nat.le_add_right _ _)
  next := h.next

theorem Post.from {g b : Nat} {s : State} (h : Post g b s) {rs : List Res} (hf : From s rs) :
    ∀ n, .opaque n ∈ rs → g ≤ n := fun n hn => by
  obtain ⟨p, o, h1, h2⟩ := hf n hn
  exact (h.heap p o h1).1 n h2

theorem Post.eff {g b : Nat} {s s' : State} {c : Call} (h : Post g b s) (he : Eff s c s') : Post g b s' := by
  cases he with
  | shrink hs => exact h.shrink hs
  | dropHandle _ _ => exact h.drop _
  | make hs hf hc _ _ => exact (h.shrink hs).alloc (h.from hf) (fun c e => by rw [e] at hc; exact absurd rfl hc)
  | lend hr hc _ _ =>
    refine Post.alloc (h.opaques (Nat.le_succ _)) (fun n hn => ?_) (fun c e => by rw [e] at hc; exact absurd rfl hc)
    rw [hr, List.mem_singleton] at hn
    cases hn
    exact h.next
  | change hs hp hk hc _ hf _ =>
    exact (h.shrink hs).put (h.from hf) (fun c e => by rw [e] at hk; exact absurd hk.symm hc)
  | newClient hs hf _ =>
    exact Post.alloc ((h.shrink hs).append (h.from hf)) (fun n hn => absurd hn List.not_mem_nil)
      (fun c e => by cases e; exact (h.shrink hs).count)
  | life hp hx _ =>
    have hb := (h.heap _ _ hp).2 _ rfl
    have hn := h.new _ _ hx hb
    exact h.setNew hb hn
  | free hp hx _ =>
    have hb := (h.heap _ _ hp).2 _ rfl
    have hn := h.new _ _ hx hb
    refine Post.drop ?_ _
    exact h.setNew hb hn
  | start hp hx =>
    have hb := (h.heap _ _ hp).2 _ rfl
    have hn := h.new _ _ hx hb
    refine Post.alloc ?_ ?_ ?_
    · exact h.setNew hb hn
    · exact fun n hn => absurd hn List.not_mem_nil
    · exact fun c e => by cases e
  | listen hp hx =>
    have hb := (h.heap _ _ hp).2 _ rfl
    refine Post.setNew (h.opaques (Nat.le_succ _)) hb fun n hn => ?_
    rcases List.mem_append.mp hn with hn | hn
    · exact h.new _ _ hx hb n hn
    · rw [List.mem_singleton] at hn
      cases hn
      exact h.next

theorem Post.setOld {g b : Nat} {s : State} (h : Post g b s) {c : Nat} {x x' : Client} (hx : s.clients[c]? = some x)
    (hr : x'.res = x.res) (hq : c < b → Quiet x'.life ∧ (x'.life.started = true → x'.ended = true)) :
    Post g b (s.setClient c x') where
  heap := h.heap
  old := fun d y hy hd => by
    dsimp only [State.setClient] at hy
    by_cases e : c = d
    · subst e
      rw [List.getElem?_set_self (List.getElem?_eq_some_iff.mp hx).1] at hy
      cases hy
      exact hq hd
    · rw [List.getElem?_set_ne e] at hy
      exact h.old d y hy hd
  new := fun d y hy hd => by
    dsimp only [State.setClient] at hy
    by_cases e : c = d
    · subst e
      rw [List.getElem?_set_self (List.getElem?_eq_some_iff.mp hx).1] at hy
      cases hy
      rw [hr]
      exact h.new c x hx hd
    · rw [List.getElem?_set_ne e] at hy
      exact h.new d y hy hd
  count := by
    dsimp only [State.setClient]
    rw [List.length_set]
    exact h.count
  next := h.next

theorem Post.step {g b : Nat} {s : State} {l : Ledger} (hi : CInv s l) (h : Post g b s) (op : Op) :
    Post g b (s.step op).1 ∧ ∀ n, .callback n ∈ (s.step op).2 → g ≤ n := by
  unfold State.step
  split
  · exact ⟨h, fun n hn => absurd hn List.not_mem_nil⟩
  · cases op with
    | call c =>
      dsimp only
      split
      · exact ⟨⟨h.heap, h.old, h.new, h.count, h.next⟩, fun n hn => by simp at hn⟩
      · exact ⟨⟨h.heap, h.old, h.new, h.count, h.next⟩, fun n hn => by simp at hn⟩
      · exact ⟨h, fun n hn => absurd hn List.not_mem_nil⟩
      · next e => exact ⟨h.eff (call_eff hi e), fun n hn => by simp at hn⟩
    | inner c op =>
      dsimp only
      split
      · next x hx =>
        split
        · exact ⟨h, fun n hn => absurd hn List.not_mem_nil⟩
        · next hc =>
          refine ⟨?_, fun n hn => by split at hn <;> simp at hn⟩
          have hs := h.setOld hx (x' := { x with life := (x.life.step op).1 }) rfl fun hb => by
            obtain ⟨h1, h2⟩ := h.old c x hx hb
            obtain ⟨h3, h4⟩ := quiet_step h1 (op := op) (by simpa using hc)
            exact ⟨h3, fun h5 => h2 (h4 ▸ h5)⟩
          exact ⟨hs.heap, hs.old, hs.new, hs.count, hs.next⟩
      · exact ⟨h, fun n hn => absurd hn List.not_mem_nil⟩
    | threadEnds c =>
      dsimp only
      split
      · next x hx =>
        split
        · refine ⟨h.setOld hx (x' := { x with ended := true }) rfl fun hb => ⟨(h.old c x hx hb).1, fun _ => rfl⟩, fun n hn => by simp at hn⟩
        · exact ⟨h, fun n hn => absurd hn List.not_mem_nil⟩
      · exact ⟨h, fun n hn => absurd hn List.not_mem_nil⟩
    | callback who n =>
      dsimp only
      split
      · next hm =>
        refine ⟨h, fun m hn => ?_⟩
        rw [List.mem_singleton] at hn
        cases hn
        unfold State.heldBy at hm
        split at hm
        · next c =>
          split at hm
          · next x hx =>
            split at hm
            · next hb =>
              simp only [Bool.and_eq_true, Bool.not_eq_true'] at hb
              by_cases hc : c < b
              · obtain ⟨h1, h2⟩ := h.old c x hx hc
                rw [h2 (h1.inv.beganStarted hb.1)] at hb
                cases hb.2
              · exact h.new c x hx (by omega) _ hm
            · exact absurd hm List.not_mem_nil
          · exact absurd hm List.not_mem_nil
        · next c i =>
          split at hm
          · next x hx =>
            split at hm
            · next ph hw =>
              split at hm
              · next hh =>
                by_cases hc : c < b
                · have := (h.old c x hx hc).1.workers ph (List.mem_of_getElem? hw)
                  rw [this] at hh
                  cases hh
                · exact h.new c x hx (by omega) _ hm
              · exact absurd hm List.not_mem_nil
            · exact absurd hm List.not_mem_nil
          · exact absurd hm List.not_mem_nil
        · next p =>
          split at hm
          · next c hp =>
            split at hm
            · next x hx => exact h.new c x hx ((h.heap _ _ hp).2 c rfl) _ hm
            · exact absurd hm List.not_mem_nil
          · next o _ hp => exact (h.heap _ _ hp).1 _ hm
          · exact absurd hm List.not_mem_nil
      · exact ⟨h, fun n hn => absurd hn List.not_mem_nil⟩

theorem Post.run {g b : Nat} (ops : List Op) {s : State} {l : Ledger} (hi : CInv s l) (h : Post g b s) :
    ∀ n, .callback n ∈ (s.run ops).2 → g ≤ n := by
  induction ops generalizing s l with
  | nil => exact fun n hn => absurd hn List.not_mem_nil
  | cons op ops ih =>
    intro n hn
    unfold State.run at hn
    dsimp only at hn
    obtain ⟨h1, h2⟩ := h.step hi op
    rcases List.mem_append.mp hn with hn | hn
    · exact h2 n hn
    · cases ha : (s.step op).1.aborted with
      | true => rw [run_aborted ha] at hn; exact absurd hn List.not_mem_nil
      | false =>
        have ha0 : s.aborted = false := by
          cases e : s.aborted with
          | false => rfl
          | true => rw [step_aborted e] at ha; rw [e] at ha; cases ha
        exact ih (step_inv hi ha0 op ha) h1 n hn

theorem freed_of_empty {s : State} {l : Ledger} (hi : CInv s l) (he : l.has = []) :
    (∀ p, s.heap p = none) ∧ ∀ x ∈ s.clients, x.life.freed = true := by
  have hh : ∀ p, s.heap p = none := fun p => by
    cases e : s.heap p with
    | none => rfl
    | some o => have := hi.mem e; rw [he] at this; exact absurd this List.not_mem_nil
  refine ⟨hh, fun x hx => ?_⟩
  obtain ⟨c, hc⟩ := List.mem_iff_getElem?.mp hx
  cases hf : x.life.freed with
  | true => rfl
  | false =>
    obtain ⟨p, hp⟩ := hi.box c x hc hf
    rw [hh p] at hp
    cases hp

theorem post_of_empty {s : State} {l : Ledger} (hi : CInv s l) (he : l.has = [])
    (hs : ∀ x ∈ s.clients, Stopped x ∧ NotScanning x) : Post s.nextOpaque s.clients.length s where
  heap := fun p o hp => by
    rw [(freed_of_empty hi he).1 p] at hp
    cases hp
  old := fun c x hx _ => by
    have hm := List.mem_of_getElem? hx
    obtain ⟨h1, h2, h3⟩ := hi.life x hm
    exact ⟨⟨h1, (hs x hm).2, fun h => h3 ((hs x hm).1 h)⟩, (hs x hm).1⟩
  new := fun c x hx hc => absurd (List.getElem?_eq_some_iff.mp hx).1 (by omega)
  count := Nat.le_refl _
  next := Nat.le_refl _

theorem free_of_empty {s : State} {l : Ledger} (hi : CInv s l) (he : l.has = [])
    (hs : ∀ x ∈ s.clients, Stopped x ∧ NotScanning x) (r : Res) : s.holds r = false := by
  obtain ⟨h1, h2⟩ := freed_of_empty hi he
  unfold State.holds
  rw [Bool.or_eq_false_iff]
  constructor
  · rw [List.any_eq_false]
    intro p _
    rw [h1 p]
    exact fun h => by cases h
  · rw [List.any_eq_false]
    intro x hx
    have hheld : x.held = false := by
      unfold Client.held
      rw [h2 x hx]
      have h3 : (x.life.started && !x.ended) = false := by
        cases e : x.life.started with
        | false => rfl
        | true => rw [(hs x hx).1 e]; rfl
      rw [h3]
      rw [show x.life.h.workers.any holding = false from List.any_eq_false.mpr fun ph hp => by
        rw [(hs x hx).2 ph hp]; exact fun h => by cases h]
      rfl
    rw [hheld]
    exact fun h => by cases h

/-! ## Clients without discovery, with threads that are joined -/

/-- No discovery, and for each thread of a client that is not over there is a handle. -/
structure Joined (s : State) : Prop where
  config : ∀ p r d, s.heap p = some (.config r d) → d = false
  clients : ∀ x ∈ s.clients, NoScans x.life.h
  handles : ∀ c x, s.clients[c]? = some x → x.life.started = true → x.ended = true ∨ ∃ p, s.heap p = some (.handle c)
  low : ∀ p o, s.heap p = some o → p < s.next

theorem Joined.shrink {s s' : State} (h : Joined s) (hs : Shrinks s s') : Joined s' where
  config := fun p r d hp => h.config p r d (hs.heap _ _ hp)
  clients := fun x hx => h.clients x (hs.clients ▸ hx)
  handles := fun c x hx hst => by
    rcases h.handles c x (hs.clients ▸ hx) hst with h1 | ⟨p, hp⟩
    · exact .inl h1
    · exact .inr ⟨p, hs.handles p c hp⟩
  low := fun p o hp => hs.next ▸ h.low p o (hs.heap _ _ hp)

theorem Joined.alloc {s : State} (h : Joined s) {o : Obj} (ho : ∀ r d, o = .config r d → d = false) :
    Joined (s.alloc o).1 where
  config := fun p r d hp => by
    dsimp only [State.alloc] at hp
    split at hp
    · cases hp
      exact ho r d rfl
    · exact h.config p r d hp
  clients := h.clients
  handles := fun c x hx hst => by
    rcases h.handles c x hx hst with h1 | ⟨p, hp⟩
    · exact .inl h1
    · refine .inr ⟨p, ?_⟩
      dsimp only [State.alloc]
      rw [if_neg (Nat.ne_of_lt (h.low p _ hp))]
      exact hp
  low := fun p o' hp => by
    show p < s.next + 1
    dsimp only [State.alloc] at hp
    split at hp
    · omega
    · exact Nat.lt_succ_of_lt (h.low p o' hp)

theorem Joined.put {s : State} (h : Joined s) {p : Nat} {o o' : Obj} (hp : s.heap p = some o) (hk : o.kind ≠ .handle)
    (ho : ∀ r d, o' = .config r d → d = false) : Joined (s.put p o') where
  config := fun q r d hq => by
    dsimp only [State.put] at hq
    split at hq
    · cases hq
      exact ho r d rfl
    · exact h.config q r d hq
  clients := h.clients
  handles := fun c x hx hst => by
    rcases h.handles c x hx hst with h1 | ⟨q, hq⟩
    · exact .inl h1
    · refine .inr ⟨q, ?_⟩
      dsimp only [State.put]
      rw [if_neg]
      · exact hq
      · rintro rfl
        rw [hp] at hq
        cases hq
        exact hk rfl
  low := fun q o'' hq => by
    dsimp only [State.put] at hq
    split at hq
    · rename_i e
      rw [e]
      exact h.low p o hp
    · exact h.low q o'' hq

/-- A client changes; if it is started now, there is a handle for it. -/
theorem Joined.setClient {s : State} (h : Joined s) {c : Nat} {x x' : Client} (hx : s.clients[c]? = some x)
    (hn : NoScans x'.life.h)
    (hs : x'.life.started = true → x'.ended = true ∨ (x.ended = x'.ended ∧ x.life.started = true) ∨
      ∃ p, s.heap p = some (.handle c)) : Joined (s.setClient c x') where
  config := h.config
  clients := fun y hy => by
    rcases List.mem_or_eq_of_mem_set hy with hy | rfl
    · exact h.clients y hy
    · exact hn
  handles := fun d y hy hst => by
    dsimp only [State.setClient] at hy
    by_cases e : c = d
    · subst e
      rw [List.getElem?_set_self (List.getElem?_eq_some_iff.mp hx).1] at hy
      cases hy
      rcases hs hst with h1 | ⟨h1, h2⟩ | h1
      · exact .inl h1
      · rw [← h1]
        exact h.handles c x hx h2
      · exact .inr h1
    · rw [List.getElem?_set_ne e] at hy
      exact h.handles d y hy hst
  low := h.low

theorem Joined.eff {s s' : State} {c : Call} (h : Joined s) (he : Eff s c s') (hp : Plain c) : Joined s' := by
  cases he with
  | shrink hs => exact h.shrink hs
  | @dropHandle p i hq hc =>
    rcases hc with rfl | ⟨x, hx, hxe⟩
    · exact absurd rfl (hp.2.1 p)
    · exact
        { config := fun q r d hq => by
            dsimp only [State.drop] at hq
            split at hq
            · cases hq
            · exact h.config q r d hq
          clients := h.clients
          handles := fun c y hy hst => by
            by_cases e : c = i
            · subst e
              have hy : s.clients[c]? = some y := hy
              rw [hx] at hy
              cases hy
              exact .inl hxe
            · rcases h.handles c y hy hst with h1 | ⟨q, hq'⟩
              · exact .inl h1
              · refine .inr ⟨q, ?_⟩
                dsimp only [State.drop]
                rw [if_neg]
                · exact hq'
                · rintro rfl
                  rw [hq] at hq'
                  cases hq'
                  exact e rfl
          low := fun q o hq => by
            dsimp only [State.drop] at hq
            split at hq
            · cases hq
            · exact h.low q o hq }
  | make hs _ _ _ hc => exact (h.shrink hs).alloc hc
  | lend _ _ _ hc =>
    have h1 : Joined { s with nextOpaque := s.nextOpaque + 1 } := ⟨h.config, h.clients, h.handles, h.low⟩
    refine h1.alloc fun r d e => ?_
    rw [e] at hc
    exact absurd rfl hc
  | change hs hq hk _ hh _ hc =>
    refine (h.shrink hs).put hq hh fun r d e => ?_
    rcases hc with hc | hc
    · obtain ⟨r', h1 | h1⟩ := hc r d e
      · rw [h1] at hq
        exact (h.shrink hs).config _ _ _ hq
      · exact h1
    · exact absurd hc (hp.1 _)
  | @newClient s1 d rs hs _ hb =>
    obtain ⟨b, r, hb⟩ := hb
    have hd := h.config b r d hb
    have h1 := h.shrink hs
    have h2 : Joined { s1 with clients := s1.clients ++ [⟨Life.new d, rs, false⟩] } :=
      ⟨h1.config, fun x hx => ?_, fun c x hx hst => ?_, h1.low⟩
    · exact h2.alloc (by intro r d e; cases e)
    · rcases List.mem_append.mp hx with hx | hx
      · exact h1.clients x hx
      · rw [List.mem_singleton] at hx
        subst hx
        exact ⟨hd, rfl⟩
    · dsimp only at hx
      by_cases hl : c < s1.clients.length
      · rw [List.getElem?_append_left hl] at hx
        exact h1.handles c x hx hst
      · rw [List.getElem?_append_right (by omega)] at hx
        have hm := List.mem_of_getElem? hx
        rw [List.mem_singleton] at hm
        rw [hm] at hst
        cases hst
  | life hq hx hst =>
    refine h.setClient hx (noScans_step (h.clients _ (List.mem_of_getElem? hx)) _) fun h1 => .inr (.inl ⟨rfl, ?_⟩)
    rcases hst with hst | hst
    · exact hst ▸ h1
    · exact absurd hst (hp.2.2 _)
  | @free p i x hq hx hst =>
    have h1 := h.setClient (x' := { x with life := (x.life.step .free).1 }) hx
      (noScans_step (h.clients _ (List.mem_of_getElem? hx)) _) fun h1 => .inr (.inl ⟨rfl, hst ▸ h1⟩)
    exact h1.shrink (Shrinks.drop .rfl (p := p) hq (fun h => by cases h))
  | @start p i x hq hx =>
    have h1 := h.alloc (o := .handle i) (fun r d e => by cases e)
    exact h1.setClient (x' := { x with life := (x.life.step .start).1 }) hx
      (noScans_step (h.clients _ (List.mem_of_getElem? hx)) _) fun _ => .inr (.inr ⟨s.next, if_pos rfl⟩)
  | listen hq hx =>
    have h1 : Joined { s with nextOpaque := s.nextOpaque + 1 } := ⟨h.config, h.clients, h.handles, h.low⟩
    have h2 := h.clients _ (List.mem_of_getElem? hx)
    exact h1.setClient hx h2 fun h2 => .inr (.inl ⟨rfl, h2⟩)

theorem Joined.step {s : State} {l : Ledger} (hi : CInv s l) (h : Joined s) (op : Op) (hp : ∀ c, op = .call c → Plain c) :
    Joined (s.step op).1 := by
  unfold State.step
  split
  · exact h
  · cases op with
    | call c =>
      dsimp only
      split
      · exact ⟨h.config, h.clients, h.handles, h.low⟩
      · exact ⟨h.config, h.clients, h.handles, h.low⟩
      · exact h
      · next e => exact h.eff (call_eff hi e) (hp c rfl)
    | inner c op =>
      dsimp only
      split
      · next x hx =>
        split
        · exact h
        · next hc =>
          have hm := List.mem_of_getElem? hx
          have hs := h.setClient hx (x' := { x with life := (x.life.step op).1 }) (noScans_step (h.clients x hm) op)
            fun h1 => .inr (.inl ⟨rfl, by
              rw [started_step (hi.life x hm).1 (fun e => hc (by rw [e]; rfl))] at h1
              exact h1⟩)
          exact ⟨hs.config, hs.clients, hs.handles, hs.low⟩
      · exact h
    | threadEnds c =>
      dsimp only
      split
      · next x hx =>
        split
        · exact h.setClient hx (x' := { x with ended := true }) (h.clients x (List.mem_of_getElem? hx)) fun _ => .inl rfl
        · exact h
      · exact h
    | callback who n => dsimp only; split <;> exact h

theorem Joined.run (ops : List Op) {s : State} {l : Ledger} (hi : CInv s l) (h : Joined s)
    (hp : ∀ c, .call c ∈ ops → Plain c) (ha : (s.run ops).1.aborted = false) : Joined (s.run ops).1 := by
  induction ops generalizing s l with
  | nil => exact h
  | cons op ops ih =>
    unfold State.run at ha ⊢
    dsimp only at ha ⊢
    have h1 : (s.step op).1.aborted = false := by
      cases e : (s.step op).1.aborted with
      | false => rfl
      | true => rw [run_aborted e] at ha; rw [e] at ha; cases ha
    have ha0 : s.aborted = false := by
      cases e : s.aborted with
      | false => rfl
      | true => rw [step_aborted e] at h1; rw [e] at h1; cases h1
    exact ih (step_inv hi ha0 op h1) (h.step hi op fun c e => hp c (e ▸ List.mem_cons_self))
      (fun c hc => hp c (List.mem_cons_of_mem _ hc)) ha

theorem joined_init : Joined State.init where
  config := fun p r d h => by cases h
  clients := fun x h => absurd h List.not_mem_nil
  handles := fun c x h => by cases h
  low := fun p o h => by cases h

/-- Everything given back, all threads joined, no discovery. -/
theorem stopped_of_joined {s : State} {l : Ledger} (hi : CInv s l) (h : Joined s) (he : l.has = []) :
    ∀ x ∈ s.clients, Stopped x ∧ NotScanning x := by
  intro x hx
  refine ⟨fun hs => ?_, fun ph hp => ?_⟩
  · obtain ⟨c, hc⟩ := List.mem_iff_getElem?.mp hx
    rcases h.handles c x hc hs with h1 | ⟨p, hp⟩
    · exact h1
    · rw [(freed_of_empty hi he).1 p] at hp
      cases hp
  · rw [(h.clients x hx).2] at hp
    exact absurd hp List.not_mem_nil

/-! ## New pointers -/

theorem freeAll_next : ∀ (ps : List Nat) {s s' : State}, s.freeAll ps = some s' → s'.next = s.next
  | [], s, s', e => by cases e; rfl
  | p :: ps, s, s', e => by
    unfold State.freeAll at e
    split at e
    · exact (freeAll_next ps e).trans rfl
    · cases e

theorem call_ptr {s s' : State} {c : Call} {p : Nat} (h : s.call c = .ok s' (.ptr p)) (hp : p ≠ 0) : s.next ≤ p := by
  unfold State.call State.release State.touch State.lifeCall State.give at h
  cases c <;> dsimp only at h <;> (repeat' split at h) <;> first
    | (cases h; done)
    | (cases h; exact Nat.le_refl _)
    | (cases h; exact absurd rfl hp)
    | (rename_i e _; cases h; exact Nat.le_of_eq (freeAll_next _ e).symm)

/-! ## A check of the rules, for examples -/

/-- What an event does to the pointers of the application. -/
def noteBy (rules : Call → List Arg) (l : Ledger) (e : Ev) : Ledger :=
  match e with | .returned c r => l.by rules c r | _ => l

theorem ledgerBy_append (rules : Call → List Arg) (a b : List Ev) :
    ledgerBy rules (a ++ b) = b.foldl (noteBy rules) (ledgerBy rules a) := List.foldl_append ..

/-- Is the call allowed? -/
def allowedB (rules : Call → List Arg) (l : Ledger) (c : Call) : Bool :=
  (pass l.has (rules c)).isSome && (match c with | .serviceGet t i => decide ((t, i) ∈ l.services) | _ => true)

theorem allowedB_sound {rules : Call → List Arg} {l : Ledger} {c : Call} (h : allowedB rules l c = true) :
    AllowedBy rules l c := by
  unfold allowedB at h
  rw [Bool.and_eq_true] at h
  refine ⟨fun e => ?_, ?_⟩
  · rw [e] at h
    cases h.1
  · rintro t i rfl
    exact of_decide_eq_true h.2

/-- Are the rules followed from here? -/
def followsB (rules : Call → List Arg) (s : State) (l : Ledger) : List Op → Bool
  | [] => true
  | op :: ops =>
    (match op with | .call c => allowedB rules l c | _ => true) &&
      followsB rules (s.step op).1 ((s.step op).2.foldl (noteBy rules) l) ops

theorem followsB_from {rules : Call → List Arg} : ∀ (ops pre : List Op),
    followsB rules (State.init.run pre).1 (ledgerBy rules (State.init.run pre).2) ops = true →
    ∀ pre' c post, ops = pre' ++ .call c :: post →
      AllowedBy rules (ledgerBy rules (State.init.run (pre ++ pre')).2) c
  | [], _, _, pre', c, post, e => by
    exact absurd e.symm (by simp)
  | op :: ops, pre, h, pre', c, post, e => by
    unfold followsB at h
    rw [Bool.and_eq_true] at h
    cases pre' with
    | nil =>
      cases e
      rw [List.append_nil]
      exact allowedB_sound h.1
    | cons op' pre' =>
      cases e
      have h2 := followsB_from _ (pre ++ [op]) (by
        rw [run_append]
        show followsB rules ((State.init.run pre).1.step op).1 (ledgerBy rules (_ ++ (_ ++ []))) _ = true
        rw [List.append_nil, ledgerBy_append]
        exact h.2) pre' c post rfl
      rwa [List.append_assoc] at h2

theorem followsB_sound {rules : Call → List Arg} {ops : List Op} (h : followsB rules State.init ⟨[], []⟩ ops = true) :
    FollowsBy rules ops := fun pre c post e => followsB_from ops [] h pre c post e

end Verif.CApi
