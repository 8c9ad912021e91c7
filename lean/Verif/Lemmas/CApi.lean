import Verif.Spec.CApi
import Verif.Lemmas.LifeSteps
/-!
# Lemmas about the C interface
-/
namespace Verif.CApi
open Verif Verif.Spec.CApi
open Verif.Life (Life)
open Verif.CmdHandler (Phase)

/-! ## The lives of the clients -/

theorem call_keeps {l : Life} (h : Life.Inv l) (ha : l.aborted = false) {op : Life.Op} (hc : op.isCall = true) :
    (l.step op).1.aborted = false := by
  have hd := Life.step_did h op
  generalize l.step op = r at hd ⊢
  obtain ⟨l', es⟩ := r
  dsimp only at hd ⊢
  cases hd <;> first | exact ha | cases hc

theorem freed_step {l : Life} (h : Life.Inv l) {op : Life.Op} (hc : op ≠ .free) :
    (l.step op).1.freed = l.freed := by
  by_cases he : op = .close
  · subst he
    unfold Life.step
    split
    · rfl
    · rw [if_pos (show Life.Op.close.isCall = true from rfl)]
      split <;> rfl
  · have hd := Life.step_did h op
    generalize l.step op = r at hd ⊢
    obtain ⟨l', es⟩ := r
    dsimp only at hd ⊢
    cases hd with
    | close h' f h1 _ _ => rcases h1 with rfl | rfl <;> contradiction
    | _ => rfl

theorem free_step {l : Life} (ha : l.aborted = false) (hf : l.freed = false) :
    (l.step .free).1.freed = true := by
  unfold Life.step
  rw [ha, hf]
  show (l.call .free).1.freed = true
  unfold Life.call
  dsimp only
  split <;> rfl

/-- The thread of the client is over. -/
def Over (l : Life) : Prop := l.over = true ∧ l.h.alive = false ∧ l.ticker = .gone

theorem over_began {l : Life} (h : Life.Inv l) (ho : Over l) : l.began = true :=
  h.mainBegan (by rw [h.overGone ho.1]; exact fun h => by cases h)

theorem work_alive (h : CmdHandler.H) (i : Nat) (r : Option Nat) : (h.step (.work i r)).1.alive = h.alive :=
  (Life.keeps_work h i r).1

theorem over_step {l : Life} (h : Life.Inv l) (ho : Over l) (op : Life.Op) : Over (l.step op).1 := by
  have hd := Life.step_did h op
  generalize l.step op = r at hd ⊢
  obtain ⟨l', es⟩ := r
  dsimp only at hd ⊢
  obtain ⟨h1, h2, h3⟩ := ho
  cases hd with
  | nothing _ _ => exact ⟨h1, h2, h3⟩
  | startNull _ => exact ⟨h1, h2, h3⟩
  | start _ => exact ⟨h1, h2, h3⟩
  | scan h' _ _ e => exact ⟨h1, e.trans h2, h3⟩
  | rescan h' _ _ e => exact ⟨h1, e.trans h2, h3⟩
  | close h' f _ _ e => exact ⟨h1, e h2, h3⟩
  | begin _ e => rw [over_began h ⟨h1, h2, h3⟩] at e; cases e
  | mainEnd h' _ _ _ e => exact ⟨rfl, e.trans h2, h3⟩
  | mainChecked _ _ => exact ⟨h1, h2, h3⟩
  | mainWork _ _ h' _ _ e => exact ⟨h1, e.trans h2, h3⟩
  | tickGone h' _ _ _ e => exact ⟨h1, e.trans h2, rfl⟩
  | tickChecked e _ => rw [h3] at e; cases e
  | tick h' e _ _ _ => rw [h3] at e; cases e
  | tickAbort e _ => rw [h3] at e; cases e
  | handle _ h' _ _ _ e => exact ⟨h1, e.trans h2, h3⟩
  | work i r _ => exact ⟨h1, (work_alive _ _ _).trans h2, h3⟩
  | workAbort _ _ _ _ => exact ⟨h1, h2, h3⟩
  | shutdown h' _ _ e => exact ⟨h1, e, by show (if l.ticker = .checked then _ else _) = _; rw [h3]; rfl⟩

theorem holding_work {h : CmdHandler.H} (i : Nat) (r : Option Nat) (hw : ∀ ph ∈ h.workers, holding ph = false) :
    ∀ ph ∈ (h.step (.work i r)).1.workers, holding ph = false := by
  intro ph hp
  have hget : ∀ p, h.workers[i]? = some p → holding p = false := fun p hp => hw p (List.mem_of_getElem? hp)
  unfold CmdHandler.H.step at hp
  dsimp only at hp
  unfold CmdHandler.H.work at hp
  split at hp
  · rename_i e; cases hget _ e
  · rename_i e; cases hget _ e
  · rename_i e; cases hget _ e
  · rename_i e; cases hget _ e
  · rename_i e; cases hget _ e
  · rcases List.mem_or_eq_of_mem_set hp with hp | rfl
    · exact hw ph hp
    · rfl
  · exact hw ph hp

/-- A client that nobody uses. -/
structure Quiet (l : Life) : Prop where
  inv : Life.Inv l
  workers : ∀ ph ∈ l.h.workers, holding ph = false
  over : l.started = true → Over l

/-- No step of its tasks and threads changes that nobody uses the client. -/
theorem quiet_step {l : Life} (hq : Quiet l) {op : Life.Op} (hc : op.isCall = false) :
    Quiet (l.step op).1 ∧ (l.step op).1.started = l.started := by
  obtain ⟨h, hw, hs⟩ := hq
  have hs' : (l.step op).1.started = l.started := by
    have hd := Life.step_did h op
    generalize l.step op = r at hd ⊢
    obtain ⟨l', es⟩ := r
    dsimp only at hd ⊢
    cases hd <;> first | rfl | cases hc
  refine ⟨⟨Life.inv_step h op, ?_, fun h1 => over_step h (hs (hs' ▸ h1)) op⟩, hs'⟩
  have hd := Life.step_did h op
  generalize l.step op = r at hd ⊢
  obtain ⟨l', es⟩ := r
  dsimp only at hd ⊢
  cases hd with
  | nothing _ _ => exact hw
  | startNull _ => exact hw
  | start _ => exact hw
  | scan h' _ e _ => exact e ▸ hw
  | rescan h' _ e _ => exact e ▸ hw
  | close h' f _ e _ => exact e ▸ hw
  | begin _ e => exact hw
  | mainEnd h' _ _ e _ => exact e ▸ hw
  | mainChecked _ _ => exact hw
  | mainWork _ _ h' _ e _ => exact e ▸ hw
  | tickGone h' _ _ e _ => exact e ▸ hw
  | tickChecked e _ => exact hw
  | tick h' _ _ e _ => exact e ▸ hw
  | tickAbort e _ => exact hw
  | handle _ h' _ hb e _ => rw [(hs (h.beganStarted hb)).2.1] at e; cases e
  | work i r _ => exact holding_work i r hw
  | workAbort _ _ _ _ => exact hw
  | shutdown h' _ e _ => exact e ▸ hw

/-- Without discovery there are no scanner threads. -/
def NoScans (h : CmdHandler.H) : Prop := h.discovery = false ∧ h.workers = []

theorem noScans_hstep {h : CmdHandler.H} (hn : NoScans h) (op : CmdHandler.HOp) : NoScans (h.step op).1 := by
  have hsn : ∀ h : CmdHandler.H, NoScans h → NoScans h.scanNetwork.1 := by
    intro h hn
    unfold CmdHandler.H.scanNetwork
    rw [hn.1]
    exact hn
  unfold CmdHandler.H.step
  cases op with
  | send o c => dsimp only; repeat' split
                all_goals exact hn
  | handle now =>
    dsimp only
    split
    · split
      · next m q _ =>
        cases m with
        | scanCompleted => exact hn
        | command c =>
          cases c with
          | resetServiceTable => exact hn
          | scanNetwork => exact hsn _ hn
          | periodicNetworkScan =>
            unfold CmdHandler.H.processEvent CmdHandler.H.processCommand
            dsimp only
            repeat' split
            all_goals first | exact hsn _ hn | exact hn
      · split <;> exact hn
    · exact hn
  | work i r => dsimp only; unfold CmdHandler.H.work; rw [hn.2]; exact hn
  | crash i => dsimp only; unfold CmdHandler.H.crash; rw [hn.2]; exact hn
  | drop o => dsimp only; split <;> exact hn

theorem noScans_sendAll (o : CmdHandler.Owner) : ∀ (cs : List CmdHandler.Cmd) {l : Life}, NoScans l.h →
    NoScans (l.sendAll o cs).1.h
  | [], _, hn => hn
  | c :: cs, l, hn => by
    have h1 : NoScans (l.send o c).1.h := by
      unfold Life.send
      split
      · exact noScans_hstep hn _
      · exact hn
    unfold Life.sendAll
    dsimp only
    split
    · exact h1
    · exact noScans_sendAll o cs h1

theorem noScans_step {l : Life} (hn : NoScans l.h) (op : Life.Op) : NoScans (l.step op).1.h := by
  unfold Life.step
  split
  · exact hn
  · split
    · split
      · exact hn
      · unfold Life.call Life.close
        cases op <;> dsimp only <;> (repeat' split) <;>
          first | exact hn | exact noScans_sendAll _ _ hn | exact noScans_hstep hn _
    · unfold Life.task Life.send
      cases op <;> dsimp only <;> (repeat' split) <;>
          first | exact hn | exact noScans_sendAll _ _ hn | exact noScans_hstep hn _ |
            exact noScans_sendAll (l := { l with main := _, conn := _ }) _ _ hn

/-! ## The heap and the pointers of the application -/

structure CInv (s : State) (l : Ledger) : Prop where
  has : ∀ p k, (p, k) ∈ l.has ↔ ∃ o, s.heap p = some o ∧ o.kind = k
  nodup : l.has.Nodup
  low : ∀ p o, s.heap p = some o → 0 < p ∧ p < s.next
  pos : 0 < s.next
  tables : ∀ t i, (t, i) ∈ l.services → t < s.next ∧ ∀ n, s.heap t = some (.table n) → i < n
  owner : ∀ p c, s.heap p = some (.client c) → ∃ x, s.clients[c]? = some x ∧ x.life.freed = false
  uniq : ∀ p q c, s.heap p = some (.client c) → s.heap q = some (.client c) → p = q
  box : ∀ c x, s.clients[c]? = some x → x.life.freed = false → ∃ p, s.heap p = some (.client c)
  life : ∀ x ∈ s.clients, Life.Inv x.life ∧ x.life.aborted = false ∧ (x.ended = true → Over x.life)

theorem cinv_init : CInv State.init ⟨[], []⟩ where
  has := fun p k => ⟨fun h => absurd h List.not_mem_nil, fun ⟨o, h, _⟩ => by cases h⟩
  nodup := List.nodup_nil
  low := fun p o h => by cases h
  pos := by decide
  tables := fun t i h => absurd h List.not_mem_nil
  owner := fun p c h => by cases h
  uniq := fun p q c h => by cases h
  box := fun c x h => by cases h
  life := fun x h => absurd h List.not_mem_nil

theorem CInv.mem {s : State} {l : Ledger} (h : CInv s l) {p : Nat} {o : Obj} (ho : s.heap p = some o) :
    (p, o.kind) ∈ l.has := (h.has p _).mpr ⟨o, ho, rfl⟩

/-- An object that is no client is dropped. -/
theorem CInv.drop {s : State} {l : Ledger} (h : CInv s l) {p : Nat} {o : Obj} (ho : s.heap p = some o)
    (hk : o.kind ≠ .client) : CInv (s.drop p) ⟨l.has.erase (p, o.kind), l.services⟩ where
  has := fun q k => by
    rw [h.nodup.mem_erase_iff]
    show _ ↔ ∃ o', (if q = p then none else s.heap q) = some o' ∧ o'.kind = k
    constructor
    · rintro ⟨hne, hq⟩
      obtain ⟨o', h1, h2⟩ := (h.has q k).mp hq
      refine ⟨o', ?_, h2⟩
      rw [if_neg]
      · exact h1
      · rintro rfl
        rw [ho] at h1
        cases h1
        exact hne (by rw [h2])
    · rintro ⟨o', h1, h2⟩
      split at h1
      · cases h1
      · rename_i hne
        exact ⟨fun e => hne (congrArg Prod.fst e), (h.has q k).mpr ⟨o', h1, h2⟩⟩
  nodup := h.nodup.erase _
  low := fun q o' hq => by
    dsimp only [State.drop] at hq
    split at hq
    · cases hq
    · exact h.low q o' hq
  pos := h.pos
  tables := fun t i hm => by
    obtain ⟨h1, h2⟩ := h.tables t i hm
    refine ⟨h1, fun n hn => h2 n ?_⟩
    dsimp only [State.drop] at hn
    split at hn
    · cases hn
    · exact hn
  owner := fun q c hq => by
    dsimp only [State.drop] at hq
    split at hq
    · cases hq
    · exact h.owner q c hq
  uniq := fun q q' c h1 h2 => by
    dsimp only [State.drop] at h1 h2
    split at h1
    · cases h1
    · split at h2
      · cases h2
      · exact h.uniq q q' c h1 h2
  box := fun c x hx hf => by
    obtain ⟨q, hq⟩ := h.box c x hx hf
    refine ⟨q, ?_⟩
    dsimp only [State.drop]
    rw [if_neg]
    · exact hq
    · rintro rfl
      rw [ho] at hq
      cases hq
      exact hk rfl
  life := h.life

/-- An object is changed that is neither a client nor a table. -/
theorem CInv.put {s : State} {l : Ledger} (h : CInv s l) {p : Nat} {o o' : Obj} (ho : s.heap p = some o)
    (hk : o'.kind = o.kind) (hc : o.kind ≠ .client) (ht : o.kind ≠ .table) : CInv (s.put p o') l where
  has := fun q k => by
    rw [h.has]
    show _ ↔ ∃ o'', (if q = p then some o' else s.heap q) = some o'' ∧ o''.kind = k
    by_cases hq : q = p
    · subst hq
      rw [if_pos rfl, ho]
      constructor
      · rintro ⟨_, h1, rfl⟩
        cases h1
        exact ⟨o', rfl, hk⟩
      · rintro ⟨_, h1, rfl⟩
        cases h1
        exact ⟨o, rfl, hk.symm⟩
    · rw [if_neg hq]
  nodup := h.nodup
  low := fun q o'' hq => by
    dsimp only [State.put] at hq
    split at hq
    · rename_i e
      subst e
      exact h.low q o ho
    · exact h.low q o'' hq
  pos := h.pos
  tables := fun t i hm => by
    obtain ⟨h1, h2⟩ := h.tables t i hm
    refine ⟨h1, fun n hn => h2 n ?_⟩
    dsimp only [State.put] at hn
    split at hn
    · cases hn
      exact absurd hk.symm ht
    · exact hn
  owner := fun q c hq => by
    dsimp only [State.put] at hq
    split at hq
    · cases hq
      exact absurd hk.symm hc
    · exact h.owner q c hq
  uniq := fun q q' c h1 h2 => by
    dsimp only [State.put] at h1 h2
    split at h1
    · cases h1
      exact absurd hk.symm hc
    · split at h2
      · cases h2
        exact absurd hk.symm hc
      · exact h.uniq q q' c h1 h2
  box := fun c x hx hf => by
    obtain ⟨q, hq⟩ := h.box c x hx hf
    refine ⟨q, ?_⟩
    dsimp only [State.put]
    rw [if_neg]
    · exact hq
    · rintro rfl
      rw [ho] at hq
      cases hq
      exact hc rfl
  life := h.life

theorem CInv.fresh {s : State} {l : Ledger} (h : CInv s l) : s.heap s.next = none := by
  cases e : s.heap s.next with
  | none => rfl
  | some o => exact absurd (h.low _ _ e).2 (Nat.lt_irrefl _)

/-- A new object. If it is a client, it is a new one. -/
theorem CInv.alloc {s : State} {l : Ledger} (h : CInv s l) (o : Obj) {cs : List Client}
    (hc : (o.kind ≠ .client ∧ cs = s.clients) ∨
      ∃ x, o = .client s.clients.length ∧ cs = s.clients ++ [x] ∧ x.life.freed = false ∧ Life.Inv x.life ∧
        x.life.aborted = false ∧ x.ended = false) :
    CInv (({ s with clients := cs } : State).alloc o).1 ⟨l.has ++ [(s.next, o.kind)], l.services⟩ where
  has := fun q k => by
    rw [List.mem_append, List.mem_singleton, h.has]
    show _ ↔ ∃ o', (if q = s.next then some o else s.heap q) = some o' ∧ o'.kind = k
    by_cases hq : q = s.next
    · subst hq
      rw [if_pos rfl, h.fresh]
      constructor
      · rintro (⟨_, h1, -⟩ | e)
        · cases h1
        · cases e
          exact ⟨o, rfl, rfl⟩
      · rintro ⟨_, h1, rfl⟩
        cases h1
        exact .inr rfl
    · rw [if_neg hq]
      exact ⟨fun h => h.resolve_right fun e => hq (congrArg Prod.fst e), .inl⟩
  nodup := by
    rw [List.nodup_append]
    refine ⟨h.nodup, by simp, fun a ha b hb e => ?_⟩
    rw [List.mem_singleton] at hb
    subst e hb
    obtain ⟨o', h1, -⟩ := (h.has _ _).mp ha
    rw [h.fresh] at h1
    cases h1
  low := fun q o' hq => by
    show _ ∧ q < s.next + 1
    dsimp only [State.alloc] at hq
    split at hq
    · rename_i e
      rw [e]
      exact ⟨h.pos, Nat.lt_succ_self _⟩
    · have := h.low q o' hq
      exact ⟨this.1, Nat.lt_succ_of_lt this.2⟩
  pos := Nat.succ_pos _
  tables := fun t i hm => by
    obtain ⟨h1, h2⟩ := h.tables t i hm
    refine ⟨Nat.lt_succ_of_lt h1, fun n hn => h2 n ?_⟩
    dsimp only [State.alloc] at hn
    rw [if_neg (Nat.ne_of_lt h1)] at hn
    exact hn
  owner := fun q c hq => by
    show ∃ x, cs[c]? = some x ∧ _
    dsimp only [State.alloc] at hq
    split at hq
    · cases hq
      rcases hc with ⟨h1, -⟩ | ⟨x, h1, rfl, h2, -⟩
      · exact absurd rfl h1
      · cases h1
        exact ⟨x, by rw [List.getElem?_append_right (Nat.le_refl _)]; simp, h2⟩
    · obtain ⟨x, h1, h2⟩ := h.owner q c hq
      refine ⟨x, ?_, h2⟩
      rcases hc with ⟨-, rfl⟩ | ⟨x, -, rfl, -⟩
      · exact h1
      · rw [List.getElem?_append_left (List.getElem?_eq_some_iff.mp h1).1]
        exact h1
  uniq := fun q q' c h1 h2 => by
    have hn : ∀ q c, s.heap q = some (.client c) → o = .client c → False := by
      intro q c hq ho
      rcases hc with ⟨h1, -⟩ | ⟨x, h1, -⟩
      · rw [ho] at h1
        exact h1 rfl
      · rw [h1] at ho
        cases ho
        obtain ⟨x, h2, -⟩ := h.owner q _ hq
        exact absurd (List.getElem?_eq_some_iff.mp h2).1 (Nat.lt_irrefl _)
    dsimp only [State.alloc] at h1 h2
    split at h1
    · split at h2
      · rename_i e1 e2
        rw [e1, e2]
      · cases h1
        exact (hn q' c h2 rfl).elim
    · split at h2
      · cases h2
        exact (hn q c h1 rfl).elim
      · exact h.uniq q q' c h1 h2
  box := fun c x hx hf => by
    show ∃ p, (if p = s.next then some o else s.heap p) = _
    by_cases hl : c < s.clients.length
    · have hx' : s.clients[c]? = some x := by
        rcases hc with ⟨-, rfl⟩ | ⟨y, -, rfl, -⟩
        · exact hx
        · dsimp only [State.alloc] at hx
          rw [List.getElem?_append_left hl] at hx
          exact hx
      obtain ⟨q, hq⟩ := h.box c x hx' hf
      exact ⟨q, by rw [if_neg (Nat.ne_of_lt (h.low _ _ hq).2)]; exact hq⟩
    · have hlt := (List.getElem?_eq_some_iff.mp hx).1
      rcases hc with ⟨-, rfl⟩ | ⟨y, ho, rfl, -⟩
      · exact absurd hlt hl
      · dsimp only [State.alloc] at hlt
        rw [List.length_append] at hlt
        have : c = s.clients.length := by simp at hlt; omega
        exact ⟨s.next, by rw [if_pos rfl, ho, this]⟩
  life := fun x hx => by
    rcases hc with ⟨-, rfl⟩ | ⟨y, -, rfl, -, h1, h2, h3⟩
    · exact h.life x hx
    · rcases List.mem_append.mp hx with hx | hx
      · exact h.life x hx
      · rw [List.mem_singleton] at hx
        subst hx
        exact ⟨h1, h2, fun e => by rw [h3] at e; cases e⟩

/-- A client changes. -/
theorem CInv.setClient {s : State} {l : Ledger} (h : CInv s l) {c : Nat} {x x' : Client} (hx : s.clients[c]? = some x)
    (hf : x'.life.freed = x.life.freed) (hi : Life.Inv x'.life) (ha : x'.life.aborted = false)
    (he : x'.ended = true → Over x'.life) : CInv (s.setClient c x') l where
  has := h.has
  nodup := h.nodup
  low := h.low
  pos := h.pos
  tables := h.tables
  owner := fun p d hp => by
    obtain ⟨y, h1, h2⟩ := h.owner p d hp
    show ∃ y, (s.clients.set c x')[d]? = some y ∧ _
    by_cases hd : c = d
    · subst hd
      refine ⟨x', ?_, ?_⟩
      · rw [List.getElem?_set_self (List.getElem?_eq_some_iff.mp hx).1]
      · rw [hx] at h1
        cases h1
        rw [hf, h2]
    · exact ⟨y, by rw [List.getElem?_set_ne hd]; exact h1, h2⟩
  uniq := h.uniq
  box := fun d y hy hfy => by
    dsimp only [State.setClient] at hy
    by_cases hd : c = d
    · subst hd
      rw [List.getElem?_set_self (List.getElem?_eq_some_iff.mp hx).1] at hy
      cases hy
      exact h.box c x hx (hf ▸ hfy)
    · rw [List.getElem?_set_ne hd] at hy
      exact h.box d y hy hfy
  life := fun y hy => by
    rcases List.mem_or_eq_of_mem_set hy with hy | rfl
    · exact h.life y hy
    · exact ⟨hi, ha, he⟩

/-- A client is freed. -/
theorem CInv.freeClient {s : State} {l : Ledger} (h : CInv s l) {p c : Nat} {x x' : Client}
    (hp : s.heap p = some (.client c)) (hx : s.clients[c]? = some x)
    (hf : x'.life.freed = true) (hi : Life.Inv x'.life) (ha : x'.life.aborted = false)
    (he : x'.ended = true → Over x'.life) :
    CInv ((s.setClient c x').drop p) ⟨l.has.erase (p, .client), l.services⟩ where
  has := fun q k => by
    rw [h.nodup.mem_erase_iff]
    show _ ↔ ∃ o', (if q = p then none else s.heap q) = some o' ∧ o'.kind = k
    constructor
    · rintro ⟨hne, hq⟩
      obtain ⟨o', h1, h2⟩ := (h.has q k).mp hq
      refine ⟨o', ?_, h2⟩
      rw [if_neg]
      · exact h1
      · rintro rfl
        rw [hp] at h1
        cases h1
        exact hne (by rw [← h2]; rfl)
    · rintro ⟨o', h1, h2⟩
      split at h1
      · cases h1
      · rename_i hne
        exact ⟨fun e => hne (congrArg Prod.fst e), (h.has q k).mpr ⟨o', h1, h2⟩⟩
  nodup := h.nodup.erase _
  low := fun q o' hq => by
    dsimp only [State.drop] at hq
    split at hq
    · cases hq
    · exact h.low q o' hq
  pos := h.pos
  tables := fun t i hm => by
    obtain ⟨h1, h2⟩ := h.tables t i hm
    refine ⟨h1, fun n hn => h2 n ?_⟩
    dsimp only [State.drop] at hn
    split at hn
    · cases hn
    · exact hn
  owner := fun q d hq => by
    dsimp only [State.drop] at hq
    split at hq
    · cases hq
    · rename_i hne
      obtain ⟨y, h1, h2⟩ := h.owner q d hq
      refine ⟨y, ?_, h2⟩
      show (s.clients.set c x')[d]? = some y
      rw [List.getElem?_set_ne]
      · exact h1
      · rintro rfl
        exact hne (h.uniq q p c hq hp)
  uniq := fun q q' d h1 h2 => by
    dsimp only [State.drop] at h1 h2
    split at h1
    · cases h1
    · split at h2
      · cases h2
      · exact h.uniq q q' d h1 h2
  box := fun d y hy hfy => by
    dsimp only [State.drop, State.setClient] at hy
    by_cases hd : c = d
    · subst hd
      rw [List.getElem?_set_self (List.getElem?_eq_some_iff.mp hx).1] at hy
      cases hy
      rw [hf] at hfy
      cases hfy
    · rw [List.getElem?_set_ne hd] at hy
      obtain ⟨q, hq⟩ := h.box d y hy hfy
      refine ⟨q, ?_⟩
      show (if q = p then none else s.heap q) = _
      rw [if_neg]
      · exact hq
      · rintro rfl
        have hq : s.heap q = some (.client d) := hq
        rw [hp] at hq
        cases hq
        exact hd rfl
  life := fun y hy => by
    rcases List.mem_or_eq_of_mem_set hy with hy | rfl
    · exact h.life y hy
    · exact ⟨hi, ha, he⟩

theorem CInv.opaque {s : State} {l : Ledger} (h : CInv s l) (n : Nat) : CInv { s with nextOpaque := n } l :=
  ⟨h.has, h.nodup, h.low, h.pos, h.tables, h.owner, h.uniq, h.box, h.life⟩

theorem CInv.service {s : State} {l : Ledger} (h : CInv s l) {t i n : Nat} (ht : s.heap t = some (.table n)) (hi : i < n) :
    CInv s ⟨l.has, (t, i) :: l.services⟩ where
  has := h.has
  nodup := h.nodup
  low := h.low
  pos := h.pos
  tables := fun t' i' hm => by
    rcases List.mem_cons.mp hm with e | hm
    · cases e
      exact ⟨(h.low _ _ ht).2, fun m hm => by rw [ht] at hm; cases hm; exact hi⟩
    · exact h.tables t' i' hm
  owner := h.owner
  uniq := h.uniq
  box := h.box
  life := h.life

/-! ## The calls -/

/-- What is to be shown of a call. -/
def CallOk (l : Ledger) (c : Call) : Out → Prop
  | .ub => pass l.has (args c) = none ∨ ∃ t i, c = .serviceGet t i ∧ (t, i) ∉ l.services
  | .abort => pass l.has (args c) ≠ none ∧ ∃ p i, c = .tableService p i
  | .blocked => pass l.has (args c) ≠ none ∧ ∃ p, c = .handleJoin p
  | .ok s' r => CInv s' (l.by args c r) ∧ pass l.has (args c) ≠ none ∧ s'.aborted = false

theorem pass_none {has : List (Nat × Kind)} {a : Arg} {as : List Arg} (h : (a.ptr, a.kind) ∉ has) :
    pass has (a :: as) = none := by
  unfold pass
  rw [if_neg h]

theorem pass_some {has : List (Nat × Kind)} {a : Arg} {as : List Arg} (h : (a.ptr, a.kind) ∈ has) :
    pass has (a :: as) = pass (if a.taken then has.erase (a.ptr, a.kind) else has) as := by
  conv => lhs; unfold pass
  rw [if_pos h]

theorem pass_takes {has : List (Nat × Kind)} {p : Nat} {k : Kind} {as : List Arg} (h : (p, k) ∈ has) :
    pass has (takes p k :: as) = pass (has.erase (p, k)) as := pass_some (a := takes p k) h

theorem pass_uses {has : List (Nat × Kind)} {p : Nat} {k : Kind} {as : List Arg} (h : (p, k) ∈ has) :
    pass has (uses p k :: as) = pass has as := pass_some (a := uses p k) h

theorem CInv.not_mem {s : State} {l : Ledger} (h : CInv s l) {p : Nat} {k : Kind}
    (hk : ∀ o, s.heap p = some o → o.kind ≠ k) : (p, k) ∉ l.has := by
  intro hm
  obtain ⟨o, h1, h2⟩ := (h.has p k).mp hm
  exact hk o h1 h2

theorem callOk_give {s : State} {l : Ledger} (hi : CInv s l) (ha : s.aborted = false) {c : Call} {o : Obj}
    {l0 : Ledger} (hc : pass l0.has (args c) = some l.has) (hs : l.services = l0.services)
    (hm : makes c = o.kind) (hk : o.kind ≠ .client) : CallOk l0 c (s.give o) := by
  refine ⟨?_, by rw [hc]; exact fun h => (by cases h), ha⟩
  have h1 := hi.alloc o (.inl ⟨hk, rfl⟩)
  have e : l0.by args c (.ptr s.next) = ⟨l.has ++ [(s.next, o.kind)], l.services⟩ := by
    unfold Ledger.by gets
    dsimp only
    rw [if_neg (Nat.ne_of_gt hi.pos), hm, hc, hs]
    rfl
  show CInv _ (Ledger.by args _ c (.ptr s.next))
  rw [e]
  exact h1

theorem callOk_unit {s : State} {l : Ledger} (hi : CInv s l) (ha : s.aborted = false) {c : Call} {r : Ret}
    {l0 : Ledger} (hc : pass l0.has (args c) = some l.has) (hs : l.services = l0.services)
    (hr : r = .unit ∨ r = .value ∨ r = .ptr 0) : CallOk l0 c (.ok s r) := by
  refine ⟨?_, by rw [hc]; exact fun h => (by cases h), ha⟩
  have e : l0.by args c r = l := by
    unfold Ledger.by
    rw [hc]
    rcases hr with rfl | rfl | rfl <;> simp [gets, ← hs]
  rw [e]
  exact hi

theorem callOk_release {s : State} {l : Ledger} (hi : CInv s l) (ha : s.aborted = false) {c : Call} {p : Nat} {k : Kind}
    (hc : args c = [takes p k]) (hk : k ≠ .client) : CallOk l c (s.release p k) := by
  unfold State.release
  have hub : (p, k) ∉ l.has → CallOk l c .ub := fun h => .inl (by rw [hc]; exact pass_none h)
  split
  · next o ho =>
    split
    · next hok =>
      subst hok
      have hd := hi.drop ho hk
      exact callOk_unit (l := ⟨_, _⟩) hd ha (by rw [hc, pass_takes (hi.mem ho)]; rfl) rfl (.inl rfl)
    · next hok => exact hub (hi.not_mem fun o' ho' => by rw [ho] at ho'; cases ho'; exact hok)
  · next ho => exact hub (hi.not_mem fun o' ho' => by rw [ho] at ho'; cases ho')

theorem callOk_touch {s : State} {l : Ledger} (hi : CInv s l) (ha : s.aborted = false) {c : Call} {p : Nat} {k : Kind}
    (hc : args c = [uses p k]) : CallOk l c (s.touch p k) := by
  unfold State.touch
  have hub : (p, k) ∉ l.has → CallOk l c .ub := fun h => .inl (by rw [hc]; exact pass_none h)
  split
  · next o ho =>
    split
    · next hok =>
      subst hok
      exact callOk_unit hi ha (by rw [hc, pass_uses (hi.mem ho)]; rfl) rfl (.inl rfl)
    · next hok => exact hub (hi.not_mem fun o' ho' => by rw [ho] at ho'; cases ho'; exact hok)
  · next ho => exact hub (hi.not_mem fun o' ho' => by rw [ho] at ho'; cases ho')

theorem callOk_life {s : State} {l : Ledger} (hi : CInv s l) {c : Call} {p : Nat} {op : Life.Op}
    {k : State → Nat → List Life.Ev → Out} {as : List Arg} (hop : op.isCall = true)
    {b : Bool} (hc : args c = ⟨p, .client, b⟩ :: as)
    (hk : ∀ i x, s.heap p = some (.client i) → s.clients[i]? = some x → x.life.freed = false →
      (x.life.step op).1.aborted = false → Life.Inv (x.life.step op).1 → (x.ended = true → Over (x.life.step op).1) →
      CallOk l c (k (s.setClient i { x with life := (x.life.step op).1 }) i (x.life.step op).2)) :
    CallOk l c (s.lifeCall p op k) := by
  unfold State.lifeCall
  split
  · next i hp =>
    obtain ⟨x, hx, hf⟩ := hi.owner p i hp
    rw [hx]
    dsimp only
    obtain ⟨h1, h2, h3⟩ := hi.life x (List.mem_of_getElem? hx)
    rw [call_keeps h1 h2 hop]
    exact hk i x hp hx hf (call_keeps h1 h2 hop) (Life.inv_step h1 op) fun he => over_step h1 (h3 he) op
  · next hp =>
    refine .inl ?_
    rw [hc]
    refine pass_none (hi.not_mem fun o ho hk => ?_)
    cases o <;> first | exact hp _ ho | cases hk

theorem pass_blocks {sv : List (Nat × Nat)} : ∀ (ps : List Nat) {s : State} {has : List (Nat × Kind)},
    CInv s ⟨has, sv⟩ →
    match s.freeAll ps with
    | none => pass has (ps.map (takes · .block)) = none
    | some s' => ∃ has', pass has (ps.map (takes · .block)) = some has' ∧ CInv s' ⟨has', sv⟩ ∧
        s'.aborted = s.aborted ∧ s'.clients = s.clients
  | [], s, has, hi => ⟨has, rfl, hi, rfl, rfl⟩
  | p :: ps, s, has, hi => by
    by_cases hp : s.heap p = some .block
    · have e : s.freeAll (p :: ps) = (s.drop p).freeAll ps := by
        conv => lhs; unfold State.freeAll
        rw [hp]
      rw [e]
      have hd := hi.drop hp (fun h => by cases h)
      have ih := pass_blocks ps hd
      rw [List.map_cons, pass_takes (show (p, Kind.block) ∈ has from hi.mem hp)]
      exact ih
    · have e : s.freeAll (p :: ps) = none := by
        unfold State.freeAll
        split
        · next h => exact absurd h hp
        · rfl
      rw [e]
      dsimp only
      rw [List.map_cons]
      refine pass_none (hi.not_mem fun o ho hk => ?_)
      cases o <;> first | exact hp ho | cases hk

theorem call_ok {s : State} {l : Ledger} (hi : CInv s l) (ha : s.aborted = false) (c : Call) : CallOk l c (s.call c) := by
  have hno : ∀ {p k}, (∀ o, s.heap p = some o → o.kind = k → False) → (p, k) ∉ l.has := fun h => hi.not_mem h
  cases c with
  | malloc => unfold State.call; exact callOk_give hi ha (by rfl) (by rfl) (by rfl) (by intro h; cases h)
  | free p => unfold State.call; exact callOk_release hi ha rfl (fun h => by cases h)
  | loggerCustom => unfold State.call; dsimp only; exact callOk_give (hi.opaque (s.nextOpaque + 1)) ha (by rfl) (by rfl) (by rfl) (by intro h; cases h)
  | loggerPlain => unfold State.call; exact callOk_give hi ha (by rfl) (by rfl) (by rfl) (by intro h; cases h)
  | loggerFile ok =>
    unfold State.call
    dsimp only
    split
    · exact callOk_give hi ha (by rfl) (by rfl) (by rfl) (by intro h; cases h)
    · exact callOk_unit hi ha rfl rfl (.inr (.inr rfl))
  | loggerClone p =>
    unfold State.call
    dsimp only
    split
    · next r hp => exact callOk_give hi ha (pass_uses (hi.mem hp)) (by rfl) (by rfl) (by intro h; cases h)
    · next hp => exact .inl (pass_none (hno fun o ho hk => by cases o <;> first | exact hp _ ho | cases hk))
  | loggerFree p => unfold State.call; exact callOk_release hi ha rfl (fun h => by cases h)
  | configNew => unfold State.call; exact callOk_give hi ha (by rfl) (by rfl) (by rfl) (by intro h; cases h)
  | configFree p => unfold State.call; exact callOk_release hi ha rfl (fun h => by cases h)
  | configSetLogger p q =>
    unfold State.call
    dsimp only
    split
    · next r hq =>
      have hd := hi.drop hq (fun h => by cases h)
      split
      · next r' d hp =>
        refine callOk_unit (hd.put hp (by rfl) (by intro h; cases h) (by intro h; cases h)) ha ?_ rfl (.inl rfl)
        exact (pass_takes (hi.mem hq)).trans (pass_uses (hd.mem hp))
      · next hp =>
        refine .inl ((pass_takes (hi.mem hq)).trans (pass_none (hd.not_mem fun o ho hk => ?_)))
        cases o <;> first | exact hp _ _ ho | cases hk
    · next hp => exact .inl (pass_none (hno fun o ho hk => by cases o <;> first | exact hp _ ho | cases hk))
  | configSetDiscovery p on =>
    unfold State.call
    dsimp only
    split
    · next r d hp =>
      exact callOk_unit (hi.put hp (by rfl) (by intro h; cases h) (by intro h; cases h)) ha (by exact (pass_uses (hi.mem hp))) rfl (.inl rfl)
    · next hp => exact .inl (pass_none (hno fun o ho hk => by cases o <;> first | exact hp _ _ ho | cases hk))
  | configSet p => unfold State.call; exact callOk_touch hi ha rfl
  | defaultNew lock ok =>
    unfold State.call
    dsimp only
    split
    · exact callOk_give hi ha (by rfl) (by rfl) (by rfl) (by intro h; cases h)
    · split
      · exact callOk_give hi ha (by rfl) (by rfl) (by rfl) (by intro h; cases h)
      · exact callOk_unit hi ha rfl rfl (.inr (.inr rfl))
  | defaultFree p => unfold State.call; exact callOk_release hi ha rfl (fun h => by cases h)
  | defaultSet p => unfold State.call; exact callOk_touch hi ha rfl
  | defaultSetLogger p q =>
    unfold State.call
    dsimp only
    split
    · next r hq =>
      have hd := hi.drop hq (fun h => by cases h)
      split
      · next r' d hp =>
        refine callOk_unit (hd.put hp (by rfl) (by intro h; cases h) (by intro h; cases h)) ha ?_ rfl (.inl rfl)
        exact (pass_takes (hi.mem hq)).trans (pass_uses (hd.mem hp))
      · next hp =>
        refine .inl ((pass_takes (hi.mem hq)).trans (pass_none (hd.not_mem fun o ho hk => ?_)))
        cases o <;> first | exact hp _ _ ho | cases hk
    · next hp => exact .inl (pass_none (hno fun o ho hk => by cases o <;> first | exact hp _ ho | cases hk))
  | defaultBuild p =>
    unfold State.call
    dsimp only
    split
    · next k r hp =>
      have hd := hi.drop hp (fun h => by cases h)
      exact callOk_give (l := ⟨_, _⟩) hd ha (pass_takes (hi.mem hp)) (by rfl) (by rfl) (by intro h; cases h)
    · next hp => exact .inl (pass_none (hno fun o ho hk => by cases o <;> first | exact hp _ _ ho | cases hk))
  | customNew => unfold State.call; dsimp only; exact callOk_give (hi.opaque (s.nextOpaque + 1)) ha (by rfl) (by rfl) (by rfl) (by intro h; cases h)
  | customFree p => unfold State.call; exact callOk_release hi ha rfl (fun h => by cases h)
  | customSet p => unfold State.call; exact callOk_touch hi ha rfl
  | customBuild p =>
    unfold State.call
    dsimp only
    split
    · next r hp =>
      have hd := hi.drop hp (fun h => by cases h)
      exact callOk_give (l := ⟨_, _⟩) hd ha (pass_takes (hi.mem hp)) (by rfl) (by rfl) (by intro h; cases h)
    · next hp => exact .inl (pass_none (hno fun o ho hk => by cases o <;> first | exact hp _ ho | cases hk))
  | storageFree p => unfold State.call; exact callOk_release hi ha rfl (fun h => by cases h)
  | clientNew b st blocks ok =>
    unfold State.call
    dsimp only
    split
    · next r d hb =>
      have hd := hi.drop hb (fun h => by cases h)
      split
      · next r' hs =>
        have hd2 := hd.drop hs (fun h => by cases h)
        have hbl := pass_blocks blocks hd2
        have hp : pass l.has (args (.clientNew b st blocks ok)) =
            pass ((l.has.erase (b, .config)).erase (st, .storage)) (blocks.map (takes · .block)) :=
          (pass_takes (hi.mem hb)).trans (pass_takes (hd.mem hs))
        split
        · next s' e =>
          rw [e] at hbl
          obtain ⟨has', h1, h2, h3, h4⟩ := hbl
          have h3 : s'.aborted = false := h3.trans ha
          split
          · refine ⟨?_, fun h => (by rw [hp.trans h1] at h; cases h), h3⟩
            have hal := h2.alloc (.client s'.clients.length)
              (.inr ⟨⟨Life.new d, r ++ r', false⟩, rfl, rfl, rfl, Life.inv_new d, rfl, rfl⟩)
            have e : l.by args (.clientNew b st blocks ok) (.ptr s'.next) = ⟨has' ++ [(s'.next, .client)], l.services⟩ := by
              unfold Ledger.by gets
              dsimp only
              rw [if_neg (Nat.ne_of_gt h2.pos), hp.trans h1]
              rfl
            show CInv _ (l.by args _ (.ptr s'.next))
            rw [e]
            exact hal
          · exact callOk_unit (l := ⟨_, _⟩) h2 h3 (hp.trans h1) rfl (.inr (.inr rfl))
        · next e =>
          rw [e] at hbl
          exact .inl (hp.trans hbl)
      · next hp =>
        refine .inl ((pass_takes (hi.mem hb)).trans (pass_none (hd.not_mem fun o ho hk => ?_)))
        cases o <;> first | exact hp _ ho | cases hk
    · next hp => exact .inl (pass_none (hno fun o ho hk => by cases o <;> first | exact hp _ _ ho | cases hk))
  | clientFree p =>
    unfold State.call
    dsimp only
    refine callOk_life hi (by rfl) (by rfl) fun i x hp hx hf h1 h2 h3 => ?_
    have hm := hi.mem hp
    have hfree := free_step (hi.life x (List.mem_of_getElem? hx)).2.1 hf
    exact callOk_unit (l := ⟨_, _⟩) (hi.freeClient hp hx (x' := { x with life := _ }) hfree h2 h1 h3) ha (pass_takes hm)
      rfl (.inl rfl)
  | clientStart p =>
    unfold State.call
    dsimp only
    refine callOk_life hi (by rfl) (by rfl) fun i x hp hx hf h1 h2 h3 => ?_
    have hm := hi.mem hp
    have hs := hi.setClient hx (x' := { x with life := _ })
      (freed_step (hi.life x (List.mem_of_getElem? hx)).1 (fun h => by cases h)) h2 h1 h3
    split
    · exact callOk_give hs ha (pass_uses hm) (by rfl) (by rfl) (by intro h; cases h)
    · exact callOk_unit hs ha (pass_uses hm) rfl (.inr (.inr rfl))
  | clientStartBlocking p =>
    unfold State.call
    dsimp only
    refine callOk_life hi (by rfl) (by rfl) fun i x hp hx hf h1 h2 h3 => ?_
    exact callOk_unit (hi.setClient hx (x' := { x with life := _ })
      (freed_step (hi.life x (List.mem_of_getElem? hx)).1 (fun h => by cases h)) h2 h1 h3) ha (pass_uses (hi.mem hp)) rfl (.inl rfl)
  | clientClose p =>
    unfold State.call
    dsimp only
    refine callOk_life hi (by rfl) (by rfl) fun i x hp hx hf h1 h2 h3 => ?_
    exact callOk_unit (hi.setClient hx (x' := { x with life := _ })
      (freed_step (hi.life x (List.mem_of_getElem? hx)).1 (fun h => by cases h)) h2 h1 h3) ha (pass_uses (hi.mem hp)) rfl (.inl rfl)
  | clientAddCallback p =>
    unfold State.call
    dsimp only
    split
    · next i hp =>
      obtain ⟨x, hx, hf⟩ := hi.owner p i hp
      rw [hx]
      obtain ⟨h1, h2, h3⟩ := hi.life x (List.mem_of_getElem? hx)
      dsimp only
      refine callOk_unit ((hi.opaque (s.nextOpaque + 1)).setClient
        (x' := { x with res := x.res ++ [.opaque s.nextOpaque] }) hx rfl h1 h2 h3) ha ?_ rfl (.inl rfl)
      exact pass_uses (hi.mem hp)
    · next hp => exact .inl (pass_none (hno fun o ho hk => by cases o <;> first | exact hp _ ho | cases hk))
  | clientGet p => unfold State.call; exact callOk_touch hi ha rfl
  | clientTable p n =>
    unfold State.call
    dsimp only
    split
    · next i hp => exact callOk_give hi ha (pass_uses (hi.mem hp)) (by rfl) (by rfl) (by intro h; cases h)
    · next hp => exact .inl (pass_none (hno fun o ho hk => by cases o <;> first | exact hp _ ho | cases hk))
  | clientScan p =>
    unfold State.call
    dsimp only
    refine callOk_life hi (by rfl) (by rfl) fun i x hp hx hf h1 h2 h3 => ?_
    exact callOk_unit (hi.setClient hx (x' := { x with life := _ })
      (freed_step (hi.life x (List.mem_of_getElem? hx)).1 (fun h => by cases h)) h2 h1 h3) ha (pass_uses (hi.mem hp)) rfl (.inl rfl)
  | clientRescan p =>
    unfold State.call
    dsimp only
    refine callOk_life hi (by rfl) (by rfl) fun i x hp hx hf h1 h2 h3 => ?_
    exact callOk_unit (hi.setClient hx (x' := { x with life := _ })
      (freed_step (hi.life x (List.mem_of_getElem? hx)).1 (fun h => by cases h)) h2 h1 h3) ha (pass_uses (hi.mem hp)) rfl (.inl rfl)
  | handleFree p => unfold State.call; exact callOk_release hi ha rfl (fun h => by cases h)
  | handleJoin p =>
    unfold State.call
    dsimp only
    split
    · next c hp =>
      have hpass : pass l.has (args (.handleJoin p)) = some (l.has.erase (p, .handle)) := pass_takes (hi.mem hp)
      split
      · exact callOk_unit (l := ⟨_, _⟩) (hi.drop hp (fun h => by cases h)) ha hpass rfl (.inl rfl)
      · exact ⟨by rw [hpass]; exact fun h => (by cases h), p, rfl⟩
    · next hp => exact .inl (pass_none (hno fun o ho hk => by cases o <;> first | exact hp _ ho | cases hk))
  | tableFree p => unfold State.call; exact callOk_release hi ha rfl (fun h => by cases h)
  | tableCount p =>
    unfold State.call
    dsimp only
    split
    · next n hp => exact callOk_unit hi ha (by exact (pass_uses (hi.mem hp))) rfl (.inr (.inl rfl))
    · next hp => exact .inl (pass_none (hno fun o ho hk => by cases o <;> first | exact hp _ ho | cases hk))
  | tableService p i =>
    unfold State.call
    dsimp only
    split
    · next n hp =>
      have hpass : pass l.has (args (.tableService p i)) = some l.has := pass_uses (hi.mem hp)
      split
      · next hin =>
        refine ⟨?_, by rw [hpass]; exact fun h => (by cases h), ha⟩
        have e : l.by args (.tableService p i) (.service p i) = ⟨l.has, (p, i) :: l.services⟩ := by
          unfold Ledger.by gets
          rw [hpass]
          dsimp only
          rw [List.append_nil]
          rfl
        rw [e]
        exact hi.service hp hin
      · exact ⟨by rw [hpass]; exact fun h => (by cases h), p, i, rfl⟩
    · next hp => exact .inl (pass_none (hno fun o ho hk => by cases o <;> first | exact hp _ ho | cases hk))
  | serviceGet t i =>
    unfold State.call
    dsimp only
    split
    · next n hp =>
      split
      · exact callOk_unit hi ha (by exact (pass_uses (hi.mem hp))) rfl (.inr (.inl rfl))
      · next hn => exact .inr ⟨t, i, rfl, fun hm => hn ((hi.tables t i hm).2 n hp)⟩
    · next hp => exact .inl (pass_none (hno fun o ho hk => by cases o <;> first | exact hp _ ho | cases hk))

/-! ## Histories -/

/-- What an event does to the pointers of the application. -/
def note (l : Ledger) (e : Ev) : Ledger := match e with | .returned c r => l.by args c r | _ => l

theorem run_append (s : State) (ops ops' : List Op) :
    s.run (ops ++ ops') = (((s.run ops).1.run ops').1, (s.run ops).2 ++ ((s.run ops).1.run ops').2) := by
  induction ops generalizing s with
  | nil => rfl
  | cons op ops ih =>
    show (((s.step op).1.run (ops ++ ops')).1, (s.step op).2 ++ ((s.step op).1.run (ops ++ ops')).2) =
      ((((s.step op).1.run ops).1.run ops').1,
        (s.step op).2 ++ ((s.step op).1.run ops).2 ++ (((s.step op).1.run ops).1.run ops').2)
    rw [ih, List.append_assoc]

theorem step_aborted {s : State} (h : s.aborted = true) (op : Op) : s.step op = (s, []) := by
  unfold State.step
  rw [if_pos h]

theorem run_aborted {s : State} (h : s.aborted = true) (ops : List Op) : s.run ops = (s, []) := by
  induction ops with
  | nil => rfl
  | cons op ops ih =>
    unfold State.run
    rw [step_aborted h]
    dsimp only
    rw [ih]
    rfl

theorem step_inv {s : State} {l : Ledger} (hi : CInv s l) (ha : s.aborted = false) (op : Op)
    (h' : (s.step op).1.aborted = false) : CInv (s.step op).1 ((s.step op).2.foldl note l) := by
  unfold State.step at h' ⊢
  rw [ha] at h' ⊢
  rw [if_neg (fun h => by cases h)] at h' ⊢
  cases op with
  | call c =>
    have hc := call_ok hi ha c
    dsimp only at h' ⊢
    split at h'
    · cases h'
    · cases h'
    · exact hi
    · next s' r e =>
      rw [e] at hc
      exact hc.1
  | inner c op =>
    dsimp only at h' ⊢
    split at h'
    · next x hx =>
      split at h'
      · next hc =>
        rw [if_pos hc]
        exact hi
      · next hc =>
        have h' : (x.life.step op).1.aborted = false := h'
        rw [if_neg hc, h']
        obtain ⟨h1, h2, h3⟩ := hi.life x (List.mem_of_getElem? hx)
        have hs := hi.setClient hx (x' := { x with life := (x.life.step op).1 })
          (freed_step h1 (fun e => hc (by rw [e]; rfl))) (Life.inv_step h1 op) h' (fun he => over_step h1 (h3 he) op)
        exact ⟨hs.has, hs.nodup, hs.low, hs.pos, hs.tables, hs.owner, hs.uniq, hs.box, hs.life⟩
    · exact hi
  | threadEnds c =>
    dsimp only at h' ⊢
    split
    · next x hx =>
      split
      · next hc =>
        obtain ⟨h1, h2, h3⟩ := hi.life x (List.mem_of_getElem? hx)
        refine hi.setClient hx (x' := { x with ended := true }) rfl h1 h2 fun _ => ?_
        simp only [Bool.and_eq_true, Bool.not_eq_true', decide_eq_true_eq] at hc
        exact ⟨hc.1.1.1, hc.1.1.2, hc.1.2⟩
      · exact hi
    · exact hi
  | callback who n =>
    dsimp only
    split <;> exact hi

theorem run_inv {s : State} {l : Ledger} (hi : CInv s l) (ops : List Op) (h' : (s.run ops).1.aborted = false) :
    CInv (s.run ops).1 ((s.run ops).2.foldl note l) := by
  induction ops generalizing s l with
  | nil => exact hi
  | cons op ops ih =>
    unfold State.run at h' ⊢
    dsimp only at h' ⊢
    rw [List.foldl_append]
    have ha : (s.step op).1.aborted = false := by
      cases e : (s.step op).1.aborted with
      | false => rfl
      | true => rw [run_aborted e] at h'; rw [e] at h'; cases h'
    have ha0 : s.aborted = false := by
      cases e : s.aborted with
      | false => rfl
      | true => rw [step_aborted e] at ha; rw [e] at ha; cases ha
    exact ih (step_inv hi ha0 op ha) h'

theorem inv_of_run {ops : List Op} (h' : (State.init.run ops).1.aborted = false) :
    CInv (State.init.run ops).1 (ledger (State.init.run ops).2) := run_inv cinv_init ops h'

/-- The process ends only with an event that says so. -/
theorem step_ends {s : State} (ha : s.aborted = false) (op : Op) (hu : .ub ∉ (s.step op).2)
    (hb : .abort ∉ (s.step op).2) {l : Ledger} (hi : CInv s l) : (s.step op).1.aborted = false := by
  unfold State.step at hu hb ⊢
  rw [ha, if_neg (fun h => by cases h)] at hu hb ⊢
  cases op with
  | call c =>
    have hc := call_ok hi ha c
    dsimp only at hu hb ⊢
    split
    · next e => rw [e] at hu; exact absurd (List.mem_singleton.mpr rfl) hu
    · next e => rw [e] at hb; exact absurd (List.mem_singleton.mpr rfl) hb
    · exact ha
    · next s' r e =>
      rw [e] at hc
      exact hc.2.2
  | inner c op =>
    dsimp only at hu hb ⊢
    split
    · next x hx =>
      rw [hx] at hb
      dsimp only at hb
      split
      · exact ha
      · next hc =>
        rw [if_neg hc] at hb
        cases e : (x.life.step op).1.aborted with
        | false => rfl
        | true => rw [e] at hb; exact absurd (List.mem_singleton.mpr rfl) hb
    · exact ha
  | threadEnds c =>
    dsimp only
    repeat' split
    all_goals exact ha
  | callback who n =>
    dsimp only
    split <;> exact ha

theorem run_ends {s : State} {l : Ledger} (hi : CInv s l) (ha : s.aborted = false) (ops : List Op)
    (hu : .ub ∉ (s.run ops).2) (hb : .abort ∉ (s.run ops).2) : (s.run ops).1.aborted = false := by
  induction ops generalizing s l with
  | nil => exact ha
  | cons op ops ih =>
    unfold State.run at hu hb ⊢
    dsimp only at hu hb ⊢
    rw [List.mem_append, not_or] at hu hb
    have h1 := step_ends ha op hu.1 hb.1 hi
    exact ih (step_inv hi ha op h1) h1 hu.2 hb.2

theorem alive_of_events {ops : List Op} (hu : .ub ∉ (State.init.run ops).2) (hb : .abort ∉ (State.init.run ops).2) :
    (State.init.run ops).1.aborted = false := run_ends cinv_init rfl ops hu hb

theorem step_ub {s : State} {l : Ledger} (hi : CInv s l) (ha : s.aborted = false) (op : Op)
    (hu : .ub ∈ (s.step op).2) : ∃ c, op = .call c ∧ ¬ Allowed l c := by
  unfold State.step at hu
  rw [ha, if_neg (fun h => by cases h)] at hu
  cases op with
  | call c =>
    refine ⟨c, rfl, ?_⟩
    have hc := call_ok hi ha c
    dsimp only at hu
    split at hu
    · next e =>
      rw [e] at hc
      rintro ⟨h1, h2⟩
      rcases hc with hc | ⟨t, i, rfl, hc⟩
      · exact h1 hc
      · exact hc (h2 t i rfl)
    · simp at hu
    · simp at hu
    · simp at hu
  | inner c op =>
    exfalso
    dsimp only at hu
    repeat' split at hu
    all_goals simp at hu
  | threadEnds c =>
    exfalso
    dsimp only at hu
    repeat' split at hu
    all_goals simp at hu
  | callback who n =>
    exfalso
    dsimp only at hu
    repeat' split at hu
    all_goals simp at hu

theorem run_ub : ∀ (ops pre : List Op), Follows (pre ++ ops) → .ub ∉ ((State.init.run pre).1.run ops).2
  | [], _, _ => List.not_mem_nil
  | op :: ops, pre, hf => by
    unfold State.run
    dsimp only
    rw [List.mem_append]
    rintro (h | h)
    · cases ha : (State.init.run pre).1.aborted with
      | true => rw [step_aborted ha] at h; exact absurd h List.not_mem_nil
      | false =>
        obtain ⟨c, rfl, hc⟩ := step_ub (inv_of_run ha) ha op h
        exact hc (hf pre c ops rfl)
    · have e : (State.init.run (pre ++ [op])).1 = ((State.init.run pre).1.step op).1 := by
        rw [run_append]
        rfl
      rw [← e] at h
      exact run_ub ops (pre ++ [op]) (by rw [List.append_assoc]; exact hf) h

end Verif.CApi
