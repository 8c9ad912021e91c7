import Verif.Spec.Tunnel
import Verif.Props.Client
import Verif.Props.SessionLog
/-!
# Lemmas about tunnelled sessions
-/
namespace Verif.Tunnel
open Verif.Control Verif.Session Verif.Client Verif.Spec Verif.Spec.Client Verif.Spec.Tunnel
open Verif.Spec.SessionLog (Account opens items given notTake sentItems dataOf payloadOf ackedOf)
open Verif.Props.SessionLog (Kept kept_step Matches)

/-! ## The record -/

theorem since_append (x : UInt32) (r l : List Seen) (h : ∀ v ∈ l, openingOf x v = none) :
    since x (r ++ l) = ((since x r).1, (since x r).2 ++ l) := by
  induction l generalizing r with
  | nil => simp
  | cons v l ih =>
    rw [← List.singleton_append, ← List.append_assoc, ih (r ++ [v]) (fun w hw => h w (List.mem_cons_of_mem _ hw))]
    have : since x (r ++ [v]) = ((since x r).1, (since x r).2 ++ [v]) := by
      unfold since
      rw [List.foldl_append]
      simp only [List.foldl_cons, List.foldl_nil, h v List.mem_cons_self]
    rw [this]; simp

theorem since_opened (x : UInt32) (r l : List Seen) (v : Seen) (svc : UInt16) (hv : openingOf x v = some svc)
    (h : ∀ v ∈ l, openingOf x v = none) : since x (r ++ v :: l) = (svc, l) := by
  rw [← List.singleton_append, ← List.append_assoc, since_append _ _ _ h]
  have : since x (r ++ [v]) = (svc, []) := by
    unfold since
    rw [List.foldl_append]
    simp only [List.foldl_cons, List.foldl_nil, hv]
  rw [this]; rfl

/-- The messages handed out for session `x`. -/
def outbox (x : UInt32) (r : List Seen) : List Item :=
  r.filterMap fun | .ev (.ev (.mgr (.sent s i))) => if s = x then some i else none | _ => none

/-- The account of session `x`. -/
def acc (r : List Seen) (x : UInt32) : Account :=
  ⟨(since x r).1, inbox x (since x r).2, outbox x (since x r).2⟩

/-- Payload sent to the server. -/
def toServer (x : UInt32) (r : List Seen) : Bytes := payloads x (sentMessages (since x r).2)

/-- Acknowledgements sent to the server. -/
def ackServer (x : UInt32) (r : List Seen) : Nat := acknowledged x (sentMessages (since x r).2)

/-- A message that neither carries payload nor acknowledges any. -/
def Calm (m : Wire.Message) : Prop := m.header.service = 0 ∧ Spec.Tunnel.dataAck m = none

theorem calm_toArrow (y : ControlMessage) (h : y.msgType ≠ 12) : Calm y.toArrow := by
  refine ⟨rfl, ?_⟩
  unfold Spec.Tunnel.dataAck
  rw [if_neg]
  rintro ⟨-, -, h2⟩
  have e : y.toArrow.payload = UInt8.ofNat (y.msgId.toNat / 256) :: UInt8.ofNat (y.msgId.toNat % 256) ::
      UInt8.ofNat (y.msgType.toNat / 256) :: UInt8.ofNat (y.msgType.toNat % 256) :: y.body.encode := rfl
  rw [e, field_msgType, rd16_be16] at h2
  exact h (UInt16.toNat.inj h2)

theorem ctl_type {i t : UInt16} {b : Body} (h : t ≠ 12) : (⟨i, t, b⟩ : ControlMessage).msgType ≠ 12 := h

theorem dataAck_toArrow (y : ControlMessage) (s l : UInt32) (h : y.msgType = 12) (hb : y.body = .dataAck s l) :
    Spec.Tunnel.dataAck y.toArrow = some (s.toNat, l.toNat) := by
  have e : y.toArrow.payload = UInt8.ofNat (y.msgId.toNat / 256) :: UInt8.ofNat (y.msgId.toNat % 256) ::
      UInt8.ofNat (y.msgType.toNat / 256) :: UInt8.ofNat (y.msgType.toNat % 256) :: y.body.encode := rfl
  have h0 : y.toArrow.header.service = 0 := rfl
  unfold Spec.Tunnel.dataAck
  rw [e, field_msgType, rd16_be16, h, hb, if_pos ⟨h0, rfl, rfl⟩]
  have e1 := rd32_be32 s
  have e2 := rd32_be32 l
  simp [field, slice, Body.encode, be32, natBE_four, e1, e2]

theorem acknowledged_append (x : UInt32) (a b : List Wire.Message) :
    acknowledged x (a ++ b) = acknowledged x a + acknowledged x b := by
  simp [acknowledged]

theorem ackedOf_append (a b : List Item) : ackedOf (a ++ b) = ackedOf a + ackedOf b := by simp [ackedOf]

theorem acc_quiet (x : UInt32) (r l : List Seen) (h : ∀ v ∈ l, openingOf x v = none) :
    acc (r ++ l) x = ⟨(acc r x).svc, (acc r x).inbox ++ inbox x l, (acc r x).outbox ++ outbox x l⟩ := by
  simp only [acc, since_append x r l h, inbox, outbox, List.flatMap_append, List.filterMap_append]

theorem toServer_quiet (x : UInt32) (r l : List Seen) (h : ∀ v ∈ l, openingOf x v = none) :
    toServer x (r ++ l) = toServer x r ++ payloads x (sentMessages l) := by
  simp only [toServer, since_append x r l h, sentMessages, payloads, List.filterMap_append, List.flatMap_append]

theorem ackServer_quiet (x : UInt32) (r l : List Seen) (h : ∀ v ∈ l, openingOf x v = none) :
    ackServer x (r ++ l) = ackServer x r + acknowledged x (sentMessages l) := by
  simp only [ackServer, since_append x r l h, sentMessages, List.filterMap_append, acknowledged_append]

theorem usable_left {a b} (h : Usable (a ++ b)) : Usable a :=
  fun v hv => h v (List.mem_append_left _ hv)

/-- The client and the record fit. -/
structure TI (c : Cli) (r : List Seen) : Prop where
  kept : Kept c.mgr (acc r)
  window : c.mgr.window = 65536
  data : ∀ x s, c.mgr.sessions.get x = some s →
    dataOf (acc r x).outbox = toServer x r ∧ ackedOf (acc r x).outbox = ackServer x r
  ids : ∀ x s, c.mgr.sessions.get x = some s → x.toNat < 2 ^ 24 ∧ (acc r x).svc ≠ 0
  messages : ∀ m ∈ c.messages, Calm m
  queue : ∀ m ∈ c.mgr.queue, Calm m

theorem after_opens (x : UInt32) (evs : List Ev) (h : SessionManager.after x false evs = some true) :
    opens x evs ≠ none := by
  induction evs with
  | nil => cases h
  | cons e evs ih =>
    unfold SessionManager.after at h
    cases e with
    | opened s svc t mac a =>
      by_cases hs : s = x
      · simp [opens, hs]
      · simp only [SessionManager.next, if_neg hs] at h
        have := ih h
        simpa [opens, hs] using this
    | refused s => exact ih h
    | hungUp s =>
      by_cases hs : s = x
      · simp [SessionManager.next, hs] at h
      · simp only [SessionManager.next, if_neg hs] at h
        exact ih h
    | sent s i =>
      by_cases hs : s = x
      · simp [SessionManager.next, hs] at h
      · simp only [SessionManager.next, if_neg hs] at h
        exact ih h
    | ended s i =>
      by_cases hs : s = x
      · simp [SessionManager.next, hs] at h
      · simp only [SessionManager.next, if_neg hs] at h
        exact ih h

/-- A session that is open after a step was open before or was opened by the step. -/
theorem open_step (m : Mgr) (op : MOp) (x : UInt32) (s : Sess) (h : (m.step op).1.sessions.get x = some s) :
    (∃ s0, m.sessions.get x = some s0) ∨ opens x (m.step op).2.1 ≠ none := by
  cases hg : m.sessions.get x with
  | some s0 => exact .inl ⟨s0, rfl⟩
  | none =>
    have := Props.SessionManager.after_step m op x
    rw [hg, h] at this
    exact .inr (after_opens x _ this)

/-- The service of an account changes only when the session is opened. -/
theorem step_svc (x : UInt32) (a : Account) (e : SessionLog.Entry) :
    (opens x e.2.1 = none → (a.step x e).svc = a.svc) ∧
    (∀ svc, opens x e.2.1 = some svc → (a.step x e).svc = svc) := by
  unfold Account.step
  constructor
  · intro h; rw [h]
  · intro svc h; rw [h]

theorem opens_mem {x : UInt32} {evs : List Ev} {svc : UInt16} (h : opens x evs = some svc) :
    ∃ t mac a, .opened x svc t mac a ∈ evs := by
  unfold opens at h
  obtain ⟨e, he, h1⟩ := List.exists_of_findSome?_eq_some h
  cases e with
  | opened s v t mac a =>
    dsimp only at h1
    split at h1
    · rename_i hs
      subst hs
      cases Option.some.inj h1
      exact ⟨t, mac, a, he⟩
    · cases h1
  | _ => cases h1

/-- A step of the session manager. -/
theorem TI.step {c c' : Cli} {r l : List Seen} (h : TI c r) (op : MOp) (hm : c'.mgr = (c.mgr.step op).1)
    (hu : Usable (r ++ l))
    (hacc : ∀ x, acc (r ++ l) x = (acc r x).step x (op, (c.mgr.step op).2))
    (hin : ∀ e ∈ (c.mgr.step op).2.1, Seen.ev (.ev (.mgr e)) ∈ l)
    (hdata : ∀ x s, c'.mgr.sessions.get x = some s →
      dataOf (acc (r ++ l) x).outbox = toServer x (r ++ l) ∧ ackedOf (acc (r ++ l) x).outbox = ackServer x (r ++ l))
    (hmsg : ∀ m ∈ c'.messages, Calm m)
    (hq : ∀ m ∈ c'.mgr.queue, Calm m) : TI c' (r ++ l) where
  kept := by
    have := kept_step h.kept op
    rw [← hm] at this
    intro x s hs
    have := this x s hs
    dsimp only at this
    rw [hacc]
    exact this
  window := by rw [hm, (step_const c.mgr op).2, h.window]
  data := hdata
  ids := by
    intro x s hs
    rw [hm] at hs
    cases ho : opens x (c.mgr.step op).2.1 with
    | some svc =>
      obtain ⟨t, mac, a, hmem⟩ := opens_mem ho
      obtain ⟨h1, h2⟩ := hu _ (List.mem_append_right _ (hin _ hmem)) x svc rfl
      refine ⟨h1, ?_⟩
      rw [hacc, (step_svc x _ _).2 svc ho]
      exact h2
    | none =>
      rcases open_step _ _ _ _ hs with ⟨s0, h0⟩ | h0
      · obtain ⟨h1, h2⟩ := h.ids x s0 h0
        refine ⟨h1, ?_⟩
        rw [hacc, (step_svc x _ _).1 ho]
        exact h2
      · exact absurd ho h0
  messages := hmsg
  queue := hq

/-- Something that neither the manager nor the sessions notice. -/
theorem TI.quiet {c c' : Cli} {r l : List Seen} (h : TI c r) (hs : c'.mgr.sessions = c.mgr.sessions)
    (hw : c'.mgr.window = c.mgr.window) (hq : c'.mgr.queue = c.mgr.queue)
    (ho : ∀ v ∈ l, opening v = none) (hi : ∀ x, inbox x l = []) (hout : ∀ x, outbox x l = [])
    (hp : ∀ x, payloads x (sentMessages l) = []) (ha : ∀ x, acknowledged x (sentMessages l) = 0)
    (hmsg : ∀ m ∈ c'.messages, Calm m) :
    TI c' (r ++ l) := by
  have ho' : ∀ x, ∀ v ∈ l, openingOf x v = none := by
    intro x v hv; unfold openingOf; rw [ho v hv]
  have hacc : ∀ x, acc (r ++ l) x = acc r x := by
    intro x
    rw [acc_quiet x r l (ho' x), hi, hout, List.append_nil, List.append_nil]
  have hto : ∀ x, toServer x (r ++ l) = toServer x r := by
    intro x
    rw [toServer_quiet x r l (ho' x), hp, List.append_nil]
  have hta : ∀ x, ackServer x (r ++ l) = ackServer x r := by
    intro x
    rw [ackServer_quiet x r l (ho' x), ha, Nat.add_zero]
  refine ⟨?_, hw.trans h.window, ?_, ?_, hmsg, by rw [hq]; exact h.queue⟩
  · intro x s hx
    rw [hs] at hx
    rw [hw, hacc]
    exact h.kept x s hx
  · intro x s hx
    rw [hs] at hx
    rw [hacc, hto, hta]
    exact h.data x s hx
  · intro x s hx
    rw [hs] at hx
    rw [hacc]
    exact h.ids x s hx

/-! ## The steps of a connection -/

theorem outbox_evs (x : UInt32) (evs : List Ev) : outbox x (evs.map fun e => Seen.ev (.ev (.mgr e))) = items x evs := by
  induction evs with
  | nil => rfl
  | cons e evs ih =>
    cases e <;> simp only [List.map_cons, outbox, items, List.filterMap_cons] at ih ⊢ <;> rw [ih]

theorem inbox_evs (x : UInt32) (evs : List Ev) : inbox x (evs.map fun e => Seen.ev (.ev (.mgr e))) = [] := by
  induction evs with
  | nil => rfl
  | cons e evs ih => simp only [List.map_cons, inbox, List.flatMap_cons] at ih ⊢; rw [ih]; rfl

theorem sent_evs (evs : List Ev) : sentMessages (evs.map fun e => Seen.ev (.ev (.mgr e))) = [] := by
  induction evs with
  | nil => rfl
  | cons e evs ih => simpa [sentMessages] using ih

theorem opens_cons_none {x : UInt32} {e : Ev} {evs : List Ev} (h : opens x (e :: evs) = none) :
    openingOf x (.ev (.ev (.mgr e))) = none ∧ opens x evs = none := by
  cases e with
  | opened s svc t m a =>
    by_cases hs : s = x
    · simp [opens, hs] at h
    · simpa [opens, openingOf, opening, hs] using h
  | _ => exact ⟨rfl, by simpa [opens] using h⟩

theorem no_opening {x : UInt32} {evs : List Ev} (h : opens x evs = none) :
    ∀ v ∈ evs.map (fun e => Seen.ev (.ev (.mgr e))), openingOf x v = none := by
  induction evs with
  | nil => intro v hv; cases hv
  | cons e evs ih =>
    obtain ⟨h1, h2⟩ := opens_cons_none h
    intro v hv
    rcases List.mem_cons.1 hv with rfl | hv
    · exact h1
    · exact ih h2 v hv

/-- The manager opens at most one session in a step, and says nothing else then. -/
theorem opens_only (m : Mgr) (op : MOp) (x : UInt32) (svc : UInt16) (h : opens x (m.step op).2.1 = some svc) :
    ∃ t mac a, (m.step op).2.1 = [.opened x svc t mac a] := by
  cases op with
  | connect get sv sid =>
    simp only [Mgr.step, Mgr.connect] at h ⊢
    split at h
    · rename_i t a ht
      simp only [opens, List.findSome?_cons, List.findSome?_nil] at h
      by_cases hs : sid = x
      · subst hs
        simp only [if_true, Option.some.injEq] at h
        subst h
        exact ⟨_, _, _, rfl⟩
      · simp [hs] at h
    · simp [opens] at h
  | send msg => simp only [Mgr.step, Mgr.send] at h; split at h <;> simp [opens] at h
  | close sid => simp only [Mgr.step, Mgr.close] at h; split at h <;> simp [opens] at h
  | dataAck sid len => simp only [Mgr.step, Mgr.dataAck] at h; split at h <;> simp [opens] at h
  | io sid o => simp only [Mgr.step] at h; split at h <;> simp [opens] at h
  | newId => simp [Mgr.step, opens] at h
  | poll =>
    obtain ⟨t, mac, a, hm⟩ := opens_mem h
    exfalso
    have := Props.SessionManager.openedAddrs_poll m
    simp only [Mgr.step] at hm
    generalize m.poll.2.2 = evs at this hm
    induction evs with
    | nil => cases hm
    | cons e evs ih =>
      cases e with
      | opened => cases this
      | _ =>
        rcases List.mem_cons.1 hm with hm | hm
        · cases hm
        · exact ih this hm

/-- Something seen (`v`), and then what the manager does about it. -/
theorem acc_step (m : Mgr) (op : MOp) (r : List Seen) (v : List Seen) (x : UInt32)
    (hv : ∀ w ∈ v, opening w = none) (hi : inbox x v = given x op) (ho : outbox x v = []) :
    acc (r ++ (v ++ (m.step op).2.1.map fun e => Seen.ev (.ev (.mgr e)))) x =
      (acc r x).step x (op, (m.step op).2) := by
  have hv' : ∀ w ∈ v, openingOf x w = none := by
    intro w hw; unfold openingOf; rw [hv w hw]
  cases h : opens x (m.step op).2.1 with
  | none =>
    rw [acc_quiet x]
    · unfold Account.step
      dsimp only
      rw [h]
      dsimp only
      simp only [inbox, outbox, List.flatMap_append, List.filterMap_append] at hi ho ⊢
      rw [hi, ho]
      have h1 := inbox_evs x (m.step op).2.1
      have h2 := outbox_evs x (m.step op).2.1
      unfold inbox at h1
      unfold outbox at h2
      rw [h1, h2]
      simp
    · intro w hw
      rcases List.mem_append.1 hw with hw | hw
      · exact hv' w hw
      · exact no_opening h w hw
  | some svc =>
    obtain ⟨t, mac, a, he⟩ := opens_only m op x svc h
    unfold Account.step
    dsimp only
    rw [h]
    dsimp only
    rw [he, ← List.append_assoc]
    have := since_opened x (r ++ v) [] (.ev (.ev (.mgr (.opened x svc t mac a)))) svc
      (by simp [openingOf, opening]) (fun _ hw => by cases hw)
    unfold acc
    simp only [List.map_cons, List.map_nil]
    rw [this]
    rfl

/-- A step of the manager other than a poll sends nothing. -/
theorem items_quiet (m : Mgr) (op : MOp) (hop : op ≠ .poll) (x : UInt32) : items x (m.step op).2.1 = [] := by
  cases op with
  | poll => exact absurd rfl hop
  | connect get sv sid => simp only [Mgr.step, Mgr.connect]; split <;> rfl
  | send msg => simp only [Mgr.step, Mgr.send]; split <;> rfl
  | close sid => simp only [Mgr.step, Mgr.close]; split <;> rfl
  | dataAck sid len => simp only [Mgr.step, Mgr.dataAck]; split <;> rfl
  | io sid o => simp only [Mgr.step]; split <;> rfl
  | newId => rfl

theorem queue_step (m : Mgr) (op : MOp) (hop : op ≠ .poll) (h : ∀ x ∈ m.queue, Calm x) :
    ∀ x ∈ (m.step op).1.queue, Calm x := by
  have happ : ∀ (q : List Wire.Message) (y : ControlMessage), y.msgType ≠ 12 → (∀ x ∈ q, Calm x) →
      ∀ x ∈ q ++ [y.toArrow], Calm x := by
    intro q y hy hq x hx
    rcases List.mem_append.1 hx with hx | hx
    · exact hq x hx
    · rw [List.mem_singleton.1 hx]; exact calm_toArrow y hy
  cases op with
  | poll => exact absurd rfl hop
  | connect get sv sid =>
    simp only [Mgr.step, Mgr.connect]
    split
    · exact h
    · exact happ _ _ (by show ¬ (5 : UInt16) = 12; decide) h
  | send msg =>
    simp only [Mgr.step, Mgr.send]
    split
    · exact h
    · exact happ _ _ (by show ¬ (5 : UInt16) = 12; decide) h
  | close sid => simp only [Mgr.step, Mgr.close]; split <;> exact h
  | dataAck sid len => simp only [Mgr.step, Mgr.dataAck]; split <;> exact h
  | io sid o => simp only [Mgr.step]; split <;> exact h
  | newId => exact h

/-- A step of the manager other than a poll. -/
theorem TI.other {c c' : Cli} {r v : List Seen} (h : TI c r) (op : MOp) (hop : op ≠ .poll)
    (hm : c'.mgr = (c.mgr.step op).1) (hmsg : c'.messages = c.messages)
    (hu : Usable (r ++ (v ++ (c.mgr.step op).2.1.map fun e => Seen.ev (.ev (.mgr e)))))
    (hv : ∀ w ∈ v, opening w = none) (hi : ∀ x, inbox x v = given x op) (ho : ∀ x, outbox x v = [])
    (hs : sentMessages v = []) :
    TI c' (r ++ (v ++ (c.mgr.step op).2.1.map fun e => Seen.ev (.ev (.mgr e)))) := by
  refine h.step op hm hu (fun x => acc_step c.mgr op r v x hv (hi x) (ho x)) ?_ ?_ ?_ ?_
  · intro e he
    exact List.mem_append_right _ (List.mem_map.2 ⟨e, he, rfl⟩)
  · intro x s hs'
    have hv' : ∀ w ∈ v, openingOf x w = none := by
      intro w hw; unfold openingOf; rw [hv w hw]
    rw [acc_step c.mgr op r v x hv (hi x) (ho x)]
    cases hop' : opens x (c.mgr.step op).2.1 with
    | none =>
      unfold Account.step
      dsimp only
      rw [hop']
      dsimp only
      rw [items_quiet _ _ hop, List.append_nil, toServer_quiet x, ackServer_quiet x]
      · have h1 := sent_evs (c.mgr.step op).2.1
        have : sentMessages (v ++ (c.mgr.step op).2.1.map fun e => Seen.ev (.ev (.mgr e))) = [] := by
          unfold sentMessages at hs h1 ⊢
          rw [List.filterMap_append, hs, h1]
          rfl
        rw [this]
        rw [hm] at hs'
        rcases open_step _ _ _ _ hs' with ⟨s0, h0⟩ | h0
        · rw [(h.data x s0 h0).1, (h.data x s0 h0).2]; simp [payloads, acknowledged]
        · exact absurd hop' h0
      · intro w hw
        rcases List.mem_append.1 hw with hw | hw
        · exact hv' w hw
        · exact no_opening hop' w hw
      · intro w hw
        rcases List.mem_append.1 hw with hw | hw
        · exact hv' w hw
        · exact no_opening hop' w hw
    | some svc =>
      obtain ⟨t, mac, a, he⟩ := opens_only c.mgr op x svc hop'
      unfold Account.step
      dsimp only
      rw [hop']
      dsimp only
      rw [he, ← List.append_assoc]
      have := since_opened x (r ++ v) [] (.ev (.ev (.mgr (.opened x svc t mac a)))) svc
        (by simp [openingOf, opening]) (fun _ hw => by cases hw)
      unfold toServer ackServer
      simp only [List.map_cons, List.map_nil]
      rw [this]
      exact ⟨rfl, rfl⟩
  · rw [hmsg]; exact h.messages
  · rw [hm]; exact queue_step _ _ hop h.queue

/-- What polling the manager gives: nothing; a message of the control protocol; or data of a session. -/
theorem poll_cases (m : Mgr) (hq : ∀ x ∈ m.queue, Calm x) :
    (∀ x, opens x m.poll.2.2 = none) ∧ (∀ x ∈ m.poll.2.1.queue, Calm x) ∧
    ((m.poll.1 = .pending ∧ m.poll.2.2 = []) ∨
     (∃ msg, m.poll.1 = .ready msg ∧ Calm msg ∧ ∀ x, items x m.poll.2.2 = []) ∨
     (∃ sid i s, m.poll.1 = .ready i.toArrow ∧ m.poll.2.2 = [.sent sid i] ∧
        m.poll.2.1.sessions.get sid = some s)) := by
  unfold Mgr.poll
  split
  · rename_i msg q hmq
    refine ⟨fun _ => rfl, fun x hx => hq x (by rw [hmq]; exact List.mem_cons_of_mem _ hx), .inr (.inl ⟨msg, rfl, ?_, fun _ => rfl⟩)⟩
    exact hq msg (by rw [hmq]; exact List.mem_cons_self)
  · refine pollLoop_cases (fun _ m' => ∀ x ∈ m'.queue, Calm x)
      (fun r => (∀ x, opens x r.2.2 = none) ∧ (∀ x ∈ r.2.1.queue, Calm x) ∧
        ((r.1 = .pending ∧ r.2.2 = []) ∨
         (∃ msg, r.1 = .ready msg ∧ Calm msg ∧ ∀ x, items x r.2.2 = []) ∨
         (∃ sid i s, r.1 = .ready i.toArrow ∧ r.2.2 = [.sent sid i] ∧ r.2.1.sessions.get sid = some s)))
      ?_ ?_ ?_ ?_ ?_ ?_ ?_ _ m hq
    · intro m' h
      exact ⟨fun _ => rfl, h, .inl ⟨rfl, rfl⟩⟩
    · intro k m' _ h; exact h
    · intro k m' sid rest _ _ h; exact h
    · intro k m' sid rest s _ _ _ h; exact h
    · intro k m' sid rest s _ _ _ h
      exact ⟨fun _ => rfl, h, .inr (.inl ⟨_, rfl, calm_toArrow _ (by show ¬ (5 : UInt16) = 12; decide), fun _ => rfl⟩)⟩
    · intro k m' sid rest s i _ _ _ h
      exact ⟨fun _ => rfl, h, .inr (.inr ⟨sid, i, _, rfl, rfl, AMap.get_insert_self _ _ _⟩)⟩
    · intro k m' sid rest s e _ _ _ h
      exact ⟨fun _ => rfl, h, .inr (.inl ⟨_, rfl, calm_toArrow _ (by show ¬ (5 : UInt16) = 12; decide), fun _ => rfl⟩)⟩

theorem dataOf_append (a b : List Item) : dataOf (a ++ b) = dataOf a ++ dataOf b := by simp [dataOf]

/-- Polling the manager, and handing the message to the transport. -/
theorem TI.poll {c c' : Cli} {r : List Seen} (h : TI c r) (hm : c'.mgr = c.mgr.poll.2.1)
    (hmsg : c'.messages = c.messages)
    (l : List Seen) (hl : (c.mgr.poll.1 = .pending ∧ l = []) ∨ ∃ m, c.mgr.poll.1 = .ready m ∧ l = [.ev (.sent m)])
    (hu : Usable (r ++ (c.mgr.poll.2.2.map (fun e => Seen.ev (.ev (.mgr e))) ++ l))) :
    TI c' (r ++ (c.mgr.poll.2.2.map (fun e => Seen.ev (.ev (.mgr e))) ++ l)) := by
  obtain ⟨h1, h2, h3⟩ := poll_cases c.mgr h.queue
  have hlo : ∀ v ∈ l, opening v = none := by
    rcases hl with ⟨-, rfl⟩ | ⟨m, -, rfl⟩ <;> simp [opening]
  have hlo' : ∀ x, ∀ v ∈ l, openingOf x v = none := by
    intro x v hv; unfold openingOf; rw [hlo v hv]
  have hli : ∀ x, inbox x l = [] := by
    intro x
    rcases hl with ⟨-, rfl⟩ | ⟨m, -, rfl⟩ <;> rfl
  have hlx : ∀ x, outbox x l = [] := by
    intro x
    rcases hl with ⟨-, rfl⟩ | ⟨m, -, rfl⟩ <;> rfl
  have hno : ∀ x, ∀ v ∈ c.mgr.poll.2.2.map (fun e => Seen.ev (.ev (.mgr e))) ++ l, openingOf x v = none := by
    intro x v hv
    rcases List.mem_append.1 hv with hv | hv
    · exact no_opening (h1 x) v hv
    · exact hlo' x v hv
  have hacc : ∀ x, acc (r ++ (c.mgr.poll.2.2.map (fun e => Seen.ev (.ev (.mgr e))) ++ l)) x =
      (acc r x).step x (.poll, (c.mgr.step .poll).2) := by
    intro x
    rw [← List.append_assoc, acc_quiet x _ l (hlo' x), hli, hlx]
    have := acc_step c.mgr .poll r [] x (fun _ h => by cases h) rfl rfl
    simp only [List.nil_append] at this
    rw [show (c.mgr.step .poll).2.1 = c.mgr.poll.2.2 from rfl] at this
    rw [this, List.append_nil, List.append_nil]
  have hstep : ∀ x, (acc r x).step x (.poll, (c.mgr.step .poll).2) =
      ⟨(acc r x).svc, (acc r x).inbox, (acc r x).outbox ++ items x c.mgr.poll.2.2⟩ := by
    intro x
    unfold Account.step
    dsimp only
    rw [show (c.mgr.step .poll).2.1 = c.mgr.poll.2.2 from rfl, h1 x]
    simp [given]
  have hopen : ∀ x s, c.mgr.poll.2.1.sessions.get x = some s → ∃ s0, c.mgr.sessions.get x = some s0 := by
    intro x s hs
    rcases open_step c.mgr .poll x s hs with h0 | h0
    · exact h0
    · exact absurd (h1 x) h0
  refine h.step .poll hm hu hacc ?_ ?_ ?_ ?_
  · intro e he
    exact List.mem_append_left _ (List.mem_map.2 ⟨e, he, rfl⟩)
  · intro x s hs
    rw [hm] at hs
    obtain ⟨s0, h0⟩ := hopen x s hs
    rw [hacc, hstep, dataOf_append, ackedOf_append, (h.data x s0 h0).1, (h.data x s0 h0).2,
      toServer_quiet x r _ (hno x), ackServer_quiet x r _ (hno x)]
    have hsm : sentMessages (c.mgr.poll.2.2.map (fun e => Seen.ev (.ev (.mgr e))) ++ l) = sentMessages l := by
      have := sent_evs c.mgr.poll.2.2
      unfold sentMessages at this ⊢
      rw [List.filterMap_append, this]
      rfl
    rw [hsm]
    have key : dataOf (items x c.mgr.poll.2.2) = payloads x (sentMessages l) ∧
        ackedOf (items x c.mgr.poll.2.2) = acknowledged x (sentMessages l) := by
      rcases h3 with ⟨h3, h4⟩ | ⟨msg, h3, h4, h5⟩ | ⟨sid, i, s', h3, h4, h5⟩
      · rcases hl with ⟨-, rfl⟩ | ⟨m, h6, -⟩
        · rw [h4]; exact ⟨rfl, rfl⟩
        · rw [h3] at h6; cases h6
      · rcases hl with ⟨h6, -⟩ | ⟨m, h6, rfl⟩
        · rw [h3] at h6; cases h6
        · rw [h3] at h6
          cases h6
          rw [h5]
          simp [sentMessages, payloads, Carries, h4.1, acknowledged, h4.2, dataOf, ackedOf]
      · rcases hl with ⟨h6, -⟩ | ⟨m, h6, rfl⟩
        · rw [h3] at h6; cases h6
        · rw [h3] at h6
          cases h6
          obtain ⟨s1, h7⟩ := hopen sid s' h5
          obtain ⟨hid, hsvc⟩ := h.ids sid s1 h7
          have hk := kept_step h.kept .poll sid s' h5
          dsimp only at hk
          rw [hstep, h4] at hk
          obtain ⟨sops, k1, k2, k3, k4⟩ := hk
          have hmem : Obs.sent i ∈ (Props.Session.life (acc r sid).svc sid
              (c.mgr.step .poll).1.window sops).2 := by
            have : i ∈ sentItems (Props.Session.life (acc r sid).svc sid
                (c.mgr.step .poll).1.window sops).2 := by
              rw [k3]
              exact List.mem_append_right _ (by simp [items])
            unfold sentItems at this
            obtain ⟨o, ho, he⟩ := List.mem_filterMap.1 this
            cases o with
            | sent i => cases Option.some.inj he; exact ho
            | _ => cases he
          have hw : (c.mgr.step .poll).1.window < 2 ^ 32 := by
            rw [(step_const c.mgr .poll).2, h.window]; decide
          rw [h4]
          cases i with
          | ack a =>
            obtain ⟨q, len, g1, g2, g3, -⟩ := Props.Session.C15_ack_content _ _ _ hw _ _ hmem
            rw [Nat.mod_eq_of_lt hid] at g3
            have hda := dataAck_toArrow a q len g1 g2
            rw [g3] at hda
            have hz : a.toArrow.header.service = 0 := rfl
            by_cases hx : sid = x
            · subst hx
              simp [items, dataOf, ackedOf, sentMessages, payloads, acknowledged, Carries, Item.toArrow, hz, hda,
                Spec.Session.ackLength, g2]
            · have hx' : ¬ sid.toNat = x.toNat := fun h => hx (UInt32.toNat.inj h)
              simp [items, dataOf, ackedOf, sentMessages, payloads, acknowledged, Carries, Item.toArrow, hz, hda, hx, hx']
          | data d =>
            obtain ⟨g1, g2, -⟩ := Props.Session.C13_data_headers _ _ _ hw _ _ hmem
            rw [Nat.mod_eq_of_lt hid] at g2
            have hd : d.header.session = sid := UInt32.toNat.inj g2
            have hna : Spec.Tunnel.dataAck d = none := by
              unfold Spec.Tunnel.dataAck
              rw [if_neg]
              rintro ⟨e, -⟩
              exact hsvc (g1 ▸ e)
            by_cases hx : sid = x
            · subst hx
              have : Carries sid d := ⟨by rw [g1]; exact hsvc, hd⟩
              simp [items, dataOf, ackedOf, sentMessages, payloads, acknowledged, Item.toArrow, this, hna]
            · have : ¬ Carries x d := by rintro ⟨-, h⟩; exact hx (hd.symm.trans h)
              simp [items, dataOf, ackedOf, sentMessages, payloads, acknowledged, Item.toArrow, this, hna, hx]
    rw [key.1, key.2]
    exact ⟨rfl, rfl⟩
  · rw [hmsg]; exact h.messages
  · rw [hm]; exact h2

/-! ## Messages of the server -/

theorem dataAck_eq {msg : Wire.Message} {id ty : UInt16} {s len : UInt32}
    (h0 : msg.header.service = 0) (h : ControlMessage.fromBytes msg.payload = .ok ⟨id, ty, .dataAck s len⟩)
    (hT : MsgType.ofCode ty = .dataAck) : Spec.Tunnel.dataAck msg = some (s.toNat, len.toNat) := by
  have hc := Props.Control.code_of_ofCode ty (by rw [hT]; simp)
  rw [hT] at hc
  have h12 : (12 : UInt16) = ty := Option.some.inj hc
  subst h12
  unfold ControlMessage.fromBytes at h
  split at h
  · rename_i i0 i1 t0 t1 rest hp
    have hty := field_msgType i0 i1 t0 t1 rest
    generalize rd16 t0 t1 = y at h hty
    have hy : y = 12 := by
      generalize decodeBody (MsgType.ofCode y) rest = d at h
      cases d <;> cases h
      rfl
    subst hy
    have hd : decodeDataAck rest = .ok (.dataAck s len) := by
      have e : decodeBody (MsgType.ofCode 12) rest = decodeDataAck rest := rfl
      rw [e] at h
      generalize decodeDataAck rest = d at h
      cases d <;> cases h
      rfl
    unfold decodeDataAck at hd
    split at hd
    · cases hd
      unfold Spec.Tunnel.dataAck
      rw [hp, hty, if_pos ⟨h0, rfl, rfl⟩]
      simp [field, slice, natBE_four]
    · cases hd
  · cases h

theorem dataAck_none {msg : Wire.Message} {m : ControlMessage}
    (h : ControlMessage.fromBytes msg.payload = .ok m) (hty : MsgType.ofCode m.msgType ≠ .dataAck) :
    Spec.Tunnel.dataAck msg = none := by
  unfold Spec.Tunnel.dataAck
  rw [if_neg]
  rintro ⟨-, -, h2⟩
  unfold ControlMessage.fromBytes at h
  split at h
  · rename_i i0 i1 t0 t1 rest hp
    rw [hp, field_msgType] at h2
    have h3 : rd16 t0 t1 = 12 := UInt16.toNat.inj h2
    have h4 : m.msgType = rd16 t0 t1 := by
      generalize decodeBody (MsgType.ofCode (rd16 t0 t1)) rest = d at h
      cases d <;> cases h
      rfl
    rw [h4, h3] at hty
    exact hty (by decide)
  · cases h

/-- The message is seen and handled. -/
abbrev gotOk (m : Wire.Message) : Seen := .ev (.ev (.got m .ok))

/-- What handling a message means for the sessions. -/
inductive Tunnelled (c : Cli) (m : Wire.Message) : Cli → List CEv → Prop
  | mgr (op : MOp) : op ≠ .poll → (∀ x, inboxOf x (gotOk m) = given x op) →
    Tunnelled c m (c.onMgr op).1 (c.onMgr op).2
  | quiet (c' : Cli) (evs : List CEv) : c'.mgr.sessions = c.mgr.sessions → c'.mgr.window = c.mgr.window →
    c'.mgr.queue = c.mgr.queue → (∀ x, inboxOf x (gotOk m) = []) →
    (∀ e ∈ evs, ∀ y, e ≠ .mgr y) → (∀ e ∈ evs, ∀ y o, e ≠ .got y o) →
    (c'.messages = c.messages ∨ ∃ y : ControlMessage, y.msgType ≠ 12 ∧ c'.messages = c.messages ++ [y.toArrow]) →
    Tunnelled c m c' evs

theorem control_inbox {m : Wire.Message} (h0 : m.header.service = 0) (hd : Spec.Tunnel.dataAck m = none) (x : UInt32) :
    inboxOf x (gotOk m) = [] := by
  have hn : ¬ Carries x m := fun h => h.1 h0
  simp only [inboxOf, if_neg hn, hd]

set_option maxHeartbeats 1000000 in
theorem handle_tunnelled (c : Cli) (env : Env) (m : Wire.Message) (hok : (c.handle env m).1 = .ok) :
    Tunnelled c m (c.handle env m).2.1 (c.handle env m).2.2 := by
  have hest : ∀ f : Cli → Out × Cli × List CEv, (c.whenEstablished f).1 = .ok →
      c.whenEstablished f = f c := by
    intro f h
    unfold Cli.whenEstablished at h ⊢
    split
    · rfl
    · rename_i hh; rw [if_neg hh] at h; cases h
  unfold Cli.handle at hok ⊢
  by_cases h0 : m.header.service = 0
  · rw [if_pos h0] at hok ⊢
    cases hd : ControlMessage.fromBytes m.payload with
    | err => rw [hd] at hok; cases hok
    | panic => rw [hd] at hok; cases hok
    | ok y =>
      rw [hd] at hok
      dsimp only at hok ⊢
      unfold Cli.processControl at hok ⊢
      have hnone := dataAck_none (m := y) hd
      cases hT : MsgType.ofCode y.msgType with
      | ack =>
        rw [hT] at hok hnone
        have hi := control_inbox h0 (hnone (by simp))
        dsimp only at hok ⊢
        have key : (c.processAck y.msgId y.body).2.mgr = c.mgr ∧
            (c.processAck y.msgId y.body).2.messages = c.messages := by
          unfold Cli.processAck Cli.handshakeAck
          split
          · exact ⟨rfl, rfl⟩
          · dsimp only
            split
            · split
              · exact ⟨rfl, rfl⟩
              · split
                · (repeat' split) <;> exact ⟨rfl, rfl⟩
                · exact ⟨rfl, rfl⟩
            · exact ⟨rfl, rfl⟩
        exact .quiet _ _ (by rw [key.1]) (by rw [key.1]) (by rw [key.1]) hi (fun _ h => by cases h)
          (fun _ h => by cases h) (.inl key.2)
      | connect =>
        rw [hT] at hok hnone
        have hi := control_inbox h0 (hnone (by simp))
        dsimp only at hok ⊢
        have hw := hest _ hok
        rw [hw] at hok ⊢
        cases hb : y.body with
        | connect svc sid => exact .mgr (.connect env.table svc sid) (by simp) (by simpa [given] using hi)
        | _ => rw [hb] at hok; cases hok
      | dataAck =>
        rw [hT] at hok
        dsimp only at hok ⊢
        have hw := hest _ hok
        rw [hw] at hok ⊢
        obtain ⟨id, ty, body⟩ := y
        cases body with
        | dataAck sid len =>
          have hda := dataAck_eq h0 hd hT
          refine .mgr (.dataAck sid len) (by simp) ?_
          intro x
          have hn : ¬ Carries x m := fun h => h.1 h0
          simp only [inboxOf, if_neg hn, hda, given]
          by_cases hx : sid = x
          · rw [if_pos hx, if_pos (by rw [hx])]
          · rw [if_neg hx, if_neg (fun h => hx (UInt32.toNat.inj h))]
        | _ => cases hok
      | ping =>
        rw [hT] at hok hnone
        have hi := control_inbox h0 (hnone (by simp))
        dsimp only at hok ⊢
        have hw := hest _ hok
        rw [hw] at hok ⊢
        exact .quiet _ _ rfl rfl rfl hi (by simp [Cli.sendControl]) (by simp [Cli.sendControl]) (.inr ⟨_, ctl_type (by decide), rfl⟩)
      | hup =>
        rw [hT] at hok hnone
        have hi := control_inbox h0 (hnone (by simp))
        dsimp only at hok ⊢
        have hw := hest _ hok
        rw [hw] at hok ⊢
        cases hb : y.body with
        | hup sid code => exact .mgr (.close sid) (by simp) (by simpa [given] using hi)
        | _ => rw [hb] at hok; cases hok
      | redirect =>
        rw [hT] at hok hnone
        have hi := control_inbox h0 (hnone (by simp))
        dsimp only at hok ⊢
        have hw := hest _ hok
        rw [hw] at hok ⊢
        cases hb : y.body with
        | redirect t => exact .quiet _ _ rfl rfl rfl hi (fun _ h => by cases h) (fun _ h => by cases h) (.inl rfl)
        | _ => rw [hb] at hok; cases hok
      | getStatus =>
        rw [hT] at hok hnone
        have hi := control_inbox h0 (hnone (by simp))
        dsimp only at hok ⊢
        have hw := hest _ hok
        rw [hw] at hok ⊢
        exact .quiet _ _ rfl rfl rfl hi (by simp [Cli.sendControl]) (by simp [Cli.sendControl]) (.inr ⟨_, ctl_type (by decide), rfl⟩)
      | getScanReport =>
        rw [hT] at hok hnone
        have hi := control_inbox h0 (hnone (by simp))
        dsimp only at hok ⊢
        have hw := hest _ hok
        rw [hw] at hok ⊢
        exact .quiet _ _ rfl rfl rfl hi (by simp [Cli.sendControl]) (by simp [Cli.sendControl]) (.inr ⟨_, ctl_type (by decide), rfl⟩)
      | resetSvcTable =>
        rw [hT] at hok hnone
        have hi := control_inbox h0 (hnone (by simp))
        dsimp only at hok ⊢
        have hw := hest _ hok
        rw [hw] at hok ⊢
        exact .quiet _ _ rfl rfl rfl hi (by simp) (by simp) (.inl rfl)
      | scanNetwork =>
        rw [hT] at hok hnone
        have hi := control_inbox h0 (hnone (by simp))
        dsimp only at hok ⊢
        have hw := hest _ hok
        rw [hw] at hok ⊢
        exact .quiet _ _ rfl rfl rfl hi (by simp) (by simp) (.inl rfl)
      | unknown => rw [hT] at hok; cases hok
      | register => rw [hT] at hok; cases hok
      | update => rw [hT] at hok; cases hok
      | status => rw [hT] at hok; cases hok
      | scanReport => rw [hT] at hok; cases hok
  · rw [if_neg h0] at hok ⊢
    rw [hest _ hok]
    refine .mgr (.send m) (by simp) ?_
    intro x
    have hn : Spec.Tunnel.dataAck m = none := by
      unfold Spec.Tunnel.dataAck
      rw [if_neg (fun h => h0 h.1)]
    simp only [inboxOf, given, hn]
    by_cases hx : m.header.session = x
    · have hc : Carries x m := ⟨h0, hx⟩
      rw [if_pos hx, if_pos hc]
    · have hc : ¬ Carries x m := fun h => hx h.2
      rw [if_neg hx, if_neg hc]

/-! ## Histories -/

/-- The client and the record fit, if the ids were usable. -/
def Fits (c : Cli) (r : List Seen) : Prop := Usable r → TI c r

/-- An event without meaning for sessions. -/
def Plain : CEv → Bool
  | .mgr _ => false
  | .got _ _ => false
  | _ => true

theorem plain_opening {evs : List CEv} (h : ∀ e ∈ evs, Plain e = true) :
    (∀ v ∈ evs.map (fun e => Seen.ev (.ev e)), opening v = none) ∧
    (∀ x, inbox x (evs.map fun e => Seen.ev (.ev e)) = []) ∧
    (∀ x, outbox x (evs.map fun e => Seen.ev (.ev e)) = []) ∧
    sentMessages (evs.map fun e => Seen.ev (.ev e)) = [] := by
  induction evs with
  | nil => exact ⟨(fun _ h => by cases h), fun _ => rfl, fun _ => rfl, rfl⟩
  | cons e evs ih =>
    obtain ⟨h1, h2, h3, h4⟩ := ih (fun e he => h e (List.mem_cons_of_mem _ he))
    have he := h e List.mem_cons_self
    refine ⟨?_, ?_, ?_, ?_⟩
    · intro v hv
      rcases List.mem_cons.1 hv with rfl | hv
      · cases e <;> first | rfl | cases he
      · exact h1 v hv
    · intro x
      have := h2 x
      simp only [List.map_cons, inbox, List.flatMap_cons] at this ⊢
      rw [this]
      cases e <;> first | rfl | cases he
    · intro x
      have := h3 x
      simp only [List.map_cons, outbox, List.filterMap_cons] at this ⊢
      rw [this]
      cases e <;> first | rfl | cases he
    · simp only [List.map_cons, sentMessages, List.filterMap_cons] at h4 ⊢
      exact h4

/-- Steps that concern no session. -/
theorem Fits.quiet {c c' : Cli} {r v : List Seen} {evs : List CEv} (h : Fits c r)
    (hs : c'.mgr.sessions = c.mgr.sessions) (hw : c'.mgr.window = c.mgr.window) (hq : c'.mgr.queue = c.mgr.queue)
    (hv : ∀ w ∈ v, opening w = none) (hi : ∀ x, inbox x v = []) (ho : ∀ x, outbox x v = [])
    (hp : ∀ x, payloads x (sentMessages v) = [] ∧ acknowledged x (sentMessages v) = 0)
    (he : ∀ e ∈ evs, Plain e = true)
    (hm : c'.messages = c.messages ∨ (∃ y : ControlMessage, y.msgType ≠ 12 ∧ c'.messages = c.messages ++ [y.toArrow]) ∨
      ∃ y, c.messages = y :: c'.messages) :
    Fits c' (r ++ (v ++ evs.map fun e => Seen.ev (.ev e))) := by
  intro hu
  have h := h (usable_left hu)
  obtain ⟨h1, h2, h3, h4⟩ := plain_opening he
  refine h.quiet hs hw hq ?_ ?_ ?_ ?_ ?_ ?_
  · intro w hw
    rcases List.mem_append.1 hw with hw | hw
    · exact hv w hw
    · exact h1 w hw
  · intro x
    have a := hi x
    have b := h2 x
    unfold inbox at a b ⊢
    rw [List.flatMap_append, a, b]; rfl
  · intro x
    have a := ho x
    have b := h3 x
    unfold outbox at a b ⊢
    rw [List.filterMap_append, a, b]; rfl
  · intro x
    have a := (hp x).1
    unfold sentMessages at a h4 ⊢
    rw [List.filterMap_append, h4, List.append_nil, a]
  · intro x
    have a := (hp x).2
    unfold sentMessages at a h4 ⊢
    rw [List.filterMap_append, h4, List.append_nil, a]
  · intro y hy
    rcases hm with hm | ⟨z, hz, hm⟩ | ⟨z, hm⟩
    · rw [hm] at hy; exact h.messages y hy
    · rw [hm] at hy
      rcases List.mem_append.1 hy with hy | hy
      · exact h.messages y hy
      · rw [List.mem_singleton.1 hy]; exact calm_toArrow z hz
    · exact h.messages y (by rw [hm]; exact List.mem_cons_of_mem _ hy)

theorem fits_steps (r0 : List Seen) : Steps0 (fun _ _ => True) (fun _ => True)
    (fun c es _ => Fits c (r0 ++ es.map .ev)) (fun _ _ => True) where
  time := fun _ _ _ _ h _ => h
  idle := fun _ _ _ h hu => ⟨(h hu).kept, (h hu).window, (h hu).data, (h hu).ids, (h hu).messages, (h hu).queue⟩
  close := fun _ _ _ h hu => ⟨(h hu).kept, (h hu).window, (h hu).data, (h hu).ids, (h hu).messages, (h hu).queue⟩
  timeout := fun _ _ _ _ _ _ => trivial
  refused := fun _ _ _ _ _ _ _ _ => trivial
  ping := by
    intro c es t h _ _ _
    have := h.quiet (c' := (c.sendPing t).1) (v := []) (evs := (c.sendPing t).2) rfl rfl rfl (fun _ h => by cases h)
      (fun _ => rfl) (fun _ => rfl) (fun _ => ⟨rfl, rfl⟩) (by
        intro e he
        simp only [Cli.sendPing, Cli.sendUnconfirmed, Cli.sendControl] at he
        rw [List.mem_singleton.1 he]; rfl) (.inr (.inl ⟨_, ctl_type (by decide), rfl⟩))
    simpa [List.append_assoc, Function.comp_def] using this
  check := by
    intro c es env _ h _ _ _
    rw [check_eq]
    split
    · have := h.quiet (c' := { (c.sendUpdate env).1 with lastCheck := env.now }) (v := [])
        (evs := [.checked env.now env.version,
          .queued env.now (mkUpdate (UInt16.ofNat c.mgr.counter) (SimpleTable.ofServices env.visible))])
        rfl rfl rfl (fun _ h => by cases h)
        (fun _ => rfl) (fun _ => rfl) (fun _ => ⟨rfl, rfl⟩) (by
          intro e he
          rcases List.mem_cons.1 he with rfl | he
          · rfl
          · rw [List.mem_singleton.1 he]; rfl) (.inr (.inl ⟨_, ctl_type (by decide), rfl⟩))
      simpa [List.append_assoc] using this
    · have := h.quiet (c' := { c with lastCheck := env.now }) (v := []) (evs := [.checked env.now env.version])
        rfl rfl rfl (fun _ h => by cases h)
        (fun _ => rfl) (fun _ => rfl) (fun _ => ⟨rfl, rfl⟩) (by
          intro e he
          rw [List.mem_singleton.1 he]; rfl) (.inl rfl)
      simpa [List.append_assoc] using this
  ready := by
    intro c es t m h ho hr
    rcases ctxPoll_ready hr with ⟨ms, h1, h3⟩ | ⟨h1, h2, h3⟩ <;> rw [h3]
    · intro hu
      have hm : Calm m := (h (by
        rw [List.map_append, ← List.append_assoc] at hu
        simp only [List.map_nil, List.append_nil] at hu
        exact (usable_left hu))).messages m (by rw [h1]; exact List.mem_cons_self)
      have := h.quiet (c' := { c with messages := ms }) (v := [.ev (.sent m)]) (evs := [])
        rfl rfl rfl (fun w hw => by rw [List.mem_singleton.1 hw]; rfl)
        (fun _ => rfl) (fun _ => rfl) (fun x => by simp [sentMessages, payloads, Carries, hm.1, acknowledged, hm.2])
        (fun _ h => by cases h) (.inr (.inr ⟨m, h1⟩))
      have h4 : ((es ++ List.map NEv.ev ([] : List CEv) ++ [NEv.sent m]).map Seen.ev) =
          es.map .ev ++ [Seen.ev (.sent m)] := by simp
      dsimp only at hu ⊢
      rw [h4] at hu ⊢
      simp only [List.map_nil, List.append_nil] at this
      rw [← List.append_assoc] at hu ⊢
      exact this hu
    · intro hu
      have h4 : ((es ++ (c.mgr.poll.2.2.map CEv.mgr).map NEv.ev ++ [NEv.sent m]).map Seen.ev) =
          es.map .ev ++ (c.mgr.poll.2.2.map (fun e => Seen.ev (.ev (.mgr e))) ++ [Seen.ev (.sent m)]) := by
        simp [Function.comp_def]
      dsimp only at hu ⊢
      rw [h4, ← List.append_assoc] at hu ⊢
      exact (h (usable_left hu)).poll (c' := { c with mgr := c.mgr.poll.2.1 }) rfl rfl _ (.inr ⟨m, h2, rfl⟩) hu
  pending := by
    intro c es t h ho hr
    obtain ⟨h1, h2, h3⟩ := ctxPoll_pending hr
    rw [h3]
    intro hu
    have h4 : ((es ++ (c.mgr.poll.2.2.map CEv.mgr).map NEv.ev).map Seen.ev) =
        es.map .ev ++ (c.mgr.poll.2.2.map (fun e => Seen.ev (.ev (.mgr e))) ++ []) := by
      simp [Function.comp_def]
    dsimp only at hu ⊢
    rw [h4, ← List.append_assoc] at hu ⊢
    exact (h (usable_left hu)).poll (c' := { c with mgr := c.mgr.poll.2.1, task := true, idle := true }) rfl rfl _
      (.inl ⟨h2, rfl⟩) hu
  recv := by
    intro c es env m _ h ho hok
    have H := handle_tunnelled c env m hok
    generalize (c.handle env m).2.1 = c' at H ⊢
    generalize (c.handle env m).2.2 = evs at H ⊢
    cases H with
    | mgr op h1 h2 =>
      intro hu
      have h4 : ((es ++ NEv.ev (.got m .ok) :: (c.onMgr op).2.map NEv.ev).map Seen.ev) =
          es.map .ev ++ ([gotOk m] ++ (c.mgr.step op).2.1.map (fun e => Seen.ev (.ev (.mgr e)))) := by
        simp [Function.comp_def, Cli.onMgr]
      rw [h4, ← List.append_assoc] at hu ⊢
      refine (h (usable_left hu)).other op h1 rfl rfl hu ?_ ?_ ?_ rfl
      · intro w hw; rw [List.mem_singleton.1 hw]; rfl
      · intro x; simpa [inbox] using h2 x
      · intro x; rfl
    | quiet _ _ h1 h2 h3 h4 h5 h6 h7 =>
      have := h.quiet (c' := c') (v := [gotOk m]) (evs := evs) h1 h2 h3
        (fun w hw => by rw [List.mem_singleton.1 hw]; rfl) (fun x => by simpa [inbox] using h4 x) (fun _ => rfl)
        (fun _ => ⟨rfl, rfl⟩) (by
          intro e he
          cases e with
          | mgr y => exact absurd rfl (h5 _ he y)
          | got y o => exact absurd rfl (h6 _ he y o)
          | _ => rfl) (by
          rcases h7 with h7 | h7
          · exact .inl h7
          · exact .inr (.inl h7))
      simpa [List.append_assoc, Function.comp_def] using this

/-- Induction over what is seen of a connection. -/
theorem seen_inv {I : Cli → List Seen → Prop}
    (S : ∀ r0, Steps0 (fun _ _ => True) (fun _ => True) (fun c es _ => I c (r0 ++ es.map .ev)) (fun _ _ => True))
    (hio : ∀ c r sid o, I c r → I (c.onMgr (.io sid o)).1
      (r ++ (.io sid o :: (c.onMgr (.io sid o)).2.map fun e => Seen.ev (.ev e))))
    (ops : List COp) : ∀ (c : Cli) (r : List Seen), I c r → c.isClosed = false → ∀ c',
      ((Conn.live c).run ops).1 = .live c' → I c' (r ++ seenFrom (.live c) ops) := by
  induction ops with
  | nil =>
    intro c r h _ c' hc
    cases hc
    simpa [seenFrom] using h
  | cons op ops ih =>
    intro c r h hcl c' hc
    have hnot : ∀ (s : Conn), (∀ x, s ≠ .live x) → ∀ ops, (s.run ops).1 ≠ .live c' := by
      intro s hs ops
      induction ops generalizing s with
      | nil => exact hs c'
      | cons o ops ih' =>
        simp only [Conn.run]
        apply ih'
        intro x hx
        cases s with
        | live y => exact hs y rfl
        | closing q => cases o <;> cases hx
        | over q => cases hx
    have S := S r
    have h' : I c (r ++ List.map Seen.ev []) := by simpa using h
    simp only [Conn.run] at hc
    simp only [seenFrom]
    cases op with
    | poll f ins =>
      obtain ⟨t', h1, -⟩ := poll_inv' S f ins [] (fun _ _ => trivial) c [] 0 h' hcl
        (Props.Client.pairwise_true _)
      simp only [Conn.step, Cli.step] at hc ⊢
      unfold PollPost at h1
      generalize c.poll f ins = q at h1 hc ⊢
      cases hr : q.1 with
      | send m =>
        rw [hr] at h1 hc
        have := ih _ _ h1.1 h1.2 c' hc
        simpa [ioOf, List.append_assoc] using this
      | error e => rw [hr] at hc; exact absurd hc (hnot _ (by simp) _)
      | done => rw [hr] at hc; exact absurd hc (hnot _ (by simp) _)
      | pending =>
        rw [hr] at h1 hc
        have := ih _ _ h1.1 h1.2 c' hc
        simpa [ioOf, List.append_assoc] using this
      | panic => rw [hr] at hc; exact absurd hc (hnot _ (by simp) _)
    | tick env =>
      simp only [Conn.step, Cli.step, hcl, Bool.false_eq_true, if_false] at hc ⊢
      obtain ⟨h1, h3⟩ := tick_inv S (es := []) (env := env) trivial h' hcl
      have hcl' := (timeEvent_isClosed c env).trans hcl
      generalize c.timeEvent env = q at h1 h3 hc hcl' ⊢
      rcases h3 with h3 | ⟨h3, h4⟩ <;> rw [h3] at hc ⊢
      · have := ih _ _ h1 hcl' c' hc
        simpa [ioOf, List.append_assoc] using this
      · exact absurd hc (hnot _ (by simp) _)
    | io sid o =>
      simp only [Conn.step, Cli.step] at hc ⊢
      have := ih _ _ (hio c r sid o h) hcl c' hc
      simpa [ioOf, List.append_assoc, Function.comp_def] using this
    | sinkError e => exact absurd hc (hnot _ (by simp [Conn.step, Cli.step]) _)
    | flushed =>
      simp only [Conn.step, Cli.step] at hc ⊢
      have := ih _ _ h hcl c' hc
      simpa [ioOf] using this

theorem fits_io (c : Cli) (r : List Seen) (sid : UInt32) (o : Io) (h : Fits c r) :
    Fits (c.onMgr (.io sid o)).1 (r ++ (.io sid o :: (c.onMgr (.io sid o)).2.map fun e => Seen.ev (.ev e))) := by
  intro hu
  have h4 : (Seen.io sid o :: (c.onMgr (.io sid o)).2.map fun e => Seen.ev (.ev e)) =
      [.io sid o] ++ (c.mgr.step (.io sid o)).2.1.map (fun e => Seen.ev (.ev (.mgr e))) := by
    simp [Function.comp_def, Cli.onMgr]
  rw [h4] at hu ⊢
  refine (h (usable_left hu)).other (.io sid o) (by simp) rfl rfl hu ?_ ?_ ?_ rfl
  · intro w hw; rw [List.mem_singleton.1 hw]; rfl
  · intro x; simp [inbox, inboxOf, given]
  · intro x; rfl

theorem record_fits (cfg : Cfg) (env : Env) (ops : List COp) (c : Cli)
    (h : (Props.Client.hist cfg env ops).1 = .live c) : Fits c (record cfg env ops) := by
  refine seen_inv fits_steps fits_io ops _ _ ?_ rfl c h
  intro _
  refine ⟨?_, rfl, ?_, ?_, ?_, ?_⟩
  · intro x s hs; cases hs
  · intro x s hs; cases hs
  · intro x s hs; cases hs
  · intro m hm
    rw [List.mem_singleton.1 hm]; exact calm_toArrow _ (by show ¬ (2 : UInt16) = 12; decide)
  · intro m hm; cases hm

end Verif.Tunnel
