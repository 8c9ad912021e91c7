import Verif.Lemmas.CMem
import Verif.Spec.Devices
/-!
# The list of devices in memory
-/
namespace Verif.Lemmas.Devices
open Verif Verif.CMem Verif.Devices Verif.Spec.Devices

/-- An element of a list in memory: its address, that of its name (0 if it has none), and the content. -/
structure Item where
  addr : Nat
  nm : Nat
  name : Option Bytes
  ip : Ip4
  mask : Ip4
  mac : MacAddr

def Item.dev (i : Item) (next : Nat) : NetDev := ⟨i.nm, i.ip, i.mask, i.mac, next⟩

def NameAt (objs : Nat → Option (Obj NetDev)) (nm : Nat) : Option Bytes → Prop
  | none => nm = 0
  | some s => nm ≠ 0 ∧ objs nm = some (.chars (text s))

def Item.cells (i : Item) : List Nat := i.addr :: (if i.name.isSome then [i.nm] else [])

def cells (l : List Item) : List Nat := l.flatMap Item.cells

/-- A list in memory that starts at `p`. -/
def Chain (objs : Nat → Option (Obj NetDev)) : Nat → List Item → Prop
  | p, [] => p = 0
  | p, i :: l => p = i.addr ∧ p ≠ 0 ∧ NameAt objs i.nm i.name ∧
    ∃ q, objs p = some (.struct (i.dev q)) ∧ Chain objs q l

theorem NameAt.congr {objs objs' : Nat → Option (Obj NetDev)} {nm : Nat} {n : Option Bytes} (h : NameAt objs nm n)
    (he : n.isSome = true → objs' nm = objs nm) : NameAt objs' nm n := by
  cases n with
  | none => exact h
  | some s => exact ⟨h.1, by rw [he rfl, h.2]⟩

theorem Chain.congr {objs objs' : Nat → Option (Obj NetDev)} {l : List Item} {p : Nat} (h : Chain objs p l)
    (he : ∀ a ∈ cells l, objs' a = objs a) : Chain objs' p l := by
  induction l generalizing p with
  | nil => exact h
  | cons i l ih =>
    obtain ⟨h1, h2, h3, q, h4, h5⟩ := h
    refine ⟨h1, h2, h3.congr fun hs => he _ ?_, q, ?_, ih h5 fun a ha => he a ?_⟩
    · simp [cells, Item.cells, hs]
    · rw [he p (by simp [cells, Item.cells, h1]), h4]
    · simp only [cells, List.flatMap_cons, List.mem_append]
      exact .inr ha

/-- All addresses of a list removed. -/
def wipe (objs : Nat → Option (Obj NetDev)) (l : List Nat) : Nat → Option (Obj NetDev) :=
  fun a => if a ∈ l then none else objs a

theorem wipe_nil (objs : Nat → Option (Obj NetDev)) : wipe objs [] = objs := by
  funext a; simp [wipe]

theorem wipe_cons (objs : Nat → Option (Obj NetDev)) (x : Nat) (l : List Nat) :
    wipe objs (x :: l) = wipe (put objs x none) l := by
  funext a
  unfold wipe put
  by_cases h1 : a ∈ l
  · simp [h1]
  · by_cases h2 : a = x <;> simp [h1, h2]

theorem freeLoop_wp (l : List Item) {h : Heap NetDev} {p k : Nat} (hk : l.length ≤ k) (hc : Chain h.objs p l)
    (hn : (cells l).Nodup) {Q : Unit → Heap NetDev → Prop} (hq : Q () { h with objs := wipe h.objs (cells l) }) :
    wp (freeLoop k p) h Q := by
  induction l generalizing h p k with
  | nil =>
    have hp : p = 0 := hc
    have e : cells [] = [] := rfl
    rw [e, wipe_nil] at hq
    cases k <;> (unfold freeLoop; rw [if_pos hp]; exact wp_pure hq)
  | cons i l ih =>
    obtain ⟨h1, h2, h3, q, h4, h5⟩ := hc
    cases k with
    | zero => simp at hk
    | succ k =>
      unfold freeLoop
      rw [if_neg h2]
      refine wp_bind (wp_struct h2 h4 ?_)
      have hn' : (i.cells ++ cells l).Nodup := hn
      obtain ⟨hn1, hn2, hn3⟩ := List.nodup_append.1 hn'
      have hk' : l.length ≤ k := by simpa using hk
      have hq' : Q () { h with objs := wipe h.objs (i.cells ++ cells l) } := hq
      cases hname : i.name with
      | none =>
        rw [hname] at h3
        have hz : i.nm = 0 := h3
        have ec : i.cells = [i.addr] := by simp [Item.cells, hname]
        rw [if_neg (show ¬ (i.dev q).name ≠ 0 from fun hn => hn hz)]
        refine wp_bind (wp_free h2 h4 ?_)
        refine ih hk' (h5.congr fun a ha => ?_) hn2 ?_
        · refine put_other _ _ ?_
          rw [h1]
          exact (hn3 i.addr (by rw [ec]; simp) a ha).symm
        · rw [ec, List.singleton_append, wipe_cons] at hq'
          rw [h1]
          exact hq'
      | some s =>
        rw [hname] at h3
        obtain ⟨hz, hs⟩ : i.nm ≠ 0 ∧ h.objs i.nm = some (.chars (text s)) := h3
        have ec : i.cells = [i.addr, i.nm] := by simp [Item.cells, hname]
        have hne : i.addr ≠ i.nm := by
          rw [ec] at hn1
          simpa using hn1
        rw [if_pos (show (i.dev q).name ≠ 0 from hz)]
        refine wp_bind (wp_free hz hs ?_)
        refine wp_bind (wp_free h2 (o := .struct (i.dev q)) ?_ ?_)
        · show put h.objs i.nm none p = _
          rw [put_other _ _ (by rw [h1]; exact hne), h4]
        · refine ih hk' (h5.congr fun a ha => ?_) hn2 ?_
          · show put (put h.objs i.nm none) p none a = _
            rw [put_other, put_other]
            · exact (hn3 i.nm (by rw [ec]; simp) a ha).symm
            · rw [h1]
              exact (hn3 i.addr (by rw [ec]; simp) a ha).symm
          · rw [ec] at hq'
            have hq'' : Q () { h with objs := wipe h.objs (i.addr :: i.nm :: cells l) } := hq'
            rw [wipe_cons, wipe_cons] at hq''
            dsimp only [Item.dev]
            rw [h1, put_comm _ _ _ (Ne.symm hne)]
            exact hq''

/-- Compared with `h0`, the only new blocks in `h` are those of the list `l` that starts at `p`. -/
structure Owns (h0 h : Heap NetDev) (p : Nat) (l : List Item) : Prop where
  wf : WF h
  chain : Chain h.objs p l
  nodup : (cells l).Nodup
  above : ∀ a ∈ cells l, h0.next ≤ a
  below : ∀ a ∈ cells l, a < h.next
  frame : ∀ a, a ∉ cells l → h.objs a = h0.objs a
  room : l.length ≤ h.next
  next : h0.next ≤ h.next
  answers : h.answers <:+ h0.answers
  held : h.held = h0.held

theorem Owns.refl {h : Heap NetDev} (hw : WF h) : Owns h h 0 [] :=
  ⟨hw, rfl, List.nodup_nil, nofun, nofun, fun _ _ => rfl, Nat.zero_le _, Nat.le_refl _, List.suffix_refl _, rfl⟩

theorem Owns.nil {h0 h : Heap NetDev} {p : Nat} (ho : Owns h0 h p []) : h.objs = h0.objs := by
  funext a
  exact ho.frame a (by simp [cells])

theorem Owns.wiped {h0 h : Heap NetDev} {p : Nat} {l : List Item} (hw : WF h0) (ho : Owns h0 h p l) :
    wipe h.objs (cells l) = h0.objs := by
  funext a
  unfold wipe
  split
  · next hm => exact (hw.fresh a (ho.above a hm)).symm
  · next hm => exact ho.frame a hm

theorem wf_same {h h' : Heap NetDev} (hw : WF h) (hn : h.next ≤ h'.next) (ho : h'.objs = h.objs) : WF h' :=
  ⟨Nat.lt_of_lt_of_le hw.pos hn, by rw [ho]; exact hw.zero, fun a ha => by rw [ho]; exact hw.fresh a (Nat.le_trans hn ha)⟩

/-- Freeing a list restores the blocks there were before. -/
theorem freeDeviceList_wp {h0 h : Heap NetDev} {p : Nat} {l : List Item} (hw : WF h0) (ho : Owns h0 h p l)
    {Q : Unit → Heap NetDev → Prop} (hq : Owns h0 { h with objs := h0.objs } 0 [] → Q () { h with objs := h0.objs }) :
    wp (freeDeviceList p) h Q := by
  refine freeLoop_wp l ho.room ho.chain ho.nodup ?_
  rw [ho.wiped hw]
  exact hq ⟨wf_same hw ho.next rfl, rfl, List.nodup_nil, nofun, nofun, fun _ _ => rfl, Nat.zero_le _, ho.next, ho.answers, ho.held⟩

theorem infoErr_wp {h0 h : Heap NetDev} {p : Nat} {l : List Item} (hw : WF h0) (ho : Owns h0 h p l)
    {Q : Nat → Heap NetDev → Prop} (hq : Owns h0 { h with objs := h0.objs } 0 [] → Q 0 { h with objs := h0.objs }) :
    wp (infoErr p) h Q :=
  wp_bind (freeDeviceList_wp hw ho fun ho' => wp_pure (hq ho'))

/-- Changing the content of a list of one element. -/
theorem Owns.set {h0 h : Heap NetDev} {p : Nat} {i i' : Item} (ho : Owns h0 h p [i]) (ha : i'.addr = i.addr)
    (hn : i'.nm = i.nm) (hm : i'.name = i.name) (hd : i.name.isSome → i.addr ≠ i.nm) (q : Nat) (hq : q = 0) :
    Owns h0 { h with objs := put h.objs p (some (.struct (i'.dev q))) } p [i'] := by
  have ec : cells [i'] = cells [i] := by simp [cells, Item.cells, ha, hn, hm]
  obtain ⟨h1, h2, h3, q', h4, h5⟩ := ho.chain
  have hpc : p ∈ cells [i] := by simp [cells, Item.cells, h1]
  refine ⟨⟨ho.wf.pos, ?_, fun a h' => ?_⟩, ?_, by rw [ec]; exact ho.nodup, by rw [ec]; exact ho.above,
    by rw [ec]; exact ho.below, fun a hna => ?_, ho.room, ho.next, ho.answers, ho.held⟩
  · show put h.objs p _ 0 = none
    rw [put_other _ _ (Ne.symm h2)]
    exact ho.wf.zero
  · show put h.objs p _ a = none
    rw [put_other _ _ (by intro e; rw [e] at h'; exact absurd (ho.below p hpc) (Nat.not_lt.2 h'))]
    exact ho.wf.fresh a h'
  · refine ⟨by rw [ha]; exact h1, h2, ?_, q, put_same .., hq⟩
    rw [hn, hm]
    refine h3.congr fun hs => put_other _ _ ?_
    rw [h1]
    exact Ne.symm (hd hs)
  · rw [ec] at hna
    show put h.objs p _ a = _
    rw [put_other _ _ (by intro e; exact hna (e ▸ hpc))]
    exact ho.frame a hna

/-! ## One device -/

/-- The element for an interface. -/
def Item.of (a nm : Nat) (v : Interface) : Item := ⟨a, nm, some v.name, v.ip, v.mask, v.mac⟩

theorem headD_tail (l : List Bool) : l.tail <:+ l := List.tail_suffix l

/-- A device without a name. -/
theorem Owns.unnamed {h h' : Heap NetDev} (hw : WF h)
    (ho : h'.objs = put h.objs h.next (some (.struct ⟨0, zero4, zero4, zero6, 0⟩))) (hn : h'.next = h.next + 1)
    (ha : h'.answers <:+ h.answers) (hh : h'.held = h.held) : Owns h h' h.next [⟨h.next, 0, none, zero4, zero4, zero6⟩] := by
  have hp := hw.pos
  have h0 : h.next ≠ 0 := Nat.pos_iff_ne_zero.1 hp
  have ec : cells [⟨h.next, 0, none, zero4, zero4, zero6⟩] = [h.next] := rfl
  refine ⟨⟨by omega, ?_, fun a h'' => ?_⟩, ⟨rfl, h0, rfl, 0, ?_, rfl⟩, by rw [ec]; simp, by rw [ec]; simp,
    by rw [ec, hn]; simp, fun a hna => ?_, by simp; omega, by omega, ha, hh⟩
  · rw [ho, put_other _ _ (Ne.symm h0)]; exact hw.zero
  · rw [ho, put_other _ _ (by omega)]; exact hw.fresh a (by omega)
  · rw [ho, put_same]; rfl
  · rw [ec] at hna
    rw [ho, put_other _ _ (by simpa using hna)]

/-- A device with a name. -/
theorem Owns.named {h h' : Heap NetDev} (hw : WF h) (i : Item) (s : Bytes) (hi1 : i.addr = h.next)
    (hi2 : i.nm = h.next + 1) (hi3 : i.name = some s)
    (ho : h'.objs = put (put h.objs (h.next + 1) (some (.chars (text s)))) h.next (some (.struct (i.dev 0))))
    (hn : h'.next = h.next + 2) (ha : h'.answers <:+ h.answers) (hh : h'.held = h.held) : Owns h h' h.next [i] := by
  have hp := hw.pos
  have h0 : h.next ≠ 0 := Nat.pos_iff_ne_zero.1 hp
  have ec : cells [i] = [h.next, h.next + 1] := by simp [cells, Item.cells, hi1, hi2, hi3]
  refine ⟨⟨by omega, ?_, fun a h'' => ?_⟩, ⟨hi1.symm, h0, ?_, 0, ?_, rfl⟩, by rw [ec]; simp, by rw [ec]; simp,
    by rw [ec, hn]; simp, fun a hna => ?_, by simp; omega, by omega, ha, hh⟩
  · rw [ho, put_other _ _ (Ne.symm h0), put_other _ _ (by omega)]; exact hw.zero
  · rw [ho, put_other _ _ (by omega), put_other _ _ (by omega)]; exact hw.fresh a (by omega)
  · rw [hi3, hi2]
    refine ⟨by omega, ?_⟩
    rw [ho, put_other _ _ (by omega), put_same]
  · rw [ho, put_same]
  · rw [ec] at hna
    simp only [List.mem_cons, List.not_mem_nil, or_false, not_or] at hna
    rw [ho, put_other _ _ hna.1, put_other _ _ hna.2]

/-- What a function for the MAC address does. -/
def MacSpec (getMac : Nat → Nat → Prog NetDev Bool) (mac : Bytes → Option MacAddr) : Prop :=
  ∀ (s : Bytes) (nm dev : Nat) (d : NetDev) (h : Heap NetDev) (Q : Bool → Heap NetDev → Prop), nm ≠ 0 → dev ≠ 0 →
    h.objs nm = some (.chars (text s)) → (0 : UInt8) ∉ s → s.length ≤ 15 → h.objs dev = some (.struct d) →
    (mac s = none → Q false h) →
    (∀ m, mac s = some m → Q true { h with objs := put h.objs dev (some (.struct { d with mac := m })) }) →
    wp (getMac nm dev) h Q

theorem macSpec_linux (sys : Linux) : MacSpec (macLinux sys) (etherLinux sys.hwaddr) := by
  intro s nm dev d h Q hnm hdev ho hs hl hd hno hok
  have ho' : h.objs nm = some (.chars (text s ++ [])) := by rw [List.append_nil]; exact ho
  refine wp_bind (wp_cstr hnm ho' hs ?_)
  rw [List.take_of_length_le hl]
  unfold etherLinux at hno hok
  cases hx : sys.hwaddr s with
  | none => exact wp_pure (hno (by rw [hx]))
  | some x =>
    obtain ⟨f, m⟩ := x
    rw [hx] at hno hok
    dsimp only
    by_cases hf : f = arphrdEther
    · rw [if_pos hf]
      refine wp_bind (wp_update hdev hd (wp_pure (hok m ?_)))
      rw [hf]; rfl
    · rw [if_neg hf]
      refine wp_pure (hno ?_)
      split
      · next he => cases he; exact absurd rfl hf
      · rfl

theorem macOf_eq (name : Bytes) (es : List IfAddr) : macOf name es = etherMacos es name := by
  unfold etherMacos
  induction es with
  | nil => rfl
  | cons e es ih =>
    unfold macOf
    rw [ih, List.filterMap_cons]
    unfold linkOf
    split
    · next type alen mac he =>
      dsimp only [iftEther]
      by_cases h1 : e.name = name
      · by_cases h2 : type = 6
        · by_cases h3 : alen = 6
          · simp [he, h1, h2, h3]
          · simp [he, h1, h2, h3]
        · simp [he, h1, h2]
      · simp [he, h1]
    · next hne =>
      cases hx : e.addr with
      | none => simp
      | some a =>
        cases a with
        | link t l m => exact absurd hx (hne t l m)
        | inet a => simp
        | other => simp

theorem macSpec_macos (es : List IfAddr) : MacSpec (macMacos es) (etherMacos es) := by
  intro s nm dev d h Q hnm hdev ho hs hl hd hno hok
  have ho' : h.objs nm = some (.chars (text s ++ [])) := by rw [List.append_nil]; exact ho
  refine wp_bind (wp_cstr hnm ho' hs ?_)
  rw [macOf_eq]
  cases hx : etherMacos es s with
  | none => exact wp_pure (hno hx)
  | some m => exact wp_bind (wp_update hdev hd (wp_pure (hok m hx)))

theorem ipv4_wp {addr : SockAddr} {put : Ip4 → Prog NetDev Unit} {h : Heap NetDev} {Q : Bool → Heap NetDev → Prop}
    (hno : (∀ a, addr ≠ .inet a) → Q false h) (hok : ∀ a, addr = .inet a → wp (put a) h fun _ h' => Q true h') :
    wp (getIpv4Record (some addr) put) h Q := by
  cases addr with
  | inet a => exact wp_bind (wp_mono (hok a rfl) fun _ _ h => wp_pure h)
  | link t l m => exact wp_pure (hno nofun)
  | other => exact wp_pure (hno nofun)

theorem deviceInfo_wp {getMac : Nat → Nat → Prog NetDev Bool} {mac : Bytes → Option MacAddr} (hm : MacSpec getMac mac)
    {h : Heap NetDev} (hw : WF h) (e : IfAddr) (hn : Named e) (ha : e.addr ≠ none) (hb : ¬ Maskless mac e)
    {Q : Nat → Heap NetDev → Prop}
    (hno : ∀ h', Owns h h' 0 [] → (interface mac e = none ∨ false ∈ h.answers) → Q 0 h')
    (hok : ∀ h' p nm v, interface mac e = some v → Owns h h' p [Item.of p nm v] → Q p h') :
    wp (deviceInfo getMac e) h Q := by
  have h0 : h.next ≠ 0 := Nat.pos_iff_ne_zero.1 hw.pos
  have hp := hw.pos
  unfold deviceInfo
  refine wp_bind (wp_alloc (fun hans => ?_) (fun hans => ?_))
  case refine_2 =>
    rw [if_pos rfl]
    refine wp_pure (hno _ ?_ (.inr hans))
    exact ⟨wf_same hw (Nat.le_refl _) rfl, rfl, List.nodup_nil, nofun, nofun, fun _ _ => rfl, Nat.zero_le _, Nat.le_refl _,
      headD_tail _, rfl⟩
  have ho1 := Owns.unnamed (h' := { h with
    objs := put h.objs h.next (some (.struct ⟨0, zero4, zero4, zero6, 0⟩)), next := h.next + 1,
    answers := h.answers.tail }) hw rfl rfl (headD_tail _) rfl
  rw [if_neg h0]
  refine wp_bind (wp_stringDup ho1.wf ?_ (fun hans' => ?_))
  case refine_2 =>
    refine wp_bind (wp_update (s := ⟨0, zero4, zero4, zero6, 0⟩) h0 (put_same ..) ?_)
    rw [if_pos rfl]
    have ho2 := Owns.unnamed (h' := { h with
      objs := put h.objs h.next (some (.struct ⟨0, zero4, zero4, zero6, 0⟩)), next := h.next + 1,
      answers := h.answers.tail.tail }) hw rfl rfl
      (List.IsSuffix.trans (headD_tail _) (headD_tail _)) rfl
    dsimp only
    rw [put_put]
    refine infoErr_wp hw ho2 fun ho3 => hno _ ho3 (.inr ?_)
    exact (headD_tail _).subset hans'
  refine wp_bind (wp_update (s := ⟨0, zero4, zero4, zero6, 0⟩) h0 ?_ ?_)
  · show put (put h.objs h.next _) (h.next + 1) _ h.next = _
    rw [put_other _ _ (by omega), put_same]
  rw [if_neg (by show ¬ h.next + 1 = 0; omega)]
  -- the heap with a name
  have hs2 : h.answers.tail.tail <:+ h.answers := List.IsSuffix.trans (headD_tail _) (headD_tail _)
  have mk : ∀ (ip mask : Ip4) (mc : MacAddr), Owns h
      { h with
        objs := put (put h.objs (h.next + 1) (some (.chars (text e.name)))) h.next
          (some (.struct ⟨h.next + 1, ip, mask, mc, 0⟩))
        next := h.next + 2
        answers := h.answers.tail.tail } h.next [⟨h.next, h.next + 1, some e.name, ip, mask, mc⟩] := by
    intro ip mask mc
    exact Owns.named hw _ e.name rfl rfl rfl rfl rfl hs2 rfl
  have eobj : put (put (put h.objs h.next (some (.struct ⟨0, zero4, zero4, zero6, 0⟩))) (h.next + 1)
      (some (.chars (text e.name)))) h.next (some (.struct ⟨h.next + 1, zero4, zero4, zero6, 0⟩)) =
      put (put h.objs (h.next + 1) (some (.chars (text e.name)))) h.next
        (some (.struct ⟨h.next + 1, zero4, zero4, zero6, 0⟩)) := by
    rw [put_comm h.objs _ _ (by omega), put_put]
  dsimp only
  rw [eobj]
  refine wp_bind (hm e.name (h.next + 1) h.next ⟨h.next + 1, zero4, zero4, zero6, 0⟩ _ _ (by omega) h0 ?_ hn.1 hn.2
    (put_same ..) (fun hnone => ?_) (fun mc hsome => ?_))
  · show put _ h.next _ (h.next + 1) = _
    rw [put_other _ _ (by omega), put_same]
  · rw [if_neg (by decide)]
    refine infoErr_wp hw (mk zero4 zero4 zero6) fun ho3 => hno _ ho3 (.inl ?_)
    simp [interface, hnone]
  rw [if_pos rfl]
  dsimp only
  rw [put_put]
  obtain ⟨sa, hsa⟩ : ∃ sa, e.addr = some sa := by
    cases hx : e.addr with
    | none => exact absurd hx ha
    | some sa => exact ⟨sa, rfl⟩
  unfold infoAddrs
  rw [hsa]
  refine wp_bind (ipv4_wp (fun hna => ?_) (fun a hin => ?_))
  · rw [if_neg (by decide)]
    refine infoErr_wp hw (mk zero4 zero4 mc) fun ho3 => hno _ ho3 (.inl ?_)
    unfold interface
    rw [hsome, hsa]
    split
    · next he _ => cases he; exact absurd rfl (hna _)
    · rfl
  refine wp_update (s := ⟨h.next + 1, zero4, zero4, mc, 0⟩) h0 (put_same ..) ?_
  rw [if_pos rfl]
  dsimp only
  rw [put_put]
  obtain ⟨sm, hsm⟩ : ∃ sm, e.netmask = some sm := by
    cases hx : e.netmask with
    | none => exact absurd ⟨by rw [hsome]; rfl, ⟨a, by rw [hsa, hin]⟩, hx⟩ hb
    | some sm => exact ⟨sm, rfl⟩
  rw [hsm]
  refine wp_bind (ipv4_wp (fun hna => ?_) (fun k hin' => ?_))
  · rw [if_neg (by decide)]
    refine infoErr_wp hw (mk a zero4 mc) fun ho3 => hno _ ho3 (.inl ?_)
    unfold interface
    rw [hsome, hsa, hsm]
    split
    · next he => cases he; exact absurd rfl (hna _)
    · rfl
  refine wp_update (s := ⟨h.next + 1, a, zero4, mc, 0⟩) h0 (put_same ..) ?_
  rw [if_pos rfl]
  dsimp only
  rw [put_put]
  refine wp_pure (hok _ h.next (h.next + 1) ⟨e.name, mc, a, k⟩ ?_ (mk a k mc))
  unfold interface
  rw [hsome, hsa, hsm, hin, hin']

/-! ## Lists of devices -/

/-- What an element says. -/
def Item.val (i : Item) : Option Bytes × MacAddr × Ip4 × Ip4 := (i.name, i.mac, i.ip, i.mask)

def ival (v : Interface) : Option Bytes × MacAddr × Ip4 × Ip4 := (some v.name, v.mac, v.ip, v.mask)

theorem cells_cons (i : Item) (l : List Item) : cells (i :: l) = cells [i] ++ cells l := by
  simp [cells]

theorem Owns.cons {h0 h h' : Heap NetDev} {p q : Nat} {l : List Item} {i : Item} (ho : Owns h0 h q l)
    (hi : Owns h h' p [i]) (hd : i.name.isSome → i.addr ≠ i.nm) :
    Owns h0 { h' with objs := put h'.objs p (some (.struct (i.dev q))) } p (i :: l) := by
  obtain ⟨h1, h2, h3, q', h4, h5⟩ := hi.chain
  have hpc : p ∈ cells [i] := by simp [cells, Item.cells, h1]
  have hsep : ∀ a ∈ cells l, a ∉ cells [i] := fun a ha hm =>
    absurd (ho.below a ha) (Nat.not_lt.2 (hi.above a hm))
  have hout : ∀ a, a ∉ cells [i] → put h'.objs p (some (.struct (i.dev q))) a = h.objs a := by
    intro a ha
    rw [put_other _ _ (by intro e; rw [e] at ha; exact ha hpc)]
    exact hi.frame a ha
  refine ⟨⟨hi.wf.pos, ?_, fun a ha => ?_⟩, ⟨h1, h2, ?_, q, put_same .., ?_⟩, ?_, ?_, ?_, ?_, ?_,
    Nat.le_trans ho.next hi.next, hi.answers.trans ho.answers, hi.held.trans ho.held⟩
  · show put h'.objs p _ 0 = none
    rw [put_other _ _ (Ne.symm h2)]
    exact hi.wf.zero
  · show put h'.objs p _ a = none
    rw [put_other _ _ (by intro e; rw [e] at ha; exact absurd (hi.below p hpc) (Nat.not_lt.2 ha))]
    exact hi.wf.fresh a ha
  · exact h3.congr fun hs => put_other _ _ (by rw [h1]; exact Ne.symm (hd hs))
  · exact ho.chain.congr fun a ha => hout a (hsep a ha)
  · rw [cells_cons]
    refine List.nodup_append.2 ⟨hi.nodup, ho.nodup, fun a ha b hb e => ?_⟩
    exact hsep b hb (e ▸ ha)
  · intro a ha
    rw [cells_cons, List.mem_append] at ha
    rcases ha with ha | ha
    · exact Nat.le_trans ho.next (hi.above a ha)
    · exact ho.above a ha
  · intro a ha
    rw [cells_cons, List.mem_append] at ha
    rcases ha with ha | ha
    · exact hi.below a ha
    · exact Nat.lt_of_lt_of_le (ho.below a ha) hi.next
  · intro a ha
    rw [cells_cons, List.mem_append, not_or] at ha
    exact (hout a ha.1).trans (ho.frame a ha.2)
  · have h6 := hi.above p hpc
    have h7 := hi.below p hpc
    have h8 := ho.room
    simp only [List.length_cons]
    omega

theorem Owns.none {h0 h h' : Heap NetDev} {p : Nat} {l : List Item} (ho : Owns h0 h p l) (hi : Owns h h' 0 []) :
    Owns h0 h' p l := by
  have e := hi.nil
  exact ⟨hi.wf, by rw [e]; exact ho.chain, ho.nodup, ho.above,
    fun a ha => Nat.lt_of_lt_of_le (ho.below a ha) hi.next, fun a ha => by rw [e]; exact ho.frame a ha,
    Nat.le_trans ho.room hi.next, Nat.le_trans ho.next hi.next, hi.answers.trans ho.answers, hi.held.trans ho.held⟩

theorem Owns.distinct {h0 h : Heap NetDev} {p : Nat} {i : Item} (ho : Owns h0 h p [i]) :
    i.name.isSome → i.addr ≠ i.nm := by
  intro hs e
  have := ho.nodup
  simp [cells, Item.cells, hs, e] at this

theorem findLoop_wp {getMac : Nat → Nat → Prog NetDev Bool} {mac : Bytes → Option MacAddr} (hm : MacSpec getMac mac)
    {skip : IfAddr → Bool} {h0 : Heap NetDev} (es : List IfAddr) (hn : ∀ e ∈ es, Named e)
    (hs1 : ∀ e ∈ es, skip e = true → interface mac e = none) (hs2 : ∀ e ∈ es, skip e = false → e.addr ≠ none)
    (hb : ∀ e ∈ es, ¬ Maskless mac e) {h : Heap NetDev} {p : Nat} {l : List Item} (ho : Owns h0 h p l)
    {Q : Nat → Heap NetDev → Prop}
    (hq : ∀ h' p' l' vs, Owns h0 h' p' l' → vs.Sublist (es.filterMap (interface mac)) →
      l'.map Item.val = vs.reverse.map ival ++ l.map Item.val →
      (false ∉ h.answers → vs = es.filterMap (interface mac)) → Q p' h') :
    wp (findLoop skip getMac es p) h Q := by
  induction es generalizing h p l with
  | nil => exact wp_pure (hq h p l [] ho (List.Sublist.refl _) rfl fun _ => rfl)
  | cons e es ih =>
    have ih' := @ih (fun x hx => hn x (List.mem_cons_of_mem _ hx)) (fun x hx => hs1 x (List.mem_cons_of_mem _ hx))
      (fun x hx => hs2 x (List.mem_cons_of_mem _ hx)) (fun x hx => hb x (List.mem_cons_of_mem _ hx))
    unfold findLoop
    by_cases hsk : skip e = true
    · rw [if_pos hsk]
      have hi := hs1 e (List.mem_cons_self ..) hsk
      refine ih' ho fun h' p' l' vs h1 h2 h3 h4 => hq h' p' l' vs h1 ?_ h3 ?_
      · rw [List.filterMap_cons, hi]; exact h2
      · rw [List.filterMap_cons, hi]; exact h4
    · rw [if_neg hsk]
      have hsk' : skip e = false := by simpa using hsk
      refine wp_bind (deviceInfo_wp hm ho.wf e (hn e (List.mem_cons_self ..)) (hs2 e (List.mem_cons_self ..) hsk')
        (hb e (List.mem_cons_self ..)) (fun h' h1 h2 => ?_) (fun h' p' nm v h1 h2 => ?_))
      · rw [if_pos rfl]
        refine ih' (ho.none h1) fun h'' p' l' vs h3 h4 h5 h6 => hq h'' p' l' vs h3 ?_ h5 (fun hf => ?_)
        · rw [List.filterMap_cons]
          split
          · exact h4
          · exact h4.cons _
        · have hi : interface mac e = none := h2.resolve_right hf
          rw [List.filterMap_cons, hi]
          exact h6 fun hf' => hf (h1.answers.subset hf')
      · obtain ⟨k1, k2, k3, q', k4, k5⟩ := h2.chain
        rw [if_neg k2]
        refine wp_bind (wp_update k2 k4 ?_)
        refine ih' (ho.cons h2 h2.distinct) fun h'' p'' l' vs h3 h4 h5 h6 => hq h'' p'' l' (v :: vs) h3 ?_ ?_ (fun hf => ?_)
        · rw [List.filterMap_cons, h1]; exact h4.cons_cons _
        · rw [h5]
          simp [Item.val, ival, Item.of]
        · rw [List.filterMap_cons, h1]
          exact congrArg _ (h6 fun hf' => hf (h2.answers.subset hf'))

theorem listLoop_wp {h : Heap NetDev} (l : List Item) (vs : List Interface) {p k : Nat} (hk : l.length ≤ k)
    (hc : Chain h.objs p l) (hv : l.map Item.val = vs.map ival) (hz : ∀ v ∈ vs, (0 : UInt8) ∉ v.name)
    {Q : List Interface → Heap NetDev → Prop} (hq : Q vs h) : wp (listLoop k p) h Q := by
  induction l generalizing p k vs Q with
  | nil =>
    have hp : p = 0 := hc
    have hvs : vs = [] := by simpa using hv.symm
    subst hvs
    cases k <;> (unfold listLoop; rw [if_pos hp]; exact wp_pure hq)
  | cons i l ih =>
    obtain ⟨h1, h2, h3, q, h4, h5⟩ := hc
    cases vs with
    | nil => simp at hv
    | cons v vs =>
      obtain ⟨hv1, hv2⟩ := List.cons.inj hv
      obtain ⟨e1, e2⟩ := Prod.mk.inj hv1
      obtain ⟨e2, e3⟩ := Prod.mk.inj e2
      obtain ⟨e3, e4⟩ := Prod.mk.inj e3
      cases k with
      | zero => simp at hk
      | succ k =>
        unfold listLoop
        rw [if_neg h2]
        rw [e1] at h3
        have hs : h.objs i.nm = some (.chars (text v.name ++ [])) := by rw [List.append_nil]; exact h3.2
        refine wp_bind (wp_bind (wp_struct h2 h4 (wp_bind (wp_cstr h3.1 hs (hz v (List.mem_cons_self ..)) (wp_pure ?_)))))
        refine wp_bind (wp_struct h2 h4 ?_)
        refine wp_bind (ih vs (by simpa using hk) h5 hv2 (fun x hx => hz x (List.mem_cons_of_mem _ hx)) (wp_pure ?_))
        dsimp only [Item.dev]
        rw [e2, e3, e4]
        exact hq

/-- The list as the caller sees it, once `net_find_devices` has made it. -/
theorem list_wp {find : Prog NetDev Nat} {h0 : Heap NetDev} (hw : WF h0) {Q : List Interface → Heap NetDev → Prop}
    (hf : wp find h0 fun p h => ∃ l vs, Owns h0 h p l ∧ l.map Item.val = vs.map ival ∧
      (∀ v ∈ vs, (0 : UInt8) ∉ v.name) ∧ ∀ h', Same h0 h' → Q vs h') : wp (list find) h0 Q := by
  refine wp_bind (wp_mono hf ?_)
  rintro p h ⟨l, vs, ho, hv, hz, hq⟩
  refine wp_bind (p := fun h => listLoop h.next p h) ?_
  have := listLoop_wp (Q := fun a h' => wp (do freeDeviceList p; pure a : Prog NetDev (List Interface)) h' Q) l vs ho.room
    ho.chain hv hz ?_
  · exact this
  · exact wp_bind (freeDeviceList_wp hw ho fun ho' => wp_pure (hq _ ⟨rfl, ho.held⟩))

/-! ## An entry without a mask -/

theorem deviceInfo_faults {getMac : Nat → Nat → Prog NetDev Bool} {mac : Bytes → Option MacAddr} (hm : MacSpec getMac mac)
    {h : Heap NetDev} (hw : WF h) (e : IfAddr) (hn : Named e) (hb : Maskless mac e) (hf : false ∉ h.answers) :
    deviceInfo getMac e h = .fault .null := by
  have h0 : h.next ≠ 0 := Nat.pos_iff_ne_zero.1 hw.pos
  obtain ⟨hb1, ⟨a, hb2⟩, hb3⟩ := hb
  have ho1 := Owns.unnamed (h' := { h with
    objs := put h.objs h.next (some (.struct ⟨0, zero4, zero4, zero6, 0⟩)), next := h.next + 1,
    answers := h.answers.tail }) hw rfl rfl (headD_tail _) rfl
  unfold deviceInfo
  refine wp_faults (wp_alloc (fun hans => ?_) (fun hans => absurd hans hf))
  rw [if_neg h0]
  refine wp_faults (wp_stringDup ho1.wf ?_ (fun hans' => absurd ((headD_tail _).subset hans') hf))
  refine wp_faults (wp_update (s := ⟨0, zero4, zero4, zero6, 0⟩) h0 ?_ ?_)
  · show put (put h.objs h.next _) (h.next + 1) _ h.next = _
    rw [put_other _ _ (by omega), put_same]
  rw [if_neg (by show ¬ h.next + 1 = 0; omega)]
  refine wp_faults (hm e.name (h.next + 1) h.next ⟨h.next + 1, zero4, zero4, zero6, 0⟩ _ _ (by omega) h0 ?_ hn.1 hn.2
    (put_same ..) (fun hnone => ?_) (fun mc hsome => ?_))
  · show put (put (put _ _ _) (h.next + 1) _) h.next _ (h.next + 1) = _
    rw [put_other _ _ (by omega), put_same]
  · rw [hnone] at hb1; cases hb1
  rw [if_pos rfl]
  unfold infoAddrs
  rw [hb2, hb3]
  refine wp_faults (ipv4_wp (fun hna => absurd rfl (hna a)) (fun a' hin => ?_))
  refine wp_update h0 (put_same ..) ?_
  rw [if_pos rfl]
  exact faults_bind rfl

theorem findLoop_faults {getMac : Nat → Nat → Prog NetDev Bool} {mac : Bytes → Option MacAddr} (hm : MacSpec getMac mac)
    {skip : IfAddr → Bool} {h0 : Heap NetDev} (es : List IfAddr) (hn : ∀ e ∈ es, Named e)
    (hs2 : ∀ e ∈ es, skip e = false → e.addr ≠ none) (hs3 : ∀ e ∈ es, skip e = true → ¬ Maskless mac e)
    (hb : ∃ e ∈ es, Maskless mac e) {h : Heap NetDev} {p : Nat} {l : List Item} (ho : Owns h0 h p l)
    (hf : false ∉ h.answers) : findLoop skip getMac es p h = .fault .null := by
  induction es generalizing h p l with
  | nil => obtain ⟨e, he, -⟩ := hb; cases he
  | cons e es ih =>
    have ih' := @ih (fun x hx => hn x (List.mem_cons_of_mem _ hx)) (fun x hx => hs2 x (List.mem_cons_of_mem _ hx))
      (fun x hx => hs3 x (List.mem_cons_of_mem _ hx))
    unfold findLoop
    by_cases hsk : skip e = true
    · rw [if_pos hsk]
      refine ih' ?_ ho hf
      obtain ⟨x, hx, hb⟩ := hb
      rcases List.mem_cons.1 hx with rfl | hx
      · exact absurd hb (hs3 _ (List.mem_cons_self ..) hsk)
      · exact ⟨x, hx, hb⟩
    · rw [if_neg hsk]
      have hsk' : skip e = false := by simpa using hsk
      by_cases hbe : Maskless mac e
      · exact faults_bind (deviceInfo_faults hm ho.wf e (hn e (List.mem_cons_self ..)) hbe hf)
      · have hb' : ∃ x ∈ es, Maskless mac x := by
          obtain ⟨x, hx, hb⟩ := hb
          rcases List.mem_cons.1 hx with rfl | hx
          · exact absurd hb hbe
          · exact ⟨x, hx, hb⟩
        refine wp_faults (deviceInfo_wp hm ho.wf e (hn e (List.mem_cons_self ..)) (hs2 e (List.mem_cons_self ..) hsk')
          hbe (fun h' h1 h2 => ?_) (fun h' p' nm v h1 h2 => ?_))
        · rw [if_pos rfl]
          exact ih' hb' (ho.none h1) fun hf' => hf (h1.answers.subset hf')
        · obtain ⟨k1, k2, k3, q', k4, k5⟩ := h2.chain
          rw [if_neg k2]
          refine wp_faults (wp_update k2 k4 ?_)
          exact ih' hb' (ho.cons h2 h2.distinct) fun hf' => hf (h2.answers.subset hf')

/-! ## Windows -/

theorem findUnicast_eq (us : List (SockAddr × UInt8)) :
    findUnicast us = (firstIpv4 us).map fun x => (.inet x.1, UInt8.ofNat x.2) := by
  unfold firstIpv4
  induction us with
  | nil => rfl
  | cons u us ih =>
    obtain ⟨s, n⟩ := u
    cases s with
    | inet a => simp [findUnicast]
    | link t l m => simpa [findUnicast] using ih
    | other => simpa [findUnicast] using ih

theorem firstIpv4_lt {us : List (SockAddr × UInt8)} {a : Ip4} {n : Nat} (h : firstIpv4 us = some (a, n)) : n < 256 := by
  unfold firstIpv4 at h
  have hm := List.mem_of_head? h
  obtain ⟨u, -, hu⟩ := List.mem_filterMap.1 hm
  obtain ⟨s, k⟩ := u
  cases s with
  | inet b =>
    simp only [Option.some.injEq, Prod.mk.injEq] at hu
    rw [← hu.2]
    exact k.toNat_lt
  | link t l m => simp at hu
  | other => simp at hu

theorem wanted_iff (a : Adapter) : a.wanted = true ↔ Wanted a := by
  unfold Adapter.wanted Wanted
  rw [findUnicast_eq]
  simp [and_assoc]

/-- The network mask of a prefix. -/
def prefixMask (n : Nat) : Ip4 :=
  match maskLoop 4 n with
  | some [a, b, c, d] => ⟨a, b, c, d⟩
  | _ => zero4

theorem maskLoop_four : ∀ n : Fin 32, maskLoop 4 n.val =
    some [(prefixMask n.val).a, (prefixMask n.val).b, (prefixMask n.val).c, (prefixMask n.val).d] := by decide +kernel

theorem prefixMask_number : ∀ n : Fin 32, number (prefixMask n.val) = 2 ^ 32 - 2 ^ (32 - n.val) := by decide +kernel

theorem setNetmask_wp {n : Nat} (hn : n < 32) {dev : Nat} {d : NetDev} {h : Heap NetDev} {Q : Unit → Heap NetDev → Prop}
    (h0 : dev ≠ 0) (ho : h.objs dev = some (.struct d))
    (hq : Q () { h with objs := put h.objs dev (some (.struct { d with mask := prefixMask n })) }) :
    wp (setNetmask (UInt8.ofNat n) dev) h Q := by
  unfold setNetmask
  have e : (UInt8.ofNat n).toNat = n := by simp; omega
  rw [e, maskLoop_four ⟨n, hn⟩]
  exact wp_update h0 ho hq

/-- The element made for an adapter. -/
def Item.adapter (p nm : Nat) (name : Option Bytes) (a : Adapter) (ip : Ip4) (n : Nat) : Item :=
  ⟨p, nm, name, ip, prefixMask n, a.phys⟩

theorem deviceInfoWindows_wp {h : Heap NetDev} (hw : WF h) (a : Adapter) (ip : Ip4) (n : Nat)
    (hu : firstIpv4 a.unicast = some (ip, n)) (hn : n < 32) {Q : Nat → Heap NetDev → Prop}
    (hno : ∀ h', Owns h h' 0 [] → false ∈ h.answers → Q 0 h')
    (hok : ∀ h' p nm name, Owns h h' p [Item.adapter p nm name a ip n] → (name = some a.name ∨ name = none) →
      (false ∉ h.answers → name = some a.name) → Q p h') :
    wp (deviceInfoWindows a) h Q := by
  have h0 : h.next ≠ 0 := Nat.pos_iff_ne_zero.1 hw.pos
  have hp := hw.pos
  have hu' : findUnicast a.unicast = some (.inet ip, UInt8.ofNat n) := by rw [findUnicast_eq, hu]; rfl
  have hs2 : h.answers.tail.tail <:+ h.answers := List.IsSuffix.trans (headD_tail _) (headD_tail _)
  unfold deviceInfoWindows
  refine wp_bind (wp_alloc (fun hans => ?_) (fun hans => ?_))
  case refine_2 =>
    rw [if_pos rfl]
    refine wp_pure (hno _ ?_ hans)
    exact ⟨wf_same hw (Nat.le_refl _) rfl, rfl, List.nodup_nil, nofun, nofun, fun _ _ => rfl, Nat.zero_le _, Nat.le_refl _,
      headD_tail _, rfl⟩
  have ho1 := Owns.unnamed (h' := { h with
    objs := put h.objs h.next (some (.struct ⟨0, zero4, zero4, zero6, 0⟩)), next := h.next + 1,
    answers := h.answers.tail }) hw rfl rfl (headD_tail _) rfl
  rw [if_neg h0]
  refine wp_bind (wp_stringDup ho1.wf ?_ (fun hans' => ?_))
  · have eobj : ∀ o o' : Option (Obj NetDev), put (put (put h.objs h.next o) (h.next + 1)
        (some (.chars (text a.name)))) h.next o' =
        put (put h.objs (h.next + 1) (some (.chars (text a.name)))) h.next o' := by
      intro o o'
      rw [put_comm h.objs _ _ (by omega), put_put]
    refine wp_bind (wp_update (s := ⟨0, zero4, zero4, zero6, 0⟩) h0 ?_ ?_)
    · show put (put h.objs h.next _) (h.next + 1) _ h.next = _
      rw [put_other _ _ (by omega), put_same]
    dsimp only
    rw [eobj]
    refine wp_bind (wp_update (s := ⟨h.next + 1, zero4, zero4, zero6, 0⟩) h0 (put_same ..) ?_)
    dsimp only
    rw [put_put, hu']
    refine wp_bind (ipv4_wp (fun hna => absurd rfl (hna ip)) (fun ip' hin => ?_))
    refine wp_update (s := ⟨h.next + 1, zero4, zero4, a.phys, 0⟩) h0 (put_same ..) ?_
    dsimp only
    rw [put_put]
    refine wp_bind (setNetmask_wp hn (d := ⟨h.next + 1, ip', zero4, a.phys, 0⟩) h0 (put_same ..) ?_)
    dsimp only
    rw [put_put]
    cases hin
    refine wp_pure (hok _ h.next (h.next + 1) (some a.name) ?_ (.inl rfl) fun _ => rfl)
    exact Owns.named hw _ a.name rfl rfl rfl rfl rfl hs2 rfl
  · refine wp_bind (wp_update (s := ⟨0, zero4, zero4, zero6, 0⟩) h0 (put_same ..) ?_)
    dsimp only
    rw [put_put]
    refine wp_bind (wp_update (s := ⟨0, zero4, zero4, zero6, 0⟩) h0 (put_same ..) ?_)
    dsimp only
    rw [put_put, hu']
    refine wp_bind (ipv4_wp (fun hna => absurd rfl (hna ip)) (fun ip' hin => ?_))
    refine wp_update (s := ⟨0, zero4, zero4, a.phys, 0⟩) h0 (put_same ..) ?_
    dsimp only
    rw [put_put]
    refine wp_bind (setNetmask_wp hn (d := ⟨0, ip', zero4, a.phys, 0⟩) h0 (put_same ..) ?_)
    dsimp only
    rw [put_put]
    cases hin
    refine wp_pure (hok _ h.next 0 none ?_ (.inr rfl) fun hf => absurd ((headD_tail _).subset hans') hf)
    have ho2 := Owns.unnamed (h' := { h with
      objs := put h.objs h.next (some (.struct ⟨0, zero4, zero4, zero6, 0⟩)), next := h.next + 1,
      answers := h.answers.tail.tail }) hw rfl rfl hs2 rfl
    have ho3 := ho2.set (i' := Item.adapter h.next 0 none a ip n) rfl rfl rfl nofun 0 rfl
    rw [put_put] at ho3
    exact ho3

theorem Chain.snoc {objs objs' : Nat → Option (Obj NetDev)} (l : List Item) {j i : Item} {p q : Nat}
    (hc : Chain objs p (l ++ [j])) (hn : (cells (l ++ [j])).Nodup)
    (he : ∀ a ∈ cells (l ++ [j]), a ≠ j.addr → objs' a = objs a) (hj : objs' j.addr = some (.struct (j.dev q)))
    (hi : Chain objs' q [i]) : Chain objs' p (l ++ [j] ++ [i]) := by
  induction l generalizing p with
  | nil =>
    obtain ⟨h1, h2, h3, q', h4, h5⟩ := hc
    refine ⟨h1, h2, ?_, q, by rw [h1]; exact hj, hi⟩
    refine h3.congr fun hs => he _ ?_ ?_
    · simp [cells, Item.cells, hs]
    · intro e
      simp [cells, Item.cells, hs, e] at hn
  | cons k l ih =>
    obtain ⟨h1, h2, h3, q', h4, h5⟩ := hc
    have hn' : (k.cells ++ cells (l ++ [j])).Nodup := hn
    obtain ⟨hn1, hn2, hn3⟩ := List.nodup_append.1 hn'
    have hja : j.addr ∈ cells (l ++ [j]) := by simp [cells, Item.cells]
    refine ⟨h1, h2, ?_, q', ?_, ih h5 hn2 fun a ha => he a (List.mem_append_right _ ha)⟩
    · refine h3.congr fun hs => ?_
      have hk : k.nm ∈ k.cells := by simp [Item.cells, hs]
      exact he _ (List.mem_append_left _ hk) (hn3 _ hk _ hja)
    · have hk : k.addr ∈ k.cells := by simp [Item.cells]
      rw [h1, he _ (List.mem_append_left _ hk) (hn3 _ hk _ hja), ← h1, h4]

theorem Chain.last {objs : Nat → Option (Obj NetDev)} (l : List Item) {j : Item} {p : Nat}
    (hc : Chain objs p (l ++ [j])) : j.addr ≠ 0 ∧ objs j.addr = some (.struct (j.dev 0)) := by
  induction l generalizing p with
  | nil =>
    obtain ⟨h1, h2, h3, q', h4, h5⟩ := hc
    have : q' = 0 := h5
    rw [this] at h4
    exact ⟨h1 ▸ h2, h1 ▸ h4⟩
  | cons k l ih =>
    obtain ⟨h1, h2, h3, q', h4, h5⟩ := hc
    exact ih h5

theorem cells_append (l l' : List Item) : cells (l ++ l') = cells l ++ cells l' := by simp [cells]

theorem Owns.snoc {h0 h h' : Heap NetDev} {p q : Nat} {l : List Item} {j i : Item} (ho : Owns h0 h p (l ++ [j]))
    (hi : Owns h h' q [i]) :
    Owns h0 { h' with objs := put h'.objs j.addr (some (.struct (j.dev q))) } p (l ++ [j] ++ [i]) := by
  obtain ⟨hj1, hj2⟩ := ho.chain.last
  have hjc : j.addr ∈ cells (l ++ [j]) := by simp [cells, Item.cells]
  have hsep : ∀ a ∈ cells (l ++ [j]), a ∉ cells [i] := fun a ha hm =>
    absurd (ho.below a ha) (Nat.not_lt.2 (hi.above a hm))
  have hiq : q ∈ cells [i] := by
    obtain ⟨h1, -⟩ := hi.chain
    simp [cells, Item.cells, h1]
  refine ⟨⟨hi.wf.pos, ?_, fun a ha => ?_⟩, ?_, ?_, ?_, ?_, ?_, ?_,
    Nat.le_trans ho.next hi.next, hi.answers.trans ho.answers, hi.held.trans ho.held⟩
  · show put h'.objs j.addr _ 0 = Option.none
    rw [put_other _ _ (Ne.symm hj1)]
    exact hi.wf.zero
  · show put h'.objs j.addr _ a = Option.none
    rw [put_other _ _ ?_]
    · exact hi.wf.fresh a ha
    · intro e
      rw [e] at ha
      exact absurd (Nat.lt_of_lt_of_le (ho.below _ hjc) hi.next) (Nat.not_lt.2 ha)
  · refine Chain.snoc l ho.chain ho.nodup (fun a ha hne => ?_) (put_same ..) (hi.chain.congr fun a ha => ?_)
    · show put h'.objs j.addr _ a = _
      rw [put_other _ _ hne]
      exact hi.frame a (hsep a ha)
    · exact put_other _ _ fun e => hsep _ hjc (e ▸ ha)
  · rw [cells_append (l ++ [j])]
    exact List.nodup_append.2 ⟨ho.nodup, hi.nodup, fun a ha b hb e => hsep a ha (e ▸ hb)⟩
  · intro a ha
    rw [cells_append (l ++ [j]), List.mem_append] at ha
    rcases ha with ha | ha
    · exact ho.above a ha
    · exact Nat.le_trans ho.next (hi.above a ha)
  · intro a ha
    rw [cells_append (l ++ [j]), List.mem_append] at ha
    rcases ha with ha | ha
    · exact Nat.lt_of_lt_of_le (ho.below a ha) hi.next
    · exact hi.below a ha
  · intro a ha
    rw [cells_append (l ++ [j]), List.mem_append, not_or] at ha
    show put h'.objs j.addr _ a = _
    rw [put_other _ _ (by intro e; rw [e] at ha; exact ha.1 hjc)]
    exact (hi.frame a ha.2).trans (ho.frame a ha.1)
  · have h6 := hi.above q hiq
    have h7 := hi.below q hiq
    have h8 := ho.room
    rw [List.length_append]
    simp only [List.length_singleton]
    show _ ≤ h'.next
    omega

/-- The last element of a list (0 if there is none). -/
def lastAddr (l : List Item) : Nat := (l.getLast?.map Item.addr).getD 0

/-- What the list says about the adapters: names may be missing. -/
def aval (a : Adapter) (ip : Ip4) (n : Nat) (name : Option Bytes) : Option Bytes × MacAddr × Ip4 × Ip4 :=
  (name, a.phys, ip, prefixMask n)

/-- The elements of the list are those of the adapters. -/
inductive Made : List Adapter → List Item → Prop
  | nil : Made [] []
  | skip {a : Adapter} {as : List Adapter} {l : List Item} (h : ¬ Wanted a) (hm : Made as l) : Made (a :: as) l
  | cons {a : Adapter} {as : List Adapter} {l : List Item} {p nm n : Nat} {ip : Ip4} {name : Option Bytes} (h : Wanted a)
      (hu : firstIpv4 a.unicast = some (ip, n)) (hn : name = some a.name ∨ name = none) (hm : Made as l) :
      Made (a :: as) (Item.adapter p nm name a ip n :: l)

theorem addDeviceInfo_wp {h0 h : Heap NetDev} {p : Nat} {l : List Item} (ho : Owns h0 h p l) (a : Adapter) (ip : Ip4)
    (n : Nat) (hu : firstIpv4 a.unicast = some (ip, n)) (hn : n < 32) {Q : Nat → Heap NetDev → Prop}
    (hno : ∀ h', Owns h0 h' p l → false ∈ h.answers → Q 0 h')
    (hok : ∀ h' q nm name, q ≠ 0 → h'.answers <:+ h.answers →
      Owns h0 h' (if p = 0 then q else p) (l ++ [Item.adapter q nm name a ip n]) →
      (name = some a.name ∨ name = none) → (false ∉ h.answers → name = some a.name) → Q q h') :
    wp (addDeviceInfo (lastAddr l) a) h Q := by
  unfold addDeviceInfo
  refine wp_bind (deviceInfoWindows_wp ho.wf a ip n hu hn (fun h' h1 h2 => ?_) (fun h' q nm name h1 h2 h3 => ?_))
  · have ho' := ho.none h1
    rcases List.eq_nil_or_concat l with rfl | ⟨l', j, rfl⟩
    · rw [if_neg (by simp [lastAddr])]
      exact wp_pure (hno h' ho' h2)
    · rw [List.concat_eq_append] at *
      have hl : lastAddr (l' ++ [j]) = j.addr := by simp [lastAddr]
      obtain ⟨hj1, hj2⟩ := ho'.chain.last
      rw [hl, if_pos hj1]
      refine wp_bind (wp_update hj1 hj2 (wp_pure (hno _ ?_ h2)))
      have e : put h'.objs j.addr (some (.struct { j.dev 0 with next := 0 })) = h'.objs := put_self _ _ _ hj2
      rw [e]
      exact ho'
  · have hq0 : q ≠ 0 := h1.chain.2.1
    rcases List.eq_nil_or_concat l with rfl | ⟨l', j, rfl⟩
    · rw [if_neg (by simp [lastAddr])]
      have hp0 : p = 0 := ho.chain
      refine wp_pure (hok h' q nm name hq0 h1.answers ?_ h2 h3)
      rw [if_pos hp0]
      have e := ho.nil
      refine ⟨h1.wf, h1.chain, h1.nodup, fun x hx => Nat.le_trans ho.next (h1.above x hx), h1.below,
        fun x hx => (h1.frame x hx).trans (by rw [e]), h1.room, Nat.le_trans ho.next h1.next,
        h1.answers.trans ho.answers, h1.held.trans ho.held⟩
    · rw [List.concat_eq_append] at *
      have hl : lastAddr (l' ++ [j]) = j.addr := by simp [lastAddr]
      obtain ⟨hj1, hj2⟩ := ho.chain.last
      have hj3 : h'.objs j.addr = some (.struct (j.dev 0)) := by
        rw [h1.frame j.addr, hj2]
        intro hm
        exact absurd (ho.below j.addr (by simp [cells, Item.cells])) (Nat.not_lt.2 (h1.above _ hm))
      rw [hl, if_pos hj1]
      have hp0 : p ≠ 0 := by
        have hc := ho.chain
        cases l' with
        | nil => exact hc.2.1
        | cons x xs => exact hc.2.1
      refine wp_bind (wp_update hj1 hj3 (wp_pure (hok _ q nm name hq0 h1.answers ?_ h2 h3)))
      rw [if_neg hp0]
      exact ho.snoc h1

theorem windowsLoop_wp {h0 : Heap NetDev} (as : List Adapter)
    (hp32 : ∀ a ∈ as, Wanted a → ∀ ip n, firstIpv4 a.unicast = some (ip, n) → n < 32) {h : Heap NetDev} {p : Nat}
    {l : List Item} (ho : Owns h0 h p l) {Q : Bool × Nat → Heap NetDev → Prop}
    (hno : ∀ h' p' l', Owns h0 h' p' l' → false ∈ h.answers → Q (false, p') h')
    (hok : ∀ h' p' l', Owns h0 h' p' (l ++ l') → Made as l' →
      (false ∉ h.answers → ∀ i ∈ l', i.name.isSome) → Q (true, p') h') :
    wp (windowsLoop as p (lastAddr l)) h Q := by
  induction as generalizing h p l with
  | nil => exact wp_pure (hok h p [] (by rw [List.append_nil]; exact ho) .nil nofun)
  | cons a as ih =>
    have ih' := @ih (fun x hx => hp32 x (List.mem_cons_of_mem _ hx))
    unfold windowsLoop
    by_cases hw : a.wanted = true
    · rw [if_pos hw]
      have hw' := (wanted_iff a).1 hw
      obtain ⟨x, hx⟩ : ∃ x, firstIpv4 a.unicast = some x := Option.isSome_iff_exists.1 hw'.2.2
      obtain ⟨ip, n⟩ := x
      refine wp_bind (addDeviceInfo_wp ho a ip n hx (hp32 a (List.mem_cons_self ..) hw' ip n hx) (fun h' h1 h2 => ?_)
        (fun h' q nm name h1 h2 h3 h4 h5 => ?_))
      · rw [if_pos rfl]
        exact wp_pure (hno h' p l h1 h2)
      · rw [if_neg h1]
        have hl : lastAddr (l ++ [Item.adapter q nm name a ip n]) = q := by simp [lastAddr, Item.adapter]
        rw [← hl]
        refine ih' (l := l ++ [Item.adapter q nm name a ip n]) (by rw [hl]; exact h3) (fun h'' p' l' k1 k2 => ?_) (fun h'' p' l' k1 k2 k3 => ?_)
        · exact hno h'' p' l' k1 (h2.subset k2)
        · refine hok h'' p' (Item.adapter q nm name a ip n :: l') ?_ (.cons hw' hx h4 k2) ?_
          · rw [List.append_assoc] at k1
            exact k1
          · intro hf i hi
            rcases List.mem_cons.1 hi with rfl | hi
            · rw [show (Item.adapter q nm name a ip n).name = name from rfl, h5 hf]; rfl
            · exact k3 (fun hf' => hf (h2.subset hf')) i hi
    · rw [if_neg hw]
      refine ih' ho hno fun h' p' l' k1 k2 k3 => hok h' p' l' k1 (.skip (fun hh => hw ((wanted_iff a).2 hh)) k2) k3

theorem Owns.rebase {h0 h1 h : Heap NetDev} {p ad : Nat} {l : List Item} {o : Obj NetDev} (hw : WF h0)
    (e : h1.objs = put h0.objs ad (some o)) (ha : h0.next ≤ ad) (hb : ad < h1.next) (hs : h1.answers <:+ h0.answers)
    (hh : h1.held = h0.held) (ho : Owns h1 h p l) : Owns h0 { h with objs := put h.objs ad Option.none } p l := by
  have had : ad ∉ cells l := fun hm => absurd hb (Nat.not_lt.2 (ho.above ad hm))
  have hne : ∀ a ∈ cells l, a ≠ ad := by
    intro a ha e
    rw [e] at ha
    exact had ha
  have hpos := hw.pos
  refine ⟨⟨ho.wf.pos, ?_, fun a hx => ?_⟩, ho.chain.congr fun a hx => put_other _ _ (hne a hx), ho.nodup,
    fun a hx => ?_, ho.below, fun a hx => ?_, ho.room, ?_, ho.answers.trans hs, ho.held.trans hh⟩
  · show put h.objs ad _ 0 = _
    rw [put_other _ _ (by omega)]
    exact ho.wf.zero
  · show put h.objs ad _ a = _
    unfold put
    split
    · rfl
    · exact ho.wf.fresh a hx
  · have := ho.above a hx
    omega
  · show put h.objs ad _ a = _
    by_cases ea : a = ad
    · rw [ea, put_same, hw.fresh ad ha]
    · rw [put_other _ _ ea, ho.frame a hx, e, put_other _ _ ea]
  · have := ho.next
    show h0.next ≤ h.next
    omega

theorem findWindowsIn_wp {h0 h1 : Heap NetDev} {ad : Nat} {o : Obj NetDev} (hw : WF h0) (hw1 : WF h1)
    (e : h1.objs = put h0.objs ad (some o)) (ha : h0.next ≤ ad) (hb : ad < h1.next) (hs : h1.answers <:+ h0.answers)
    (hh : h1.held = h0.held) (sys : Windows)
    (hp32 : ∀ a ∈ sys.adapters.getD [], Wanted a → ∀ ip n, firstIpv4 a.unicast = some (ip, n) → n < 32)
    {Q : Nat → Heap NetDev → Prop} (hno : ∀ h', Owns h0 h' 0 [] → false ∈ h0.answers → Q 0 h')
    (hok : ∀ h' p' l', Owns h0 h' p' l' → Made (sys.adapters.getD []) l' →
      (false ∉ h0.answers → ∀ i ∈ l', i.name.isSome) → Q p' h') :
    wp (findWindowsIn sys ad) h1 Q := by
  have had : ad ≠ 0 := by have := hw.pos; omega
  unfold findWindowsIn
  cases hx : sys.adapters with
  | none =>
    rw [hx] at hok
    refine wp_bind (wp_free had (by rw [e, put_same]) (wp_pure ?_))
    exact hok _ 0 [] ((Owns.refl hw1).rebase hw e ha hb hs hh) .nil fun _ => nofun
  | some as =>
    rw [hx] at hok hp32
    refine wp_bind (windowsLoop_wp as hp32 (Owns.refl hw1) (l := []) (fun h' p' l' k1 k2 => ?_) (fun h' p' l' k1 k2 k3 => ?_))
    · have hm : ad ∉ cells l' := fun hm => absurd hb (Nat.not_lt.2 (k1.above ad hm))
      rw [if_neg (by simp)]
      unfold windowsErr
      rw [if_pos had]
      refine wp_bind (wp_free had (by rw [k1.frame ad hm, e, put_same]) ?_)
      exact wp_bind (freeDeviceList_wp hw (k1.rebase hw e ha hb hs hh) fun k3 => wp_pure (hno _ k3 (hs.subset k2)))
    · have hm : ad ∉ cells l' := fun hm => absurd hb (Nat.not_lt.2 (k1.above ad hm))
      rw [if_pos rfl]
      refine wp_bind (wp_free (o := o) had ?_ (wp_pure ?_))
      · rw [k1.frame ad hm, e, put_same]
      · exact hok _ p' l' (k1.rebase hw e ha hb hs hh) k2 fun hf => k3 fun hf' => hf (hs.subset hf')

theorem findWindows_wp {h0 : Heap NetDev} (hw : WF h0) (sys : Windows)
    (hp32 : ∀ a ∈ sys.adapters.getD [], Wanted a → ∀ ip n, firstIpv4 a.unicast = some (ip, n) → n < 32)
    {Q : Nat → Heap NetDev → Prop} (hno : ∀ h', Owns h0 h' 0 [] → false ∈ h0.answers → Q 0 h')
    (hok : ∀ h' p' l', Owns h0 h' p' l' → Made (sys.adapters.getD []) l' →
      (false ∉ h0.answers → ∀ i ∈ l', i.name.isSome) → Q p' h') :
    wp (findWindows sys) h0 Q := by
  have hpos := hw.pos
  have hs := headD_tail h0.answers
  have herr : ∀ h : Heap NetDev, Owns h0 h 0 [] → wp (windowsErr 0 0) h fun p h' => p = 0 ∧ Owns h0 h' 0 [] := by
    intro h ho
    unfold windowsErr
    rw [if_neg (by simp)]
    exact wp_bind (freeDeviceList_wp hw ho fun ho' => wp_pure ⟨rfl, ho'⟩)
  unfold findWindows malloc
  refine wp_bind (wp_alloc (fun hans => ?_) (fun hans => ?_))
  case refine_2 =>
    rw [if_pos rfl]
    refine wp_mono (herr _ ⟨wf_same hw (Nat.le_refl _) rfl, rfl, List.nodup_nil, nofun, nofun, fun _ _ => rfl, Nat.zero_le _,
      Nat.le_refl _, hs, rfl⟩) ?_
    rintro p h' ⟨rfl, ho⟩
    exact hno h' ho hans
  rw [if_neg (by omega)]
  by_cases hov : sys.overflow = true
  · rw [if_pos hov]
    refine wp_bind (wp_free (by omega) (put_same ..) ?_)
    dsimp only
    rw [put_put, put_self _ _ _ (hw.fresh _ (Nat.le_refl _))]
    refine wp_bind (wp_alloc (fun hans' => ?_) (fun hans' => ?_))
    · rw [if_neg (by show ¬ h0.next + 1 = 0; omega)]
      refine findWindowsIn_wp hw (h1 := { h0 with objs := put h0.objs (h0.next + 1) _, next := h0.next + 1 + 1, answers := _ })
        ⟨by show 0 < h0.next + 1 + 1; omega, ?_, fun a hx => ?_⟩ rfl (by omega) (by show h0.next + 1 < h0.next + 1 + 1; omega)
        ((headD_tail _).trans hs) rfl sys hp32 hno hok
      · exact (put_other h0.objs (p := h0.next + 1) (a := 0) (some (.chars (List.replicate sys.size Option.none)))
          (by omega)).trans hw.zero
      · have hx' : h0.next + 1 + 1 ≤ a := hx
        exact (put_other h0.objs (p := h0.next + 1) _ (by omega)).trans (hw.fresh a (by omega))
    · rw [if_pos rfl]
      refine wp_mono (herr _ ⟨wf_same hw (by show h0.next ≤ h0.next + 1; omega) rfl, rfl, List.nodup_nil, nofun, nofun,
        fun _ _ => rfl, Nat.zero_le _, by show h0.next ≤ h0.next + 1; omega, (headD_tail _).trans hs, rfl⟩) ?_
      rintro p h' ⟨rfl, ho⟩
      exact hno h' ho (hs.subset hans')
  · rw [if_neg hov]
    refine findWindowsIn_wp hw (h1 := { h0 with objs := put h0.objs h0.next _, next := h0.next + 1, answers := _ })
      ⟨by show 0 < h0.next + 1; omega, ?_, fun a hx => ?_⟩ rfl (Nat.le_refl _) (by show h0.next < h0.next + 1; omega)
      hs rfl sys hp32 hno hok
    · show put h0.objs _ _ 0 = _
      rw [put_other _ _ (by omega)]
      exact hw.zero
    · have hx' : h0.next + 1 ≤ a := hx
      show put h0.objs _ _ a = _
      rw [put_other _ _ (by omega)]
      exact hw.fresh a (by omega)

theorem Made.listed {as : List Adapter} {l : List Item} (hm : Made as l) (hs : ∀ i ∈ l, i.name.isSome)
    (hp32 : ∀ a ∈ as, Wanted a → ∀ ip n, firstIpv4 a.unicast = some (ip, n) → n < 32)
    (hz : ∀ a ∈ as, (0 : UInt8) ∉ a.name) :
    ∃ vs, l.map Item.val = vs.map ival ∧ (∀ v ∈ vs, (0 : UInt8) ∉ v.name) ∧ Listed as vs := by
  induction hm with
  | nil => exact ⟨[], rfl, nofun, .nil⟩
  | skip h hm ih =>
    obtain ⟨vs, h1, h2, h3⟩ := ih hs (fun a ha => hp32 a (List.mem_cons_of_mem _ ha)) fun a ha => hz a (List.mem_cons_of_mem _ ha)
    exact ⟨vs, h1, h2, .skip h h3⟩
  | @cons a as l p nm n ip name h hu hn hm ih =>
    obtain ⟨vs, h1, h2, h3⟩ := ih (fun i hi => hs i (List.mem_cons_of_mem _ hi))
      (fun a ha => hp32 a (List.mem_cons_of_mem _ ha)) fun a ha => hz a (List.mem_cons_of_mem _ ha)
    have hn' : name = some a.name := by
      rcases hn with hn | hn
      · exact hn
      · have := hs _ (List.mem_cons_self ..)
        rw [hn] at this
        cases this
    have hlt := hp32 a (List.mem_cons_self ..) h ip n hu
    refine ⟨⟨a.name, a.phys, ip, prefixMask n⟩ :: vs, ?_, ?_, .cons ?_ h3⟩
    · rw [List.map_cons, List.map_cons, h1, hn']
      rfl
    · intro v hv
      rcases List.mem_cons.1 hv with rfl | hv
      · exact hz a (List.mem_cons_self ..)
      · exact h2 v hv
    · exact ⟨h.1, h.2.1, rfl, rfl, n, hu, prefixMask_number ⟨n, hlt⟩⟩

theorem setNetmask_faults {n : Nat} (hn : 32 ≤ n) (hn' : n < 256) {dev : Nat} {h : Heap NetDev} :
    setNetmask (UInt8.ofNat n) dev h = .fault .shift := by
  unfold setNetmask
  have e : (UInt8.ofNat n).toNat = n := by simp; omega
  rw [e]
  have hm : maskLoop 4 n = Option.none := by
    show (if n = 0 then _ else match maskByte n with | Option.none => _ | some b => _) = _
    unfold maskByte
    rw [if_neg (by omega), if_pos (by omega)]
  rw [hm]
  rfl

theorem deviceInfoWindows_faults {h : Heap NetDev} (hw : WF h) (a : Adapter) (ip : Ip4) (n : Nat)
    (hu : firstIpv4 a.unicast = some (ip, n)) (hn : 32 ≤ n) (hf : false ∉ h.answers) :
    deviceInfoWindows a h = .fault .shift := by
  have h0 : h.next ≠ 0 := Nat.pos_iff_ne_zero.1 hw.pos
  have hu' : findUnicast a.unicast = some (.inet ip, UInt8.ofNat n) := by rw [findUnicast_eq, hu]; rfl
  unfold deviceInfoWindows
  refine wp_faults (wp_alloc (fun hans => ?_) (fun hans => absurd hans hf))
  have ho1 := Owns.unnamed (h' := { h with
    objs := put h.objs h.next (some (.struct ⟨0, zero4, zero4, zero6, 0⟩)), next := h.next + 1,
    answers := h.answers.tail }) hw rfl rfl (headD_tail _) rfl
  rw [if_neg h0]
  refine wp_faults (wp_stringDup ho1.wf ?_ (fun hans' => absurd ((headD_tail _).subset hans') hf))
  refine wp_faults (wp_update (s := ⟨0, zero4, zero4, zero6, 0⟩) h0 ?_ ?_)
  · show put (put h.objs h.next _) (h.next + 1) _ h.next = _
    rw [put_other _ _ (by omega), put_same]
  refine wp_faults (wp_update (s := ⟨h.next + 1, zero4, zero4, zero6, 0⟩) h0 (put_same ..) ?_)
  rw [hu']
  refine wp_faults (ipv4_wp (fun hna => absurd rfl (hna ip)) (fun ip' hin => ?_))
  refine wp_update (s := ⟨h.next + 1, zero4, zero4, a.phys, 0⟩) h0 (put_same ..) ?_
  exact faults_bind (setNetmask_faults hn (firstIpv4_lt hu))

theorem windowsLoop_faults {h0 : Heap NetDev} (as : List Adapter)
    (hb : ∃ a ∈ as, Wanted a ∧ ∃ ip n, firstIpv4 a.unicast = some (ip, n) ∧ 32 ≤ n) {h : Heap NetDev} {p : Nat}
    {l : List Item} (ho : Owns h0 h p l) (hf : false ∉ h.answers) :
    windowsLoop as p (lastAddr l) h = .fault .shift := by
  induction as generalizing h p l with
  | nil => obtain ⟨a, ha, -⟩ := hb; cases ha
  | cons a as ih =>
    unfold windowsLoop
    by_cases hw : a.wanted = true
    · rw [if_pos hw]
      have hw' := (wanted_iff a).1 hw
      obtain ⟨⟨ip, n⟩, hx⟩ : ∃ x, firstIpv4 a.unicast = some x := Option.isSome_iff_exists.1 hw'.2.2
      by_cases hn : n < 32
      · have hb' : ∃ a ∈ as, Wanted a ∧ ∃ ip n, firstIpv4 a.unicast = some (ip, n) ∧ 32 ≤ n := by
          obtain ⟨b, hb1, hb2, ip', n', hb3, hb4⟩ := hb
          rcases List.mem_cons.1 hb1 with rfl | hb1
          · rw [hx] at hb3
            cases hb3
            omega
          · exact ⟨b, hb1, hb2, ip', n', hb3, hb4⟩
        refine wp_faults (addDeviceInfo_wp ho a ip n hx hn (fun h' h1 h2 => absurd h2 hf)
          (fun h' q nm name h1 h2 h3 h4 h5 => ?_))
        rw [if_neg h1]
        have hl : lastAddr (l ++ [Item.adapter q nm name a ip n]) = q := by simp [lastAddr, Item.adapter]
        have := @ih hb' h' (if p = 0 then q else p) (l ++ [Item.adapter q nm name a ip n]) h3 fun hf' => hf (h2.subset hf')
        rw [hl] at this
        exact this
      · exact faults_bind (faults_bind (deviceInfoWindows_faults ho.wf a ip n hx (by omega) hf))
    · rw [if_neg hw]
      refine ih ?_ ho hf
      obtain ⟨b, hb1, hb2, hb3⟩ := hb
      rcases List.mem_cons.1 hb1 with rfl | hb1
      · exact absurd ((wanted_iff _).2 hb2) hw
      · exact ⟨b, hb1, hb2, hb3⟩

theorem findWindows_faults {h0 : Heap NetDev} (hw : WF h0) (sys : Windows)
    (hb : ∃ a ∈ sys.adapters.getD [], Wanted a ∧ ∃ ip n, firstIpv4 a.unicast = some (ip, n) ∧ 32 ≤ n)
    (hf : false ∉ h0.answers) : findWindows sys h0 = .fault .shift := by
  have hpos := hw.pos
  have hs := headD_tail h0.answers
  cases hx : sys.adapters with
  | none => rw [hx] at hb; obtain ⟨a, ha, -⟩ := hb; cases ha
  | some as =>
    rw [hx] at hb
    have hin : ∀ ad (h : Heap NetDev), WF h → false ∉ h.answers → findWindowsIn sys ad h = .fault .shift := by
      intro ad h hw' hf'
      unfold findWindowsIn
      rw [hx]
      exact faults_bind (windowsLoop_faults as hb (Owns.refl hw') (l := []) hf')
    have hwf : ∀ o (h : Heap NetDev) ans, WF h →
        WF { h with objs := put h.objs h.next (some o), next := h.next + 1, answers := ans } := by
      intro o h ans hw'
      refine ⟨Nat.succ_pos _, ?_, fun a hx => ?_⟩
      · exact (put_other h.objs (some o) (Ne.symm (Nat.pos_iff_ne_zero.1 hw'.pos))).trans hw'.zero
      · have hx' : h.next + 1 ≤ a := hx
        exact (put_other h.objs (some o) (by omega)).trans (hw'.fresh a (by omega))
    unfold findWindows malloc
    refine wp_faults (wp_alloc (fun hans => ?_) (fun hans => absurd hans hf))
    rw [if_neg (by omega)]
    by_cases hov : sys.overflow = true
    · rw [if_pos hov]
      refine wp_faults (wp_free (by omega) (put_same ..) ?_)
      dsimp only
      rw [put_put, put_self _ _ _ (hw.fresh _ (Nat.le_refl _))]
      refine wp_faults (wp_alloc (fun hans' => ?_) (fun hans' => absurd (hs.subset hans') hf))
      rw [if_neg (by show ¬ h0.next + 1 = 0; omega)]
      refine hin _ _ (hwf _ { h0 with next := h0.next + 1, answers := h0.answers.tail } _ (wf_same hw (by show h0.next ≤ h0.next + 1; omega) rfl)) fun hf' => hf (hs.subset ((headD_tail _).subset hf'))
    · rw [if_neg hov]
      exact hin _ _ (hwf _ h0 _ hw) fun hf' => hf (hs.subset hf')

end Verif.Lemmas.Devices
