import Verif.Lemmas.CMem
import Verif.Spec.Pcap
/-!
# A capture in memory
-/
namespace Verif.Lemmas.Pcap
open Verif Verif.CMem Verif.Pcap Verif.Spec.Pcap

/-- A capture as the caller sees it. -/
structure Cap where
  dev : Bytes
  set : Settings
  isOpen : Bool

/-- The filter in memory. -/
def FilterAt (objs : Nat → Option (Obj Wrapper)) (p : Nat) : Option Bytes → Prop
  | none => p = 0
  | some f => p ≠ 0 ∧ objs p = some (.chars (text f)) ∧ Str f

/-- Compared with `h0`, the only new blocks in `h` are those of the capture at `w`; `e` is the text of the last error. -/
structure Own (h0 h : Heap Wrapper) (w : Nat) (c : Cap) (e : Bytes) (s : Wrapper) (rest : List (Option UInt8)) : Prop where
  base : WF h0
  wf : WF h
  cw : h.objs w = some (.struct s)
  cd : h.objs s.device = some (.chars (text c.dev))
  ce : h.objs s.errorBuffer = some (.chars (text e ++ rest))
  cf : FilterAt h.objs s.filter c.set.filter
  size : (text e ++ rest).length = s.errorBufferSize
  big : 256 ≤ s.errorBufferSize
  max : s.maxPacketSize = c.set.max
  timeout : s.readTimeout = c.set.timeout
  isOpen : s.h = c.isOpen
  nw : w ≠ 0
  nd : s.device ≠ 0
  ne : s.errorBuffer ≠ 0
  d1 : w ≠ s.device
  d2 : w ≠ s.errorBuffer
  d3 : s.device ≠ s.errorBuffer
  d4 : s.filter ≠ w
  d5 : s.filter ≠ s.device
  d6 : s.filter ≠ s.errorBuffer
  f1 : h0.objs w = none
  f2 : h0.objs s.device = none
  f3 : h0.objs s.errorBuffer = none
  f4 : h0.objs s.filter = none
  frame : ∀ a, a ≠ w → a ≠ s.device → a ≠ s.errorBuffer → a ≠ s.filter → h.objs a = h0.objs a
  next : h0.next ≤ h.next
  answers : h.answers <:+ h0.answers
  sd : Str c.dev
  se : Str e

theorem wf_put {h : Heap Wrapper} {p : Nat} (hw : WF h) (hp : h.objs p ≠ none) (o' : Option (Obj Wrapper)) :
    WF { h with objs := put h.objs p o' } := by
  have h0 : p ≠ 0 := fun e => hp (e ▸ hw.zero)
  refine ⟨hw.pos, (put_other h.objs o' (Ne.symm h0)).trans hw.zero, fun a ha => ?_⟩
  refine (put_other h.objs o' ?_).trans (hw.fresh a ha)
  intro e
  exact hp (hw.fresh p (e ▸ ha))

theorem headD_tail {α : Type} (l : List α) : l.tail <:+ l := List.tail_suffix l

/-- The fields without pointers change. -/
theorem Own.fields {h0 h : Heap Wrapper} {w : Nat} {c : Cap} {e : Bytes} {s : Wrapper} {rest : List (Option UInt8)}
    (ho : Own h0 h w c e s rest) (m t : Nat) (b : Bool) (ans : List Bool) (held : List Held) (ha : ans <:+ h0.answers) :
    Own h0 { h with
      objs := put h.objs w (some (.struct { s with maxPacketSize := m, readTimeout := t, h := b }))
      answers := ans, held := held } w ⟨c.dev, ⟨m, t, c.set.filter⟩, b⟩ e
      { s with maxPacketSize := m, readTimeout := t, h := b } rest := by
  have hw := wf_put ho.wf (p := w) (by rw [ho.cw]; nofun) (some (.struct { s with maxPacketSize := m, readTimeout := t, h := b }))
  refine ⟨ho.base, ⟨hw.pos, hw.zero, hw.fresh⟩, put_same .., (put_other _ _ (Ne.symm ho.d1)).trans ho.cd,
    (put_other _ _ (Ne.symm ho.d2)).trans ho.ce, ?_, ho.size, ho.big, rfl, rfl, rfl, ho.nw, ho.nd, ho.ne, ho.d1, ho.d2, ho.d3,
    ho.d4, ho.d5, ho.d6, ho.f1, ho.f2, ho.f3, ho.f4, fun a a1 a2 a3 a4 => (put_other _ _ a1).trans (ho.frame a a1 a2 a3 a4),
    ho.next, ha, ho.sd, ho.se⟩
  have := ho.cf
  unfold FilterAt at *
  dsimp only
  split
  · next hx => rw [hx] at this; exact this
  · next f hx =>
    rw [hx] at this
    exact ⟨this.1, (put_other _ _ ho.d4).trans this.2.1, this.2.2⟩

/-- The text in the error buffer changes. -/
theorem Own.error {h0 h : Heap Wrapper} {w : Nat} {c : Cap} {e e' : Bytes} {s : Wrapper} {rest rest' : List (Option UInt8)}
    (ho : Own h0 h w c e s rest) (hl : (text e' ++ rest').length = s.errorBufferSize) (hs : Str e') :
    Own h0 { h with objs := put h.objs s.errorBuffer (some (.chars (text e' ++ rest'))) } w c e' s rest' := by
  have hw := wf_put ho.wf (p := s.errorBuffer) (by rw [ho.ce]; nofun) (some (.chars (text e' ++ rest')))
  refine ⟨ho.base, hw, (put_other _ _ ho.d2).trans ho.cw, (put_other _ _ ho.d3).trans ho.cd,
    put_same .., ?_, hl, ho.big, ho.max, ho.timeout, ho.isOpen, ho.nw, ho.nd, ho.ne, ho.d1, ho.d2, ho.d3,
    ho.d4, ho.d5, ho.d6, ho.f1, ho.f2, ho.f3, ho.f4, fun a a1 a2 a3 a4 => (put_other _ _ a3).trans (ho.frame a a1 a2 a3 a4),
    ho.next, ho.answers, ho.sd, hs⟩
  have := ho.cf
  unfold FilterAt at *
  dsimp only
  split
  · next hx => rw [hx] at this; exact this
  · next f hx =>
    rw [hx] at this
    exact ⟨this.1, (put_other _ _ ho.d6).trans this.2.1, this.2.2⟩

theorem poked (t : Bytes) (cs : List (Option UInt8)) (hl : t.length < cs.length) :
    (t.map some ++ cs.drop t.length).set t.length (some (0 : UInt8)) = text t ++ cs.drop (t.length + 1) := by
  unfold text
  rw [List.set_append_right _ _ (by simp)]
  simp only [List.length_map, Nat.sub_self, List.append_assoc]
  congr 1
  cases hd : cs.drop t.length with
  | nil =>
    have := congrArg List.length hd
    simp at this
    omega
  | cons b bs =>
    rw [← List.drop_drop, hd]
    rfl

/-- Writing a text that fits into the error buffer. -/
theorem write_wp {h0 h : Heap Wrapper} {w : Nat} {c : Cap} {e t : Bytes} {s : Wrapper} {rest : List (Option UInt8)}
    (ho : Own h0 h w c e s rest) (hl : t.length < s.errorBufferSize) (hs : Str t) {Q : Unit → Heap Wrapper → Prop}
    (hq : ∀ h' rest', Own h0 h' w c t s rest' → h'.answers = h.answers → h'.held = h.held → Q () h') :
    wp (do memcpy s.errorBuffer t; poke s.errorBuffer t.length 0 : P Unit) h Q := by
  have hlen : t.length < (text e ++ rest).length := by rw [ho.size]; exact hl
  refine wp_bind (wp_memcpy ho.ne ho.ce (by omega) ?_)
  refine wp_poke ho.ne (put_same ..) (by simp at hlen ⊢; omega) ?_
  dsimp only
  rw [put_put, poked t _ hlen]
  refine hq _ _ (ho.error ?_ hs) rfl rfl
  rw [← ho.size]
  simp [text] at hlen ⊢
  omega

theorem libText_wp {h0 h : Heap Wrapper} {w : Nat} {c : Cap} {e t : Bytes} {s : Wrapper} {rest : List (Option UInt8)}
    (ho : Own h0 h w c e s rest) (ht : Short t) {Q : Unit → Heap Wrapper → Prop}
    (hq : ∀ h' rest', Own h0 h' w c t s rest' → h'.answers = h.answers → h'.held = h.held → Q () h') : wp (libText w t) h Q := by
  refine wp_bind (wp_struct ho.nw ho.cw ?_)
  exact write_wp ho (by have := ho.big; have := ht.2; omega) ht.1 hq

/-- The error buffer is replaced. -/
theorem Own.buffer {h0 h : Heap Wrapper} {w : Nat} {c : Cap} {e : Bytes} {s : Wrapper} {rest : List (Option UInt8)}
    (ho : Own h0 h w c e s rest) (e' : Bytes) (rest' : List (Option UInt8)) (hs : Str e') (hb : 256 ≤ (text e' ++ rest').length)
    (ans : List Bool) (ha : ans <:+ h0.answers) :
    Own h0 { h with
      objs := put (put (put (put h.objs h.next (some (.chars (text e' ++ rest')))) s.errorBuffer none) w
        (some (.struct { s with errorBuffer := h.next, errorBufferSize := (text e' ++ rest').length })))
        h.next (some (.chars (text e' ++ rest')))
      next := h.next + 1, answers := ans } w c e'
      { s with errorBuffer := h.next, errorBufferSize := (text e' ++ rest').length } rest' := by
  have hn : h.objs h.next = none := ho.wf.fresh _ (Nat.le_refl _)
  have n1 : w ≠ h.next := fun x => by have := ho.cw; rw [x, hn] at this; cases this
  have n2 : s.device ≠ h.next := fun x => by have := ho.cd; rw [x, hn] at this; cases this
  have n3 : s.errorBuffer ≠ h.next := fun x => by have := ho.ce; rw [x, hn] at this; cases this
  have n0 : h.next ≠ 0 := Nat.pos_iff_ne_zero.1 ho.wf.pos
  have n4 : s.filter ≠ h.next := by
    intro x
    have := ho.cf
    unfold FilterAt at this
    split at this
    · exact n0 (x.symm.trans this)
    · rw [x, hn] at this; cases this.2.1
  refine ⟨ho.base, ⟨Nat.succ_pos _, ?_, fun a hx => ?_⟩, ?_, ?_, put_same .., ?_, rfl, hb, ho.max, ho.timeout, ho.isOpen, ho.nw,
    ho.nd, n0, ho.d1, n1, n2, ho.d4, ho.d5, n4, ho.f1, ho.f2, ho.base.fresh _ ho.next, ho.f4, fun a a1 a2 a3 a4 => ?_,
    Nat.le_succ_of_le ho.next, ha, ho.sd, hs⟩
  · dsimp only
    rw [put_other _ _ (Ne.symm n0), put_other _ _ (Ne.symm ho.nw), put_other _ _ (Ne.symm ho.ne), put_other _ _ (Ne.symm n0)]
    exact ho.wf.zero
  · have hx' : h.next + 1 ≤ a := hx
    have lt : ∀ p, h.objs p ≠ none → a ≠ p := by
      intro p hp x
      exact hp (ho.wf.fresh p (by omega))
    dsimp only
    rw [put_other _ _ (by omega), put_other _ _ (lt w (by rw [ho.cw]; nofun)), put_other _ _ (lt _ (by rw [ho.ce]; nofun)),
      put_other _ _ (by omega)]
    exact ho.wf.fresh a (by omega)
  · dsimp only
    rw [put_other _ _ n1, put_same]
  · dsimp only
    rw [put_other _ _ n2, put_other _ _ (Ne.symm ho.d1), put_other _ _ ho.d3, put_other _ _ n2]
    exact ho.cd
  · have := ho.cf
    unfold FilterAt at *
    dsimp only
    split
    · next hx => rw [hx] at this; exact this
    · next f hx =>
      rw [hx] at this
      refine ⟨this.1, ?_, this.2.2⟩
      rw [put_other _ _ n4, put_other _ _ ho.d4, put_other _ _ ho.d6, put_other _ _ n4]
      exact this.2.1
  · dsimp only at a3 ⊢
    rw [put_other _ _ a3, put_other _ _ a1]
    by_cases x : a = s.errorBuffer
    · rw [x, put_same, ho.f3]
    · rw [put_other _ _ x, put_other _ _ a3]
      exact ho.frame a a1 a2 x a4

theorem str_take {t : Bytes} (h : Str t) (n : Nat) : Str (t.take n) := fun hm => h (List.mem_of_mem_take hm)

theorem copyError_wp {h0 h : Heap Wrapper} {w : Nat} {c : Cap} {e t : Bytes} {s : Wrapper} {rest : List (Option UInt8)}
    (ho : Own h0 h w c e s rest) (ht : Str t) {Q : Unit → Heap Wrapper → Prop}
    (hq : ∀ h' e' s' rest', Own h0 h' w c e' s' rest' → h'.answers <:+ h.answers →
      h'.held = h.held → Told (false ∈ h.answers) t e' → Q () h') :
    wp (copyErrorString w t) h Q := by
  -- the second half
  have tail : ∀ (h1 : Heap Wrapper) e1 s1 rest1, Own h0 h1 w c e1 s1 rest1 → h1.answers <:+ h.answers → h1.held = h.held →
      (t.length < s1.errorBufferSize ∨ false ∈ h.answers) →
      wp (do
        let s ← struct w
        let len := if t.length + 1 > s.errorBufferSize then s.errorBufferSize - 1 else t.length
        memcpy s.errorBuffer (t.take len)
        poke s.errorBuffer len 0 : P Unit) h1 Q := by
    intro h1 e1 s1 rest1 ho1 ha hx hor
    have hb := ho1.big
    refine wp_bind (wp_struct ho1.nw ho1.cw ?_)
    by_cases hl : t.length + 1 > s1.errorBufferSize
    · dsimp only
      rw [if_pos hl]
      have e2 : (t.take (s1.errorBufferSize - 1)).length = s1.errorBufferSize - 1 := by simp; omega
      have := write_wp (t := t.take (s1.errorBufferSize - 1)) ho1 (by omega) (str_take ht _) (Q := Q) ?_
      · rw [e2] at this; exact this
      · intro h' rest' k1 k2 k3
        exact hq h' _ s1 rest' k1 (k2 ▸ ha) (k3.trans hx) (.inr ⟨hor.resolve_left (by omega), s1.errorBufferSize - 1, by omega, rfl⟩)
    · dsimp only
      rw [if_neg hl, List.take_of_length_le (Nat.le_refl _)]
      exact write_wp ho1 (by omega) ht fun h' rest' k1 k2 k3 => hq h' t s1 rest' k1 (k2 ▸ ha) (k3.trans hx) (.inl rfl)
  unfold copyErrorString
  refine wp_bind (wp_struct ho.nw ho.cw ?_)
  by_cases hl : t.length + 1 > s.errorBufferSize
  · rw [if_pos hl]
    -- a larger buffer; for the time until it is filled it is described by its final content
    have hn : h.objs h.next = none := ho.wf.fresh _ (Nat.le_refl _)
    have n0 : h.next ≠ 0 := Nat.pos_iff_ne_zero.1 ho.wf.pos
    have n1 : w ≠ h.next := fun x => by have := ho.cw; rw [x, hn] at this; cases this
    have n3 : s.errorBuffer ≠ h.next := fun x => by have := ho.ce; rw [x, hn] at this; cases this
    have hb := ho.big
    refine wp_bind (wp_bind (wp_alloc (fun _ => ?_) (fun hno => ?_)))
    · rw [if_pos n0]
      refine wp_bind (wp_struct ho.nw ((put_other _ _ n1).trans ho.cw) ?_)
      refine wp_bind (wp_free (o := .chars (text e ++ rest)) ho.ne ((put_other _ _ n3).trans ho.ce) ?_)
      refine wp_update (s := s) ho.nw ?_ ?_
      · dsimp only
        rw [put_other _ _ ho.d2, put_other _ _ n1]
        exact ho.cw
      refine wp_bind (wp_struct (s := { s with errorBuffer := h.next, errorBufferSize := t.length + 1 }) ho.nw (put_same ..) ?_)
      dsimp only
      rw [if_neg (by omega), List.take_of_length_le (Nat.le_refl _)]
      have hc : put (put (put h.objs h.next (some (.chars (List.replicate (t.length + 1) none)))) s.errorBuffer none) w
          (some (Obj.struct { s with errorBuffer := h.next, errorBufferSize := t.length + 1 })) h.next =
          some (.chars (List.replicate (t.length + 1) none)) := by
        rw [put_other _ _ (Ne.symm n1), put_other _ _ (Ne.symm n3), put_same]
      refine wp_bind (wp_memcpy n0 hc (by simp) ?_)
      refine wp_poke n0 (put_same ..) (by simp) ?_
      dsimp only
      rw [put_put, poked t _ (by simp)]
      have hd : List.drop (t.length + 1) (List.replicate (t.length + 1) (none : Option UInt8)) = [] := by simp
      rw [hd]
      have hlen : (text t ++ ([] : List (Option UInt8))).length = t.length + 1 := by simp [text]
      have := ho.buffer t [] ht (by rw [hlen]; omega) h.answers.tail ((headD_tail _).trans ho.answers)
      rw [hlen] at this
      have hobj : put (put (put (put h.objs h.next (some (.chars (text t ++ [])))) s.errorBuffer none) w
            (some (Obj.struct { s with errorBuffer := h.next, errorBufferSize := t.length + 1 }))) h.next
            (some (.chars (text t ++ []))) =
          put (put (put (put h.objs h.next (some (.chars (List.replicate (t.length + 1) none)))) s.errorBuffer none) w
            (some (Obj.struct { s with errorBuffer := h.next, errorBufferSize := t.length + 1 }))) h.next
            (some (.chars (text t ++ []))) := by
        funext a
        unfold put
        split
        · rfl
        · rfl
      rw [hobj] at this
      exact hq _ t _ [] this (headD_tail _) rfl (.inl rfl)
    · rw [if_neg (by simp)]
      refine wp_pure ?_
      refine tail _ e s rest ?_ (headD_tail _) rfl (.inr hno)
      exact ⟨ho.base, ⟨ho.wf.pos, ho.wf.zero, ho.wf.fresh⟩, ho.cw, ho.cd, ho.ce, ho.cf, ho.size, ho.big, ho.max, ho.timeout,
        ho.isOpen, ho.nw, ho.nd, ho.ne, ho.d1, ho.d2, ho.d3, ho.d4, ho.d5, ho.d6, ho.f1, ho.f2, ho.f3, ho.f4, ho.frame, ho.next,
        (headD_tail _).trans ho.answers, ho.sd, ho.se⟩
  · rw [if_neg hl]
    exact tail h e s rest ho (List.suffix_refl _) rfl (.inl (by omega))

theorem setError_wp {h0 h : Heap Wrapper} {w : Nat} {c : Cap} {e : Bytes} {s : Wrapper} {rest : List (Option UInt8)}
    (ho : Own h0 h w c e s rest) (lib : Lib) (hl : Sound lib) (err : Int) (desc : Option Bytes)
    (hd : ∀ t, desc = some t → Str t) {Q : Int → Heap Wrapper → Prop}
    (hq : ∀ h' e' s' rest', Own h0 h' w c e' s' rest' → h'.answers <:+ h.answers → h'.held = h.held →
      Told (false ∈ h.answers) (desc.getD (lib.strerror err)) e' → Q err h') :
    wp (setError lib.strerror w err desc) h Q := by
  unfold setError
  cases desc with
  | none =>
    exact wp_bind (copyError_wp ho (hl.strerror err) fun h' e' s' rest' k1 k2 k3 k4 => wp_pure (hq h' e' s' rest' k1 k2 k3 k4))
  | some t =>
    exact wp_bind (copyError_wp ho (hd t rfl) fun h' e' s' rest' k1 k2 k3 k4 => wp_pure (hq h' e' s' rest' k1 k2 k3 k4))

/-! ## Making and freeing -/

theorem freeIf_wp {h : Heap Wrapper} {p : Nat} (hz : h.objs 0 = none) (hp : p = 0 ∨ ∃ o, h.objs p = some o)
    {Q : Unit → Heap Wrapper → Prop} (hq : Q () { h with objs := put h.objs p none }) : wp (freeIf p) h Q := by
  unfold freeIf
  by_cases h0 : p = 0
  · subst h0
    rw [put_self _ _ _ hz] at hq
    exact wp_pure hq
  · rw [if_pos h0]
    obtain ⟨o, ho⟩ := hp.resolve_left h0
    exact wp_free h0 ho hq

theorem close_wp {h : Heap Wrapper} {w : Nat} {s : Wrapper} (hw : w ≠ 0) (cw : h.objs w = some (.struct s))
    (hh : s.h = true → .pcap ∈ h.held) {Q : Unit → Heap Wrapper → Prop}
    (hq : Q () { h with objs := put h.objs w (some (.struct { s with h := false })),
                        held := if s.h then h.held.erase .pcap else h.held }) : wp (close w) h Q := by
  unfold close
  refine wp_bind (wp_struct hw cw ?_)
  by_cases hx : s.h = true
  · rw [if_pos hx] at hq ⊢
    exact wp_bind (wp_release (hh hx) (wp_update hw cw hq))
  · rw [if_neg hx] at hq ⊢
    exact wp_update hw cw hq

/-- The blocks of a wrapper removed. -/
def wiped (objs : Nat → Option (Obj Wrapper)) (w : Nat) (s : Wrapper) : Nat → Option (Obj Wrapper) :=
  fun a => if a = w ∨ a = s.errorBuffer ∨ a = s.device ∨ a = s.filter then none else objs a

theorem wrapperFree_wp {h : Heap Wrapper} {w : Nat} {s : Wrapper} (hw : w ≠ 0) (hz : h.objs 0 = none)
    (cw : h.objs w = some (.struct s)) (hh : s.h = true → .pcap ∈ h.held)
    (he : s.errorBuffer = 0 ∨ (∃ o, h.objs s.errorBuffer = some o) ∧ s.errorBuffer ≠ w)
    (hd : s.device = 0 ∨ (∃ o, h.objs s.device = some o) ∧ s.device ≠ w ∧ s.device ≠ s.errorBuffer)
    (hf : s.filter = 0 ∨ (∃ o, h.objs s.filter = some o) ∧ s.filter ≠ w ∧ s.filter ≠ s.errorBuffer ∧ s.filter ≠ s.device)
    {Q : Unit → Heap Wrapper → Prop}
    (hq : Q () { h with objs := wiped h.objs w s, held := if s.h then h.held.erase .pcap else h.held }) :
    wp (wrapperFree w) h Q := by
  -- from the first `free` on
  have tail : ∀ h1 : Heap Wrapper, h1.objs 0 = none → (∃ s1, h1.objs w = some (.struct s1)) →
      (∀ a, a ≠ w → h1.objs a = h.objs a) → h1.next = h.next → h1.answers = h.answers →
      h1.held = (if s.h then h.held.erase .pcap else h.held) →
      wp (do
        freeIf s.errorBuffer
        freeIf s.device
        freeIf s.filter
        free w : P Unit) h1 Q := by
    rintro h1 z1 ⟨s1, k1⟩ k2 k3 k4 k5
    have lift : ∀ {p : Nat}, (∃ o, h.objs p = some o) → p ≠ w → ∃ o, h1.objs p = some o := by
      rintro p ⟨o, ho⟩ hp
      exact ⟨o, (k2 p hp).trans ho⟩
    refine wp_bind (freeIf_wp z1 (he.imp id fun x => lift x.1 x.2) ?_)
    have z2 : put h1.objs s.errorBuffer none 0 = none := by
      unfold put; split
      · rfl
      · exact z1
    refine wp_bind (freeIf_wp z2 (hd.imp id fun x => ?_) ?_)
    · obtain ⟨o, ho⟩ := lift x.1 x.2.1
      exact ⟨o, (put_other _ _ x.2.2).trans ho⟩
    have z3 : put (put h1.objs s.errorBuffer none) s.device none 0 = none := by
      unfold put; split
      · rfl
      · exact z2
    refine wp_bind (freeIf_wp z3 (hf.imp id fun x => ?_) ?_)
    · obtain ⟨o, ho⟩ := lift x.1 x.2.1
      refine ⟨o, ?_⟩
      dsimp only
      rw [put_other _ _ x.2.2.2, put_other _ _ x.2.2.1]
      exact ho
    refine wp_free (o := .struct s1) hw ?_ ?_
    · dsimp only
      have ne : ∀ {p : Nat} {X : Prop}, (p = 0 ∨ X) → (X → p ≠ w) → w ≠ p := by
        intro p X hx hp e
        rcases hx with hx | hx
        · exact hw (e.trans hx)
        · exact hp hx e.symm
      rw [put_other _ _ (ne hf fun x => x.2.1), put_other _ _ (ne hd fun x => x.2.1), put_other _ _ (ne he fun x => x.2)]
      exact k1
    · have e : put (put (put (put h1.objs s.errorBuffer none) s.device none) s.filter none) w none = wiped h.objs w s := by
        funext a
        unfold put wiped
        by_cases a1 : a = w
        · simp [a1]
        · by_cases a2 : a = s.filter
          · simp [a2]
          · by_cases a3 : a = s.device
            · simp [a3]
            · by_cases a4 : a = s.errorBuffer
              · simp [a4]
              · simp [a1, a2, a3, a4, k2 a a1]
      dsimp only
      rw [e]
      have : ({ objs := wiped h.objs w s, next := h1.next, answers := h1.answers, held := h1.held } : Heap Wrapper) =
          { h with objs := wiped h.objs w s, held := if s.h then h.held.erase .pcap else h.held } := by
        rw [k3, k4, k5]
      rw [this]
      exact hq
  unfold wrapperFree
  refine wp_bind (wp_struct hw cw ?_)
  by_cases hx : s.h = true
  · rw [if_pos hx] at tail ⊢
    refine wp_bind (close_wp hw cw hh ?_)
    rw [if_pos hx]
    exact tail _ ((put_other _ _ (Ne.symm hw)).trans hz) ⟨_, put_same ..⟩ (fun a ha => put_other _ _ ha) rfl rfl rfl
  · rw [if_neg hx] at tail ⊢
    exact tail h hz ⟨s, cw⟩ (fun _ _ => rfl) rfl rfl rfl

theorem Own.free_wp {h0 h : Heap Wrapper} {w : Nat} {c : Cap} {e : Bytes} {s : Wrapper} {rest : List (Option UInt8)}
    (ho : Own h0 h w c e s rest) (hh : h.held = (if c.isOpen then [.pcap] else []) ++ h0.held)
    {Q : Unit → Heap Wrapper → Prop} (hq : ∀ h', Same h0 h' → Q () h') : wp (wrapperFree w) h Q := by
  refine wrapperFree_wp ho.nw ho.wf.zero ho.cw ?_ (.inr ⟨⟨_, ho.ce⟩, Ne.symm ho.d2⟩) (.inr ⟨⟨_, ho.cd⟩, Ne.symm ho.d1, ho.d3⟩) ?_ ?_
  · intro hx
    rw [hh, ← ho.isOpen, hx]
    simp
  · have := ho.cf
    unfold FilterAt at this
    split at this
    · exact .inl this
    · exact .inr ⟨⟨_, this.2.1⟩, ho.d4, ho.d6, ho.d5⟩
  · refine hq _ ⟨?_, ?_⟩
    · funext a
      dsimp only
      unfold wiped
      split
      · next x =>
        rcases x with rfl | rfl | rfl | rfl
        · exact ho.f1.symm
        · exact ho.f3.symm
        · exact ho.f2.symm
        · exact ho.f4.symm
      · next x =>
        simp only [not_or] at x
        exact ho.frame a x.1 x.2.2.1 x.2.1 x.2.2.2
    · dsimp only
      rw [hh, ho.isOpen]
      cases c.isOpen <;> simp

theorem wrapperNew_wp {h : Heap Wrapper} (hw : WF h) (dev : Bytes) (hd : Str dev) {Q : Nat → Heap Wrapper → Prop}
    (hno : ∀ h', Same h h' → false ∈ h.answers → Q 0 h')
    (hok : ∀ h' w s rest, Own h h' w ⟨dev, defaults, false⟩ [] s rest → h'.held = h.held → Q w h') : wp (wrapperNew dev) h Q := by
  have n0 : h.next ≠ 0 := Nat.pos_iff_ne_zero.1 hw.pos
  have fr : ∀ a, h.next ≤ a → h.objs a = none := hw.fresh
  unfold wrapperNew
  refine wp_bind (wp_alloc (fun _ => ?_) (fun hno' => ?_))
  case refine_2 =>
    rw [if_pos rfl]
    unfold newErr
    rw [if_neg (by simp)]
    exact wp_pure (hno _ ⟨rfl, rfl⟩ hno')
  rw [if_neg n0]
  have hw1 : WF ({ h with
      objs := put h.objs h.next (some (.struct (⟨0, 0, 0, 0, 0, 0, false⟩ : Wrapper)))
      next := h.next + 1
      answers := h.answers.tail } : Heap Wrapper) := by
    refine ⟨Nat.succ_pos _, (put_other h.objs _ (Ne.symm n0)).trans hw.zero, fun a ha => ?_⟩
    have ha' : h.next + 1 ≤ a := ha
    exact (put_other h.objs _ (by omega)).trans (fr a (by omega))
  refine wp_bind (wp_stringDup hw1 ?_ (fun hno' => ?_))
  case refine_2 =>
    refine wp_bind (wp_update (s := ⟨0, 0, 0, 0, 0, 0, false⟩) n0 (put_same ..) ?_)
    rw [if_pos rfl]
    unfold newErr
    rw [if_pos n0]
    dsimp only
    rw [put_put]
    refine wp_bind (wrapperFree_wp n0 ((put_other h.objs _ (Ne.symm n0)).trans hw.zero) (put_same ..) (fun hx => by cases hx) (.inl rfl) (.inl rfl)
      (.inl rfl) (wp_pure (hno _ ⟨?_, rfl⟩ ((headD_tail _).subset hno'))))
    funext a
    dsimp only
    unfold wiped
    split
    · next x =>
      simp only [or_self] at x
      rcases x with rfl | rfl
      · exact (fr _ (Nat.le_refl _)).symm
      · exact hw.zero.symm
    · next x =>
      simp only [not_or] at x
      exact put_other _ _ x.1
  refine wp_bind (wp_update (s := ⟨0, 0, 0, 0, 0, 0, false⟩) n0 ((put_other _ _ (by show h.next ≠ h.next + 1; omega)).trans (put_same ..)) ?_)
  rw [if_neg (by show ¬ h.next + 1 = 0; omega)]
  refine wp_bind (wp_update (s := ⟨h.next + 1, 0, 0, 0, 0, 0, false⟩) n0 (put_same ..) ?_)
  dsimp only
  rw [put_put]
  refine wp_bind (wp_struct (s := ⟨h.next + 1, 0, 65536, 1000, 0, 256, false⟩) n0 (put_same ..) ?_)
  refine wp_bind (wp_alloc (fun _ => ?_) (fun hno' => ?_))
  · refine wp_bind (wp_update (s := ⟨h.next + 1, 0, 65536, 1000, 0, 256, false⟩) n0
      ((put_other _ _ (by show h.next ≠ h.next + 1 + 1; omega)).trans (put_same ..)) ?_)
    rw [if_neg (by show ¬ h.next + 1 + 1 = 0; omega)]
    refine wp_bind (wp_poke (cs := List.replicate 256 none) (by show h.next + 1 + 1 ≠ 0; omega)
      ((put_other _ _ (by show h.next + 1 + 1 ≠ h.next; omega)).trans (put_same ..))
      (by rw [List.length_replicate]; omega) (wp_pure ?_))
    refine hok _ h.next ⟨h.next + 1, 0, 65536, 1000, h.next + 1 + 1, 256, false⟩ (List.replicate 255 none) ?_ rfl
    refine ⟨hw, ⟨Nat.succ_pos _, ?_, fun a ha => ?_⟩, ?_, ?_, put_same .., rfl,
      by rw [List.length_append, List.length_replicate]; rfl, Nat.le_refl _, rfl, rfl, rfl, n0,
      by show h.next + 1 ≠ 0; omega, by show h.next + 1 + 1 ≠ 0; omega, by show h.next ≠ h.next + 1; omega,
      by show h.next ≠ h.next + 1 + 1; omega, by show h.next + 1 ≠ h.next + 1 + 1; omega, Ne.symm n0,
      by show 0 ≠ h.next + 1; omega, by show 0 ≠ h.next + 1 + 1; omega, fr _ (Nat.le_refl _),
      fr _ (by show h.next ≤ h.next + 1; omega), fr _ (by show h.next ≤ h.next + 1 + 1; omega), hw.zero, fun a a1 a2 a3 a4 => ?_,
      by show h.next ≤ h.next + 1 + 1 + 1; omega,
      ((headD_tail _).trans ((headD_tail _).trans (headD_tail _))), hd, nofun⟩
    · dsimp only
      rw [put_other _ _ (by omega), put_other _ _ (by omega), put_other _ _ (by omega), put_other _ _ (by omega),
        put_other _ _ (by omega), put_other _ _ (by omega)]
      exact hw.zero
    · have ha' : h.next + 1 + 1 + 1 ≤ a := ha
      dsimp only
      rw [put_other _ _ (by omega), put_other _ _ (by omega), put_other _ _ (by omega), put_other _ _ (by omega),
        put_other _ _ (by omega), put_other _ _ (by omega)]
      exact fr a (by omega)
    · dsimp only
      rw [put_other _ _ (by omega), put_same]
    · dsimp only
      rw [put_other _ _ (by omega), put_other _ _ (by omega), put_other _ _ (by omega), put_other _ _ (by omega), put_same]
    · dsimp only at a2 a3 ⊢
      rw [put_other _ _ a3, put_other _ _ a1, put_other _ _ a3, put_other _ _ a1, put_other _ _ a2, put_other _ _ a1]
  · refine wp_bind (wp_update (s := ⟨h.next + 1, 0, 65536, 1000, 0, 256, false⟩) n0 (put_same ..) ?_)
    rw [if_pos rfl]
    unfold newErr
    rw [if_pos n0]
    dsimp only
    rw [put_put]
    refine wp_bind (wrapperFree_wp (s := ⟨h.next + 1, 0, 65536, 1000, 0, 256, false⟩) n0 ?_ (put_same ..) (fun hx => by cases hx) (.inl rfl)
      (.inr ⟨⟨.chars (text dev), ?_⟩, by show h.next + 1 ≠ h.next; omega, by show h.next + 1 ≠ 0; omega⟩)
      (.inl rfl) (wp_pure (hno _ ⟨?_, rfl⟩ ((headD_tail _).subset ((headD_tail _).subset hno')))))
    · dsimp only
      rw [put_other _ _ (by omega), put_other _ _ (by omega), put_other _ _ (by omega)]
      exact hw.zero
    · dsimp only
      rw [put_other _ _ (by omega), put_same]
    · funext a
      dsimp only
      unfold wiped
      split
      · next x =>
        dsimp only at x
        rcases x with rfl | rfl | rfl | rfl
        · exact (fr _ (Nat.le_refl _)).symm
        · exact hw.zero.symm
        · exact (fr _ (by omega)).symm
        · exact hw.zero.symm
      · next x =>
        simp only [not_or] at x
        rw [put_other _ _ x.1, put_other _ _ x.2.2.1, put_other _ _ x.1]

/-! ## The options -/

/-- The filter is replaced. -/
theorem Own.filter {h0 h : Heap Wrapper} {w : Nat} {c : Cap} {e : Bytes} {s : Wrapper} {rest : List (Option UInt8)}
    (ho : Own h0 h w c e s rest) (f : Bytes) (hf : Str f) (ans : List Bool) (ha : ans <:+ h0.answers) :
    Own h0 { h with
      objs := put (put (put h.objs s.filter none) h.next (some (.chars (text f)))) w
        (some (.struct { s with filter := h.next }))
      next := h.next + 1, answers := ans } w ⟨c.dev, { c.set with filter := some f }, c.isOpen⟩ e
      { s with filter := h.next } rest := by
  have hn : h.objs h.next = none := ho.wf.fresh _ (Nat.le_refl _)
  have n1 : w ≠ h.next := fun x => by have := ho.cw; rw [x, hn] at this; cases this
  have n2 : s.device ≠ h.next := fun x => by have := ho.cd; rw [x, hn] at this; cases this
  have n3 : s.errorBuffer ≠ h.next := fun x => by have := ho.ce; rw [x, hn] at this; cases this
  have n0 : h.next ≠ 0 := Nat.pos_iff_ne_zero.1 ho.wf.pos
  refine ⟨ho.base, ⟨Nat.succ_pos _, ?_, fun a hx => ?_⟩, put_same .., ?_, ?_, ⟨n0, ?_, hf⟩, ho.size, ho.big, ho.max, ho.timeout,
    ho.isOpen, ho.nw, ho.nd, ho.ne, ho.d1, ho.d2, ho.d3, Ne.symm n1, Ne.symm n2, Ne.symm n3, ho.f1, ho.f2, ho.f3,
    ho.base.fresh _ ho.next, fun a a1 a2 a3 a4 => ?_, Nat.le_succ_of_le ho.next, ha, ho.sd, ho.se⟩
  · dsimp only
    rw [put_other _ _ (Ne.symm ho.nw), put_other _ _ (Ne.symm n0)]
    unfold put
    split
    · rfl
    · exact ho.wf.zero
  · have hx' : h.next + 1 ≤ a := hx
    have lt : ∀ p, h.objs p ≠ none → a ≠ p := by
      intro p hp x
      exact hp (ho.wf.fresh p (by omega))
    dsimp only
    rw [put_other _ _ (lt w (by rw [ho.cw]; nofun)), put_other _ _ (by omega)]
    unfold put
    split
    · rfl
    · exact ho.wf.fresh a (by omega)
  · dsimp only
    rw [put_other _ _ (Ne.symm ho.d1), put_other _ _ n2, put_other _ _ (Ne.symm ho.d5)]
    exact ho.cd
  · dsimp only
    rw [put_other _ _ (Ne.symm ho.d2), put_other _ _ n3, put_other _ _ (Ne.symm ho.d6)]
    exact ho.ce
  · dsimp only
    rw [put_other _ _ (Ne.symm n1), put_same]
  · dsimp only at a4 ⊢
    rw [put_other _ _ a1, put_other _ _ a4]
    by_cases x : a = s.filter
    · rw [x, put_same, ho.f4]
    · rw [put_other _ _ x]
      exact ho.frame a a1 a2 a3 x

theorem setOpt_wp {h0 h : Heap Wrapper} {w : Nat} {c : Cap} {e : Bytes} {s : Wrapper} {rest : List (Option UInt8)}
    (ho : Own h0 h w c e s rest) (o : Opt) (hf : ∀ f, o = .filter (some f) → Str f) {Q : Bool → Heap Wrapper → Prop}
    (hno : ∀ h', false ∈ h0.answers ∨ o = .filter none → Q false h')
    (hok : ∀ h' s' rest', Own h0 h' w ⟨c.dev, c.set.with o, c.isOpen⟩ e s' rest' → h'.held = h.held →
      o ≠ .filter none → Q true h') :
    wp (setOpt w o) h Q := by
  have hb : s.h = c.isOpen := ho.isOpen
  have hmax := ho.max
  have htime := ho.timeout
  cases o with
  | maxPacketLength n =>
    refine wp_bind (wp_update ho.nw ho.cw (wp_pure ?_))
    have := ho.fields n s.readTimeout s.h h.answers h.held ho.answers
    have key : (⟨c.dev, ⟨n, s.readTimeout, c.set.filter⟩, s.h⟩ : Cap) = ⟨c.dev, c.set.with (.maxPacketLength n), c.isOpen⟩ := by
      rw [htime, hb]; rfl
    rw [key] at this
    exact hok _ _ rest this rfl nofun
  | readTimeout n =>
    refine wp_bind (wp_update ho.nw ho.cw (wp_pure ?_))
    have := ho.fields s.maxPacketSize n s.h h.answers h.held ho.answers
    have key : (⟨c.dev, ⟨s.maxPacketSize, n, c.set.filter⟩, s.h⟩ : Cap) = ⟨c.dev, c.set.with (.readTimeout n), c.isOpen⟩ := by
      rw [hmax, hb]; rfl
    rw [key] at this
    exact hok _ _ rest this rfl nofun
  | filter f =>
    have hfz : s.filter = 0 ∨ ∃ o, h.objs s.filter = some o := by
      have := ho.cf
      unfold FilterAt at this
      split at this
      · exact .inl this
      · exact .inr ⟨_, this.2.1⟩
    refine wp_bind (wp_bind (wp_struct ho.nw ho.cw (wp_bind (freeIf_wp ho.wf.zero hfz ?_))))
    have hw' : put h.objs s.filter none w = some (.struct s) := (put_other _ _ (Ne.symm ho.d4)).trans ho.cw
    cases f with
    | none =>
      refine wp_bind (wp_pure (wp_bind (wp_update ho.nw hw' (wp_pure ?_))))
      exact wp_pure (hno _ (.inr rfl))
    | some f =>
      have hz : put h.objs s.filter none 0 = none := by
        unfold put
        split
        · rfl
        · exact ho.wf.zero
      have hwf : WF ({ h with objs := put h.objs s.filter none } : Heap Wrapper) := by
        refine ⟨ho.wf.pos, hz, fun a ha => ?_⟩
        show put h.objs s.filter none a = none
        unfold put
        split
        · rfl
        · exact ho.wf.fresh a ha
      have n1 : w ≠ h.next := fun x => by
        have h1 := ho.cw
        have h2 := ho.wf.fresh _ (Nat.le_refl _)
        rw [x, h2] at h1; cases h1
      refine wp_bind (wp_stringDup hwf ?_ (fun hm => ?_))
      · refine wp_bind (wp_update (s := s) ho.nw ((put_other _ _ n1).trans hw') (wp_pure ?_))
        rw [if_neg (Nat.pos_iff_ne_zero.1 ho.wf.pos)]
        refine wp_pure (hok _ _ rest (ho.filter f (hf f rfl) h.answers.tail ((headD_tail _).trans ho.answers)) rfl nofun)
      · refine wp_bind (wp_update ho.nw hw' (wp_pure ?_))
        exact wp_pure (hno _ (.inl (ho.answers.subset hm)))

theorem setOpts_wp {h0 : Heap Wrapper} {w : Nat} {e : Bytes} (opts : List Opt) {h : Heap Wrapper} {c : Cap} {s : Wrapper}
    {rest : List (Option UInt8)} (ho : Own h0 h w c e s rest) (hf : StrOpts opts) {Q : Bool → Heap Wrapper → Prop}
    (hno : ∀ h', false ∈ h0.answers ∨ .filter none ∈ opts → Q false h')
    (hok : ∀ h' s' rest', Own h0 h' w ⟨c.dev, opts.foldl Settings.with c.set, c.isOpen⟩ e s' rest' → h'.held = h.held →
      .filter none ∉ opts → Q true h') :
    wp (setOpts w opts) h Q := by
  induction opts generalizing h c s rest with
  | nil => exact wp_pure (hok h s rest ho rfl (by simp))
  | cons o os ih =>
    unfold setOpts
    refine wp_bind (setOpt_wp ho o (fun f e => hf f (e ▸ List.mem_cons_self ..)) (fun h' hn => ?_) (fun h' s' rest' k1 k2 k3 => ?_))
    · rw [if_neg (by simp)]
      refine wp_pure (hno h' (hn.imp id fun x => ?_))
      rw [x]
      exact List.mem_cons_self ..
    · rw [if_pos rfl]
      refine ih k1 (fun f hm => hf f (List.mem_cons_of_mem _ hm)) (fun h'' hn => hno h'' (hn.imp id (List.mem_cons_of_mem _)))
        (fun h'' s'' rest'' j1 j2 j3 => hok h'' s'' rest'' j1 (j2.trans k2) ?_)
      intro hm
      rcases List.mem_cons.1 hm with hm | hm
      · exact k3 hm.symm
      · exact j3 hm

/-! ## Opening -/

theorem Own.held {h0 h : Heap Wrapper} {w : Nat} {c : Cap} {e : Bytes} {s : Wrapper} {rest : List (Option UInt8)}
    (ho : Own h0 h w c e s rest) (l : List Held) : Own h0 { h with held := l } w c e s rest :=
  ⟨ho.base, ⟨ho.wf.pos, ho.wf.zero, ho.wf.fresh⟩, ho.cw, ho.cd, ho.ce, ho.cf, ho.size, ho.big, ho.max, ho.timeout,
    ho.isOpen, ho.nw, ho.nd, ho.ne, ho.d1, ho.d2, ho.d3, ho.d4, ho.d5, ho.d6, ho.f1, ho.f2, ho.f3, ho.f4, ho.frame, ho.next,
    ho.answers, ho.sd, ho.se⟩

theorem Own.opened {h0 h : Heap Wrapper} {w : Nat} {c : Cap} {e : Bytes} {s : Wrapper} {rest : List (Option UInt8)}
    (ho : Own h0 h w c e s rest) (l : List Held) :
    Own h0 { h with objs := put h.objs w (some (.struct { s with h := true })), held := l } w ⟨c.dev, c.set, true⟩ e
      { s with h := true } rest := by
  have := ho.fields s.maxPacketSize s.readTimeout true h.answers l ho.answers
  have key : (⟨c.dev, ⟨s.maxPacketSize, s.readTimeout, c.set.filter⟩, true⟩ : Cap) = ⟨c.dev, c.set, true⟩ := by
    rw [ho.max, ho.timeout]
  rw [key] at this
  exact this

theorem ensureBuffer_wp {h0 h : Heap Wrapper} {w : Nat} {c : Cap} {e : Bytes} {s : Wrapper} {rest : List (Option UInt8)}
    (ho : Own h0 h w c e s rest) {Q : Bool → Heap Wrapper → Prop} (hq : Q true h) : wp (ensureBuffer w) h Q := by
  unfold ensureBuffer
  refine wp_bind (wp_struct ho.nw ho.cw ?_)
  rw [if_neg (by have := ho.big; unfold errbufSize; omega)]
  exact wp_pure hq

theorem openFilter_wp {h0 h : Heap Wrapper} {w : Nat} {c : Cap} {e : Bytes} {s : Wrapper} {rest : List (Option UInt8)}
    (ho : Own h0 h w c e s rest) (lib : Lib) (hl : Sound lib) {Q : Int → Heap Wrapper → Prop}
    (hok : filterError lib c.set.filter = none → Q 0 h)
    (hno : ∀ ret h' e' s' rest' t, ret ≠ 0 → Own h0 h' w c e' s' rest' → h'.answers <:+ h.answers → h'.held = h.held →
      filterError lib c.set.filter = some t → Told (false ∈ h.answers) t e' → Q ret h') :
    wp (openFilter lib w) h Q := by
  unfold openFilter
  refine wp_bind (wp_struct ho.nw ho.cw ?_)
  have hcf := ho.cf
  cases hf : c.set.filter with
  | none =>
    rw [hf] at hcf
    rw [if_neg (by rw [show s.filter = 0 from hcf]; simp)]
    exact wp_pure (hok (by rw [hf]; rfl))
  | some f =>
    rw [hf] at hcf hok hno
    obtain ⟨k1, k2, k3⟩ := hcf
    rw [if_pos k1]
    refine wp_bind (wp_cstr (rest := []) k1 (by rw [List.append_nil]; exact k2) k3 ?_)
    unfold filterError at hok hno
    cases hc : lib.compile f with
    | some ct =>
      obtain ⟨code, t⟩ := ct
      obtain ⟨hneg, hstr⟩ := hl.compile f code t hc
      refine setError_wp ho lib hl code (some t) (fun t' e => by cases e; exact hstr) fun h' e' s' rest' j1 j2 j3 j4 => ?_
      exact hno code h' e' s' rest' t (by omega) j1 j2 j3 (by simp only [hc]) j4
    | none =>
      refine wp_bind (wp_acquire ?_)
      cases hs : lib.setfilter f with
      | some ct =>
        obtain ⟨code, t⟩ := ct
        obtain ⟨hneg, hstr⟩ := hl.setfilter f code t hs
        refine wp_bind (setError_wp (ho.held (.filter :: h.held)) lib hl code (some t) (fun t' e => by cases e; exact hstr)
          fun h' e' s' rest' j1 j2 j3 j4 => ?_)
        have j3' : h'.held = .filter :: h.held := j3
        refine wp_bind (wp_release (by rw [j3']; exact List.mem_cons_self ..) (wp_pure ?_))
        refine hno code _ e' s' rest' t hneg (j1.held _) j2 ?_ (by simp only [hc, hs]) j4
        show h'.held.erase _ = _
        rw [j3']
        simp
      | none =>
        refine wp_bind (wp_pure (wp_bind (wp_release (List.mem_cons_self ..) (wp_pure ?_))))
        have e : ({ objs := h.objs, next := h.next, answers := h.answers, held := (Held.filter :: h.held).erase .filter } : Heap Wrapper) = h := by
          simp
        dsimp only
        rw [e]
        exact hok (by simp only [hc, hs])

/-- What opening a capture leads to: `err` is the reason why the device cannot be opened. -/
structure Opens (h0 h : Heap Wrapper) (w : Nat) (dev : Bytes) (set : Settings) (err : Option Bytes) (noMem : Bytes)
    (Q : Int → Heap Wrapper → Prop) : Prop where
  ok : ∀ h' e' s' rest', Own h0 h' w ⟨dev, set, true⟩ e' s' rest' → h'.held = .pcap :: h.held → h'.answers <:+ h.answers →
    err = none → Q 0 h'
  no : ∀ ret h' e' s' rest' t b, ret ≠ 0 → Own h0 h' w ⟨dev, set, b⟩ e' s' rest' →
    h'.held = (if b then [.pcap] else []) ++ h.held → h'.answers <:+ h.answers →
    err = some t ∨ false ∈ h.answers ∧ t = noMem → Told (false ∈ h.answers) t e' → Q ret h'

theorem openUnix_wp {h0 h : Heap Wrapper} {w : Nat} {dev : Bytes} {set : Settings} {e : Bytes} {s : Wrapper}
    {rest : List (Option UInt8)} (ho : Own h0 h w ⟨dev, set, false⟩ e s rest) (lib : Lib) (hl : Sound lib)
    {Q : Int → Heap Wrapper → Prop} {noMem : Bytes} (hq : Opens h0 h w dev set (openErrorUnix lib dev set) noMem Q) :
    wp (openUnix lib w) h Q := by
  unfold openUnix
  have hmax : s.maxPacketSize = set.max := ho.max
  have htime : s.readTimeout = set.timeout := ho.timeout
  have hopen : s.h = false := ho.isOpen
  have hok := hq.ok
  have hno := hq.no
  unfold openErrorUnix at hok hno
  refine wp_bind (wp_struct ho.nw ho.cw ?_)
  rw [if_neg (by rw [hopen]; simp)]
  refine wp_bind (ensureBuffer_wp ho ?_)
  rw [if_pos rfl]
  refine wp_bind (wp_cstr (rest := []) ho.nd (by rw [List.append_nil]; exact ho.cd) ho.sd ?_)
  dsimp only
  rw [hmax, htime]
  cases hc : lib.create dev set.max set.timeout with
  | error t =>
    refine wp_bind (libText_wp ho (hl.error _ _ _ t hc) fun h' rest' k1 k2 k3 => wp_pure ?_)
    exact hno EINVAL h' t s rest' t false (by decide) k1 (by simpa using k3) (by rw [k2]; exact List.suffix_refl _)
      (.inl (by simp only [hc])) (.inl rfl)
  | ok warning =>
    -- after the warning
    have tail : ∀ (h1 : Heap Wrapper) e1 rest1, Own h0 h1 w ⟨dev, set, false⟩ e1 s rest1 → h1.answers = h.answers → h1.held = h.held →
        wp (do
          acquire .pcap
          update w fun s => { s with h := true }
          match lib.activate dev set.max set.timeout with
          | some (c, t) => setError lib.strerror w c (some t)
          | none => openFilter lib w : P Int) h1 Q := by
      intro h1 e1 rest1 ho1 a1 l1
      refine wp_bind (wp_acquire (wp_bind (wp_update ho1.nw ho1.cw ?_)))
      have ho2 := ho1.opened (.pcap :: h1.held)
      have a2 : ∀ x : List Bool, x <:+ h1.answers → x <:+ h.answers := fun x hx => a1 ▸ hx
      cases ha : lib.activate dev set.max set.timeout with
      | some ct =>
        obtain ⟨code, t⟩ := ct
        obtain ⟨hneg, hstr⟩ := hl.activate _ _ _ code t ha
        refine setError_wp ho2 lib hl code (some t) (fun t' e => by cases e; exact hstr) fun h' e' s' rest' j1 j2 j3 j4 => ?_
        refine hno code h' e' s' rest' t true (by omega) j1 (by rw [j3]; simp [l1]) (a2 _ j2) (.inl (by simp only [hc, ha])) ?_
        rw [← a1]
        exact j4
      | none =>
        refine openFilter_wp ho2 lib hl (fun hn => ?_) (fun ret h' e' s' rest' t j0 j1 j2 j3 j4 j5 => ?_)
        · exact hok _ e1 _ rest1 ho2 (by simp [l1]) (a2 _ (List.suffix_refl _)) (by simp only [hc, ha]; exact hn)
        · refine hno ret h' e' s' rest' t true j0 j1 (by rw [j3]; simp [l1]) (a2 _ j2) (.inl (by simp only [hc, ha]; exact j4)) ?_
          rw [← a1]
          exact j5
    cases warning with
    | none => exact tail h e rest ho rfl rfl
    | some t => exact wp_bind (libText_wp ho (hl.warning _ _ _ t hc) fun h' rest' k1 k2 k3 => tail h' t rest' k1 k2 k3)

/-- Another block is made. -/
theorem Own.tmp {h0 h h' : Heap Wrapper} {w : Nat} {c : Cap} {e : Bytes} {s : Wrapper} {rest : List (Option UInt8)}
    (ho : Own h0 h w c e s rest) (o : Obj Wrapper) (hp : h'.objs h.next = some o) (hf : ∀ a, a ≠ h.next → h'.objs a = h.objs a)
    (hn : h'.next = h.next + 1) (ha : h'.answers <:+ h.answers) :
    Own ({ h0 with
      objs := put h0.objs h.next (some o)
      next := h.next + 1 } : Heap Wrapper) h' w c e s rest := by
  have hfr : ∀ a, (h.objs a).isSome → a ≠ h.next := fun a hs e => by
    rw [e, ho.wf.fresh _ (Nat.le_refl _)] at hs
    cases hs
  have nw := hfr w (by rw [ho.cw]; rfl)
  have nd := hfr s.device (by rw [ho.cd]; rfl)
  have ne := hfr s.errorBuffer (by rw [ho.ce]; rfl)
  have n0 : 0 ≠ h.next := Nat.ne_of_lt ho.wf.pos
  have nf : s.filter ≠ h.next := by
    have := ho.cf
    unfold FilterAt at this
    split at this
    · rw [this]; exact n0
    · exact hfr _ (by rw [this.2.1]; rfl)
  refine ⟨⟨Nat.succ_pos _, (put_other _ _ n0).trans ho.base.zero, fun a hx => ?_⟩,
    ⟨by rw [hn]; exact Nat.succ_pos _, (hf 0 n0).trans ho.wf.zero, fun a hx => ?_⟩, (hf w nw).trans ho.cw, (hf _ nd).trans ho.cd,
    (hf _ ne).trans ho.ce, ?_, ho.size, ho.big, ho.max, ho.timeout, ho.isOpen, ho.nw, ho.nd, ho.ne, ho.d1, ho.d2, ho.d3,
    ho.d4, ho.d5, ho.d6, (put_other _ _ nw).trans ho.f1, (put_other _ _ nd).trans ho.f2, (put_other _ _ ne).trans ho.f3,
    (put_other _ _ nf).trans ho.f4, fun a a1 a2 a3 a4 => ?_, by rw [hn]; exact Nat.le_refl _, ha.trans ho.answers, ho.sd, ho.se⟩
  · have hx' : h.next + 1 ≤ a := hx
    exact (put_other _ _ (by omega)).trans (ho.base.fresh a (by have := ho.next; omega))
  · rw [hn] at hx
    exact (hf a (by omega)).trans (ho.wf.fresh a (by omega))
  · have := ho.cf
    unfold FilterAt at *
    split
    · next hx => rw [hx] at this; exact this
    · next f hx =>
      rw [hx] at this
      exact ⟨this.1, (hf _ nf).trans this.2.1, this.2.2⟩
  · by_cases hx : a = h.next
    · rw [hx, hp]
      exact (put_same ..).symm
    · exact ((hf a hx).trans (ho.frame a a1 a2 a3 a4)).trans (put_other _ _ hx).symm

theorem Own.ne_tmp {h0 h : Heap Wrapper} {w p n : Nat} {c : Cap} {e : Bytes} {s : Wrapper} {rest : List (Option UInt8)} {o : Obj Wrapper}
    (ho : Own ({ h0 with
      objs := put h0.objs p (some o)
      next := n } : Heap Wrapper) h w c e s rest) :
    p ≠ w ∧ p ≠ s.device ∧ p ≠ s.errorBuffer ∧ p ≠ s.filter ∧ h.objs p = some o := by
  have key : ∀ a, put h0.objs p (some o) a = none → p ≠ a := fun a hn e => by
    rw [← e, put_same] at hn
    cases hn
  have k1 := key _ ho.f1
  have k2 := key _ ho.f2
  have k3 := key _ ho.f3
  have k4 := key _ ho.f4
  exact ⟨k1, k2, k3, k4, (ho.frame p k1 k2 k3 k4).trans (put_same ..)⟩

/-- The other block is freed. -/
theorem Own.untmp {h0 h : Heap Wrapper} {w p n : Nat} {c : Cap} {e : Bytes} {s : Wrapper} {rest : List (Option UInt8)} {o : Obj Wrapper}
    (ho : Own ({ h0 with
      objs := put h0.objs p (some o)
      next := n } : Heap Wrapper) h w c e s rest) (hb : WF h0) (hp : h0.objs p = none) (hn : h0.next ≤ n) :
    Own h0 { h with objs := put h.objs p none } w c e s rest := by
  obtain ⟨k1, k2, k3, k4, k5⟩ := ho.ne_tmp
  have hw := wf_put ho.wf (p := p) (by rw [k5]; nofun) none
  have g : ∀ {a}, a ≠ p → put h0.objs p (some o) a = none → h0.objs a = none := fun hx hy => (put_other _ _ hx).symm.trans hy
  refine ⟨hb, hw, (put_other _ _ k1.symm).trans ho.cw, (put_other _ _ k2.symm).trans ho.cd, (put_other _ _ k3.symm).trans ho.ce,
    ?_, ho.size, ho.big, ho.max, ho.timeout, ho.isOpen, ho.nw, ho.nd, ho.ne, ho.d1, ho.d2, ho.d3, ho.d4, ho.d5, ho.d6,
    g k1.symm ho.f1, g k2.symm ho.f2, g k3.symm ho.f3, g k4.symm ho.f4, fun a a1 a2 a3 a4 => ?_,
    Nat.le_trans hn ho.next, ho.answers, ho.sd, ho.se⟩
  · have := ho.cf
    unfold FilterAt at *
    split
    · next hx => rw [hx] at this; exact this
    · next f hx =>
      rw [hx] at this
      exact ⟨this.1, (put_other _ _ k4.symm).trans this.2.1, this.2.2⟩
  · by_cases hx : a = p
    · rw [hx, hp]
      exact put_same ..
    · exact (put_other _ _ hx).trans ((ho.frame a a1 a2 a3 a4).trans (put_other _ _ hx))

theorem str_deviceFmt : Str deviceFmt := by
  unfold Str
  decide +kernel

theorem openWindows_wp {h0 h : Heap Wrapper} {w : Nat} {dev : Bytes} {set : Settings} {e : Bytes} {s : Wrapper}
    {rest : List (Option UInt8)} (ho : Own h0 h w ⟨dev, set, false⟩ e s rest) (lib : Lib) (hl : Sound lib)
    {Q : Int → Heap Wrapper → Prop}
    (hq : Opens h0 h w dev set (openErrorWindows lib dev set) (lib.strerror ENOMEM) Q) :
    wp (openWindows lib w) h Q := by
  unfold openWindows
  have hmax : s.maxPacketSize = set.max := ho.max
  have htime : s.readTimeout = set.timeout := ho.timeout
  have hopen : s.h = false := ho.isOpen
  have hok := hq.ok
  have hno := hq.no
  unfold openErrorWindows at hok hno
  refine wp_bind (wp_struct ho.nw ho.cw ?_)
  rw [if_neg (by rw [hopen]; simp)]
  have hsd : Str dev := ho.sd
  refine wp_bind (wp_cstr (rest := []) ho.nd (by rw [List.append_nil]; exact ho.cd) ho.sd ?_)
  have n0 : h.next ≠ 0 := Nat.pos_iff_ne_zero.1 ho.wf.pos
  refine wp_bind (wp_alloc (fun _ => ?_) (fun hm => ?_))
  case refine_2 =>
    rw [if_pos rfl]
    have ho' : Own h0 { h with answers := h.answers.tail } w ⟨dev, set, false⟩ e s rest :=
      ⟨ho.base, ⟨ho.wf.pos, ho.wf.zero, ho.wf.fresh⟩, ho.cw, ho.cd, ho.ce, ho.cf, ho.size, ho.big, ho.max, ho.timeout,
        ho.isOpen, ho.nw, ho.nd, ho.ne, ho.d1, ho.d2, ho.d3, ho.d4, ho.d5, ho.d6, ho.f1, ho.f2, ho.f3, ho.f4, ho.frame, ho.next,
        (headD_tail _).trans ho.answers, ho.sd, ho.se⟩
    refine setError_wp ho' lib hl ENOMEM none nofun fun h' e' s' rest' j1 j2 j3 j4 => ?_
    refine hno ENOMEM h' e' s' rest' _ false (by decide) j1 j3 (j2.trans (headD_tail _)) (.inr ⟨hm, rfl⟩) ?_
    exact j4.imp id fun x => ⟨(headD_tail _).subset x.1, x.2⟩
  rw [if_neg n0]
  dsimp only
  refine wp_bind (wp_memcpy n0 (put_same ..) (by rw [List.length_replicate, List.length_append]; omega) ?_)
  refine wp_bind (wp_poke n0 (put_same ..) ?_ ?_)
  · simp only [List.length_append, List.length_map, List.length_drop, List.length_replicate]
    omega
  rw [poked _ _ (by rw [List.length_replicate, List.length_append]; omega)]
  dsimp only
  rw [put_put, put_put]
  refine wp_bind ?_
  generalize (List.replicate (deviceFmt.length + 2 + dev.length + 1) (none : Option UInt8)).drop ((deviceFmt ++ dev).length + 1) = pad
  have ht := ho.tmp (h' := { h with
      objs := put h.objs h.next (some (.chars (text (deviceFmt ++ dev) ++ pad)))
      next := h.next + 1
      answers := h.answers.tail }) (.chars (text (deviceFmt ++ dev) ++ pad)) (put_same ..) (fun a ha => put_other _ _ ha) rfl (headD_tail _)
  have hfresh : h0.objs h.next = none := ho.base.fresh _ ho.next
  have hnext : h0.next ≤ h.next + 1 := Nat.le_succ_of_le ho.next
  refine ensureBuffer_wp ht ?_
  rw [if_pos rfl]
  have hstr : Str (deviceFmt ++ dev) := by
    intro hm
    rcases List.mem_append.1 hm with hm | hm
    · exact str_deviceFmt hm
    · exact hsd hm
  refine wp_bind (wp_cstr n0 (put_same ..) hstr ?_)
  rw [hmax, htime]
  change ∀ h' e' s' rest', _ → _ → _ → (match lib.create (deviceFmt ++ dev) set.max set.timeout with
    | .error t => some t
    | .ok _ => filterError lib set.filter) = none → _ at hok
  change ∀ ret h' e' s' rest' t b, _ → _ → _ → _ → (match lib.create (deviceFmt ++ dev) set.max set.timeout with
    | .error t => some t
    | .ok _ => filterError lib set.filter) = some t ∨ _ → _ → _ at hno
  cases hc : lib.create (deviceFmt ++ dev) set.max set.timeout with
  | error t =>
    refine wp_bind (libText_wp ht (hl.error _ _ _ t hc) fun h' rest' k1 k2 k3 => ?_)
    refine wp_bind (wp_free n0 k1.ne_tmp.2.2.2.2 (wp_pure ?_))
    exact hno EINVAL _ t s rest' t false (by decide) (k1.untmp ho.base hfresh hnext) (by simpa using k3)
      (by show h'.answers <:+ _; rw [k2]; exact headD_tail _) (.inl (by simp only [hc])) (.inl rfl)
  | ok warning =>
    have tail : ∀ (h1 : Heap Wrapper) e1 rest1, Own ({ h0 with
          objs := put h0.objs h.next (some (.chars (text (deviceFmt ++ dev) ++ pad)))
          next := h.next + 1 } : Heap Wrapper) h1 w ⟨dev, set, false⟩ e1 s rest1 → h1.answers = h.answers.tail → h1.held = h.held →
        wp (do
          acquire .pcap
          update w fun s => { s with h := true }
          free h.next
          openFilter lib w : P Int) h1 Q := by
      intro h1 e1 rest1 ho1 a1 l1
      refine wp_bind (wp_acquire (wp_bind (wp_update ho1.nw ho1.cw ?_)))
      have ho2 := ho1.opened (.pcap :: h1.held)
      refine wp_bind (wp_free n0 ho2.ne_tmp.2.2.2.2 ?_)
      have ho3 := ho2.untmp ho.base hfresh hnext
      have a2 : ∀ x : List Bool, x <:+ h1.answers → x <:+ h.answers := fun x hx => (a1 ▸ hx).trans (headD_tail _)
      refine openFilter_wp ho3 lib hl (fun hn => ?_) (fun ret h' e' s' rest' t j0 j1 j2 j3 j4 j5 => ?_)
      · exact hok _ e1 _ rest1 ho3 (by simp [l1]) (a2 _ (List.suffix_refl _)) (by simp only [hc]; exact hn)
      · refine hno ret h' e' s' rest' t true j0 j1 (by rw [j3]; simp [l1]) (a2 _ j2) (.inl (by simp only [hc]; exact j4)) ?_
        exact j5.imp id fun x => ⟨(a2 _ (List.suffix_refl _)).subset x.1, x.2⟩
    cases warning with
    | none => exact tail _ e rest ht rfl rfl
    | some t => exact wp_bind (libText_wp ht (hl.warning _ _ _ t hc) fun h' rest' k1 k2 k3 => tail h' t rest' k1 k2 k3)

theorem lastError_wp {h0 h : Heap Wrapper} {w : Nat} {c : Cap} {e : Bytes} {s : Wrapper} {rest : List (Option UInt8)}
    (ho : Own h0 h w c e s rest) {Q : Bytes → Heap Wrapper → Prop} (hq : Q e h) : wp (lastError w) h Q := by
  unfold lastError
  exact wp_bind (wp_struct ho.nw ho.cw (wp_cstr ho.ne ho.ce ho.se hq))

/-- What is known of a platform: `openError` is why a device cannot be opened, `R` relates calls to answers. -/
structure Sane (pf : Platform) (lib : Lib) (openError : Bytes → Settings → Option Bytes) (R : Prop → Call → Answer → Prop) : Prop where
  opens : ∀ {h0 h : Heap Wrapper} {w : Nat} {dev : Bytes} {set : Settings} {e : Bytes} {s : Wrapper} {rest : List (Option UInt8)},
    Own h0 h w ⟨dev, set, false⟩ e s rest → ∀ {Q : Int → Heap Wrapper → Prop},
    Opens h0 h w dev set (openError dev set) (lib.strerror ENOMEM) Q → wp (pf.openW lib w) h Q
  read : ∀ {h0 h : Heap Wrapper} {w : Nat} {dev : Bytes} {set : Settings} {e : Bytes} {s : Wrapper} {rest : List (Option UInt8)},
    Own h0 h w ⟨dev, set, true⟩ e s rest → ∀ a, SoundCall (.read a) →
    ∀ {Q : Bytes × Except Bytes Bool → Heap Wrapper → Prop},
    (∀ b r h' e' s' rest', Own h0 h' w ⟨dev, set, true⟩ e' s' rest' → h'.held = h.held →
      R (false ∈ h.answers) (.read a) (.got b r) → Q (b, r) h') → wp (readPacket pf lib w a []) h Q
  write : ∀ {h0 h : Heap Wrapper} {w : Nat} {dev : Bytes} {set : Settings} {e : Bytes} {s : Wrapper} {rest : List (Option UInt8)},
    Own h0 h w ⟨dev, set, true⟩ e s rest → ∀ d a, SoundCall (.write d a) →
    ∀ {Q : Except Bytes Unit → Heap Wrapper → Prop},
    (∀ r h' e' s' rest', Own h0 h' w ⟨dev, set, true⟩ e' s' rest' → h'.held = h.held →
      R (false ∈ h.answers) (.write d a) (.wrote r) → Q r h') → wp (writePacket pf lib w a) h Q
  mono : ∀ {p q : Prop} {c : Call} {a : Answer}, (p → q) → R p c a → R q c a

theorem calls_wp {pf : Platform} {lib : Lib} {openError : Bytes → Settings → Option Bytes} {R : Prop → Call → Answer → Prop}
    (hs : Sane pf lib openError R) {h0 : Heap Wrapper} {w : Nat} {dev : Bytes} {set : Settings} (cs : List Call)
    (hc : ∀ c ∈ cs, SoundCall c) {h : Heap Wrapper} {e : Bytes} {s : Wrapper} {rest : List (Option UInt8)}
    (ho : Own h0 h w ⟨dev, set, true⟩ e s rest) {Q : List Answer → Heap Wrapper → Prop}
    (hq : ∀ rs h' e' s' rest', Own h0 h' w ⟨dev, set, true⟩ e' s' rest' → h'.held = h.held →
      Each (R (false ∈ h0.answers)) cs rs → Q rs h') : wp (calls pf lib w cs) h Q := by
  induction cs generalizing h e s rest Q with
  | nil => exact wp_pure (hq [] h e s rest ho rfl .nil)
  | cons c cs ih =>
    have hc' : ∀ c ∈ cs, SoundCall c := fun x hx => hc x (List.mem_cons_of_mem _ hx)
    cases c with
    | read a =>
      unfold calls
      refine wp_bind (hs.read ho a (hc _ (List.mem_cons_self ..)) fun b r h' e' s' rest' k1 k2 k3 => ?_)
      refine wp_bind (ih hc' k1 fun rs h'' e'' s'' rest'' j1 j2 j3 => wp_pure ?_)
      exact hq _ h'' e'' s'' rest'' j1 (j2.trans k2) (.cons (hs.mono (fun x => ho.answers.subset x) k3) j3)
    | write d a =>
      unfold calls
      refine wp_bind (hs.write ho d a (hc _ (List.mem_cons_self ..)) fun r h' e' s' rest' k1 k2 k3 => ?_)
      refine wp_bind (ih hc' k1 fun rs h'' e'' s'' rest'' j1 j2 j3 => wp_pure ?_)
      exact hq _ h'' e'' s'' rest'' j1 (j2.trans k2) (.cons (hs.mono (fun x => ho.answers.subset x) k3) j3)

/-- What the life of a capture leads to. -/
def Outcome (h h' : Heap Wrapper) (lib : Lib) (openError : Bytes → Settings → Option Bytes) (R : Prop → Call → Answer → Prop)
    (dev : Bytes) (opts : List Opt) (cs : List Call) : Life → Prop
  | .panic => false ∈ h.answers ∨ .filter none ∈ opts
  | .notOpened e => Same h h' ∧ .filter none ∉ opts ∧ ∃ t, (openError dev (settings opts) = some t ∨
      false ∈ h.answers ∧ t = lib.strerror ENOMEM) ∧ Told (false ∈ h.answers) t e
  | .done l => Same h h' ∧ .filter none ∉ opts ∧ openError dev (settings opts) = none ∧ Each (R (false ∈ h.answers)) cs l

theorem life_wp {pf : Platform} {lib : Lib} {openError : Bytes → Settings → Option Bytes} {R : Prop → Call → Answer → Prop}
    (hs : Sane pf lib openError R) {h : Heap Wrapper} (hw : WF h) (dev : Bytes) (hd : Str dev) (opts : List Opt)
    (hf : StrOpts opts) (cs : List Call) (hc : ∀ c ∈ cs, SoundCall c) :
    wp (life pf lib dev opts cs) h fun l h' => Outcome h h' lib openError R dev opts cs l := by
  unfold life
  refine wp_bind (wrapperNew_wp hw dev hd (fun h' k1 k2 => ?_) (fun h1 w s rest ho hh => ?_))
  · rw [if_pos rfl]
    exact wp_pure (.inl k2)
  rw [if_neg ho.nw]
  refine wp_bind (setOpts_wp opts ho hf (fun h' k1 => ?_) (fun h2 s2 rest2 ho2 hh2 hn => ?_))
  · rw [if_neg (by simp)]
    exact wp_pure k1
  rw [if_pos rfl]
  unfold activate
  refine wp_bind (wp_bind (hs.opens ho2 ⟨fun h3 e3 s3 rest3 ho3 hh3 ha3 hz => ?_, fun ret h3 e3 s3 rest3 t b hr ho3 hh3 ha3 hz ht => ?_⟩))
  · rw [if_pos rfl]
    refine wp_pure (wp_bind (calls_wp hs cs hc ho3 fun rs h4 e4 s4 rest4 ho4 hh4 he => wp_bind (ho4.free_wp ?_ fun h5 hsame => wp_pure ?_)))
    · rw [hh4, hh3, hh2, hh]
      rfl
    · exact ⟨hsame, hn, hz, he⟩
  · rw [if_neg hr]
    refine wp_bind (lastError_wp ho3 (wp_bind (ho3.free_wp ?_ fun h4 hsame => wp_pure (wp_pure ?_))))
    · rw [hh3, hh2, hh]
    · exact ⟨hsame, hn, t, hz.imp id fun x => ⟨ho2.answers.subset x.1, x.2⟩, ht.imp id fun x => ⟨ho2.answers.subset x.1, x.2⟩⟩

/-! ## The platforms -/

theorem right_mono {p q : Prop} {re : ReadAns → Option Bytes} {we : WriteAns → Option Bytes} {c : Call} {a : Answer} (hpq : p → q)
    (hr : Right p re we c a) : Right q re we c a := by
  have told : ∀ {t e : Bytes}, Told p t e → Told q t e := fun h => h.imp id fun x => ⟨hpq x.1, x.2⟩
  cases c with
  | read x =>
    simp only [Right] at *
    split at hr
    · next t ht =>
      obtain ⟨e, k1, k2⟩ := hr
      exact ⟨e, k1, told k2⟩
    · next ht =>
      exact hr
  | write d x =>
    simp only [Right] at *
    split at hr
    · next t ht =>
      obtain ⟨e, k1, k2⟩ := hr
      exact ⟨e, k1, told k2⟩
    · next ht =>
      exact hr

/-- The answers of the read of a platform are those of the capture library, from here on. -/
theorem readDispatch_wp {h0 h : Heap Wrapper} {w : Nat} {c : Cap} {e : Bytes} {s : Wrapper} {rest : List (Option UInt8)}
    (ho : Own h0 h w c e s rest) (lib : Lib) (hl : Sound lib) (d : Dispatch) (hd : ∀ c t, d = .error c t → c < 0 ∧ Str t)
    {Q : Bytes × Except Bytes Bool → Heap Wrapper → Prop}
    (hq : ∀ b r h' e' s' rest', Own h0 h' w c e' s' rest' → h'.held = h.held →
      (match d with
        | .error _ t => ∃ e, b = [] ∧ r = .error e ∧ Told (false ∈ h.answers) t e
        | .nothing => b = [] ∧ r = .ok false
        | .packet data => b = data ∧ r = .ok true) → Q (b, r) h') :
    wp (dispatch lib w d) h fun x h' => wp (
      if x.1 ≥ 0 then pure (([] : Bytes) ++ x.2, .ok (decide (x.1 > 0)))
      else do
        let e ← lastError w
        pure (([] : Bytes) ++ x.2, .error e) : P (Bytes × Except Bytes Bool)) h' Q := by
  unfold dispatch
  cases d with
  | error code t =>
    obtain ⟨hneg, hstr⟩ := hd code t rfl
    refine wp_bind (setError_wp ho lib hl code (some t) (fun t' e => by cases e; exact hstr)
      fun h' e' s' rest' j1 j2 j3 j4 => wp_pure ?_)
    rw [if_neg (by show ¬ code ≥ 0; omega)]
    exact wp_bind (lastError_wp j1 (wp_pure (hq _ _ h' e' s' rest' j1 j3 ⟨e', rfl, rfl, j4⟩)))
  | nothing =>
    refine wp_pure ?_
    rw [if_pos (by decide)]
    exact wp_pure (hq _ _ h e s rest ho rfl ⟨rfl, rfl⟩)
  | packet data =>
    refine wp_pure ?_
    rw [if_pos (by show (1 : Int) ≥ 0; decide)]
    exact wp_pure (hq _ _ h e s rest ho rfl ⟨rfl, rfl⟩)

/-- The end of a write. -/
theorem writeSend_wp {h0 h : Heap Wrapper} {w : Nat} {c : Cap} {e : Bytes} {s : Wrapper} {rest : List (Option UInt8)}
    (ho : Own h0 h w c e s rest) (lib : Lib) (hl : Sound lib) (a : Option (Int × Bytes)) (hd : ∀ c t, a = some (c, t) → c ≠ 0 ∧ Str t)
    {Q : Except Bytes Unit → Heap Wrapper → Prop}
    (hq : ∀ r h' e' s' rest', Own h0 h' w c e' s' rest' → h'.held = h.held →
      (match a with
        | some (_, t) => ∃ e, r = .error e ∧ Told (false ∈ h.answers) t e
        | none => r = .ok ()) → Q r h') :
    wp (sendpacket lib w a) h fun ret h' => wp (
      if ret = 0 then pure (.ok ())
      else do
        let e ← lastError w
        pure (.error e) : P (Except Bytes Unit)) h' Q := by
  unfold sendpacket
  cases a with
  | some ct =>
    obtain ⟨code, t⟩ := ct
    obtain ⟨hneg, hstr⟩ := hd code t rfl
    refine setError_wp ho lib hl code (some t) (fun t' e => by cases e; exact hstr) fun h' e' s' rest' j1 j2 j3 j4 => ?_
    rw [if_neg hneg]
    exact wp_bind (lastError_wp j1 (wp_pure (hq _ h' e' s' rest' j1 j3 ⟨e', rfl, j4⟩)))
  | none =>
    refine wp_pure ?_
    rw [if_pos rfl]
    exact wp_pure (hq _ h e s rest ho rfl rfl)

theorem sane_windows (lib : Lib) (hl : Sound lib) :
    Sane windows lib (openErrorWindows lib) fun p => Right p (readErrorWindows lib) writeErrorWindows where
  opens ho _ hq := openWindows_wp ho lib hl hq
  read {h0 h w dev set e s rest} ho a ha Q hq := by
    unfold readPacket
    refine wp_bind ?_
    show wp (readWindows lib w a) h _
    unfold readWindows
    have hopen : s.h = true := ho.isOpen
    refine wp_bind (wp_struct ho.nw ho.cw ?_)
    rw [if_pos hopen]
    refine readDispatch_wp ho lib hl a.dispatch ha.2.2 fun b r h' e' s' rest' j1 j2 j3 => hq b r h' e' s' rest' j1 j2 ?_
    simp only [Right, readErrorWindows]
    cases hd : a.dispatch with
    | error code t =>
      rw [hd] at j3
      obtain ⟨e, rfl, rfl, k⟩ := j3
      exact ⟨e, rfl, k⟩
    | nothing =>
      rw [hd] at j3
      obtain ⟨rfl, rfl⟩ := j3
      rfl
    | packet data =>
      rw [hd] at j3
      obtain ⟨rfl, rfl⟩ := j3
      rfl
  write {h0 h w dev set e s rest} ho d a ha Q hq := by
    unfold writePacket
    refine wp_bind ?_
    show wp (writeWindows lib w a) h _
    unfold writeWindows
    have hopen : s.h = true := ho.isOpen
    refine wp_bind (wp_struct ho.nw ho.cw ?_)
    rw [if_pos hopen]
    refine writeSend_wp ho lib hl a.send ha.2 fun r h' e' s' rest' j1 j2 j3 => hq r h' e' s' rest' j1 j2 ?_
    simp only [Right, writeErrorWindows]
    cases hd : a.send with
    | some ct =>
      obtain ⟨code, t⟩ := ct
      rw [hd] at j3
      obtain ⟨e, rfl, k⟩ := j3
      exact ⟨e, rfl, k⟩
    | none =>
      rw [hd] at j3
      rw [show r = .ok () from j3]
      rfl
  mono := right_mono

theorem sane_unix (lib : Lib) (hl : Sound lib) :
    Sane unix lib (openErrorUnix lib) fun p c r => (Early c ∧ r = .got [] (.ok true)) ∨
      ¬ Early c ∧ Right p (readErrorUnix lib) writeErrorUnix c r where
  opens ho _ hq := openUnix_wp ho lib hl hq
  read {h0 h w dev set e s rest} ho a ha Q hq := by
    unfold readPacket
    refine wp_bind ?_
    show wp (readUnix lib w a) h _
    unfold readUnix
    have hopen : s.h = true := ho.isOpen
    refine wp_bind (wp_struct ho.nw ho.cw ?_)
    rw [if_pos hopen]
    obtain ⟨nonblock, poll, disp⟩ := a
    cases nonblock with
    | some t =>
      refine wp_bind (libText_wp ho (ha.1 t rfl) fun h' rest' k1 k2 k3 => wp_pure ?_)
      dsimp only
      rw [if_pos (by decide)]
      exact wp_pure (hq _ _ h' t s rest' k1 k3 (.inl ⟨.inl nofun, rfl⟩))
    | none =>
      cases poll with
      | some errno =>
        have hp : 0 < errno := ha.2.1 errno rfl
        refine wp_bind (setError_wp ho lib hl errno none nofun fun h' e' s' rest' j1 j2 j3 j4 => wp_pure ?_)
        dsimp only
        rw [if_pos (by omega)]
        refine wp_pure (hq _ _ h' e' s' rest' j1 j3 (.inl ⟨.inr nofun, ?_⟩))
        rw [decide_eq_true hp]
        rfl
      | none =>
        refine readDispatch_wp ho lib hl disp ha.2.2 fun b r h' e' s' rest' j1 j2 j3 => hq b r h' e' s' rest' j1 j2 (.inr ⟨?_, ?_⟩)
        · rintro (hx | hx) <;> exact hx rfl
        simp only [Right, readErrorUnix]
        cases disp with
        | error code t =>
          obtain ⟨e, rfl, rfl, k⟩ := j3
          exact ⟨e, rfl, k⟩
        | nothing =>
          obtain ⟨rfl, rfl⟩ := j3
          rfl
        | packet data =>
          obtain ⟨rfl, rfl⟩ := j3
          rfl
  write {h0 h w dev set e s rest} ho d a ha Q hq := by
    unfold writePacket
    refine wp_bind ?_
    show wp (writeUnix lib w a) h _
    unfold writeUnix
    have hopen : s.h = true := ho.isOpen
    refine wp_bind (wp_struct ho.nw ho.cw ?_)
    rw [if_pos hopen]
    obtain ⟨nonblock, send⟩ := a
    cases nonblock with
    | some t =>
      refine wp_bind (libText_wp ho (ha.1 t rfl) fun h' rest' k1 k2 k3 => wp_pure ?_)
      rw [if_neg (by decide)]
      exact wp_bind (lastError_wp k1 (wp_pure (hq _ h' t s rest' k1 k3 (.inr ⟨nofun, ⟨t, rfl, .inl rfl⟩⟩))))
    | none =>
      refine writeSend_wp ho lib hl send ha.2 fun r h' e' s' rest' j1 j2 j3 => hq r h' e' s' rest' j1 j2 (.inr ⟨nofun, ?_⟩)
      simp only [Right, writeErrorUnix]
      cases send with
      | some ct =>
        obtain ⟨code, t⟩ := ct
        obtain ⟨e, rfl, k⟩ := j3
        exact ⟨e, rfl, k⟩
      | none => rw [show r = .ok () from j3]
  mono hpq hr := hr.imp id fun x => ⟨x.1, right_mono hpq x.2⟩

end Verif.Lemmas.Pcap
