import Verif.Model.CMem
/-!
# Reasoning about programs over the C memory

`wp p h Q`: the program `p`, started with heap `h`, ends without a fault, and the result and the final heap satisfy `Q`.
-/
namespace Verif.CMem
variable {σ α β : Type}

def wp (p : Prog σ α) (h : Heap σ) (Q : α → Heap σ → Prop) : Prop := ∃ a h', p h = .ok a h' ∧ Q a h'

theorem wp_pure {a : α} {h : Heap σ} {Q : α → Heap σ → Prop} (hq : Q a h) : wp (pure a : Prog σ α) h Q :=
  ⟨a, h, rfl, hq⟩

theorem wp_bind {p : Prog σ α} {f : α → Prog σ β} {h : Heap σ} {Q : β → Heap σ → Prop}
    (hp : wp p h fun a h' => wp (f a) h' Q) : wp (p >>= f) h Q := by
  obtain ⟨a, h', e, b, h'', e', q⟩ := hp
  refine ⟨b, h'', ?_, q⟩
  show (match p h with | .ok a h => f a h | .fault e => .fault e) = _
  rw [e]
  exact e'

theorem wp_mono {p : Prog σ α} {h : Heap σ} {Q R : α → Heap σ → Prop} (hp : wp p h Q) (hqr : ∀ a h', Q a h' → R a h') :
    wp p h R := by
  obtain ⟨a, h', e, q⟩ := hp
  exact ⟨a, h', e, hqr a h' q⟩

theorem faults_bind {p : Prog σ α} {g : α → Prog σ β} {h : Heap σ} {f : Fault} (hp : p h = .fault f) :
    (p >>= g) h = .fault f := by
  show (match p h with | .ok a h => g a h | .fault e => .fault e) = _
  rw [hp]

theorem wp_faults {p : Prog σ α} {g : α → Prog σ β} {h : Heap σ} {f : Fault} (hp : wp p h fun a h' => g a h' = .fault f) :
    (p >>= g) h = .fault f := by
  obtain ⟨a, h', e, q⟩ := hp
  show (match p h with | .ok a h => g a h | .fault e => .fault e) = _
  rw [e]
  exact q

/-- The heap `objs` with `o` at address `p`. -/
def put (objs : Nat → Option (Obj σ)) (p : Nat) (o : Option (Obj σ)) : Nat → Option (Obj σ) :=
  fun a => if a = p then o else objs a

theorem put_same (objs : Nat → Option (Obj σ)) (p : Nat) (o : Option (Obj σ)) : put objs p o p = o := if_pos rfl

theorem put_other (objs : Nat → Option (Obj σ)) {p a : Nat} (o : Option (Obj σ)) (h : a ≠ p) :
    put objs p o a = objs a := if_neg h

theorem put_put (objs : Nat → Option (Obj σ)) (p : Nat) (o o' : Option (Obj σ)) :
    put (put objs p o) p o' = put objs p o' := by
  funext a
  unfold put
  split <;> rfl

theorem put_self (objs : Nat → Option (Obj σ)) (p : Nat) (o : Option (Obj σ)) (h : objs p = o) : put objs p o = objs := by
  funext a
  unfold put
  split
  · next e => rw [e, h]
  · rfl

theorem put_comm (objs : Nat → Option (Obj σ)) {p q : Nat} (o o' : Option (Obj σ)) (h : p ≠ q) :
    put (put objs p o) q o' = put (put objs q o') p o := by
  funext a
  unfold put
  split
  · next e => rw [if_neg (by rw [e]; exact Ne.symm h)]
  · rfl

theorem wp_alloc {o : Obj σ} {h : Heap σ} {Q : Nat → Heap σ → Prop}
    (hok : h.answers.headD true = true →
      Q h.next { h with objs := put h.objs h.next (some o), next := h.next + 1, answers := h.answers.tail })
    (hno : false ∈ h.answers → Q 0 { h with answers := h.answers.tail }) : wp (alloc o) h Q := by
  unfold wp alloc
  by_cases ha : h.answers.headD true = true
  · rw [if_pos ha]
    exact ⟨_, _, rfl, hok ha⟩
  · rw [if_neg ha]
    refine ⟨_, _, rfl, hno ?_⟩
    revert ha
    cases h.answers with
    | nil => intro ha; exact absurd rfl ha
    | cons b bs => cases b <;> simp

theorem wp_free {p : Nat} {h : Heap σ} {o : Obj σ} {Q : Unit → Heap σ → Prop} (h0 : p ≠ 0) (ho : h.objs p = some o)
    (hq : Q () { h with objs := put h.objs p none }) : wp (free p) h Q := by
  unfold wp free
  rw [if_neg h0, ho]
  exact ⟨_, _, rfl, hq⟩

theorem wp_load {p : Nat} {h : Heap σ} {o : Obj σ} {Q : Obj σ → Heap σ → Prop} (h0 : p ≠ 0) (ho : h.objs p = some o)
    (hq : Q o h) : wp (load p) h Q := by
  unfold wp load
  rw [if_neg h0, ho]
  exact ⟨_, _, rfl, hq⟩

theorem wp_store {p : Nat} {h : Heap σ} {o o' : Obj σ} {Q : Unit → Heap σ → Prop} (h0 : p ≠ 0)
    (ho : h.objs p = some o) (hq : Q () { h with objs := put h.objs p (some o') }) : wp (store p o') h Q := by
  unfold wp store
  rw [if_neg h0, ho]
  exact ⟨_, _, rfl, hq⟩

theorem wp_struct {p : Nat} {h : Heap σ} {s : σ} {Q : σ → Heap σ → Prop} (h0 : p ≠ 0)
    (ho : h.objs p = some (.struct s)) (hq : Q s h) : wp (struct p) h Q :=
  wp_bind (wp_load h0 ho (wp_pure hq))

theorem wp_chars {p : Nat} {h : Heap σ} {cs : List (Option UInt8)} {Q : List (Option UInt8) → Heap σ → Prop}
    (h0 : p ≠ 0) (ho : h.objs p = some (.chars cs)) (hq : Q cs h) : wp (chars p) h Q :=
  wp_bind (wp_load h0 ho (wp_pure hq))

theorem wp_update {p : Nat} {h : Heap σ} {s : σ} {f : σ → σ} {Q : Unit → Heap σ → Prop} (h0 : p ≠ 0)
    (ho : h.objs p = some (.struct s)) (hq : Q () { h with objs := put h.objs p (some (.struct (f s))) }) :
    wp (update p f) h Q :=
  wp_bind (wp_struct h0 ho (wp_store h0 ho hq))

theorem wp_memcpy {p : Nat} {h : Heap σ} {cs : List (Option UInt8)} {bs : Bytes} {Q : Unit → Heap σ → Prop} (h0 : p ≠ 0)
    (ho : h.objs p = some (.chars cs)) (hl : bs.length ≤ cs.length)
    (hq : Q () { h with objs := put h.objs p (some (.chars (bs.map some ++ cs.drop bs.length))) }) :
    wp (memcpy p bs) h Q := by
  refine wp_bind (wp_chars h0 ho ?_)
  rw [if_pos hl]
  exact wp_store h0 ho hq

theorem wp_poke {p i : Nat} {b : UInt8} {h : Heap σ} {cs : List (Option UInt8)} {Q : Unit → Heap σ → Prop} (h0 : p ≠ 0)
    (ho : h.objs p = some (.chars cs)) (hl : i < cs.length)
    (hq : Q () { h with objs := put h.objs p (some (.chars (cs.set i (some b)))) }) : wp (poke p i b) h Q := by
  refine wp_bind (wp_chars h0 ho ?_)
  rw [if_pos hl]
  exact wp_store h0 ho hq

theorem wp_acquire {r : Held} {h : Heap σ} {Q : Unit → Heap σ → Prop} (hq : Q () { h with held := r :: h.held }) :
    wp (acquire r) h Q := ⟨_, _, rfl, hq⟩

theorem wp_release {r : Held} {h : Heap σ} {Q : Unit → Heap σ → Prop} (hr : r ∈ h.held)
    (hq : Q () { h with held := h.held.erase r }) : wp (release r) h Q := by
  unfold wp release
  rw [if_pos hr]
  exact ⟨_, _, rfl, hq⟩

/-- The characters of a string in memory. -/
def text (s : Bytes) : List (Option UInt8) := s.map some ++ [some 0]

theorem cstrOf_text (s : Bytes) (h : (0 : UInt8) ∉ s) (rest : List (Option UInt8)) :
    cstrOf (text s ++ rest) = .ok s := by
  induction s with
  | nil => rfl
  | cons b s ih =>
    have hb : b ≠ 0 := fun e => h (e ▸ List.mem_cons_self ..)
    have ih := ih (fun hm => h (List.mem_cons_of_mem _ hm))
    show (if b = 0 then _ else (cstrOf (text s ++ rest)).map (b :: ·)) = _
    rw [if_neg hb, ih]
    rfl

theorem wp_cstr {p : Nat} {h : Heap σ} {s : Bytes} {rest : List (Option UInt8)} {Q : Bytes → Heap σ → Prop} (h0 : p ≠ 0)
    (ho : h.objs p = some (.chars (text s ++ rest))) (hs : (0 : UInt8) ∉ s) (hq : Q s h) : wp (cstr p) h Q := by
  refine wp_bind (wp_chars h0 ho ?_)
  rw [cstrOf_text s hs]
  exact wp_pure hq

theorem wp_stringDup {s : Bytes} {h : Heap σ} {Q : Nat → Heap σ → Prop} (hw : WF h)
    (hok : Q h.next { h with
      objs := put h.objs h.next (some (.chars (text s))), next := h.next + 1, answers := h.answers.tail })
    (hno : false ∈ h.answers → Q 0 { h with answers := h.answers.tail }) : wp (stringDup (some s)) h Q := by
  have h0 : h.next ≠ 0 := Nat.pos_iff_ne_zero.1 hw.pos
  refine wp_bind (wp_alloc (fun _ => ?_) (fun ha => ?_))
  · rw [if_neg h0]
    refine wp_bind (wp_memcpy h0 (put_same ..) (by simp) ?_)
    refine wp_bind (wp_poke h0 (put_same ..) (by simp) ?_)
    refine wp_pure ?_
    have e : List.set (s.map some ++ List.drop s.length (List.replicate (s.length + 1) none)) s.length (some (0 : UInt8))
        = text s := by
      unfold text
      rw [List.set_append_right _ _ (by simp)]
      congr 1
      simp
    dsimp only
    rw [put_put, put_put, e]
    exact hok
  · rw [if_pos rfl]
    exact wp_pure (hno ha)

end Verif.CMem
