import Verif.Model.Wire
import Verif.Lemmas.Bytes
namespace Verif.Wire

theorem take_eleven {bs : Bytes} (h : 11 ≤ bs.length) :
    ∃ v s0 s1 e0 e1 e2 e3 z0 z1 z2 z3 rest,
      bs = v :: s0 :: s1 :: e0 :: e1 :: e2 :: e3 :: z0 :: z1 :: z2 :: z3 :: rest := by
  match bs, h with
  | v :: s0 :: s1 :: e0 :: e1 :: e2 :: e3 :: z0 :: z1 :: z2 :: z3 :: rest, _ =>
    exact ⟨v, s0, s1, e0, e1, e2, e3, z0, z1, z2, z3, rest, rfl⟩
  | [], h | [_], h | [_,_], h | [_,_,_], h | [_,_,_,_], h | [_,_,_,_,_], h | [_,_,_,_,_,_], h
  | [_,_,_,_,_,_,_], h | [_,_,_,_,_,_,_,_], h | [_,_,_,_,_,_,_,_,_], h
  | [_,_,_,_,_,_,_,_,_,_], h => simp at h

theorem mod64 (n : UInt32) : (n.toNat + headerSize) % 2 ^ 64 = n.toNat + 11 := by
  have := n.toNat_lt
  simp only [headerSize]
  omega

theorem decode_of_header {buf : Bytes} {h : Header} (hl : ¬ buf.length < headerSize)
    (hh : Header.fromBytes (buf.take headerSize) = .ok h) :
    decode 64 buf =
      if buf.length < h.size.toNat + 11 then (.ok none, buf)
      else (.ok (some { header := h, payload := (buf.take (h.size.toNat + 11)).drop headerSize }),
        buf.drop (h.size.toNat + 11)) := by
  unfold decode
  rw [if_neg hl, hh]
  dsimp only
  rw [mod64]
  generalize h.size.toNat = n
  by_cases hr : buf.length < n + 11
  · rw [if_pos hr, if_pos hr]
  · rw [if_neg hr, if_neg hr, if_neg (by simp only [headerSize]; omega)]

theorem drop_prefix (p rest : Bytes) (k n : Nat) (hp : p.length = k) :
    (p ++ rest).drop (n + k) = rest.drop n := by
  subst hp
  rw [Nat.add_comm, List.drop_length_add_append]

theorem take_drop_prefix (p rest : Bytes) (k n : Nat) (hp : p.length = k) :
    ((p ++ rest).take (n + k)).drop k = rest.take n := by
  subst hp
  rw [Nat.add_comm, List.take_length_add_append, List.drop_left]

/-- Complete characterisation of one 64-bit decode step on a buffer with a full header. -/
theorem decode_cons (v s0 s1 e0 e1 e2 e3 z0 z1 z2 z3 : UInt8) (rest : Bytes) :
    decode 64 (v :: s0 :: s1 :: e0 :: e1 :: e2 :: e3 :: z0 :: z1 :: z2 :: z3 :: rest) =
      if v = 2 then
        if rest.length < (rd32 z0 z1 z2 z3).toNat then
          (.ok none, v :: s0 :: s1 :: e0 :: e1 :: e2 :: e3 :: z0 :: z1 :: z2 :: z3 :: rest)
        else
          (.ok (some { header := { version := v, service := rd16 s0 s1,
                                   session := mask24 (rd32 e0 e1 e2 e3), size := rd32 z0 z1 z2 z3 },
                       payload := rest.take (rd32 z0 z1 z2 z3).toNat }),
            rest.drop (rd32 z0 z1 z2 z3).toNat)
      else (.err, v :: s0 :: s1 :: e0 :: e1 :: e2 :: e3 :: z0 :: z1 :: z2 :: z3 :: rest) := by
  have hlen : ¬ (v :: s0 :: s1 :: e0 :: e1 :: e2 :: e3 :: z0 :: z1 :: z2 :: z3 :: rest).length
      < headerSize := by simp [headerSize]
  have htake : (v :: s0 :: s1 :: e0 :: e1 :: e2 :: e3 :: z0 :: z1 :: z2 :: z3 :: rest).take
      headerSize = [v, s0, s1, e0, e1, e2, e3, z0, z1, z2, z3] := by
    simp [headerSize]
  by_cases hv : v = 2
  · have hh : Header.fromBytes
        ((v :: s0 :: s1 :: e0 :: e1 :: e2 :: e3 :: z0 :: z1 :: z2 :: z3 :: rest).take headerSize)
        = .ok { version := v, service := rd16 s0 s1,
                session := mask24 (rd32 e0 e1 e2 e3), size := rd32 z0 z1 z2 z3 } := by
      rw [htake]; simp only [Header.fromBytes, protocolVersion, hv, if_true]
    rw [decode_of_header hlen hh, if_pos hv]
    generalize rd32 z0 z1 z2 z3 = sz
    dsimp only
    generalize sz.toNat = n
    by_cases hr : rest.length < n
    · rw [if_pos hr, if_pos]
      simp only [List.length_cons]; omega
    · rw [if_neg hr, if_neg]
      · have h1 := drop_prefix [v, s0, s1, e0, e1, e2, e3, z0, z1, z2, z3] rest 11 n rfl
        have h2 := take_drop_prefix [v, s0, s1, e0, e1, e2, e3, z0, z1, z2, z3] rest 11 n rfl
        simp only [List.cons_append, List.nil_append] at h1 h2
        rw [h1, headerSize, h2]
      · simp only [List.length_cons]; omega
  · have hh : Header.fromBytes
        ((v :: s0 :: s1 :: e0 :: e1 :: e2 :: e3 :: z0 :: z1 :: z2 :: z3 :: rest).take headerSize)
        = .err := by
      rw [htake]; simp only [Header.fromBytes, protocolVersion, hv, if_false]
    unfold decode
    rw [if_neg hlen, hh, if_neg hv]

theorem decode_short {w : Nat} {buf : Bytes} (h : buf.length < 11) :
    decode w buf = (.ok none, buf) := by
  unfold decode; rw [if_pos]; simpa [headerSize] using h

/-- A decode that neither asks for more data is not influenced by appended data. -/
theorem decode_append_some {buf x rest : Bytes} {m : Message}
    (h : decode 64 buf = (.ok (some m), rest)) :
    decode 64 (buf ++ x) = (.ok (some m), rest ++ x) := by
  by_cases hl : buf.length < 11
  · rw [decode_short hl] at h; simp at h
  · obtain ⟨v, s0, s1, e0, e1, e2, e3, z0, z1, z2, z3, r, rfl⟩ := take_eleven (by omega : 11 ≤ buf.length)
    rw [decode_cons] at h
    simp only [List.cons_append]
    rw [decode_cons]
    by_cases hv : v = 2
    · simp only [hv, if_true] at h ⊢
      by_cases hr : r.length < (rd32 z0 z1 z2 z3).toNat
      · simp [hr] at h
      · rw [if_neg hr] at h
        rw [if_neg (by simp only [List.length_append]; omega)]
        simp only [Prod.mk.injEq, Res.ok.injEq, Option.some.injEq] at h ⊢
        obtain ⟨h1, h2⟩ := h
        constructor
        · rw [← h1, List.take_append_of_le_length (by omega)]
        · rw [← h2, List.drop_append_of_le_length (by omega)]
    · simp [hv] at h

theorem decode_append_err {buf x rest : Bytes}
    (h : decode 64 buf = (.err, rest)) :
    decode 64 (buf ++ x) = (.err, rest ++ x) := by
  by_cases hl : buf.length < 11
  · rw [decode_short hl] at h; simp at h
  · obtain ⟨v, s0, s1, e0, e1, e2, e3, z0, z1, z2, z3, r, rfl⟩ := take_eleven (by omega : 11 ≤ buf.length)
    rw [decode_cons] at h
    simp only [List.cons_append]
    rw [decode_cons]
    by_cases hv : v = 2
    · simp only [hv, if_true] at h
      split at h <;> simp at h
    · simp only [hv, if_false, Prod.mk.injEq, true_and] at h ⊢
      rw [← h]; simp

theorem decode_none_rest {buf rest : Bytes} (h : decode 64 buf = (.ok none, rest)) : rest = buf := by
  by_cases hl : buf.length < 11
  · rw [decode_short hl] at h; simpa using h.symm
  · obtain ⟨v, s0, s1, e0, e1, e2, e3, z0, z1, z2, z3, r, rfl⟩ := take_eleven (by omega : 11 ≤ buf.length)
    rw [decode_cons] at h
    split at h
    · split at h
      · simpa using h.symm
      · simp at h
    · simp at h

theorem decode_not_panic (buf rest : Bytes) : decode 64 buf ≠ (.panic, rest) := by
  intro h
  by_cases hl : buf.length < 11
  · rw [decode_short hl] at h; simp at h
  · obtain ⟨v, s0, s1, e0, e1, e2, e3, z0, z1, z2, z3, r, rfl⟩ := take_eleven (by omega : 11 ≤ buf.length)
    rw [decode_cons] at h
    split at h
    · split at h <;> simp at h
    · simp at h

theorem drain_some {buf rest : Bytes} {m : Message} (h : decode 64 buf = (.ok (some m), rest)) :
    drain ⟨buf, false⟩ = (m :: (drain ⟨rest, false⟩).1, (drain ⟨rest, false⟩).2) := by
  rw [drain]
  simp only [Bool.false_eq_true, if_false]
  split
  · rename_i h'; rw [h] at h'; simp only [Prod.mk.injEq, Res.ok.injEq, Option.some.injEq] at h'
    obtain ⟨h1, h2⟩ := h'; subst h1; subst h2; rfl
  · rename_i h'; rw [h] at h'; simp at h'
  · rename_i h'; rw [h] at h'; simp at h'
  · rename_i h'; rw [h] at h'; simp at h'

theorem drain_none {buf rest : Bytes} (h : decode 64 buf = (.ok none, rest)) :
    drain ⟨buf, false⟩ = ([], ⟨buf, false⟩) := by
  have hr := decode_none_rest h
  subst hr
  rw [drain]
  simp only [Bool.false_eq_true, if_false]
  split <;> rename_i h' <;> rw [h] at h' <;> simp at h'
  subst h'; rfl

theorem drain_err {buf rest : Bytes} (h : decode 64 buf = (.err, rest)) :
    drain ⟨buf, false⟩ = ([], ⟨rest, true⟩) := by
  rw [drain]
  simp only [Bool.false_eq_true, if_false]
  split <;> rename_i h' <;> rw [h] at h' <;> simp at h'
  subst h'; rfl

/-- Two readers that agree up to the buffer kept after a failure. -/
def Reader.Equiv (a b : Reader) : Prop :=
  a.failed = b.failed ∧ (a.failed = false → a.buf = b.buf)

/-- Draining, appending and draining again is the same as appending first. -/
theorem drain_append (n : Nat) : ∀ (buf x : Bytes), buf.length ≤ n →
    (drain ⟨buf ++ x, false⟩).1 =
        (drain ⟨buf, false⟩).1 ++ (feed (drain ⟨buf, false⟩).2 x).1 ∧
      Reader.Equiv (drain ⟨buf ++ x, false⟩).2 (feed (drain ⟨buf, false⟩).2 x).2 := by
  induction n with
  | zero =>
    intro buf x h
    have : buf = [] := by simpa using h
    subst this
    have h0 : decode 64 [] = (.ok none, []) := decode_short (by simp)
    rw [drain_none h0]
    simp [feed, Reader.Equiv]
  | succ n ih =>
    intro buf x hlen
    match hd : decode 64 buf with
    | (.ok (some m), rest) =>
      rw [drain_some hd, drain_some (decode_append_some (x := x) hd)]
      have := ih rest x (by have := decode_some_length hd; omega)
      simp only [List.cons_append, this.1]
      exact ⟨trivial, this.2⟩
    | (.ok none, rest) =>
      rw [drain_none hd]
      simp [feed, Reader.Equiv]
    | (.err, rest) =>
      rw [drain_err hd, drain_err (decode_append_err (x := x) hd)]
      simp [feed, Reader.Equiv]
    | (.panic, rest) => exact absurd hd (decode_not_panic _ _)

theorem feed_failed {r : Reader} (h : r.failed = true) (c : Bytes) : feed r c = ([], r) := by
  simp [feed, h]

theorem feedAll_failed {r : Reader} (h : r.failed = true) (cs : List Bytes) :
    feedAll r cs = ([], r) := by
  induction cs with
  | nil => rfl
  | cons c cs ih => simp [feedAll, feed_failed h, ih]

theorem Reader.Equiv.trans {a b c : Reader} (h1 : Reader.Equiv a b) (h2 : Reader.Equiv b c) :
    Reader.Equiv a c :=
  ⟨h1.1.trans h2.1, fun h => (h1.2 h).trans (h2.2 (h1.1 ▸ h))⟩

theorem Reader.Equiv.symm {a b : Reader} (h : Reader.Equiv a b) : Reader.Equiv b a :=
  ⟨h.1.symm, fun hb => (h.2 (h.1 ▸ hb)).symm⟩

theorem feed_append (buf x y : Bytes) :
    (feed ⟨buf, false⟩ (x ++ y)).1 =
        (feed ⟨buf, false⟩ x).1 ++ (feed (feed ⟨buf, false⟩ x).2 y).1 ∧
      Reader.Equiv (feed ⟨buf, false⟩ (x ++ y)).2 (feed (feed ⟨buf, false⟩ x).2 y).2 := by
  simp only [feed, Bool.false_eq_true, if_false, ← List.append_assoc]
  exact drain_append _ _ _ (Nat.le_refl _)

theorem drain_fix (n : Nat) : ∀ (b b2 : Bytes), b.length ≤ n →
    (drain ⟨b, false⟩).2 = ⟨b2, false⟩ → drain ⟨b2, false⟩ = ([], ⟨b2, false⟩) := by
  induction n with
  | zero =>
    intro b b2 h hd
    have : b = [] := by simpa using h
    subst this
    have h0 : decode 64 [] = (.ok none, []) := decode_short (by simp)
    rw [drain_none h0] at hd
    have : b2 = [] := by simpa using hd.symm
    subst this; exact drain_none h0
  | succ n ih =>
    intro b b2 hlen h
    match hd : decode 64 b with
    | (.ok (some m), rest) =>
      rw [drain_some hd] at h
      exact ih rest b2 (by have := decode_some_length hd; omega) h
    | (.ok none, rest) =>
      rw [drain_none hd] at h
      have : b2 = b := by simpa using h.symm
      subst this; exact drain_none hd
    | (.err, rest) => rw [drain_err hd] at h; simp at h
    | (.panic, rest) => exact absurd hd (decode_not_panic _ _)

theorem feedAll_flatten (cs : List Bytes) : ∀ (buf : Bytes),
    drain ⟨buf, false⟩ = ([], ⟨buf, false⟩) →
    (feedAll ⟨buf, false⟩ cs).1 = (feed ⟨buf, false⟩ cs.flatten).1 ∧
      Reader.Equiv (feedAll ⟨buf, false⟩ cs).2 (feed ⟨buf, false⟩ cs.flatten).2 := by
  induction cs with
  | nil =>
    intro buf hr
    simp only [feedAll, List.flatten_nil, feed, Bool.false_eq_true, if_false, List.append_nil, hr]
    exact ⟨trivial, rfl, fun _ => rfl⟩
  | cons c cs ih =>
    intro buf hr
    have h1 := feed_append buf c cs.flatten
    simp only [feedAll, List.flatten_cons]
    generalize hfc : (feed ⟨buf, false⟩ c).2 = r at h1 ⊢
    obtain ⟨b2, f2⟩ := r
    cases f2 with
    | true =>
      rw [feedAll_failed (r := ⟨b2, true⟩) rfl]
      rw [feed_failed (r := ⟨b2, true⟩) rfl] at h1
      exact ⟨h1.1.symm, h1.2.symm⟩
    | false =>
      have hdr : drain ⟨b2, false⟩ = ([], ⟨b2, false⟩) := by
        simp only [feed, Bool.false_eq_true, if_false] at hfc
        exact drain_fix _ _ _ (Nat.le_refl _) hfc
      have h2 := ih b2 hdr
      refine ⟨?_, h2.2.trans h1.2.symm⟩
      rw [h1.1, h2.1]

end Verif.Wire
