import Verif.Lemmas.HttpBody
/-!
# Lemmas about the client codecs
-/
namespace Verif.Http
open Verif

variable {L : Bytes → Bytes} {P : Proto}

/-- The states of a codec. -/
structure KInv (c : Codec) : Prop where
  hdec : HInv c.hdec
  max : 0 < c.maxLine
  both : (c.header = none ∧ c.bdec = none) ∨ ∃ h b, c.header = some h ∧ c.bdec = some b ∧ BInv b

theorem codec_new_inv (ig : Bool) : KInv (Codec.new ig) :=
  ⟨hdec_new_inv (by decide), Nat.succ_pos _, .inl ⟨rfl, rfl⟩⟩

theorem newChunked_inv {maxLine : Nat} (h : 0 < maxLine) (ig : Bool) : BInv (Body.newChunked maxLine ig) :=
  ⟨hdec_new_inv (maxLines := 0) h, nofun⟩

theorem newFixed_inv {n : Nat} {ig : Bool} {b : Body} (e : Body.newFixed n ig = some b) : BInv b := by
  unfold Body.newFixed at e
  split at e
  · cases e
  · injection e with e
    subst e
    rfl

theorem lengthBody_inv {f : Field} {ig : Bool} {b : Body} (e : lengthBody f ig = .ok b) : BInv b := by
  unfold lengthBody at e
  split at e
  · cases e
  · split at e
    · cases e
    · split at e
      · rename_i h
        injection e with e
        subst e
        exact newFixed_inv h
      · cases e

theorem bodyFor_inv {m : Nat} (hm : 0 < m) {ig : Bool} {h : Header} {b : Body} (e : bodyFor L P m ig h = .ok b) :
    BInv b := by
  unfold bodyFor at e
  cases P with
  | http =>
    dsimp only at e
    split at e
    · injection e with e; subst e; rfl
    · split at e
      · split at e
        · injection e with e; subst e; exact newChunked_inv hm ig
        · injection e with e; subst e; trivial
      · split at e
        · exact lengthBody_inv e
        · injection e with e; subst e; trivial
  | rtsp =>
    dsimp only at e
    split at e
    · exact lengthBody_inv e
    · injection e with e; subst e; rfl

theorem finish_eq {c : Codec} {h : Header} {b : Body} (hh : c.header = some h) (hb : c.bdec = some b)
    (dec : Body → Bytes → Dec Body Bytes) (x : Bytes) :
    c.finish P dec x =
      match dec b x with
      | .err => .err
      | .panic => .panic
      | .ok none b r => .ok none { c with bdec := some b } r
      | .ok (some body) _ r =>
        match Response.new P h body with
        | none => .err
        | some a => .ok (some a) { c with bdec := none, header := none } r := by
  obtain ⟨hdec, bdec, header, maxLine, ignore⟩ := c
  dsimp only at hh hb
  subst hh hb
  rfl

theorem decode_some {c : Codec} {h : Header} (hh : c.header = some h) (x : Bytes) :
    c.decode L P x = c.finish P Body.decode x := by
  unfold Codec.decode
  rw [hh]

theorem decode_none {c : Codec} (hh : c.header = none) (hb : c.bdec = none) (x : Bytes) :
    c.decode L P x =
      match c.hdec.decode L x with
      | .err => .err
      | .panic => .panic
      | .ok none hdec data => .ok none { c with hdec := hdec } data
      | .ok (some h) hdec data =>
        match bodyFor L P c.maxLine c.ignore h with
        | .err => .err
        | .panic => .panic
        | .ok b => { c with hdec := hdec, bdec := some b, header := some h }.finish P Body.decode data := by
  obtain ⟨hdec, bdec, header, maxLine, ignore⟩ := c
  dsimp only at hh hb
  subst hh hb
  rfl

/-- The second half of the decoder. -/
theorem finish_more {c c' : Codec} {h : Header} {b : Body} {x r : Bytes} (hh : c.header = some h) (hb : c.bdec = some b)
    (hi : BInv b) (e : c.finish P Body.decode x = .ok none c' r) :
    r = [] ∧ ∃ b', c' = { c with bdec := some b' } ∧ BInv b' ∧
      ∀ y, c.finish P Body.decode (x ++ y) = c'.finish P Body.decode y := by
  rw [finish_eq hh hb] at e
  cases hd : b.decode x with
  | err => rw [hd] at e; cases e
  | panic => rw [hd] at e; cases e
  | ok item b' r' =>
    rw [hd] at e
    cases item with
    | none =>
      dsimp only at e
      injection e with _ e1 e2
      subst e1 e2
      obtain ⟨h1, h2, h3⟩ := body_streams.more hi hd
      refine ⟨h1, b', rfl, h2, fun y => ?_⟩
      rw [finish_eq hh hb, finish_eq (c := { c with bdec := some b' }) hh rfl, h3 y]
    | some a =>
      dsimp only at e
      split at e <;> cases e

theorem finish_item {c c' : Codec} {h : Header} {b : Body} {x r : Bytes} {a : Response} (hh : c.header = some h)
    (hb : c.bdec = some b) (hi : BInv b) (e : c.finish P Body.decode x = .ok (some a) c' r) (y : Bytes) :
    c.finish P Body.decode (x ++ y) = .ok (some a) c' (r ++ y) := by
  rw [finish_eq hh hb] at e ⊢
  cases hd : b.decode x with
  | err => rw [hd] at e; cases e
  | panic => rw [hd] at e; cases e
  | ok item b' r' =>
    rw [hd] at e
    cases item with
    | none => cases e
    | some bd =>
      rw [body_streams.item hi hd y]
      dsimp only at e ⊢
      split at e
      · cases e
      · injection e with e0 e1 e2
        rw [e0, e1, e2]

theorem finish_err {c : Codec} {h : Header} {b : Body} {x : Bytes} (hh : c.header = some h)
    (hb : c.bdec = some b) (hi : BInv b) (e : c.finish P Body.decode x = .err) (y : Bytes) :
    c.finish P Body.decode (x ++ y) = .err := by
  rw [finish_eq hh hb] at e ⊢
  cases hd : b.decode x with
  | err => rw [body_streams.err hi hd y]
  | panic => rw [hd] at e; cases e
  | ok item b' r' =>
    rw [hd] at e
    cases item with
    | none => cases e
    | some bd =>
      rw [body_streams.item hi hd y]
      dsimp only at e ⊢
      split at e
      · rfl
      · cases e

theorem finish_no_panic {c : Codec} {h : Header} {b : Body} {x : Bytes} (hh : c.header = some h)
    (hb : c.bdec = some b) (hi : BInv b) : c.finish P Body.decode x ≠ .panic := by
  intro e
  rw [finish_eq hh hb] at e
  cases hd : b.decode x with
  | err => rw [hd] at e; cases e
  | panic => exact absurd hd (body_no_panic hi x)
  | ok item b' r' =>
    rw [hd] at e
    cases item with
    | none => cases e
    | some bd =>
      dsimp only at e
      split at e <;> cases e

theorem codec_streams : Streams KInv (Codec.decode L P) where
  more := by
    intro c c' x r hi e
    rcases hi.both with ⟨hh, hb⟩ | ⟨h, b, hh, hb, hbi⟩
    · rw [decode_none hh hb] at e
      cases hd : c.hdec.decode L x with
      | err => rw [hd] at e; cases e
      | panic => rw [hd] at e; cases e
      | ok item hdec data =>
        rw [hd] at e
        cases item with
        | none =>
          dsimp only at e
          injection e with _ e1 e2
          subst e1 e2
          obtain ⟨h1, h2, h3⟩ := header_streams.more hi.hdec hd
          refine ⟨h1, ⟨h2, hi.max, .inl ⟨hh, hb⟩⟩, fun y => ?_⟩
          rw [decode_none hh hb, decode_none (c := { c with hdec := hdec }) hh hb, h3 y]
        | some h =>
          dsimp only at e
          cases hbf : bodyFor L P c.maxLine c.ignore h with
          | err => rw [hbf] at e; cases e
          | panic => rw [hbf] at e; cases e
          | ok b =>
            rw [hbf] at e
            dsimp only at e
            have hbi := bodyFor_inv hi.max hbf
            obtain ⟨h1, b', h2, h3, h4⟩ := finish_more rfl rfl hbi e
            subst h2
            have hinv : HInv hdec := (hloop_item _ hi.hdec (Nat.lt_succ_self _) hd).1
            refine ⟨h1, ⟨hinv, hi.max, .inr ⟨h, b', rfl, rfl, h3⟩⟩, fun y => ?_⟩
            rw [decode_none hh hb, header_streams.item hi.hdec hd y]
            dsimp only
            rw [hbf]
            dsimp only
            rw [h4 y]
            exact (decode_some rfl y).symm
    · rw [decode_some hh] at e
      obtain ⟨h1, b', h2, h3, h4⟩ := finish_more hh hb hbi e
      subst h2
      refine ⟨h1, ⟨hi.hdec, hi.max, .inr ⟨h, b', hh, rfl, h3⟩⟩, fun y => ?_⟩
      rw [decode_some hh, h4 y]
      exact (decode_some (c := { c with bdec := some b' }) hh y).symm
  item := by
    intro c c' x r a hi e y
    rcases hi.both with ⟨hh, hb⟩ | ⟨h, b, hh, hb, hbi⟩
    · rw [decode_none hh hb] at e ⊢
      cases hd : c.hdec.decode L x with
      | err => rw [hd] at e; cases e
      | panic => rw [hd] at e; cases e
      | ok item hdec data =>
        rw [hd] at e
        cases item with
        | none => cases e
        | some h =>
          rw [header_streams.item hi.hdec hd y]
          dsimp only at e ⊢
          cases hbf : bodyFor L P c.maxLine c.ignore h with
          | err => rw [hbf] at e; cases e
          | panic => rw [hbf] at e; cases e
          | ok b =>
            rw [hbf] at e
            dsimp only at e ⊢
            exact finish_item rfl rfl (bodyFor_inv hi.max hbf) e y
    · rw [decode_some hh] at e ⊢
      exact finish_item hh hb hbi e y
  err := by
    intro c x hi e y
    rcases hi.both with ⟨hh, hb⟩ | ⟨h, b, hh, hb, hbi⟩
    · rw [decode_none hh hb] at e ⊢
      cases hd : c.hdec.decode L x with
      | err => rw [header_streams.err hi.hdec hd y]
      | panic => rw [hd] at e; cases e
      | ok item hdec data =>
        rw [hd] at e
        cases item with
        | none => cases e
        | some h =>
          rw [header_streams.item hi.hdec hd y]
          dsimp only at e ⊢
          cases hbf : bodyFor L P c.maxLine c.ignore h with
          | err => rfl
          | panic => rw [hbf] at e; cases e
          | ok b =>
            rw [hbf] at e
            dsimp only at e ⊢
            exact finish_err rfl rfl (bodyFor_inv hi.max hbf) e y
    · rw [decode_some hh] at e ⊢
      exact finish_err hh hb hbi e y
  panic := by
    intro c x hi e y
    rcases hi.both with ⟨hh, hb⟩ | ⟨h, b, hh, hb, hbi⟩
    · rw [decode_none hh hb] at e ⊢
      cases hd : c.hdec.decode L x with
      | err => rw [hd] at e; cases e
      | panic => exact absurd hd (hloop_no_panic _ hi.hdec (Nat.lt_succ_self _))
      | ok item hdec data =>
        rw [hd] at e
        cases item with
        | none => cases e
        | some h =>
          rw [header_streams.item hi.hdec hd y]
          dsimp only at e ⊢
          cases hbf : bodyFor L P c.maxLine c.ignore h with
          | err => rw [hbf] at e; cases e
          | panic => rfl
          | ok b =>
            rw [hbf] at e
            dsimp only at e ⊢
            exact absurd e (finish_no_panic rfl rfl (bodyFor_inv hi.max hbf))
    · rw [decode_some hh] at e
      exact absurd e (finish_no_panic hh hb hbi)

/-! ## The whole stream -/

/-- What the client makes of everything the server sent. -/
def whole (L : Bytes → Bytes) (P : Proto) (c : Codec) (x : Bytes) : Wire.Res Response :=
  match c.decode L P x with
  | .ok (some r) _ _ => .ok r
  | .ok none c _ =>
    match c.finish P Body.decodeEof [] with
    | .ok (some r) _ _ => .ok r
    | .ok none _ _ => .err
    | .err => .err
    | .panic => .panic
  | .err => .err
  | .panic => .panic

theorem eof_nil (n : Nat) (c : Codec) : c.decodeEof L P n [] = c.finish P Body.decodeEof [] := by
  unfold Codec.decodeEof
  rfl

theorem run_whole : ∀ (pieces : List Bytes) (c : Codec), KInv c → c.decode L P [] = .ok none c [] →
    c.run L P [] pieces = whole L P c pieces.flatten := by
  intro pieces
  induction pieces with
  | nil =>
    intro c hi hq
    unfold Codec.run whole
    rw [eof_nil, List.flatten_nil, hq]
    rfl
  | cons p pieces ih =>
    intro c hi hq
    unfold Codec.run
    rw [List.nil_append, List.flatten_cons]
    cases hd : c.decode L P p with
    | err => unfold whole; rw [codec_streams.err hi hd]
    | panic => unfold whole; rw [codec_streams.panic hi hd]
    | ok item c' r =>
      cases item with
      | some a => unfold whole; rw [codec_streams.item hi hd]
      | none =>
        obtain ⟨h1, h2, h3⟩ := codec_streams.more hi hd
        subst h1
        dsimp only
        have hq' : c'.decode L P [] = .ok none c' [] := by
          rw [← h3 [], List.append_nil, hd]
        rw [ih c' h2 hq']
        unfold whole
        rw [h3]

theorem response_whole (ig : Bool) (pieces : List Bytes) :
    response L P ig pieces = whole L P (Codec.new ig) pieces.flatten := by
  refine run_whole pieces _ (codec_new_inv ig) ?_
  rw [decode_none rfl rfl, header_nil (codec_new_inv ig).hdec]

end Verif.Http
