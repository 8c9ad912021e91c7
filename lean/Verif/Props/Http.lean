import Verif.Lemmas.HttpMore
/-!
# C60 – C64, C87, C88: the HTTP and RTSP clients

`L` is `str::to_lowercase`, `P` one of the two clients; `ig` says that the client ignores the body (`get_header`,
`OPTIONS`).
-/
namespace Verif.Props.Http
open Verif Verif.Http Verif.Spec.Http Verif.Spec.Text Verif.Spec.Url

variable {L : Bytes → Bytes} {P : Proto}

/-! ## C60: packets and lines -/

/-- C60: the answer depends only on what the server sends, not on the packets. -/
theorem C60_packets (ig : Bool) (pieces pieces' : List Bytes) (h : pieces.flatten = pieces'.flatten) :
    response L P ig pieces = response L P ig pieces' ∧ received L P ig pieces = received L P ig pieces' := by
  rw [response_whole, response_whole, received_whole, received_whole, h]
  exact ⟨rfl, rfl⟩

/-- C60: what was returned while the connection was open remains the answer, whatever arrives later. -/
theorem C60_final (ig : Bool) (pieces more : List Bytes) (r : Wire.Res Response) (h : received L P ig pieces = some r) :
    response L P ig (pieces ++ more) = r ∧ received L P ig (pieces ++ more) = some r := by
  rw [received_whole] at h
  rw [response_whole, received_whole, List.flatten_append]
  unfold whole
  cases hd : (Codec.new ig).decode L P pieces.flatten with
  | err =>
    rw [hd] at h
    injection h with h
    rw [codec_streams.err (codec_new_inv ig) hd, ← h]
    exact ⟨rfl, rfl⟩
  | panic =>
    rw [hd] at h
    injection h with h
    rw [codec_streams.panic (codec_new_inv ig) hd, ← h]
    exact ⟨rfl, rfl⟩
  | ok item c d =>
    rw [hd] at h
    cases item with
    | none => cases h
    | some a =>
      injection h with h
      rw [codec_streams.item (codec_new_inv ig) hd, ← h]
      exact ⟨rfl, rfl⟩

/-- C60: the lines do not depend on the packets. -/
theorem C60_lines (sep : Bytes) (max : Nat) (hs : sep ≠ []) (hm : 0 < max) (pieces pieces' : List Bytes)
    (h : pieces.flatten = pieces'.flatten) : lines (Line.new sep max) pieces = lines (Line.new sep max) pieces' := by
  rw [lines_flatten _ _ (line_new_inv hs hm), lines_flatten _ _ (line_new_inv hs hm), h]

/-- C60: the lines, with a separator behind each, and what is kept for the next line are exactly what arrived. Less
than `max` bytes are kept, and there is no separator among them. -/
theorem C60_exact (sep : Bytes) (max : Nat) (hs : sep ≠ []) (hm : 0 < max) (pieces : List Bytes) (ts : List Bytes)
    (d : Line) (h : lines (Line.new sep max) pieces = (ts, some d)) :
    pieces.flatten = ts.flatMap (· ++ sep) ++ d.buffer ∧ d.buffer.length < max ∧ ¬sep <:+: d.buffer ∧
    ∀ t ∈ ts, Utf8.valid t = true ∧ t.length + sep.length ≤ max ∧ Until sep t := by
  rw [lines_flatten _ _ (line_new_inv hs hm)] at h
  obtain ⟨h1, h2, h3, h4, h5, -⟩ := drain_some _ (line_new_inv hs hm) (Nat.lt_succ_self _) h
  refine ⟨h4, ?_, ?_, h5⟩
  · have := h1.fits
    rw [h3] at this
    exact this
  · rintro ⟨a, b, hab⟩
    refine h1.none a.length (occ_prefix.mpr ?_)
    rw [h2, ← hab, List.append_assoc, List.drop_left]
    exact List.prefix_append _ _

/-- C60: there is an error only behind some lines, because of `max` bytes in which no line ends, or because of a line
that is not UTF-8. -/
theorem C60_error (sep : Bytes) (max : Nat) (hs : sep ≠ []) (hm : 0 < max) (pieces : List Bytes) (ts : List Bytes)
    (h : lines (Line.new sep max) pieces = (ts, none)) :
    ∃ y, pieces.flatten = ts.flatMap (· ++ sep) ++ y ∧
      ((max ≤ y.length ∧ ¬sep <:+: y.take max) ∨ ∃ t r, y = t ++ sep ++ r ∧ Utf8.valid t = false) := by
  rw [lines_flatten _ _ (line_new_inv hs hm)] at h
  obtain ⟨⟨y, h1, h2⟩, -⟩ := drain_none _ (line_new_inv hs hm) (Nat.lt_succ_self _) h
  refine ⟨y, h1, ?_⟩
  rcases h2 with ⟨h2, h3⟩ | h2
  · refine .inl ⟨h2, ?_⟩
    rintro ⟨a, b, hab⟩
    refine h3 a.length (occ_prefix.mpr ?_)
    rw [show (Line.new sep max).max = max from rfl, ← hab, List.append_assoc, List.drop_left]
    exact List.prefix_append _ _
  · exact .inr h2

/-- C60: a header with a line that is too long is refused. -/
theorem C60_too_long (ig : Bool) (pieces : List Bytes) (ls : List Bytes) (y : Bytes)
    (hl : ∀ t ∈ ls, IsLine t ∧ t ≠ []) (hy : 4096 ≤ y.length) (hy' : OneLine (y.take 4096))
    (h : pieces.flatten = text ls ++ y) : response L P ig pieces = .err ∧ received L P ig pieces = some .err := by
  have hf : fresh.decode y = .err := by
    rw [decode_closed fresh_inv]
    unfold closed
    rw [show fresh.buffer ++ y = y from rfl, show fresh.max = 4096 from rfl,
      (first_none fresh_inv.sep).mpr (oneLine_iff.mp hy')]
    dsimp only
    rw [if_pos hy]
  have he : (HDec.new 4096 1024).decode L pieces.flatten = .err := by
    rw [h]
    exact lines_err hf ls _ _ rfl hl (Nat.lt_succ_self _)
  have hc : (Codec.new ig).decode L P pieces.flatten = .err := by
    rw [decode_none rfl rfl, show (Codec.new ig).hdec.decode L pieces.flatten = _ from he]
  rw [response_whole, received_whole]
  unfold whole
  rw [hc]
  exact ⟨rfl, rfl⟩

example : lines (Line.new [13, 10] 8) [asc "ab", [13], [10] ++ asc "c", [13, 10, 13]] =
    ([asc "ab", asc "c"], some ⟨[13, 10], [13], 8⟩) := by rfl

/-! ## C63: what is accepted, and what it means -/

/-- C63: an accepted stream consists of a header and what follows; the response shows exactly the header and the body
of this text. -/
theorem C63_sound (ig : Bool) (pieces : List Bytes) (r : Response) (e : response L P ig pieces = .ok r) :
    ∃ head rest h body, pieces.flatten = head ++ rest ∧ IsHead head h ∧ Accepted P h ∧
      BodyIs L P (limit ig) h rest body ∧ Shows L r h (if ig then [] else body) := by
  rw [response_whole] at e
  cases hd : (HDec.new 4096 1024).decode L pieces.flatten with
  | err => rw [whole_nohead (by rw [hd]; nofun)] at e; cases e
  | panic => rw [whole_nohead (by rw [hd]; nofun)] at e; cases e
  | ok item d data =>
    cases item with
    | none => rw [whole_nohead (by rw [hd]; nofun)] at e; cases e
    | some x =>
      rw [whole_head hd] at e
      obtain ⟨s, h, h1, h2, h3, -⟩ := head_of_decode hd
      unfold respond at e
      cases hb : bodyFor L P 4096 ig x with
      | err => rw [hb] at e; cases e
      | panic => rw [hb] at e; cases e
      | ok b =>
        rw [hb] at e
        dsimp only at e
        cases hf : final (b.decode data) with
        | err => rw [hf] at e; cases e
        | panic => rw [hf] at e; cases e
        | ok c =>
          rw [hf] at e
          dsimp only at e
          obtain ⟨body, g1, g2⟩ := body_bwd h3 hb hf
          by_cases ha : Accepted P h
          · rw [(new_response h3 c).1 ha] at e
            injection e with e
            refine ⟨s, data, h, body, h1, h2, ha, g1, ?_⟩
            rw [← e, ← g2]
            exact shows_of h3 c
          · rw [(new_response h3 c).2 ha] at e
            cases e

/-- C63: every text of a header and a body is accepted, and the response shows it. -/
theorem C63_complete (ig : Bool) (pieces : List Bytes) (head rest : Bytes) (h : Head) (body : Bytes)
    (h0 : pieces.flatten = head ++ rest) (h1 : IsHead head h) (h2 : Accepted P h)
    (h3 : BodyIs L P (limit ig) h rest body) :
    ∃ r, response L P ig pieces = .ok r ∧ Shows L r h (if ig then [] else body) := by
  rw [response_whole, h0]
  obtain ⟨x, hx, hd⟩ := head_decode (L := L) h1
  rw [whole_head (hd rest)]
  obtain ⟨b, g1, g2⟩ := body_fwd hx h3
  unfold respond
  rw [g1]
  dsimp only
  rw [g2]
  dsimp only
  rw [(new_response hx _).1 h2]
  exact ⟨_, rfl, shows_of hx _⟩

/-- C63: without a complete header there is no response. -/
theorem C63_no_header (ig : Bool) (pieces : List Bytes) (h : ¬∃ head rest h, pieces.flatten = head ++ rest ∧ IsHead head h) :
    response L P ig pieces = .err := by
  rw [response_whole]
  refine whole_nohead fun x d data hd => h ?_
  obtain ⟨s, hh, h1, h2, -⟩ := head_of_decode hd
  exact ⟨s, data, hh, h1, h2⟩

/-- C63: a header of more than 1024 lines is refused; the connection need not end for that. -/
theorem C63_too_many_lines (ig : Bool) (pieces : List Bytes) (ls : List Bytes) (y : Bytes)
    (hl : ∀ t ∈ ls, IsLine t ∧ t ≠ []) (hn : 1024 < ls.length) (h : pieces.flatten = text ls ++ y) :
    response L P ig pieces = .err ∧ received L P ig pieces = some .err := by
  have he : (HDec.new 4096 1024).decode L pieces.flatten = .err := by
    rw [h]
    exact too_many ls _ _ y rfl hl (Nat.zero_le _) (by show 1024 < 0 + ls.length; omega) (Nat.lt_succ_self _)
  have hc : (Codec.new ig).decode L P pieces.flatten = .err := by
    rw [decode_none rfl rfl, show (Codec.new ig).hdec.decode L pieces.flatten = _ from he]
  rw [response_whole, received_whole]
  unfold whole
  rw [hc]
  exact ⟨rfl, rfl⟩

/-- C63: after a header the header decoder is as new. -/
theorem C63_reset (head rest : Bytes) (h : Head) (hh : IsHead head h) :
    ∃ x, (HDec.new 4096 1024).decode L (head ++ rest) = .ok (some x) (HDec.new 4096 1024) rest ∧
      ∀ body, Shows L ⟨x, body⟩ h body := by
  obtain ⟨x, hx, hd⟩ := head_decode (L := L) hh
  exact ⟨x, hd rest, shows_of hx⟩

/-! ## C61: bodies of a known length -/

/-- C61: the body is the announced number of bytes behind the header. -/
theorem C61_length (ig : Bool) (pieces : List Bytes) (head rest : Bytes) (h : Head) (n : Nat)
    (h0 : pieces.flatten = head ++ rest) (h1 : IsHead head h) (h2 : Accepted P h) (h3 : LengthIs L P h n)
    (hn : n ≤ limit ig) :
    ∃ r, response L P ig pieces = .ok r ∧ Shows L r h (if ig then [] else rest.take n) :=
  C63_complete ig pieces head rest h _ h0 h1 h2 (.length h3 hn)

/-- C61: as long as the connection is open there is a response exactly if all the announced bytes have arrived. -/
theorem C61_complete (ig : Bool) (pieces : List Bytes) (head rest : Bytes) (h : Head) (n : Nat)
    (h0 : pieces.flatten = head ++ rest) (h1 : IsHead head h) (h2 : Accepted P h) (h3 : LengthIs L P h n)
    (hn : n ≤ limit ig) :
    (rest.length < n → received L P ig pieces = none) ∧
    (n ≤ rest.length → ∃ r, received L P ig pieces = some (.ok r) ∧ Shows L r h (if ig then [] else rest.take n)) := by
  rw [received_whole, h0]
  obtain ⟨x, hx, hd⟩ := head_decode (L := L) h1
  rw [returned_head (hd rest) (body_length hx h3 hn)]
  constructor
  · intro hlt
    unfold Body.decode
    dsimp only
    rw [fixed_eq_more _ _ _ _ hlt]
    rfl
  · intro hle
    unfold Body.decode
    dsimp only
    rw [fixed_eq _ _ _ _ hle]
    unfold answer
    dsimp only
    rw [(new_response hx _).1 h2]
    refine ⟨_, rfl, ?_⟩
    have := shows_of hx (if ig then ([] : Bytes) else rest.take n)
    cases ig <;> exact this

/-- C61: a connection that ends too early is not noticed: the response is accepted, with a part of the body. -/
theorem C61_truncated (pieces : List Bytes) (head rest : Bytes) (h : Head) (n : Nat)
    (h0 : pieces.flatten = head ++ rest) (h1 : IsHead head h) (h2 : Accepted P h) (h3 : LengthIs L P h n)
    (hn : n ≤ limit false) (hr : rest.length < n) :
    ∃ r, response L P false pieces = .ok r ∧ Shows L r h rest := by
  have := C61_length false pieces head rest h n h0 h1 h2 h3 hn
  rw [List.take_of_length_le (by omega)] at this
  exact this

/-- C61: a body of unknown length is everything up to the end of the connection, and there is no response before. -/
theorem C61_until_close (ig : Bool) (pieces : List Bytes) (head rest : Bytes) (h : Head)
    (h0 : pieces.flatten = head ++ rest) (h1 : IsHead head h) (h2 : Accepted .http h) (h3 : ¬Bodiless h)
    (h4 : h.last L (asc "transfer-encoding") = none) (h5 : h.last L (asc "content-length") = none) :
    (∃ r, response L .http ig pieces = .ok r ∧ Shows L r h (if ig then [] else rest)) ∧
      received L .http ig pieces = none := by
  refine ⟨C63_complete ig pieces head rest h _ h0 h1 h2 (.unknown h3 h4 h5), ?_⟩
  rw [received_whole, h0]
  obtain ⟨x, hx, hd⟩ := head_decode (L := L) h1
  rw [returned_head (hd rest) (body_unknown hx h3 h4 h5)]
  rfl

/-! ## C62: bodies in chunks -/

/-- The response announces a body in chunks. -/
def Chunked (L : Bytes → Bytes) (h : Head) : Prop :=
  ¬Bodiless h ∧ ∃ v, h.last L (asc "transfer-encoding") = some v ∧ L (v.getD []) = asc "chunked"

/-- C62: a body in chunks is decoded to the concatenation of the chunks. -/
theorem C62_chunked (ig : Bool) (pieces : List Bytes) (head : Bytes) (h : Head) (cs : List (Bytes × Bytes))
    (z : Bytes) (ts : List Bytes) (y : Bytes) (h0 : pieces.flatten = head ++ (encodeChunks cs z ts ++ y))
    (h1 : IsHead head h) (h2 : Accepted .http h) (h3 : Chunked L h)
    (hc : ∀ c ∈ cs, IsLine c.1 ∧ SizeIs c.1 c.2.length ∧ c.2 ≠ []) (hz : IsLine z ∧ SizeIs z 0)
    (ht : ∀ t ∈ ts, IsLine t ∧ t ≠ []) :
    ∃ r, response L .http ig pieces = .ok r ∧ Shows L r h (if ig then [] else cs.flatMap (·.2)) := by
  obtain ⟨h3, v, h4, h5⟩ := h3
  exact C63_complete ig pieces head _ h _ h0 h1 h2 (.chunked h3 h4 h5 (done_chunks (encode_done cs z ts y hc hz.1 hz.2 ht)))

/-- C62: as long as the connection is open there is a response exactly if the last chunk and the trailer have
arrived. -/
theorem C62_complete (ig : Bool) (pieces : List Bytes) (head rest : Bytes) (h : Head) (body : Bytes)
    (h0 : pieces.flatten = head ++ rest) (h1 : IsHead head h) (h2 : Accepted .http h) (h3 : Chunked L h) :
    (ChunksDone rest body → ∃ r, received L .http ig pieces = some (.ok r) ∧ Shows L r h (if ig then [] else body)) ∧
    (Chunks rest body → ¬ChunksDone rest body → received L .http ig pieces = none) := by
  obtain ⟨h3, v, h4, h5⟩ := h3
  rw [received_whole, h0]
  obtain ⟨x, hx, hd⟩ := head_decode (L := L) h1
  rw [returned_head (hd rest) (body_chunked hx h3 h4 h5),
    show (Body.newChunked 4096 ig).decode rest = decodeChunked rest.length .header fresh [] 0 ig rest from rfl]
  constructor
  · intro hc
    have hn := now_done hc [] 0 ig
    unfold now at hn
    split at hn
    · rename_i b b' r hb
      injection hn with hn
      rw [hb]
      unfold answer
      dsimp only
      rw [(new_response hx _).1 h2]
      exact ⟨_, rfl, by rw [hn]; exact shows_of hx _⟩
    · cases hn
  · intro hc hnd
    rcases now_or hc [] 0 ig with h' | h'
    · exact absurd h' hnd
    · have hf := chunks_fwd hc [] 0 ig
      unfold now at h'
      unfold Verif.Http.rest at hf
      cases hdc : decodeChunked rest.length .header fresh [] 0 ig rest with
      | err => rw [hdc] at hf; cases hf
      | panic => rw [hdc] at hf; cases hf
      | ok item b r =>
        rw [hdc] at h'
        cases item with
        | some a => cases h'
        | none => rfl

/-- C62: a connection that ends too early is not noticed: wherever the stream is cut behind the header, the response
is accepted, with the first part of the body. -/
theorem C62_truncated (pieces : List Bytes) (head rest : Bytes) (h : Head) (body : Bytes) (p : Nat)
    (h0 : pieces.flatten = head ++ rest.take p) (h1 : IsHead head h) (h2 : Accepted .http h) (h3 : Chunked L h)
    (hc : Chunks rest body) :
    ∃ r b, response L .http false pieces = .ok r ∧ Shows L r h b ∧ b <+: body := by
  obtain ⟨h3, v, h4, h5⟩ := h3
  obtain ⟨b, hb1, hb2⟩ := chunks_take hc p
  obtain ⟨r, hr1, hr2⟩ := C63_complete false pieces head _ h b h0 h1 h2 (.chunked h3 h4 h5 hb1)
  exact ⟨r, b, hr1, hr2, hb2⟩

/-- C62: what stands between the end of a chunk and the end of that line is dropped. -/
theorem C62_garbage (ig : Bool) (pieces : List Bytes) (head : Bytes) (h : Head) (t d g q body : Bytes)
    (h0 : pieces.flatten = head ++ (t ++ [13, 10] ++ d ++ g ++ [13, 10] ++ q)) (h1 : IsHead head h)
    (h2 : Accepted .http h) (h3 : Chunked L h) (ht : IsLine t) (hs : SizeIs t d.length) (hd : d ≠ []) (hg : IsLine g)
    (hq : Chunks q body) :
    ∃ r, response L .http ig pieces = .ok r ∧ Shows L r h (if ig then [] else d ++ body) := by
  obtain ⟨h3, v, h4, h5⟩ := h3
  refine C63_complete ig pieces head _ h (d ++ body) h0 h1 h2 (.chunked h3 h4 h5 ?_)
  have := Chunks.chunk (s := t ++ [13, 10] ++ d ++ g ++ [13, 10] ++ q) (t := t) (r := d ++ (g ++ [13, 10] ++ q)) (n := d.length)
    (g := g) (q := q) (body := body) ⟨by simp only [List.append_assoc], ht⟩ hs (List.length_pos_iff.mpr hd)
    (by rw [List.length_append]; omega) (by rw [List.drop_left]; exact ⟨rfl, hg⟩) hq
  rw [List.take_left] at this
  exact this

/-! ## C64: collections of fields -/

/-- C64: after any operations the fields, and what a lookup returns, are those of the specification. -/
theorem C64_history (ops : List Op) :
    let code := ops.foldl (Op.run L) Fields.new
    let spec := ops.foldl (Op.spec L) []
    code.fields.map (fun f => (f.name, f.value)) = spec ∧
    ∀ name, (code.get L name).map (fun f => (f.name, f.value)) = spec.filter (fun f => L f.1 = L name) := by
  dsimp only
  obtain ⟨h1, h2⟩ := ops_fields (L := L) ops Fields.new [] rfl (fun _ => rfl)
  refine ⟨?_, fun name => ?_⟩
  · rw [h1, List.map_map]
    exact List.map_id' _
  · rw [h2 name, List.map_map]
    exact List.map_id' _

/-- C64: the value of a field is the value of the last one with an equal name. -/
theorem C64_last (ops : List Op) (name : Bytes) (h : Header) (hh : h.fields = ops.foldl (Op.run L) Fields.new) :
    (h.field L name).map (fun f => (f.name, f.value)) =
      ((ops.foldl (Op.spec L) []).filter (fun f => L f.1 = L name)).getLast? ∧
    h.value L name = (((ops.foldl (Op.spec L) []).filter (fun f => L f.1 = L name)).getLast?).bind (·.2) := by
  have e := (C64_history (L := L) ops).2 name
  rw [← hh] at e
  unfold Header.field Header.value
  rw [← e, List.getLast?_map]
  refine ⟨rfl, ?_⟩
  cases hg : (h.fields.get L name).getLast? with
  | none => rfl
  | some f =>
    cases hv : f.value with
    | none => simp [hv]
    | some v => simp [hv]

/-! ## C87: no panic -/

/-- C87: the only panic is for an announced length that cannot be allocated, and not if the body is ignored. -/
theorem C87_panic (ig : Bool) (pieces : List Bytes) :
    response L P ig pieces = .panic ↔ ig = false ∧ ∃ head rest h n, pieces.flatten = head ++ rest ∧ IsHead head h ∧
      LengthIs L P h n ∧ 9223372036854775807 < n ∧ n ≤ 18446744073709551615 := by
  rw [response_whole]
  constructor
  · intro e
    cases hd : (HDec.new 4096 1024).decode L pieces.flatten with
    | err => rw [whole_nohead (by rw [hd]; nofun)] at e; cases e
    | panic => rw [whole_nohead (by rw [hd]; nofun)] at e; cases e
    | ok item d data =>
      cases item with
      | none => rw [whole_nohead (by rw [hd]; nofun)] at e; cases e
      | some x =>
        rw [whole_head hd] at e
        obtain ⟨s, h, h1, h2, h3, -⟩ := head_of_decode hd
        unfold respond at e
        cases hb : bodyFor L P 4096 ig x with
        | err => rw [hb] at e; cases e
        | panic =>
          obtain ⟨g1, n, g2, g3, g4⟩ := (body_panic h3).mp hb
          exact ⟨g1, s, data, h, n, h1, h2, g2, g3, g4⟩
        | ok b =>
          rw [hb] at e
          dsimp only at e
          cases hf : final (b.decode data) with
          | err => rw [hf] at e; cases e
          | panic => exact absurd hf (final_no_panic (bodyFor_inv (by decide) hb) data)
          | ok c =>
            rw [hf] at e
            dsimp only at e
            split at e <;> cases e
  · rintro ⟨h0, s, data, h, n, h1, h2, h3, h4, h5⟩
    rw [h1]
    obtain ⟨x, hx, hd⟩ := head_decode (L := L) h2
    rw [whole_head (hd data)]
    unfold respond
    rw [(body_panic hx).mpr ⟨h0, n, h3, h4, h5⟩]

/-- C87: `get_header` and `OPTIONS` never panic. -/
theorem C87_ignored (pieces : List Bytes) : response L P true pieces ≠ .panic := by
  intro h
  have := (C87_panic true pieces).mp h
  cases this.1

/-! ## C88: requests -/

/-- Every function used for a URL with the components `p` returns the value one expects. -/
theorem C88_http (hL : AsciiLower L) (version method : Bytes) (ig : Bool) (p : Parts) (hp : Wf p)
    (hv : Utf8.valid (render p) = true) :
    (L p.scheme = asc "http" → ∃ c, newHttp L version method (render p) ig = .ok c ∧ c.host = p.host ∧
      Spec.Args.PortIs 80 p.port c.port ∧ c.ignore = ig ∧
      c.inner.encode = method ++ asc " " ++ resource p ++ asc " HTTP/1.0" ++ [13, 10] ++ asc "Host: " ++ p.host ++ [13, 10] ++
        asc "User-Agent: ArrowClient/" ++ version ++ [13, 10] ++ [13, 10]) ∧
    (L p.scheme ≠ asc "http" → newHttp L version method (render p) ig = .err) := by
  have r := Url.reads_urlOf hp hv
  have hLL : L (asc "User-Agent") ≠ L (asc "Host") := by
    rw [hL _ (by decide), hL _ (by decide)]
    decide
  unfold newHttp
  rw [Url.parse_render hp hv]
  dsimp only
  rw [r.scheme, r.host, r.path, r.query]
  dsimp only
  constructor
  · intro hs
    rw [if_pos hs]
    refine ⟨_, rfl, rfl, ?_, rfl, ?_⟩
    · have := r.port
      unfold Spec.Args.PortIs
      cases hport : p.port with
      | none =>
        rw [hport] at this
        dsimp only at this
        rw [this]
        rfl
      | some t =>
        rw [hport] at this
        dsimp only at this
        obtain ⟨n, h1, h2⟩ := this
        rw [h1]
        exact h2
    · rw [encode_two hLL]
      have he : (match p.tail.bind (·.2.1) with
          | some q => (match p.tail with | some (x, _, _) => x | none => [47]) ++ [63] ++ q
          | none => (match p.tail with | some (x, _, _) => x | none => [47])) = resource p := by
        unfold resource
        rcases p.tail with _ | ⟨x, q, f⟩
        · rfl
        · cases q <;> simp [opt]
      refine (congrArg (fun z => method ++ [32] ++ z ++ ([32] ++ asc "HTTP" ++ [47] ++ asc "1.0") ++ [13, 10] ++
        (asc "Host" ++ [58, 32]) ++ p.host ++ [13, 10] ++ (asc "User-Agent" ++ [58, 32] ++ (asc "ArrowClient/" ++ version)) ++
        [13, 10] ++ [13, 10]) he).trans ?_
      simp only [List.append_assoc]
      rfl
  · intro hs
    rw [if_neg hs]

/-- C88: the text of a request of the RTSP client, with the full URL. -/
theorem C88_rtsp (hL : AsciiLower L) (version method : Bytes) (ig : Bool) (p : Parts) (hp : Wf p)
    (hv : Utf8.valid (render p) = true) :
    (L p.scheme = asc "rtsp" → ∃ c, newRtsp L version method (render p) ig = .ok c ∧ c.host = p.host ∧
      Spec.Args.PortIs 554 p.port c.port ∧ c.ignore = ig ∧
      c.inner.encode = method ++ asc " " ++ render p ++ asc " RTSP/1.0" ++ [13, 10] ++ asc "CSeq: 1" ++ [13, 10] ++
        asc "User-Agent: ArrowClient/" ++ version ++ [13, 10] ++ [13, 10]) ∧
    (L p.scheme ≠ asc "rtsp" → newRtsp L version method (render p) ig = .err) := by
  have r := Url.reads_urlOf hp hv
  have hLL : L (asc "User-Agent") ≠ L (asc "CSeq") := by
    rw [hL _ (by decide), hL _ (by decide)]
    decide
  unfold newRtsp
  rw [Url.parse_render hp hv]
  dsimp only
  rw [r.scheme, r.host]
  dsimp only
  constructor
  · intro hs
    rw [if_pos hs]
    refine ⟨_, rfl, rfl, ?_, rfl, ?_⟩
    · have := r.port
      unfold Spec.Args.PortIs
      cases hport : p.port with
      | none =>
        rw [hport] at this
        dsimp only at this
        rw [this]
        rfl
      | some t =>
        rw [hport] at this
        dsimp only at this
        obtain ⟨n, h1, h2⟩ := this
        rw [h1]
        exact h2
    · rw [encode_two hLL, r.text]
      have : asc "CSeq: 1" = asc "CSeq" ++ [58, 32] ++ asc "1" := by decide
      rw [this]
      simp only [List.append_assoc]
      rfl
  · intro hs
    rw [if_neg hs]

/-- C88: an OPTIONS request; the body of the answer is ignored. -/
theorem C88_options (hL : AsciiLower L) (version : Bytes) (p : Parts) (hp : Wf p)
    (hv : Utf8.valid (render p) = true) (hs : L p.scheme = asc "rtsp") :
    ∃ c, options L version (render p) = .ok c ∧ c.host = p.host ∧ Spec.Args.PortIs 554 p.port c.port ∧ c.ignore = true ∧
      c.inner.encode = asc "OPTIONS" ++ asc " " ++ render p ++ asc " RTSP/1.0" ++ [13, 10] ++ asc "CSeq: 1" ++ [13, 10] ++
        asc "User-Agent: ArrowClient/" ++ version ++ [13, 10] ++ [13, 10] :=
  (C88_rtsp hL version (asc "OPTIONS") true p hp hv).1 hs

/-- C88: a GET request; the body of the answer is ignored. -/
theorem C88_get (hL : AsciiLower L) (version : Bytes) (p : Parts) (hp : Wf p)
    (hv : Utf8.valid (render p) = true) (hs : L p.scheme = asc "http") :
    ∃ c, getHeader L version (render p) = .ok c ∧ c.host = p.host ∧ Spec.Args.PortIs 80 p.port c.port ∧ c.ignore = true ∧
      c.inner.encode = asc "GET" ++ asc " " ++ resource p ++ asc " HTTP/1.0" ++ [13, 10] ++ asc "Host: " ++ p.host ++ [13, 10] ++
        asc "User-Agent: ArrowClient/" ++ version ++ [13, 10] ++ [13, 10] :=
  (C88_http hL version (asc "GET") true p hp hv).1 hs

/-- C88: a DESCRIBE request. -/
theorem C88_describe (hL : AsciiLower L) (version : Bytes) (p : Parts) (hp : Wf p)
    (hv : Utf8.valid (render p) = true) (hs : L p.scheme = asc "rtsp") :
    ∃ c, describe L version (render p) = .ok c ∧ c.host = p.host ∧ Spec.Args.PortIs 554 p.port c.port ∧ c.ignore = false ∧
      c.inner.encode = asc "DESCRIBE " ++ render p ++ asc " RTSP/1.0" ++ [13, 10] ++ asc "CSeq: 1" ++ [13, 10] ++
        asc "User-Agent: ArrowClient/" ++ version ++ [13, 10] ++ asc "Accept: application/sdp" ++ [13, 10] ++ [13, 10] := by
  have r := Url.reads_urlOf hp hv
  have h1 : L (asc "User-Agent") ≠ L (asc "CSeq") := by
    rw [hL _ (by decide), hL _ (by decide)]
    decide
  have h2 : L (asc "Accept") ≠ L (asc "CSeq") := by
    rw [hL _ (by decide), hL _ (by decide)]
    decide
  have h3 : L (asc "Accept") ≠ L (asc "User-Agent") := by
    rw [hL _ (by decide), hL _ (by decide)]
    decide
  unfold describe newRtsp
  rw [Url.parse_render hp hv]
  dsimp only
  rw [r.scheme, r.host]
  dsimp only
  rw [if_pos hs]
  refine ⟨_, rfl, rfl, ?_, rfl, ?_⟩
  · have := r.port
    unfold Spec.Args.PortIs
    cases hport : p.port with
    | none =>
      rw [hport] at this
      dsimp only at this
      show (Url.urlOf p).port.getD 554 = 554
      rw [this]
      rfl
    | some t =>
      rw [hport] at this
      dsimp only at this
      obtain ⟨n, h1, h2⟩ := this
      show IsDecimal t ((Url.urlOf p).port.getD 554).toNat
      rw [h1]
      exact h2
  · show Request.encode (Request.set L (Request.set L (Request.set L _ _ _) _ _) _ _) = _
    rw [encode_three h1 h2 h3, r.text]
    have e1 : asc "CSeq: 1" = asc "CSeq" ++ [58, 32] ++ asc "1" := by decide
    have e2 : asc "Accept: application/sdp" = asc "Accept" ++ [58, 32] ++ asc "application/sdp" := by decide
    have e3 : asc "DESCRIBE " = asc "DESCRIBE" ++ [32] := by decide
    rw [e1, e2, e3]
    simp only [List.append_assoc]
    rfl

/-- C88: requests to `get_header`, `options` and `describe` never panic, and what is not a URL is refused. -/
theorem C88_total (version url : Bytes) (hv : Utf8.valid url = true) :
    getHeader L version url ≠ .panic ∧ options L version url ≠ .panic ∧ describe L version url ≠ .panic ∧
    ((¬∃ p, Wf p ∧ render p = url) →
      getHeader L version url = .err ∧ options L version url = .err ∧ describe L version url = .err) := by
  rcases Url.parse_cases hv with h | ⟨p, hp, rfl⟩
  · have e1 : ∀ m ig, newHttp L version m url ig = .err := by
      intro m ig; unfold newHttp; rw [h]
    have e2 : ∀ m ig, newRtsp L version m url ig = .err := by
      intro m ig; unfold newRtsp; rw [h]
    unfold getHeader options describe
    rw [e1, e2, e2]
    exact ⟨nofun, nofun, nofun, fun _ => ⟨rfl, rfl, rfl⟩⟩
  · have r := Url.reads_urlOf hp hv
    have e1 : ∀ m ig, newHttp L version m (render p) ig ≠ .panic := by
      intro m ig; unfold newHttp
      rw [Url.parse_render hp hv]
      dsimp only
      rw [r.scheme, r.host, r.path, r.query]
      dsimp only
      split <;> nofun
    have e2 : ∀ m ig, newRtsp L version m (render p) ig ≠ .panic := by
      intro m ig; unfold newRtsp
      rw [Url.parse_render hp hv]
      dsimp only
      rw [r.scheme, r.host]
      dsimp only
      split <;> nofun
    refine ⟨e1 _ _, e2 _ _, ?_, fun h => absurd ⟨p, hp, rfl⟩ h⟩
    unfold describe
    have := e2 (asc "DESCRIBE") false
    split
    · nofun
    · nofun
    · contradiction

/-- C88: `set_header_field` of the HTTP client does not replace a field: a request can have two `Host` fields. -/
theorem C88_set_adds (hL : AsciiLower L) (version host : Bytes) (p : Parts) (hp : Wf p)
    (hv : Utf8.valid (render p) = true) (hs : L p.scheme = asc "http") :
    ∃ c, getHeader L version (render p) = .ok c ∧
      (c.setHttp L (asc "Host") host).inner.encode = asc "GET " ++ resource p ++ asc " HTTP/1.0" ++ [13, 10] ++
        asc "Host: " ++ p.host ++ [13, 10] ++ asc "User-Agent: ArrowClient/" ++ version ++ [13, 10] ++
        asc "Host: " ++ host ++ [13, 10] ++ [13, 10] := by
  have r := Url.reads_urlOf hp hv
  have hLL : L (asc "User-Agent") ≠ L (asc "Host") := by
    rw [hL _ (by decide), hL _ (by decide)]
    decide
  unfold getHeader newHttp
  rw [Url.parse_render hp hv]
  dsimp only
  rw [r.scheme, r.host, r.path, r.query]
  dsimp only
  rw [if_pos hs]
  refine ⟨_, rfl, ?_⟩
  have he : (match p.tail.bind (·.2.1) with
      | some q => (match p.tail with | some (x, _, _) => x | none => [47]) ++ [63] ++ q
      | none => (match p.tail with | some (x, _, _) => x | none => [47])) = resource p := by
    unfold resource
    rcases p.tail with _ | ⟨x, q, f⟩
    · rfl
    · cases q <;> simp [opt]
  show Request.encode (Request.add L (Request.set L (Request.set L _ _ _) _ _) _ _) = _
  rw [encode_two_add hLL]
  refine (congrArg (fun z => asc "GET" ++ [32] ++ z ++ ([32] ++ asc "HTTP" ++ [47] ++ asc "1.0") ++ [13, 10] ++
    (asc "Host" ++ [58, 32]) ++ p.host ++ [13, 10] ++ (asc "User-Agent" ++ [58, 32] ++ (asc "ArrowClient/" ++ version)) ++
    [13, 10] ++ (asc "Host" ++ [58, 32]) ++ host ++ [13, 10] ++ [13, 10]) he).trans ?_
  simp only [List.append_assoc]
  rfl

/-! ## Examples -/

/-- A text in lower case. -/
def demoL (s : Bytes) : Bytes := s.map lower

example : AsciiLower demoL := fun _ _ => rfl

theorem oneLine_of {t : Bytes} (h : first t [13, 10] = none) : OneLine t :=
  oneLine_iff.mpr ((first_none (by decide)).mp h)

/-- The lines of a header: a status line, a length, a field of two lines. -/
def demoLines : List Bytes := [asc "Content-Length: 5", asc "X: a", asc "  b"]

def demoHead : Bytes := text (asc "HTTP/1.1 200 OK" :: demoLines) ++ [13, 10]

def demo : Head := ⟨asc "HTTP", asc "1.1", 200, asc "OK", [(asc "Content-Length", some (asc "5")), (asc "X", some (asc "a  b"))]⟩

theorem demo_is : IsHead demoHead demo := by
  refine ⟨asc "HTTP/1.1 200 OK", demoLines, [[asc "Content-Length: 5"], [asc "X: a", asc "  b"]], rfl,
    ⟨oneLine_of (by decide +kernel), by decide +kernel, by decide +kernel⟩, ?_, by decide, ?_, ⟨rfl, ?_, ?_⟩, rfl, ?_⟩
  · intro t ht
    simp only [demoLines, List.mem_cons, List.not_mem_nil, or_false] at ht
    rcases ht with rfl | rfl | rfl <;> exact ⟨⟨oneLine_of (by decide +kernel), by decide +kernel, by decide +kernel⟩, by decide⟩
  · exact ⟨asc " 200 OK", asc "200", asc " OK", ⟨by decide +kernel, asc "1.1 200 OK", by decide +kernel,
      Reader.readWord_iff.mp (by decide +kernel)⟩, Reader.readWord_iff.mp (by decide +kernel),
      ((parseUInt_iff 65535 _ _).mp (by decide +kernel)).1, by decide +kernel, trim_iff.mpr (by decide +kernel)⟩
  · intro g hg
    simp only [List.mem_cons, List.not_mem_nil, or_false] at hg
    rcases hg with rfl | rfl
    · exact ⟨_, [], rfl, fun c hc => absurd hc List.not_mem_nil⟩
    · refine ⟨_, [asc "  b"], rfl, ?_⟩
      intro c hc
      rw [List.mem_singleton] at hc
      subst hc
      exact Reader.isWhite_iff.mp (by decide +kernel)
  · intro g hg a ha
    simp only [List.tail_cons, List.mem_cons, List.not_mem_nil, or_false] at hg
    subst hg
    injection ha with ha
    subst ha
    exact fun hw => absurd (Reader.isWhite_iff.mpr hw) (by decide +kernel)
  · intro i g f hg hf
    match i with
    | 0 =>
      injection hg with hg
      injection hf with hf
      subst hg hf
      exact .inl ⟨asc "Content-Length", asc " 5", asc "5", by decide +kernel, by decide +kernel,
        trim_iff.mpr (by decide +kernel), rfl, trim_iff.mpr (by decide +kernel)⟩
    | 1 =>
      injection hg with hg
      injection hf with hf
      subst hg hf
      exact .inl ⟨asc "X", asc " a  b", asc "a  b", by decide +kernel, by decide +kernel,
        trim_iff.mpr (by decide +kernel), rfl, trim_iff.mpr (by decide +kernel)⟩
    | i + 2 => cases hg

theorem demo_accepted : Accepted .http demo := ⟨rfl, .inr rfl⟩

theorem demo_length : LengthIs demoL .http demo 5 := by
  refine ⟨fun _ => ⟨?_, by decide +kernel⟩, asc "5", by decide +kernel, ((parseUInt_iff 9 _ _).mp (by decide +kernel)).1⟩
  unfold Bodiless
  decide

/-- The example of C61 and C63: the body in two packets, and something behind it. -/
example : (∃ r, response demoL .http false [demoHead ++ asc "he", asc "llo, world"] = .ok r ∧
      Shows demoL r demo (asc "hello")) ∧
    (∃ r, response demoL .http false [demoHead ++ asc "he"] = .ok r ∧ Shows demoL r demo (asc "he")) ∧
    received demoL .http false [demoHead ++ asc "he"] = none :=
  ⟨C61_length (L := demoL) false _ demoHead (asc "hello, world") demo 5 (by simp [asc]) demo_is demo_accepted demo_length
      (show 5 ≤ 9223372036854775807 by omega),
    C61_truncated (L := demoL) _ demoHead (asc "he") demo 5 (by simp) demo_is demo_accepted demo_length
      (show 5 ≤ 9223372036854775807 by omega) (by decide),
    (C61_complete (L := demoL) false _ demoHead (asc "he") demo 5 (by simp) demo_is demo_accepted demo_length
      (show 5 ≤ 9223372036854775807 by omega)).1 (by decide)⟩

/-- A header that announces chunks. -/
def chunkHead : Bytes := text [asc "HTTP/1.0 200 OK", asc "Transfer-Encoding: Chunked"] ++ [13, 10]

def chunkDemo : Head := ⟨asc "HTTP", asc "1.0", 200, asc "OK", [(asc "Transfer-Encoding", some (asc "Chunked"))]⟩

theorem chunk_is : IsHead chunkHead chunkDemo := by
  refine ⟨asc "HTTP/1.0 200 OK", [asc "Transfer-Encoding: Chunked"], [[asc "Transfer-Encoding: Chunked"]], rfl,
    ⟨oneLine_of (by decide +kernel), by decide +kernel, by decide +kernel⟩, ?_, by decide, ?_, ⟨rfl, ?_, ?_⟩, rfl, ?_⟩
  · intro t ht
    simp only [List.mem_cons, List.not_mem_nil, or_false] at ht
    subst ht
    exact ⟨⟨oneLine_of (by decide +kernel), by decide +kernel, by decide +kernel⟩, by decide⟩
  · exact ⟨asc " 200 OK", asc "200", asc " OK", ⟨by decide +kernel, asc "1.0 200 OK", by decide +kernel,
      Reader.readWord_iff.mp (by decide +kernel)⟩, Reader.readWord_iff.mp (by decide +kernel),
      ((parseUInt_iff 65535 _ _).mp (by decide +kernel)).1, by decide +kernel, trim_iff.mpr (by decide +kernel)⟩
  · intro g hg
    rw [List.mem_singleton] at hg
    subst hg
    exact ⟨_, [], rfl, fun c hc => absurd hc List.not_mem_nil⟩
  · intro g hg
    cases hg
  · intro i g f hg hf
    match i with
    | 0 =>
      injection hg with hg
      injection hf with hf
      subst hg hf
      exact .inl ⟨asc "Transfer-Encoding", asc " Chunked", asc "Chunked", by decide +kernel, by decide +kernel,
        trim_iff.mpr (by decide +kernel), rfl, trim_iff.mpr (by decide +kernel)⟩
    | i + 1 => cases hg

theorem chunk_chunked : Chunked demoL chunkDemo := by
  refine ⟨?_, some (asc "Chunked"), by decide, by decide⟩
  unfold Bodiless
  decide

/-- The example of C62: two chunks, one with an extension, and a trailer. -/
example : ∃ r, response demoL .http false
      [chunkHead ++ encodeChunks [(asc "3;x", asc "hel"), (asc "2", asc "lo")] (asc "00") [asc "T: 1"]] = .ok r ∧
      Shows demoL r chunkDemo (asc "hello") := by
  refine C62_chunked (L := demoL) false _ chunkHead chunkDemo [(asc "3;x", asc "hel"), (asc "2", asc "lo")] (asc "00")
    [asc "T: 1"] [] (by simp) chunk_is ⟨rfl, .inl rfl⟩ chunk_chunked ?_ ?_ ?_
  · intro c hc
    simp only [List.mem_cons, List.not_mem_nil, or_false] at hc
    rcases hc with rfl | rfl
    · exact ⟨⟨oneLine_of (by decide +kernel), by decide +kernel, by decide +kernel⟩, size_iff.mp (by decide +kernel), by decide⟩
    · exact ⟨⟨oneLine_of (by decide +kernel), by decide +kernel, by decide +kernel⟩, size_iff.mp (by decide +kernel), by decide⟩
  · exact ⟨⟨oneLine_of (by decide +kernel), by decide +kernel, by decide +kernel⟩, size_iff.mp (by decide +kernel)⟩
  · intro t ht
    rw [List.mem_singleton] at ht
    subst ht
    exact ⟨⟨oneLine_of (by decide +kernel), by decide +kernel, by decide +kernel⟩, by decide⟩

/-- The example of C64. -/
example : let code := [Op.add (asc "Host") (some (asc "a")), .add (asc "X") none, .set (asc "HOST") (some (asc "b")),
      .add (asc "host") (some (asc "c"))].foldl (Op.run demoL) Fields.new
    code.fields.map (fun f => (f.name, f.value)) =
      [(asc "X", none), (asc "HOST", some (asc "b")), (asc "host", some (asc "c"))] ∧
    (code.get demoL (asc "hOSt")).map (·.value) = [some (asc "b"), some (asc "c")] := by
  decide +kernel

/-- A result is a panic. -/
def isPanic : Wire.Res Response → Bool
  | .panic => true
  | _ => false

/-- The example of C87: the server announces 2^63 bytes. -/
example : isPanic (response demoL .rtsp false
    [asc "RTSP/1.0 200 OK" ++ [13, 10] ++ asc "content-length: 9223372036854775808" ++ [13, 10, 13, 10]]) = true := by
  decide +kernel

/-- The example of C88. -/
example : (∃ c, getHeader demoL (asc "1") (asc "HTTP://cam:81/a?b#c") = .ok c ∧ c.host = asc "cam" ∧ c.port = 81 ∧
      c.inner.encode = asc "GET /a?b HTTP/1.0" ++ [13, 10] ++ asc "Host: cam" ++ [13, 10] ++
        asc "User-Agent: ArrowClient/1" ++ [13, 10, 13, 10]) ∧
    (∃ c, options demoL (asc "1") (asc "rtsp://u:p@cam/a#b") = .ok c ∧ c.port = 554 ∧
      c.inner.encode = asc "OPTIONS rtsp://u:p@cam/a#b RTSP/1.0" ++ [13, 10] ++ asc "CSeq: 1" ++ [13, 10] ++
        asc "User-Agent: ArrowClient/1" ++ [13, 10, 13, 10]) :=
  ⟨⟨_, rfl, by decide +kernel, by decide +kernel, by decide +kernel⟩, ⟨_, rfl, by decide +kernel, by decide +kernel⟩⟩

end Verif.Props.Http
