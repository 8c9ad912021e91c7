import Verif.Lemmas.HttpResult
import Verif.Lemmas.HttpLines
import Verif.Lemmas.Url
import Verif.Spec.Args
/-!
# More lemmas about responses and requests
-/
namespace Verif.Http
open Verif Verif.Spec.Http Verif.Spec.Text

variable {L : Bytes → Bytes} {P : Proto}

/-! ## While the connection is open -/

/-- What a decoder has returned. -/
def returned : Dec Codec Response → Option (Wire.Res Response)
  | .ok (some r) _ _ => some (.ok r)
  | .ok none _ _ => none
  | .err => some .err
  | .panic => some .panic

theorem receive_whole : ∀ (pieces : List Bytes) (c : Codec), KInv c → c.decode L P [] = .ok none c [] →
    c.receive L P [] pieces = returned (c.decode L P pieces.flatten) := by
  intro pieces
  induction pieces with
  | nil =>
    intro c hi hq
    rw [List.flatten_nil, hq]
    rfl
  | cons p ps ih =>
    intro c hi hq
    rw [List.flatten_cons]
    unfold Codec.receive
    rw [List.nil_append]
    cases hd : c.decode L P p with
    | err => rw [codec_streams.err hi hd]; rfl
    | panic => rw [codec_streams.panic hi hd]; rfl
    | ok item c' r =>
      cases item with
      | some a => rw [codec_streams.item hi hd]; rfl
      | none =>
        obtain ⟨h1, h2, h3⟩ := codec_streams.more hi hd
        dsimp only
        rw [h3, h1]
        refine ih c' h2 ?_
        have := h3 []
        rw [List.append_nil, hd, h1] at this
        exact this.symm

theorem received_whole (ig : Bool) (pieces : List Bytes) :
    received L P ig pieces = returned ((Codec.new ig).decode L P pieces.flatten) := by
  refine receive_whole pieces _ (codec_new_inv ig) ?_
  rw [decode_none rfl rfl, header_nil (codec_new_inv ig).hdec]

/-- The answer of a decoder for the body, put together with the header. -/
def answer (P : Proto) (x : Header) : Dec Body Bytes → Option (Wire.Res Response)
  | .ok (some body) _ _ =>
    match Response.new P x body with
    | some r => some (.ok r)
    | none => some .err
  | .ok none _ _ => none
  | .err => some .err
  | .panic => some .panic

theorem returned_head {ig : Bool} {x data : Bytes} {hd : Header} {d : HDec} {b : Body}
    (e : (HDec.new 4096 1024).decode L x = .ok (some hd) d data) (hb : bodyFor L P 4096 ig hd = .ok b) :
    returned ((Codec.new ig).decode L P x) = answer P hd (b.decode data) := by
  rw [decode_none rfl rfl, show (Codec.new ig).hdec.decode L x = _ from e]
  dsimp only
  rw [show bodyFor L P (Codec.new ig).maxLine (Codec.new ig).ignore hd = bodyFor L P 4096 ig hd from rfl, hb]
  dsimp only
  rw [finish_eq rfl rfl]
  cases hr : b.decode data with
  | err => rfl
  | panic => rfl
  | ok item b' r =>
    cases item with
    | none => rfl
    | some a =>
      dsimp only [answer]
      cases hn : Response.new P hd a <;> rfl

theorem body_length {x : Header} {h : Head} (hx : HeadShows L x h) {ig : Bool} {n : Nat} (hl : LengthIs L P h n)
    (hn : n ≤ limit ig) : bodyFor L P 4096 ig x = .ok (.fixed (some []) n ig) := by
  obtain ⟨hp, v, h1, h2⟩ := hl
  obtain ⟨f, hf, hfv⟩ := last_some hx h1
  have hb := lengthBody_eq (ig := ig) hfv h2 hn
  unfold bodyFor
  cases P with
  | http =>
    obtain ⟨hp1, hp2⟩ := hp rfl
    dsimp only
    rw [if_neg (by rw [bodiless_iff hx]; exact hp1), last_none hx hp2]
    dsimp only
    rw [hf]
    exact hb
  | rtsp =>
    dsimp only
    rw [hf]
    exact hb

theorem body_chunked {x : Header} {h : Head} (hx : HeadShows L x h) {ig : Bool} {v : Option Bytes} (h1 : ¬Bodiless h)
    (h2 : h.last L (asc "transfer-encoding") = some v) (h3 : L (v.getD []) = asc "chunked") :
    bodyFor L .http 4096 ig x = .ok (Body.newChunked 4096 ig) := by
  obtain ⟨f, hf, hfv⟩ := last_some hx h2
  unfold bodyFor
  dsimp only
  rw [if_neg (by rw [bodiless_iff hx]; exact h1), hf]
  dsimp only
  rw [hfv, if_pos h3]

theorem body_unknown {x : Header} {h : Head} (hx : HeadShows L x h) {ig : Bool} (h1 : ¬Bodiless h)
    (h2 : h.last L (asc "transfer-encoding") = none) (h3 : h.last L (asc "content-length") = none) :
    bodyFor L .http 4096 ig x = .ok (.simple [] ig) := by
  unfold bodyFor
  dsimp only
  rw [if_neg (by rw [bodiless_iff hx]; exact h1), last_none hx h2]
  dsimp only
  rw [last_none hx h3]

theorem shows_of {x : Header} {h : Head} (hx : HeadShows L x h) (body : Bytes) : Shows L ⟨x, body⟩ h body :=
  ⟨hx.protocol, hx.version, hx.status, hx.reason, hx.fields, rfl⟩

/-! ## Streams that are cut off -/

theorem cut_of_line {t : Bytes} (h : IsLine t) {p : Nat} (hp : p < t.length + 2) (r : Bytes) : Cut ((t ++ [13, 10] ++ r).take p) := by
  have e : (t ++ [13, 10] ++ r).take p = (t ++ [13, 10]).take p := by
    rw [List.take_append_of_le_length (by simp; omega)]
  rw [e]
  refine ⟨?_, ?_⟩
  · rw [oneLine_iff]
    intro j ho
    have hb := occ_bound (by decide) ho
    simp only [List.length_take, List.length_append, List.length_cons, List.length_nil] at hb
    refine oneLine_sep h.one j (by omega) ?_
    have := occ_append (by decide) ho ((t ++ [13, 10]).drop p)
    rwa [List.take_append_drop] at this
  · have := h.fits
    simp only [List.length_take, List.length_append, List.length_cons, List.length_nil]
    omega

theorem cut_take {s : Bytes} (h : Cut s) (p : Nat) : Cut (s.take p) := by
  refine ⟨fun hi => h.1 (hi.trans (List.take_prefix p s).isInfix), ?_⟩
  have := h.2
  rw [List.length_take]
  omega

theorem first_take {s t r : Bytes} (h : FirstLine s t r) (p : Nat) :
    Cut (s.take p) ∨ ∃ q, p = t.length + 2 + q ∧ FirstLine (s.take p) t (r.take q) := by
  obtain ⟨rfl, ht⟩ := h
  by_cases hp : p < t.length + 2
  · exact .inl (cut_of_line ht hp r)
  · refine .inr ⟨p - (t.length + 2), by omega, ?_, ht⟩
    rw [List.take_append, List.take_of_length_le (by simp; omega)]
    simp

theorem trailer_take {s : Bytes} (h : Trailer s) : ∀ p, Trailer (s.take p) := by
  induction h with
  | cut h => exact fun p => .cut (cut_take h p)
  | last h =>
    intro p
    rcases first_take h p with hc | ⟨q, -, hf⟩
    · exact .cut hc
    · exact .last hf
  | line h hne _ ih =>
    intro p
    rcases first_take h p with hc | ⟨q, -, hf⟩
    · exact .cut hc
    · exact .line hf hne (ih q)

theorem chunks_take {s body : Bytes} (h : Chunks s body) : ∀ p, ∃ b, Chunks (s.take p) b ∧ b <+: body := by
  induction h with
  | cut h => exact fun p => ⟨[], .cut (cut_take h p), List.nil_prefix⟩
  | last h hs ht =>
    intro p
    rcases first_take h p with hc | ⟨q, -, hf⟩
    · exact ⟨[], .cut hc, List.nil_prefix⟩
    · exact ⟨[], .last hf hs (trailer_take ht q), List.nil_prefix⟩
  | short h hs hn =>
    intro p
    rcases first_take h p with hc | ⟨q, -, hf⟩
    · exact ⟨[], .cut hc, List.nil_prefix⟩
    · exact ⟨_, .short hf hs (by rw [List.length_take]; omega), List.take_prefix _ _⟩
  | «open» h hs h0 hn hc =>
    rename_i s t r n
    intro p
    rcases first_take h p with hc' | ⟨q, -, hf⟩
    · exact ⟨[], .cut hc', List.nil_prefix⟩
    · by_cases hq : q < n
      · exact ⟨_, .short hf hs (by rw [List.length_take]; omega),
          List.prefix_take_iff.mpr ⟨List.take_prefix _ _, by rw [List.length_take]; omega⟩⟩
      · refine ⟨_, .open hf hs h0 (by rw [List.length_take]; omega) ?_, ?_⟩
        · rw [List.drop_take]; exact cut_take hc _
        · rw [List.take_take, Nat.min_eq_left (by omega)]; exact List.prefix_rfl
  | chunk h hs h0 hn hg _ ih =>
    rename_i s t r g q body n _
    intro p
    rcases first_take h p with hc' | ⟨k, -, hf⟩
    · exact ⟨[], .cut hc', List.nil_prefix⟩
    · by_cases hq : k < n
      · exact ⟨_, .short hf hs (by rw [List.length_take]; omega),
          (List.prefix_take_iff.mpr ⟨List.take_prefix _ _, by rw [List.length_take]; omega⟩).trans
            (List.prefix_append _ _)⟩
      · have e1 : (r.take k).take n = r.take n := by rw [List.take_take, Nat.min_eq_left (by omega)]
        have e2 : (r.take k).drop n = (r.drop n).take (k - n) := List.drop_take
        rcases first_take hg (k - n) with hc' | ⟨m, -, hf'⟩
        · refine ⟨_, .open hf hs h0 (by rw [List.length_take]; omega) (by rw [e2]; exact hc'), ?_⟩
          rw [e1]
          exact List.prefix_append _ _
        · obtain ⟨b, hb1, hb2⟩ := ih m
          refine ⟨_, .chunk hf hs h0 (by rw [List.length_take]; omega) (by rw [e2]; exact hf') hb1, ?_⟩
          rw [e1]
          exact (List.prefix_append_right_inj _).mpr hb2

/-! ## Chunks that have arrived -/

/-- The body, if it is complete. -/
def now (st : CState) (acc : Bytes) (ex : Nat) (ig : Bool) (x : Bytes) : Option Bytes :=
  match decodeChunked x.length st fresh acc ex ig x with
  | .ok (some b) _ _ => some b
  | _ => none

theorem now_nil (st : CState) (acc : Bytes) (ex : Nat) (ig : Bool) : now st acc ex ig [] = none := by
  unfold now
  rw [chunked_nil]

theorem now_step {st st' : CState} {acc acc' x r : Bytes} {ex ex' : Nat} {ig : Bool} (hx : x ≠ [])
    (hi : CInv st fresh ex)
    (e : decodeChunk st fresh acc ex ig x = .ok none (.chunked st' fresh acc' ex' ig) r) :
    now st acc ex ig x = now st' acc' ex' ig r := by
  obtain ⟨st1, l1, body1, ex1, h1, h2, h3, -⟩ := chunk_more hi hx e
  injection h1 with e1 e2 e3 e4 e5
  subst e1 e2 e3 e4
  unfold now
  cases hn : x.length with
  | zero => exact absurd (List.length_eq_zero_iff.mp hn) hx
  | succ n =>
    rw [chunked_succ _ _ _ _ _ _ hx, e]
    dsimp only
    rw [chunked_fuel n r.length _ _ _ _ _ _ h2 (by omega) (Nat.le_refl _)]

theorem now_stop {st st' : CState} {acc acc' x r : Bytes} {ex ex' : Nat} {ig : Bool} {l : Line} (hx : x ≠ [])
    (hr : r = []) (e : decodeChunk st fresh acc ex ig x = .ok none (.chunked st' l acc' ex' ig) r) :
    now st acc ex ig x = none := by
  subst hr
  unfold now
  cases hn : x.length with
  | zero => exact absurd (List.length_eq_zero_iff.mp hn) hx
  | succ n =>
    rw [chunked_succ _ _ _ _ _ _ hx, e]
    dsimp only
    rw [chunked_nil]

theorem trailer_done {x : Bytes} (h : TrailerDone x) (acc : Bytes) (ex : Nat) (ig : Bool) :
    ∀ n, x.length < n → ∃ b r, decodeTrailer n fresh acc ex ig x = .ok (some acc) b r := by
  induction h with
  | last h =>
    intro n hn
    cases n with
    | zero => omega
    | succ n =>
      rw [trailer_succ, line_first h]
      exact ⟨_, _, rfl⟩
  | line h ht _ ih =>
    intro n hn
    cases n with
    | zero => omega
    | succ n =>
      rw [trailer_succ, line_first h]
      dsimp only
      rw [if_neg ht]
      have := congrArg List.length h.1
      simp only [List.length_append, List.length_cons, List.length_nil] at this
      exact ih n (by omega)

theorem trailer_or {x : Bytes} (h : Trailer x) (acc : Bytes) (ex : Nat) (ig : Bool) :
    ∀ n, x.length < n → TrailerDone x ∨ ∃ l, decodeTrailer n fresh acc ex ig x = .ok none (.chunked .trailer l acc ex ig) [] := by
  induction h with
  | cut h =>
    intro n hn
    cases n with
    | zero => omega
    | succ n =>
      rw [trailer_succ, line_cut h]
      exact .inr ⟨_, rfl⟩
  | last h => exact fun n hn => .inl (.last h)
  | line h ht _ ih =>
    intro n hn
    cases n with
    | zero => omega
    | succ n =>
      rw [trailer_succ, line_first h]
      dsimp only
      rw [if_neg ht]
      have := congrArg List.length h.1
      simp only [List.length_append, List.length_cons, List.length_nil] at this
      rcases ih n (by omega) with h' | h'
      · exact .inl (.line h ht h')
      · exact .inr h'

theorem trailerDone_ne {s : Bytes} (h : TrailerDone s) : s ≠ [] := by
  cases h with
  | last h => exact firstLine_ne h
  | line h _ _ => exact firstLine_ne h

theorem now_trailer {x : Bytes} (h : TrailerDone x) (acc : Bytes) (ex : Nat) (ig : Bool) :
    now .trailer acc ex ig x = some acc := by
  have hx := trailerDone_ne h
  unfold now
  cases hn : x.length with
  | zero => exact absurd (List.length_eq_zero_iff.mp hn) hx
  | succ n =>
    rw [chunked_succ _ _ _ _ _ _ hx]
    obtain ⟨b, r, hb⟩ := trailer_done h acc ex ig (x.length + 1) (Nat.lt_succ_self _)
    rw [show decodeChunk .trailer fresh acc ex ig x = decodeTrailer (x.length + 1) fresh acc ex ig x from rfl, hb]

theorem now_trailer_or {x : Bytes} (h : Trailer x) (acc : Bytes) (ex : Nat) (ig : Bool) :
    TrailerDone x ∨ now .trailer acc ex ig x = none := by
  by_cases hx : x = []
  · subst hx
    exact .inr (now_nil _ _ _ _)
  · rcases trailer_or h acc ex ig (x.length + 1) (Nat.lt_succ_self _) with h' | ⟨l, h'⟩
    · exact .inl h'
    · exact .inr (now_stop hx rfl (show decodeChunk .trailer fresh acc ex ig x = _ from h'))

theorem now_header_cut {x : Bytes} (h : Cut x) (acc : Bytes) (ex : Nat) (ig : Bool) : now .header acc ex ig x = none := by
  by_cases hx : x = []
  · subst hx; exact now_nil _ _ _ _
  · refine now_stop hx (st' := .header) (l := { fresh with buffer := x }) (ex' := ex) (acc' := acc) rfl ?_
    unfold decodeChunk
    dsimp only
    rw [line_cut h]

theorem now_header {x t r : Bytes} {n : Nat} (h : FirstLine x t r) (hs : SizeIs t n) (acc : Bytes) (ex : Nat) (ig : Bool) :
    now .header acc ex ig x = now (if n > 0 then .body else .trailer) acc n ig r := by
  refine now_step (firstLine_ne h) ⟨fresh_inv, nofun⟩ ?_
  unfold decodeChunk
  dsimp only
  rw [line_first h]
  dsimp only
  rw [size_iff.mpr hs]

theorem now_body_short {x : Bytes} {n : Nat} (hn : x.length < n) (acc : Bytes) (ig : Bool) :
    now .body acc n ig x = none := by
  by_cases hx : x = []
  · subst hx
    exact now_nil _ _ _ _
  · exact now_stop hx rfl (chunkbody_part _ _ _ _ _ hn)

theorem now_body {x : Bytes} {n : Nat} (h0 : 0 < n) (hn : n ≤ x.length) (acc : Bytes) (ig : Bool) :
    now .body acc n ig x = now .delimiter (if ig then acc else acc ++ x.take n) 0 ig (x.drop n) := by
  refine now_step ?_ ⟨fresh_inv, fun _ => h0⟩ (chunkbody_full _ _ _ _ _ hn)
  rintro rfl
  rw [List.length_nil] at hn
  omega

theorem now_delim_cut {x : Bytes} (h : Cut x) (acc : Bytes) (ex : Nat) (ig : Bool) : now .delimiter acc ex ig x = none := by
  by_cases hx : x = []
  · subst hx; exact now_nil _ _ _ _
  · refine now_stop hx (st' := .delimiter) (l := { fresh with buffer := x }) (ex' := ex) (acc' := acc) rfl ?_
    unfold decodeChunk
    dsimp only
    rw [line_cut h]

theorem now_delim {x t r : Bytes} (h : FirstLine x t r) (acc : Bytes) (ex : Nat) (ig : Bool) :
    now .delimiter acc ex ig x = now .header acc ex ig r := by
  refine now_step (firstLine_ne h) ⟨fresh_inv, nofun⟩ ?_
  unfold decodeChunk
  dsimp only
  rw [line_first h]

theorem now_done {x body : Bytes} (h : ChunksDone x body) : ∀ (acc : Bytes) (ex : Nat) (ig : Bool),
    now .header acc ex ig x = some (if ig then acc else acc ++ body) := by
  induction h with
  | last h hs ht =>
    intro acc ex ig
    rw [now_header h hs, if_neg (by omega), now_trailer ht, List.append_nil]
    cases ig <;> rfl
  | chunk h hs h0 hn hg _ ih =>
    intro acc ex ig
    rw [now_header h hs, if_pos h0, now_body h0 hn, now_delim hg, ih]
    cases ig with
    | true => rfl
    | false => simp

theorem now_or {x body : Bytes} (h : Chunks x body) : ∀ (acc : Bytes) (ex : Nat) (ig : Bool),
    ChunksDone x body ∨ now .header acc ex ig x = none := by
  induction h with
  | cut h => exact fun acc ex ig => .inr (now_header_cut h _ _ _)
  | last h hs ht =>
    intro acc ex ig
    rcases now_trailer_or ht acc 0 ig with h' | h'
    · exact .inl (.last h hs h')
    · refine .inr ?_
      rw [now_header h hs, if_neg (by omega), h']
  | short h hs hn =>
    intro acc ex ig
    refine .inr ?_
    rw [now_header h hs, if_pos (by omega), now_body_short hn]
  | «open» h hs h0 hn hc =>
    intro acc ex ig
    refine .inr ?_
    rw [now_header h hs, if_pos h0, now_body h0 hn, now_delim_cut hc]
  | chunk h hs h0 hn hg _ ih =>
    rename_i s t r g q body n _
    intro acc ex ig
    rcases ih (if ig then acc else acc ++ r.take n) 0 ig with h' | h'
    · exact .inl (.chunk h hs h0 hn hg h')
    · refine .inr ?_
      rw [now_header h hs, if_pos h0, now_body h0 hn, now_delim hg, h']

theorem done_chunks {x body : Bytes} (h : ChunksDone x body) : Chunks x body := by
  induction h with
  | last h hs ht =>
    refine .last h hs ?_
    clear h hs
    induction ht with
    | last h => exact .last h
    | line h ht _ ih => exact .line h ht ih
  | chunk h hs h0 hn hg _ ih => exact .chunk h hs h0 hn hg ih

theorem trailer_text : ∀ (ls : List Bytes) (y : Bytes), (∀ t ∈ ls, IsLine t ∧ t ≠ []) → TrailerDone (text ls ++ [13, 10] ++ y) := by
  intro ls
  induction ls with
  | nil =>
    intro y _
    exact .last (r := y) ⟨rfl, ⟨fun h => by have := h.length_le; simp at this, rfl, by decide⟩⟩
  | cons t ls ih =>
    intro y h
    obtain ⟨h1, h2⟩ := h t List.mem_cons_self
    refine .line (t := t) (r := text ls ++ [13, 10] ++ y) ⟨?_, h1⟩ h2 (ih y fun u hu => h u (List.mem_cons_of_mem _ hu))
    rw [text_cons]
    simp only [List.append_assoc]

theorem encode_done : ∀ (cs : List (Bytes × Bytes)) (z : Bytes) (ts : List Bytes) (y : Bytes),
    (∀ c ∈ cs, IsLine c.1 ∧ SizeIs c.1 c.2.length ∧ c.2 ≠ []) → IsLine z → SizeIs z 0 → (∀ t ∈ ts, IsLine t ∧ t ≠ []) →
    ChunksDone (encodeChunks cs z ts ++ y) (cs.flatMap (·.2)) := by
  intro cs
  induction cs with
  | nil =>
    intro z ts y _ hz hs ht
    refine .last (t := z) (r := text ts ++ [13, 10] ++ y) ⟨?_, hz⟩ hs (trailer_text ts y ht)
    unfold encodeChunks
    simp only [List.flatMap_nil, List.nil_append, List.append_assoc]
  | cons c cs ih =>
    intro z ts y hc hz hs ht
    obtain ⟨h1, h2, h3⟩ := hc c List.mem_cons_self
    have h4 := List.length_pos_iff.mpr h3
    have e := ih z ts y (fun u hu => hc u (List.mem_cons_of_mem _ hu)) hz hs ht
    have hf : FirstLine (encodeChunks (c :: cs) z ts ++ y) c.1 (c.2 ++ ([13, 10] ++ (encodeChunks cs z ts ++ y))) := by
      refine ⟨?_, h1⟩
      unfold encodeChunks
      rw [List.flatMap_cons]
      simp only [List.append_assoc]
    have := ChunksDone.chunk (body := cs.flatMap (·.2)) hf h2 h4 (by rw [List.length_append]; omega) (g := [])
      (q := encodeChunks cs z ts ++ y)
      (by
        rw [List.drop_left]
        exact ⟨rfl, ⟨fun h => by have := h.length_le; simp at this, rfl, by decide⟩⟩) e
    rw [List.take_left] at this
    exact this

/-! ## Fields -/

theorem get_set (h : Fields) (f : Field) (name : Bytes) :
    (h.set f).get L name = if f.nname = L name then [f] else h.get L name := by
  unfold Fields.get Fields.set
  dsimp only
  rw [AMap.get_insert]
  by_cases e : L name = f.nname
  · rw [if_pos e, if_pos e.symm]
    rfl
  · rw [if_neg e, if_neg (fun h => e h.symm)]

theorem map_filter_new (fs : List (Bytes × Option Bytes)) (p : Bytes → Bool) :
    ((fs.map (fun f => Field.new L f.1 f.2)).filter (fun f => p f.nname)) =
      (fs.filter (fun f => p (L f.1))).map (fun f => Field.new L f.1 f.2) := by
  rw [List.filter_map]
  rfl

theorem ops_fields : ∀ (ops : List Op) (h : Fields) (fs : List (Bytes × Option Bytes)),
    h.fields = fs.map (fun f => Field.new L f.1 f.2) →
    (∀ name, h.get L name = (fs.filter (fun f => L f.1 = L name)).map (fun f => Field.new L f.1 f.2)) →
    (ops.foldl (Op.run L) h).fields = (ops.foldl (Op.spec L) fs).map (fun f => Field.new L f.1 f.2) ∧
    ∀ name, (ops.foldl (Op.run L) h).get L name =
      ((ops.foldl (Op.spec L) fs).filter (fun f => L f.1 = L name)).map (fun f => Field.new L f.1 f.2) := by
  intro ops
  induction ops with
  | nil => exact fun h fs h1 h2 => ⟨h1, h2⟩
  | cons op ops ih =>
    intro h fs h1 h2
    rw [List.foldl_cons, List.foldl_cons]
    refine ih _ _ ?_ ?_
    · cases op with
      | add n v =>
        show h.fields ++ [Field.new L n v] = _
        rw [h1, Op.spec, List.map_append]
        rfl
      | set n v =>
        show h.fields.filter (fun g => (Field.new L n v).nname ≠ g.nname) ++ [Field.new L n v] = _
        rw [h1, Op.spec, List.map_append]
        congr 1
        rw [map_filter_new (p := fun x => decide ((Field.new L n v).nname ≠ x))]
        congr 1
        refine List.filter_congr fun f _ => ?_
        have : (L n ≠ L f.1) = (L f.1 ≠ L n) := propext ⟨Ne.symm, Ne.symm⟩
        exact decide_eq_decide.mpr ⟨Ne.symm, Ne.symm⟩
    · intro name
      cases op with
      | add n v =>
        show (h.add (Field.new L n v)).get L name = _
        rw [get_add, h2, Op.spec, List.filter_append, List.map_append]
        congr 1
        show (if L n = L name then _ else _) = _
        by_cases e : L n = L name <;> simp [e]
      | set n v =>
        show (h.set (Field.new L n v)).get L name = _
        rw [get_set, h2, Op.spec, List.filter_append, List.map_append, List.filter_filter]
        show (if L n = L name then _ else _) = _
        by_cases e : L n = L name
        · rw [if_pos e]
          have : fs.filter (fun f => decide (L f.1 = L name) && decide (L f.1 ≠ L n)) = [] := by
            rw [List.filter_eq_nil_iff]
            intro f _
            simp [e]
          rw [this]
          simp [e]
        · rw [if_neg e]
          have : fs.filter (fun f => decide (L f.1 = L name) && decide (L f.1 ≠ L n)) = fs.filter (fun f => decide (L f.1 = L name)) := by
            refine List.filter_congr fun f _ => ?_
            by_cases e' : L f.1 = L name
            · have e2 : ¬L name = L n := fun h => e h.symm
              simp [e', e2]
            · simp [e']
          rw [this]
          simp [e]

/-! ## Requests -/

theorem encode_two {proto ver m path n1 v1 n2 v2 : Bytes} (h : L n2 ≠ L n1) :
    (((Request.new proto ver m path).set L n1 v1).set L n2 v2).encode =
      m ++ [32] ++ path ++ ([32] ++ proto ++ [47] ++ ver) ++ [13, 10] ++ (n1 ++ [58, 32]) ++ v1 ++ [13, 10] ++ (n2 ++ [58, 32] ++ v2) ++
        [13, 10] ++ [13, 10] := by
  unfold Request.encode Request.set Request.new Fields.set Fields.new Field.new Field.render
  simp [h]

theorem encode_two_add {proto ver m path n1 v1 n2 v2 n3 v3 : Bytes} (h : L n2 ≠ L n1) :
    ((((Request.new proto ver m path).set L n1 v1).set L n2 v2).add L n3 v3).encode =
      m ++ [32] ++ path ++ ([32] ++ proto ++ [47] ++ ver) ++ [13, 10] ++ (n1 ++ [58, 32]) ++ v1 ++ [13, 10] ++ (n2 ++ [58, 32] ++ v2) ++
        [13, 10] ++ (n3 ++ [58, 32]) ++ v3 ++ [13, 10] ++ [13, 10] := by
  unfold Request.encode Request.add Request.set Request.new Fields.add Fields.set Fields.new Field.new Field.render
  simp [h]

theorem encode_three {proto ver m path n1 v1 n2 v2 n3 v3 : Bytes} (h : L n2 ≠ L n1) (h2 : L n3 ≠ L n1) (h3 : L n3 ≠ L n2) :
    ((((Request.new proto ver m path).set L n1 v1).set L n2 v2).set L n3 v3).encode =
      m ++ [32] ++ path ++ ([32] ++ proto ++ [47] ++ ver) ++ [13, 10] ++ (n1 ++ [58, 32]) ++ v1 ++ [13, 10] ++ (n2 ++ [58, 32] ++ v2) ++
        [13, 10] ++ (n3 ++ [58, 32]) ++ v3 ++ [13, 10] ++ [13, 10] := by
  unfold Request.encode Request.set Request.new Fields.set Fields.new Field.new Field.render
  simp [h, h2, h3]

end Verif.Http
