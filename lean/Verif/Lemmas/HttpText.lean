import Verif.Spec.Http
import Verif.Lemmas.HttpCodec
import Verif.Lemmas.Reader
import Verif.Lemmas.Text
import Verif.Lemmas.Url
import Verif.Lemmas.Map
/-!
# Lemmas about the text of responses
-/
namespace Verif.Http
open Verif Verif.Spec.Http Verif.Spec.Text

variable {L : Bytes → Bytes} {P : Proto}

/-! ## Lines -/

theorem occ_infix {t : Bytes} {j : Nat} (h : occ t [13, 10] j) : [13, 10] <:+: t := by
  unfold occ at h
  refine ⟨t.take j, t.drop (j + 2), ?_⟩
  have h2 : t.drop j = [13, 10] ++ t.drop (j + 2) := by
    have h' := (List.take_append_drop 2 (t.drop j)).symm
    rw [List.drop_drop] at h'
    rw [h', show ([13, 10] : Bytes).length = 2 from rfl] at *
    rw [show (t.drop j).take 2 = [13, 10] from h]
  rw [List.append_assoc, ← h2, List.take_append_drop]

theorem infix_occ {t : Bytes} (h : [13, 10] <:+: t) : ∃ j, occ t [13, 10] j := by
  obtain ⟨a, b, rfl⟩ := h
  refine ⟨a.length, ?_⟩
  unfold occ
  rw [List.append_assoc, List.drop_left]
  rfl

theorem oneLine_iff {t : Bytes} : OneLine t ↔ ∀ j, ¬occ t [13, 10] j :=
  ⟨fun h j ho => h (occ_infix ho), fun h hi => by obtain ⟨j, hj⟩ := infix_occ hi; exact h j hj⟩

theorem oneLine_sep {t : Bytes} (h : OneLine t) : ∀ j, j < t.length → ¬occ (t ++ [13, 10]) [13, 10] j := by
  intro j hj ho
  by_cases hle : j + 2 ≤ t.length
  · exact oneLine_iff.mp h j (occ_of_append ho hle)
  · unfold occ at ho
    rw [List.drop_append_of_le_length (by omega)] at ho
    have hlen : (t.drop j).length = 1 := by rw [List.length_drop]; omega
    obtain ⟨b, hb⟩ := List.length_eq_one_iff.mp hlen
    rw [hb] at ho
    simp at ho

/-- A decoder at the beginning of a line. -/
def fresh : Line := ⟨[13, 10], [], 4096⟩

theorem fresh_inv : LInv fresh := hdec_new_inv (maxLines := 0) (by decide)

theorem line_first {s t r : Bytes} (h : FirstLine s t r) : fresh.decode s = .ok (some t) fresh r := by
  obtain ⟨rfl, h⟩ := h
  exact line_content fresh_inv rfl h.utf8 (oneLine_sep h.one) h.fits r

theorem line_cut {s : Bytes} (h : Cut s) : fresh.decode s = .ok none { fresh with buffer := s } [] := by
  obtain ⟨h1, h2⟩ := h
  rw [decode_closed fresh_inv]
  unfold closed
  rw [show fresh.buffer ++ s = s from rfl, List.take_of_length_le (show s.length ≤ fresh.max from Nat.le_of_lt h2),
    (first_none fresh_inv.sep).mpr (oneLine_iff.mp h1)]
  dsimp only
  rw [if_neg (by show ¬(s.length ≥ 4096); omega)]

theorem line_first_of {s t r : Bytes} {d : Line} (h : fresh.decode s = .ok (some t) d r) :
    d = fresh ∧ FirstLine s t r := by
  have h0 := line_found fresh_inv h
  refine ⟨h0.1, h0.2.2.2.2.1, ⟨?_, h0.2.2.2.1, ?_⟩⟩
  all_goals
    rw [decode_closed fresh_inv] at h
    unfold closed at h
    rw [show fresh.buffer ++ s = s from rfl] at h
    cases hf : first (s.take fresh.max) fresh.sep with
    | none =>
      rw [hf] at h
      dsimp only at h
      split at h <;> cases h
    | some i =>
      rw [hf] at h
      dsimp only at h
      split at h
      · injection h with h _ _
        injection h with h
        have hF := (first_some fresh_inv.sep).mp hf
        have hb := occ_bound fresh_inv.sep hF.1
        rw [List.length_take] at hb
        have hsl : fresh.sep.length = 2 := rfl
        have hmx : fresh.max = 4096 := rfl
        rw [hsl, hmx] at hb
        have hil : i ≤ s.length := by omega
        have htl : t.length = i := by rw [← h, List.length_take]; omega
        first
        | (rw [oneLine_iff]
           intro j hj
           have hbj := occ_bound (by nofun) hj
           have : ([13, 10] : Bytes).length = 2 := rfl
           rw [this] at hbj
           refine hF.2 j (by omega) ?_
           have hp : s.take fresh.max = t ++ (s.take fresh.max).drop i := by
             rw [← h]
             have : s.take i = (s.take fresh.max).take i := by
               rw [List.take_take, Nat.min_eq_left (by rw [hmx]; omega)]
             rw [this, List.take_append_drop]
           rw [hp]
           exact occ_append fresh_inv.sep hj _)
        | (rw [htl]; omega)
      · cases h

theorem line_cut_of {s r : Bytes} {d : Line} (h : fresh.decode s = .ok none d r) :
    d = { fresh with buffer := s } ∧ r = [] ∧ Cut s := by
  obtain ⟨h1, h2, h3, -⟩ := line_more fresh_inv h
  refine ⟨h3, h1, ?_⟩
  subst h3
  exact ⟨oneLine_iff.mpr h2.none, h2.fits⟩

/-! ## Status lines and fields -/

theorem status_parse {t : Bytes} {h : Head} (hs : StatusIs t h) :
    Header.parse t = some ⟨h.protocol, h.version, UInt16.ofNat h.status, h.reason, Fields.new⟩ := by
  obtain ⟨r1, code, r2, ⟨h1, r0, rfl, h2⟩, h3, h4, h5, h6⟩ := hs
  unfold Header.parse
  rw [Reader.readUntil_char.mpr ⟨rfl, h1, .inr rfl⟩]
  dsimp only
  rw [show Reader.matchChar 47 (47 :: r0) = some r0 from rfl]
  dsimp only
  rw [Reader.readWord_iff.mpr h2]
  dsimp only
  rw [Reader.readWord_iff.mpr h3]
  dsimp only
  rw [(parseUInt_iff 65535 code h.status).mpr ⟨h4, h5⟩]
  dsimp only
  rw [trim_eq h6]

theorem status_of_parse {t : Bytes} {x : Header} (hs : Header.parse t = some x) :
    x.fields = Fields.new ∧ ∀ fields, StatusIs t ⟨x.protocol, x.version, x.status.toNat, x.line, fields⟩ := by
  unfold Header.parse at hs
  obtain ⟨p, r, hp⟩ : ∃ p r, Reader.readUntil (Reader.isChar 47) t = (p, r) := ⟨_, _, rfl⟩
  obtain ⟨g1, g2, g3⟩ := Reader.readUntil_char.mp hp
  rw [hp] at hs
  dsimp only at hs
  cases r with
  | nil => cases hs
  | cons b r =>
    have hb : b = 47 := by
      rcases g3 with g | g
      · cases g
      · injection g
    subst hb
    rw [show Reader.matchChar 47 (47 :: r) = some r from rfl] at hs
    dsimp only at hs
    obtain ⟨v, r1, hv⟩ : ∃ v r1, Reader.readWord r = (v, r1) := ⟨_, _, rfl⟩
    rw [hv] at hs
    dsimp only at hs
    obtain ⟨c, r2, hc⟩ : ∃ c r2, Reader.readWord r1 = (c, r2) := ⟨_, _, rfl⟩
    rw [hc] at hs
    dsimp only at hs
    cases hn : parseUInt 10 65535 c with
    | none => rw [hn] at hs; cases hs
    | some n =>
      rw [hn] at hs
      dsimp only at hs
      injection hs with hs
      subst hs
      obtain ⟨k1, k2⟩ := (parseUInt_iff 65535 c n).mp hn
      have e : (UInt16.ofNat n).toNat = n := by
        rw [UInt16.toNat_ofNat']
        omega
      refine ⟨rfl, fun fields => ⟨r1, c, r2, ⟨g2, r, g1, Reader.readWord_iff.mp hv⟩, Reader.readWord_iff.mp hc, ?_, ?_, trim_spec r2⟩⟩
      · dsimp only; rw [e]; exact k1
      · dsimp only; rw [e]; exact k2

theorem field_parse {t : Bytes} {f : Bytes × Option Bytes} (h : FieldIs t f) : Field.parse L t = Field.new L f.1 f.2 := by
  unfold Field.parse
  rcases h with ⟨a, b, v, rfl, h1, h2, h3, h4⟩ | ⟨h1, h2, h3⟩
  · rw [Url.find_mid b h1]
    dsimp only
    have hd : (a ++ 58 :: b).drop (a.length + 1) = b := by
      rw [← List.drop_drop, List.drop_left]; rfl
    rw [List.take_left, hd, trim_eq h2, trim_eq h4, h3]
  · rw [Url.find_none h1]
    dsimp only
    rw [trim_eq h2, h3]

theorem field_of_parse (t : Bytes) : FieldIs t ((Field.parse L t).name, (Field.parse L t).value) := by
  unfold Field.parse
  rcases Url.find_cases 58 t with h | ⟨a, b, rfl, h⟩
  · rw [Url.find_none h]
    exact .inr ⟨h, trim_spec t, rfl⟩
  · rw [Url.find_mid b h]
    dsimp only
    have hd : (a ++ 58 :: b).drop (a.length + 1) = b := by
      rw [← List.drop_drop, List.drop_left]; rfl
    rw [List.take_left, hd]
    exact .inl ⟨a, b, trim b, rfl, h, trim_spec a, rfl, trim_spec b⟩

theorem field_nname (t : Bytes) : (Field.parse L t).nname = L (Field.parse L t).name := by
  unfold Field.parse
  split <;> rfl

/-! ## Field collections -/

theorem get_add (h : Fields) (f : Field) (name : Bytes) :
    (h.add f).get L name = h.get L name ++ if f.nname = L name then [f] else [] := by
  unfold Fields.get Fields.add
  dsimp only
  rw [AMap.get_insert, AMap.get_remove]
  by_cases e : L name = f.nname
  · rw [if_pos e, if_pos e.symm, e]
    rfl
  · rw [if_neg e, if_neg e, if_neg (fun h => e h.symm), List.append_nil]

theorem get_adds (fs : List Field) (h : Fields) (name : Bytes) :
    (fs.foldl Fields.add h).get L name = h.get L name ++ fs.filter (fun f => f.nname = L name) := by
  induction fs generalizing h with
  | nil => rw [List.foldl_nil, List.filter_nil, List.append_nil]
  | cons f fs ih =>
    rw [List.foldl_cons, ih, get_add, List.append_assoc]
    by_cases e : f.nname = L name <;> simp [e]

/-! ## The lines of a header -/

/-- The end of a field. -/
def commit (L : Bytes → Bytes) (h : Header) (f : Bytes) : Header :=
  if f = [] then h else { h with fields := h.fields.add (Field.parse L f) }

/-- The next line. -/
def feed (L : Bytes → Bytes) (s : Header × Bytes) (t : Bytes) : Header × Bytes :=
  if Reader.isWhite t then (s.1, s.2 ++ t) else (commit L s.1 s.2, t)

theorem process_line (h : Header) (f t : Bytes) (k m : Nat) (hk : k + 1 ≤ m) (ht : t ≠ []) :
    (HDec.mk fresh (some h) f k m).process L t =
      some (none, ⟨fresh, some (feed L (h, f) t).1, (feed L (h, f) t).2, k + 1, m⟩) := by
  unfold HDec.process feed commit
  dsimp only
  rw [if_neg (by omega)]
  by_cases hw : Reader.isWhite t = true
  · simp [hw, ht]
  · by_cases hf : f = []
    · subst hf; simp [hw, ht]
    · simp [hw, ht, hf]

theorem process_end (h : Header) (f : Bytes) (k m : Nat) (hk : k + 1 ≤ m) :
    (HDec.mk fresh (some h) f k m).process L [] = some (some (commit L h f), ⟨fresh, none, [], 0, m⟩) := by
  unfold HDec.process commit
  dsimp only
  rw [if_neg (by omega)]
  have hw : Reader.isWhite [] = false := rfl
  by_cases hf : f = []
  · subst hf; simp [hw]; rfl
  · simp [hw, hf]; rfl

theorem process_status {t : Bytes} (k m : Nat) (hk : k + 1 ≤ m) :
    (HDec.mk fresh none [] k m).process L t =
      match Header.parse t with
      | none => none
      | some h => some (none, ⟨fresh, some h, [], k + 1, m⟩) := by
  unfold HDec.process
  dsimp only
  rw [if_neg (by omega)]
  rfl

theorem process_limit (o : Option Header) (f t : Bytes) (k m : Nat) (hk : m < k + 1) :
    (HDec.mk fresh o f k m).process L t = none := by
  unfold HDec.process
  dsimp only
  rw [if_pos (by omega)]

theorem text_cons (t : Bytes) (ts : List Bytes) : text (t :: ts) = t ++ [13, 10] ++ text ts := List.flatMap_cons

theorem lines_decode : ∀ (lines : List Bytes) (h : Header) (f : Bytes) (k m : Nat) (rest : Bytes),
    (∀ t ∈ lines, IsLine t ∧ t ≠ []) → k + lines.length + 1 ≤ m →
      (HDec.mk fresh (some h) f k m).decode L (text lines ++ [13, 10] ++ rest) =
        .ok (some (commit L (lines.foldl (feed L) (h, f)).1 (lines.foldl (feed L) (h, f)).2)) ⟨fresh, none, [], 0, m⟩ rest := by
  intro lines
  induction lines with
  | nil =>
    intro h f k m rest _ hk
    have e := hdec_line (L := L) (d := HDec.mk fresh (some h) f k m) fresh_inv rfl (t := [])
      (by decide) (fun j hj => absurd hj (Nat.not_lt_zero _)) (show 0 + 2 ≤ 4096 by decide) rest
    rw [process_end h f k m (by rw [List.length_nil] at hk; omega)] at e
    exact e
  | cons t lines ih =>
    intro h f k m rest hl hk
    obtain ⟨ht, hne⟩ := hl t List.mem_cons_self
    rw [List.length_cons] at hk
    have e := hdec_line (L := L) (d := HDec.mk fresh (some h) f k m) fresh_inv rfl ht.utf8
      (oneLine_sep ht.one) ht.fits (text lines ++ [13, 10] ++ rest)
    rw [process_line h f t k m (by omega) hne] at e
    dsimp only at e
    rw [ih _ _ _ _ rest (fun x hx => hl x (List.mem_cons_of_mem _ hx)) (by omega)] at e
    rw [text_cons, List.foldl_cons]
    rw [← e]
    show HDec.decode L _ _ = HDec.decode L _ (t ++ [13, 10] ++ _)
    simp only [List.append_assoc]

theorem lines_of_decode : ∀ (n : Nat) (h : Header) (f : Bytes) (k m : Nat) (x r : Bytes) (a : Header) (d : HDec),
    (HDec.mk fresh (some h) f k m).loop L n x = .ok (some a) d r →
      ∃ lines, x = text lines ++ [13, 10] ++ r ∧ (∀ t ∈ lines, IsLine t ∧ t ≠ []) ∧ k + lines.length + 1 ≤ m ∧
        a = commit L (lines.foldl (feed L) (h, f)).1 (lines.foldl (feed L) (h, f)).2 ∧ d = ⟨fresh, none, [], 0, m⟩ := by
  intro n
  induction n with
  | zero => intro h f k m x r a d e; cases e
  | succ n ih =>
    intro h f k m x r a d e
    rw [loop_succ] at e
    cases hd : fresh.decode x with
    | err => rw [hd] at e; cases e
    | panic => rw [hd] at e; cases e
    | ok item line data =>
      rw [hd] at e
      cases item with
      | none => cases e
      | some t =>
        dsimp only at e
        obtain ⟨rfl, hF⟩ := line_first_of hd
        by_cases hk : k + 1 ≤ m
        · by_cases ht : t = []
          · subst ht
            rw [process_end h f k m hk] at e
            dsimp only at e
            injection e with e1 e2 e3
            injection e1 with e1
            subst e1 e2 e3
            exact ⟨[], hF.1, fun t ht => absurd ht List.not_mem_nil, by simpa using hk, rfl, rfl⟩
          · rw [process_line h f t k m hk ht] at e
            dsimp only at e
            obtain ⟨lines, g1, g2, g3, g4, g5⟩ := ih _ _ _ _ _ _ _ _ e
            refine ⟨t :: lines, ?_, ?_, ?_, g4, g5⟩
            · rw [hF.1, g1, text_cons]
              simp only [List.append_assoc]
            · intro x hx
              rcases List.mem_cons.mp hx with rfl | hx
              · exact ⟨hF.2, ht⟩
              · exact g2 x hx
            · rw [List.length_cons]; omega
        · rw [process_limit _ _ _ _ _ (by omega)] at e
          cases e

theorem foldl_white (L : Bytes → Bytes) (cs : List Bytes) (h : Header) (f : Bytes) (hc : ∀ c ∈ cs, StartsWhite c) :
    cs.foldl (feed L) (h, f) = (h, f ++ cs.flatten) := by
  induction cs generalizing f with
  | nil => rw [List.foldl_nil, List.flatten_nil, List.append_nil]
  | cons c cs ih =>
    have e : feed L (h, f) c = (h, f ++ c) := by
      unfold feed
      rw [if_pos (Reader.isWhite_iff.mpr (hc c List.mem_cons_self))]
    rw [List.foldl_cons, e, ih _ (fun x hx => hc x (List.mem_cons_of_mem _ hx)), List.flatten_cons, List.append_assoc]

theorem foldl_group (L : Bytes → Bytes) (a : Bytes) (cs : List Bytes) (h : Header) (f : Bytes) (hc : ∀ c ∈ cs, StartsWhite c)
    (ha : f ≠ [] → ¬StartsWhite a) : (a :: cs).foldl (feed L) (h, f) = (commit L h f, (a :: cs).flatten) := by
  have e : feed L (h, f) a = (commit L h f, a) := by
    unfold feed
    by_cases hw : StartsWhite a
    · have hf : f = [] := by
        by_cases hf : f = []
        · exact hf
        · exact absurd hw (ha hf)
      subst hf
      rw [if_pos (Reader.isWhite_iff.mpr hw)]
      rfl
    · rw [if_neg (fun x => hw (Reader.isWhite_iff.mp x))]
  rw [List.foldl_cons, e, foldl_white L cs _ _ hc, List.flatten_cons]

theorem foldl_groups (L : Bytes → Bytes) : ∀ (groups : List (List Bytes)) (h : Header) (f : Bytes),
    (∀ g ∈ groups, ∃ a cs, g = a :: cs ∧ ∀ c ∈ cs, StartsWhite c) → (∀ g ∈ groups, ∀ t ∈ g, t ≠ []) →
    (∀ g ∈ groups.tail, ∀ a, g.head? = some a → ¬StartsWhite a) →
    (f ≠ [] → ∀ g, groups.head? = some g → ∀ a, g.head? = some a → ¬StartsWhite a) →
      commit L (groups.flatten.foldl (feed L) (h, f)).1 (groups.flatten.foldl (feed L) (h, f)).2 =
        { commit L h f with fields := (groups.map (fun g => Field.parse L g.flatten)).foldl Fields.add (commit L h f).fields } := by
  intro groups
  induction groups with
  | nil => intro h f _ _ _ _; rfl
  | cons g gs ih =>
    intro h f h1 h2 h3 h4
    obtain ⟨a, cs, rfl, hcs⟩ := h1 g List.mem_cons_self
    rw [List.flatten_cons, List.foldl_append, foldl_group L a cs h f hcs (fun hf => h4 hf _ rfl a rfl)]
    have hne : (a :: cs).flatten ≠ [] := by
      have := h2 _ List.mem_cons_self a List.mem_cons_self
      rw [List.flatten_cons]
      intro hc
      exact this (List.append_eq_nil_iff.mp hc).1
    rw [ih (commit L h f) _ (fun g hg => h1 g (List.mem_cons_of_mem _ hg)) (fun g hg => h2 g (List.mem_cons_of_mem _ hg))
      (fun g hg => h3 g (List.mem_of_mem_tail hg)) (fun _ g hg => h3 g (List.mem_of_mem_head? hg))]
    have e : commit L (commit L h f) (a :: cs).flatten =
        { commit L h f with fields := (commit L h f).fields.add (Field.parse L (a :: cs).flatten) } := by
      rw [commit, if_neg hne]
    rw [e, List.map_cons, List.foldl_cons]

theorem groups_exist : ∀ lines : List Bytes, ∃ groups, Groups lines groups := by
  intro lines
  induction lines with
  | nil => exact ⟨[], rfl, fun g hg => absurd hg List.not_mem_nil, fun g hg => absurd hg List.not_mem_nil⟩
  | cons t ts ih =>
    obtain ⟨gs, h1, h2, h3⟩ := ih
    cases gs with
    | nil =>
      refine ⟨[[t]], by rw [h1]; rfl, fun g hg => ?_, fun g hg => absurd hg List.not_mem_nil⟩
      rw [List.mem_singleton.mp hg]
      exact ⟨t, [], rfl, fun c hc => absurd hc List.not_mem_nil⟩
    | cons g gs =>
      obtain ⟨a, cs, rfl, hcs⟩ := h2 g List.mem_cons_self
      by_cases hw : StartsWhite a
      · refine ⟨(t :: a :: cs) :: gs, by rw [h1]; rfl, fun g hg => ?_, h3⟩
        rcases List.mem_cons.mp hg with rfl | hg
        · refine ⟨t, a :: cs, rfl, fun c hc => ?_⟩
          rcases List.mem_cons.mp hc with rfl | hc
          · exact hw
          · exact hcs c hc
        · exact h2 g (List.mem_cons_of_mem _ hg)
      · refine ⟨[t] :: (a :: cs) :: gs, by rw [h1]; rfl, fun g hg => ?_, fun g hg b hb => ?_⟩
        · rcases List.mem_cons.mp hg with rfl | hg
          · exact ⟨t, [], rfl, fun c hc => absurd hc List.not_mem_nil⟩
          · exact h2 g hg
        · rcases List.mem_cons.mp hg with rfl | hg
          · injection hb with hb
            rw [← hb]; exact hw
          · exact h3 g hg b hb

/-! ## Headers -/

/-- The header shows the content. -/
structure HeadShows (L : Bytes → Bytes) (x : Header) (h : Head) : Prop where
  protocol : x.protocol = h.protocol
  version : x.version = h.version
  status : x.status.toNat = h.status
  reason : x.line = h.reason
  fields : ∀ name, (x.fields.get L name).map (fun f => (f.name, f.value)) = h.fields.filter (fun f => L f.1 = L name)

theorem new_eq : HDec.new 4096 1024 = ⟨fresh, none, [], 0, 1024⟩ := rfl

theorem filter_map_fields (fs : List (Bytes × Option Bytes)) (name : Bytes) :
    ((fs.map (fun f => Field.new L f.1 f.2)).filter (fun f => f.nname = L name)).map (fun f => (f.name, f.value)) =
      fs.filter (fun f => L f.1 = L name) := by
  induction fs with
  | nil => rfl
  | cons f fs ih =>
    rw [List.map_cons]
    by_cases e : L f.1 = L name
    · rw [List.filter_cons_of_pos (by exact decide_eq_true e), List.filter_cons_of_pos (by simpa using e), List.map_cons, ih]
      rfl
    · rw [List.filter_cons_of_neg (by show ¬(decide (L f.1 = L name) = true); simpa using e), List.filter_cons_of_neg (by simpa using e), ih]

theorem status_bound {t : Bytes} {h : Head} (hs : StatusIs t h) : h.status ≤ 65535 := by
  obtain ⟨_, _, _, _, _, _, h5, _⟩ := hs
  exact h5

theorem head_decode {s : Bytes} {h : Head} (hs : IsHead s h) : ∃ x, HeadShows L x h ∧
    ∀ rest, (HDec.new 4096 1024).decode L (s ++ rest) = .ok (some x) (HDec.new 4096 1024) rest := by
  obtain ⟨status, lines, groups, rfl, h1, h2, h3, h4, h5, h6, h7⟩ := hs
  have hp := status_parse h4
  refine ⟨commit L (lines.foldl (feed L) (⟨h.protocol, h.version, UInt16.ofNat h.status, h.reason, Fields.new⟩, [])).1
    (lines.foldl (feed L) (⟨h.protocol, h.version, UInt16.ofNat h.status, h.reason, Fields.new⟩, [])).2, ?_, fun rest => ?_⟩
  rotate_left
  · have e := hdec_line (L := L) (d := HDec.mk fresh none [] 0 1024) fresh_inv rfl h1.utf8
      (oneLine_sep h1.one) h1.fits (text lines ++ [13, 10] ++ rest)
    rw [process_status 0 1024 (by decide), hp] at e
    dsimp only at e
    rw [lines_decode lines _ _ _ _ rest h2 (by omega)] at e
    rw [new_eq, text_cons, ← e]
    show HDec.decode L _ _ = HDec.decode L _ (status ++ [13, 10] ++ _)
    simp only [List.append_assoc]
  · rw [h5.all, foldl_groups L groups _ [] h5.within ?_ h5.between (fun hf => absurd rfl hf)]
    rotate_left
    · intro g hg t ht
      exact (h2 t (by rw [h5.all]; exact List.mem_flatten.mpr ⟨g, hg, ht⟩)).2
    have hm : groups.map (fun g => Field.parse L g.flatten) = h.fields.map (fun f => Field.new L f.1 f.2) := by
      refine List.ext_getElem? (fun i => ?_)
      rw [List.getElem?_map, List.getElem?_map]
      cases hg : groups[i]? with
      | none =>
        have : h.fields[i]? = none := by
          rw [List.getElem?_eq_none_iff] at hg ⊢
          omega
        rw [this]; rfl
      | some g =>
        cases hf : h.fields[i]? with
        | none =>
          rw [List.getElem?_eq_none_iff] at hf
          obtain ⟨hlt, -⟩ := List.getElem?_eq_some_iff.mp hg
          omega
        | some f =>
          have := field_parse (L := L) (h7 i g f hg hf)
          simp [this]
    refine ⟨rfl, rfl, ?_, rfl, fun name => ?_⟩
    · show (UInt16.ofNat h.status).toNat = h.status
      rw [UInt16.toNat_ofNat']
      have := status_bound h4
      omega
    · show (((groups.map (fun g => Field.parse L g.flatten)).foldl Fields.add Fields.new).get L name).map _ = _
      rw [get_adds, hm]
      exact filter_map_fields _ _

theorem head_of_decode {x r : Bytes} {a : Header} {d : HDec} (e : (HDec.new 4096 1024).decode L x = .ok (some a) d r) :
    ∃ s h, x = s ++ r ∧ IsHead s h ∧ HeadShows L a h ∧ d = HDec.new 4096 1024 := by
  unfold HDec.decode at e
  rw [new_eq, loop_succ] at e
  cases hd : fresh.decode x with
  | err => rw [hd] at e; cases e
  | panic => rw [hd] at e; cases e
  | ok item line data =>
    rw [hd] at e
    cases item with
    | none => cases e
    | some t =>
      dsimp only at e
      obtain ⟨rfl, hF⟩ := line_first_of hd
      rw [process_status 0 1024 (by decide)] at e
      cases hp : Header.parse t with
      | none => rw [hp] at e; cases e
      | some h0 =>
        rw [hp] at e
        dsimp only at e
        obtain ⟨lines, g1, g2, g3, g4, g5⟩ := lines_of_decode _ _ _ _ _ _ _ _ _ e
        obtain ⟨k1, k2⟩ := status_of_parse hp
        obtain ⟨groups, hg⟩ := groups_exist lines
        have hne : ∀ g ∈ groups, ∀ t ∈ g, t ≠ [] := fun g hg' t ht =>
          (g2 t (by rw [hg.all]; exact List.mem_flatten.mpr ⟨g, hg', ht⟩)).2
        rw [hg.all, foldl_groups L groups _ [] hg.within hne hg.between (fun hf => absurd rfl hf)] at g4
        refine ⟨text (t :: lines) ++ [13, 10], ⟨h0.protocol, h0.version, h0.status.toNat, h0.line,
          groups.map (fun g => ((Field.parse L g.flatten).name, (Field.parse L g.flatten).value))⟩, ?_,
          ⟨t, lines, groups, rfl, hF.2, g2, by omega, k2 _, hg, by rw [List.length_map], fun i g f hg' hf => ?_⟩, ?_, g5⟩
        · rw [hF.1, g1, text_cons]
          simp only [List.append_assoc]
        · dsimp only at hf
          rw [List.getElem?_map, hg'] at hf
          injection hf with hf
          rw [← hf]
          exact field_of_parse _
        · subst g4
          refine ⟨rfl, rfl, rfl, rfl, fun name => ?_⟩
          show (((groups.map (fun g => Field.parse L g.flatten)).foldl Fields.add h0.fields).get L name).map _ = _
          rw [get_adds, k1]
          have hmm : groups.map (fun g => Field.parse L g.flatten) =
              (groups.map (fun g => ((Field.parse L g.flatten).name, (Field.parse L g.flatten).value))).map
                (fun f => Field.new L f.1 f.2) := by
            rw [List.map_map]
            refine List.map_congr_left (fun g _ => ?_)
            have := field_nname (L := L) g.flatten
            show Field.parse L g.flatten = ⟨L (Field.parse L g.flatten).name, _, _⟩
            rw [← this]
          rw [hmm]
          exact filter_map_fields _ _

theorem last_field {x : Header} {h : Head} (hx : HeadShows L x h) (name : Bytes) :
    (x.field L name).map (·.value) = h.last L name := by
  unfold Header.field Head.last
  rw [← hx.fields name, List.getLast?_map, Option.map_map]
  rfl

end Verif.Http
