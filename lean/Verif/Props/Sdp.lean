import Verif.Lemmas.SdpSays
/-! # C65: session descriptions -/
namespace Verif.Sdp
open Verif Spec.Text Spec.Sdp

/-! ## Theorems -/

/-- C65: the parser succeeds exactly if the text has lines, there is space for the nested calls, and the version,
media and attribute lines are correct; and then it returns what the lines say. -/
theorem C65_reads (T : Txt) (stack : Nat) (s : Bytes) (sdp : Session) :
    parse T stack s = .ok sdp ↔ ∃ lines, IsLines s lines ∧ calls lines ≤ stack ∧ Says T lines sdp := by
  obtain ⟨es, he⟩ := ent_exists s.length s (Nat.le_refl _)
  rw [parse_eq T stack he]
  constructor
  · intro h
    by_cases hn : none ∈ es
    · exact absurd h (fold_long T es hn _ _ _ _)
    · obtain ⟨ls, rfl⟩ : ∃ ls : List Bytes, es = ls.map some := by
        clear h he
        induction es with
        | nil => exact ⟨[], rfl⟩
        | cons e es ih =>
          obtain ⟨ls, rfl⟩ := ih (fun h => hn (List.mem_cons_of_mem _ h))
          cases e with
          | none => exact absurd List.mem_cons_self hn
          | some t => exact ⟨t :: ls, rfl⟩
      obtain ⟨h1, h2⟩ := (fold_ok T ls stack false Session.new sdp nofun).1 h
      exact ⟨ls, (ent_isLines he ls).2 rfl, h1, (from_iff_says T ls sdp).1 h2⟩
  · rintro ⟨ls, h1, h2, h3⟩
    rw [(ent_isLines he ls).1 h1]
    exact (fold_ok T ls stack false Session.new sdp nofun).2 ⟨h2, (from_iff_says T ls sdp).2 h3⟩

/-- C65: the parser does not panic; in particular there is always a media description for an attribute. -/
theorem C65_no_panic (T : Txt) (stack : Nat) (s : Bytes) : parse T stack s ≠ .panic := by
  obtain ⟨es, he⟩ := ent_exists s.length s (Nat.le_refl _)
  rw [parse_eq T stack he]
  exact fold_no_panic T es stack false Session.new nofun

/-- C65: the stack overflows exactly if some part of the text up to the end of a line ends in a media or time line,
with as many of them before it as there is space for, and nothing before it is wrong. -/
theorem C65_overflow (T : Txt) (stack : Nat) (s : Bytes) :
    parse T stack s = .overflow ↔ ∃ p q pre t, s = p ++ q ∧ (q = [] ∨ ∃ p' e, p = p' ++ [e] ∧ IsEol e)
      ∧ IsLines p (pre ++ [t]) ∧ (Kind t 109 ∨ Kind t 116) ∧ calls pre = stack ∧ ∃ sdp, Says T pre sdp := by
  obtain ⟨es, he⟩ := ent_exists s.length s (Nat.le_refl _)
  rw [parse_eq T stack he]
  constructor
  · intro h
    obtain ⟨pre, t, post, rfl, hc, hk, x, hx⟩ := (fold_overflow T es stack false Session.new nofun).1 h
    obtain ⟨p, q, rfl, h1, h2, h3⟩ := ent_split he
    refine ⟨p, q, pre, t, rfl, h3, (ent_isLines h1 _).2 rfl, ?_, hc, x, (from_iff_says T pre x).1 hx⟩
    rw [first_iff, first_iff] at hk
    exact hk
  · rintro ⟨p, q, pre, t, rfl, h3, h1, hk, hc, x, hx⟩
    obtain ⟨es1, he1⟩ := ent_exists p.length p (Nat.le_refl _)
    obtain ⟨es2, he2⟩ := ent_exists q.length q (Nat.le_refl _)
    have hes1 := (ent_isLines he1 _).1 h1
    have hes : es = es1 ++ es2 := by
      have hap := ent_append he1 he2 (by rw [hes1]; simp) (h3.elim .inl (fun h => .inr (.inr h)))
      exact ent_unique he hap
    rw [hes, hes1]
    refine (fold_overflow T _ stack false Session.new nofun).2 ⟨pre, t, es2, by simp, hc, ?_, x, (from_iff_says T pre x).2 hx⟩
    rw [first_iff, first_iff]
    exact hk

/-- C65: attribute lines of the session are ignored: an attribute line with no media line before it makes no
difference, nor does one behind a time line with no media line between them, even if there are media lines earlier. -/
theorem C65_attributes_ignored (T : Txt) (pre mid post : List Bytes) (t : Bytes) (sdp : Session) (ht : Kind t 97)
    (hpre : pre = [] ∨ ∃ pre' u, pre = pre' ++ [u] ∧ Kind u 116) (hmid : ∀ u ∈ mid, ¬Kind u 109) :
    Says T (pre ++ mid ++ t :: post) sdp ↔ Says T (pre ++ mid ++ post) sdp := by
  have ht' := first_iff.2 ht
  have hm : ∀ u ∈ mid, first u ≠ some 109 := fun u hu h => hmid u hu (first_iff.1 h)
  rw [← from_iff_says, ← from_iff_says, List.append_assoc, List.append_assoc]
  rcases hpre with rfl | ⟨pre', u, rfl, hu⟩
  · exact from_unused T ht' mid hm _
  · rw [List.append_assoc, List.append_assoc]
    refine from_congr T ?_ pre' false Session.new nofun
    intro b sdp _
    rw [List.singleton_append, List.singleton_append, from_time (first_iff.2 hu), from_time (first_iff.2 hu)]
    exact from_unused T ht' mid hm _

/-- `n` time lines, of two bytes each. -/
def timeLines : Nat → Bytes
  | 0 => []
  | n + 1 => 116 :: 10 :: timeLines n

theorem timeLines_length (n : Nat) : (timeLines n).length = 2 * n := by
  induction n with
  | zero => rfl
  | succ n ih => rw [timeLines]; simp only [List.length_cons, ih]; omega

theorem timeLines_isLines (n : Nat) : IsLines (timeLines n) (List.replicate n [116]) := by
  refine ⟨List.replicate n ([116], 10), [], ⟨?_, ?_, ?_, nofun⟩, ?_, ?_, by simp⟩
  · induction n with
    | zero => rfl
    | succ n ih => rw [timeLines, List.replicate_succ]; simpa using ih
  · intro l hl; rw [List.eq_of_mem_replicate hl]; exact .inr rfl
  · intro l hl b hb
    rw [List.eq_of_mem_replicate hl] at hb
    have : b = 116 := by simpa using hb
    subst this
    rintro (h | h) <;> exact absurd h (by decide)
  · simp
  · intro l hl; rw [List.eq_of_mem_replicate hl]; decide

theorem first_t : first [116] = some 116 := by decide

theorem timeLines_calls (n : Nat) : calls (List.replicate n [116]) = n := by
  induction n with
  | zero => rfl
  | succ n ih => rw [List.replicate_succ, calls_cons, ih, first_t]; simp

theorem timeLines_says (T : Txt) (n : Nat) : Says T (List.replicate n [116]) Session.new := by
  rw [← from_iff_says]
  have : ∀ ls : List Bytes, (∀ u ∈ ls, u = [116]) → From T ls false Session.new Session.new := by
    intro ls
    induction ls with
    | nil => intro _; exact (from_iff_says T _ _).2 ⟨⟨[], .nil, rfl⟩, .nil⟩
    | cons u ls ih =>
      intro h
      rw [h u List.mem_cons_self, from_time first_t]
      exact ih (fun u hu => h u (List.mem_cons_of_mem _ hu))
  exact this _ (fun u hu => List.eq_of_mem_replicate hu)

/-- C65: there is no bound on the nesting: whatever the space on the stack, a text of two bytes for each of the calls
there is space for, and two more, makes it overflow, although it is a correct description. -/
theorem C65_overflow_small (T : Txt) (stack : Nat) :
    ∃ s : Bytes, s.length = 2 * (stack + 1) ∧ parse T stack s = .overflow ∧ parse T (stack + 1) s = .ok Session.new := by
  refine ⟨timeLines (stack + 1), timeLines_length _, ?_, ?_⟩
  · rw [C65_overflow]
    refine ⟨timeLines (stack + 1), [], List.replicate stack [116], [116], by simp, .inl rfl, ?_,
      .inr (first_iff.1 first_t), timeLines_calls _, _, timeLines_says T _⟩
    rw [← List.replicate_succ']
    exact timeLines_isLines _
  · rw [C65_reads]
    exact ⟨_, timeLines_isLines _, Nat.le_of_eq (timeLines_calls _), timeLines_says T _⟩

/-- C65: with a line of 4096 bytes or more that has an end, or a last line longer than that, the text is refused. -/
theorem C65_long_line (T : Txt) (stack : Nat) (p t q : Bytes) (ht : ∀ b ∈ t, ¬IsEol b)
    (hp : p = [] ∨ ∃ p' e, p = p' ++ [e] ∧ IsEol e)
    (hq : (q = [] ∧ 4096 < t.length) ∨ (4096 ≤ t.length ∧ ∃ e q', q = e :: q' ∧ IsEol e)) (sdp : Session) :
    parse T stack (p ++ t ++ q) ≠ .ok sdp := by
  obtain ⟨es, he⟩ := ent_exists (p ++ t ++ q).length (p ++ t ++ q) (Nat.le_refl _)
  rw [parse_eq T stack he]
  apply fold_long
  obtain ⟨es1, he1⟩ := ent_exists p.length p (Nat.le_refl _)
  by_cases hn : none ∈ es1
  · exact ent_long_append he1 hn (by rw [← List.append_assoc]; exact he)
  · have hl : nextLine (t ++ q) = .err := by
      rcases hq with ⟨rfl, hl⟩ | ⟨hl, e, q', rfl, hq⟩
      · rw [List.append_nil, nextLine_end ht (by rintro rfl; simp at hl), if_neg (by omega)]
      · rw [nextLine_eol q' ht hq, if_neg (by omega)]
    have := ent_append he1 (Ent.long hl) hn (hp.elim (fun h => .inr (.inl h)) (fun h => .inr (.inr h)))
    rw [← List.append_assoc] at this
    rw [ent_unique he this]
    simp

/-- C65: what an attribute says about the format, if it is an `rtpmap` attribute. -/
theorem C65_rtpmap (T : Txt) (a : Attr) (m : RtpMap) :
    RtpMap.ofAttr T a = some m ↔ T.lower a.name = asc "rtpmap" ∧ ∃ v, a.value = some v ∧ RtpMapIs v m := by
  unfold RtpMap.ofAttr
  constructor
  · intro h
    by_cases hn : T.lower a.name = asc "rtpmap"
    · rw [if_pos hn] at h
      cases hv : a.value with
      | none => rw [hv] at h; cases h
      | some v => rw [hv] at h; exact ⟨hn, v, rfl, rtpMap_iff.2 h⟩
    · rw [if_neg hn] at h; cases h
  · rintro ⟨hn, v, hv, hm⟩
    rw [if_pos hn, hv]
    exact rtpMap_iff.1 hm

/-! Examples. -/

/-- Functions for examples with ASCII texts. -/
def asciiTxt : Txt where
  lower := fun s => s.map (fun b => if 65 ≤ b.toNat ∧ b.toNat ≤ 90 then b + 32 else b)
  upper := fun s => s.map (fun b => if 97 ≤ b.toNat ∧ b.toNat ≤ 122 then b - 32 else b)
  lossy := id

example : parse asciiTxt 2 (asc "v=0\r\na=x\r\nt=0 0\r\nm=video 0/2 RTP/AVP 96\r\na=rtpmap:96 H264/90000\r\n")
    = .ok ⟨0, [⟨.video, 0, some 2, asc "RTP/AVP", [asc "96"], [⟨asc "rtpmap", some (asc "96 H264/90000")⟩]⟩]⟩ := by
  decide +kernel
example : parse asciiTxt 1 (asc "v=0\r\na=x\r\nt=0 0\r\nm=video 0/2 RTP/AVP 96\r\na=rtpmap:96 H264/90000\r\n")
    = .overflow := by decide +kernel
example : parse asciiTxt 5 (asc "v=x") = .err := by decide +kernel
example : parse asciiTxt 5 (asc "m=video 0 RTP/AVP 96\nt=0 0\na=rtpmap:96 H264/90000\n")
    = .ok ⟨0, [⟨.video, 0, none, asc "RTP/AVP", [asc "96"], []⟩]⟩ := by decide +kernel
example : RtpMap.ofAttr asciiTxt ⟨asc "RTPMAP", some (asc "96 H264/90000")⟩ = some ⟨96, asc "H264", 90000, none⟩ := by
  decide +kernel
example : Kind (asc "a=x") 97 := ⟨[], [61, 120], by decide +kernel, nofun, by unfold ByteWhite; decide⟩

end Verif.Sdp
