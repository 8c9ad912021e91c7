import Verif.Spec.Url
import Verif.Lemmas.Text
/-!
# Lemmas about the URL parser
-/
namespace Verif.Url
open Verif Verif.Spec.Url Verif.Spec.Text

/-! ## Finding characters -/

theorem find_none {c : UInt8} {s : Bytes} (h : c ∉ s) : find c s = none := by
  induction s with
  | nil => rfl
  | cons b s ih =>
    simp only [List.mem_cons, not_or] at h
    simp only [find]
    rw [if_neg (fun e => h.1 e.symm), ih h.2]
    rfl

theorem find_mid {c : UInt8} {a : Bytes} (b : Bytes) (h : c ∉ a) : find c (a ++ c :: b) = some a.length := by
  induction a with
  | nil => simp [find]
  | cons x a ih =>
    simp only [List.mem_cons, not_or] at h
    simp only [find, List.cons_append]
    rw [if_neg (fun e => h.1 e.symm), ih h.2]
    rfl

theorem find_cases (c : UInt8) (s : Bytes) : c ∉ s ∨ ∃ a b, s = a ++ c :: b ∧ c ∉ a := by
  induction s with
  | nil => left; simp
  | cons x s ih =>
    by_cases hx : c = x
    · subst hx; exact .inr ⟨[], s, rfl, by simp⟩
    · rcases ih with h | ⟨a, b, h1, h2⟩
      · left; simp [hx, h]
      · right; exact ⟨x :: a, b, by rw [h1]; rfl, by simp [hx, h2]⟩

theorem rfind_none {c : UInt8} {s : Bytes} (h : c ∉ s) : rfind c s = none := by
  induction s with
  | nil => rfl
  | cons b s ih =>
    simp only [List.mem_cons, not_or] at h
    simp only [rfind, ih h.2]
    rw [if_neg (fun e => h.1 e.symm)]

theorem rfind_mid {c : UInt8} (a : Bytes) {b : Bytes} (h : c ∉ b) : rfind c (a ++ c :: b) = some a.length := by
  induction a with
  | nil => simp [rfind, rfind_none h]
  | cons x a ih => simp only [rfind, List.cons_append, ih, List.length_cons]

theorem rfind_cases (c : UInt8) (s : Bytes) : c ∉ s ∨ ∃ a b, s = a ++ c :: b ∧ c ∉ b := by
  induction s with
  | nil => left; simp
  | cons x s ih =>
    rcases ih with h | ⟨a, b, h1, h2⟩
    · by_cases hx : c = x
      · subst hx; exact .inr ⟨[], s, rfl, h⟩
      · left; simp [hx, h]
    · right; exact ⟨x :: a, b, by rw [h1]; rfl, h2⟩

/-! ## Slices -/

/-- Does not begin in the middle of a character. -/
def Starts (s : Bytes) : Prop := ∀ b, s.head? = some b → Utf8.cont b = false

theorem starts_nil : Starts [] := by intro b h; cases h

theorem starts_cons {c : UInt8} (s : Bytes) (h : c.toNat < 0x80) : Starts (c :: s) := by
  intro b hb
  injection hb with hb
  subst hb
  simp only [Utf8.cont, Bool.and_eq_false_iff, decide_eq_false_iff_not]
  omega

theorem valid_cons {c : UInt8} {s : Bytes} (hc : c.toNat < 0x80) : Utf8.valid (c :: s) = Utf8.valid s := by
  rw [Utf8.valid.eq_def]
  dsimp only
  rw [if_pos hc]

theorem cont_ascii {c : UInt8} (h : c.toNat < 0x80) : Utf8.cont c = false := starts_cons [] h c rfl

theorem valid_after {c : UInt8} (hc : c.toNat < 0x80) (n : Nat) : ∀ (u v : Bytes), u.length ≤ n →
    Utf8.valid (u ++ c :: v) = true → Utf8.valid v = true := by
  have hcc := cont_ascii hc
  induction n with
  | zero =>
    intro u v hn h
    cases u with
    | nil => rw [List.nil_append, valid_cons hc] at h; exact h
    | cons x u => simp at hn
  | succ n ih =>
    intro u v hn h
    cases u with
    | nil => rw [List.nil_append, valid_cons hc] at h; exact h
    | cons b0 u =>
      rw [List.cons_append, Utf8.valid.eq_def] at h
      dsimp only at h
      simp only [List.length_cons] at hn
      split at h
      · exact ih u v (by omega) h
      · split at h
        · cases u with
          | nil => simp [hcc] at h
          | cons b1 u =>
            simp only [List.cons_append, Bool.and_eq_true] at h
            exact ih u v (by simp only [List.length_cons] at hn; omega) h.2
        · split at h
          · rcases u with _ | ⟨b1, _ | ⟨b2, u⟩⟩
            · cases v with
              | nil => simp at h
              | cons x v =>
                simp only [List.nil_append, Bool.and_eq_true] at h
                have h1 := h.1.1
                split at h1
                · simp only [Bool.and_eq_true, decide_eq_true_eq] at h1; omega
                · split at h1
                  · simp only [Bool.and_eq_true, decide_eq_true_eq] at h1; omega
                  · rw [hcc] at h1; cases h1
            · simp [hcc] at h
            · simp only [List.cons_append, Bool.and_eq_true] at h
              exact ih u v (by simp only [List.length_cons] at hn; omega) h.2
          · split at h
            · rcases u with _ | ⟨b1, _ | ⟨b2, _ | ⟨b3, u⟩⟩⟩
              · rcases v with _ | ⟨x, _ | ⟨y, v⟩⟩
                · simp at h
                · simp at h
                · simp only [List.nil_append, Bool.and_eq_true] at h
                  have h1 := h.1.1.1
                  split at h1
                  · simp only [Bool.and_eq_true, decide_eq_true_eq] at h1; omega
                  · split at h1
                    · simp only [Bool.and_eq_true, decide_eq_true_eq] at h1; omega
                    · rw [hcc] at h1; cases h1
              · rcases v with _ | ⟨x, v⟩
                · simp at h
                · simp [hcc] at h
              · simp [hcc] at h
              · simp only [List.cons_append, Bool.and_eq_true] at h
                exact ih u v (by simp only [List.length_cons] at hn; omega) h.2
            · cases h

theorem valid_starts {s : Bytes} (h : Utf8.valid s = true) : Starts s := by
  intro b hb
  cases s with
  | nil => cases hb
  | cons x s =>
    injection hb with hb
    subst hb
    cases hc : Utf8.cont x with
    | false => rfl
    | true =>
      simp only [Utf8.cont, Bool.and_eq_true, decide_eq_true_eq] at hc
      rw [Utf8.valid.eq_def] at h
      dsimp only at h
      rw [if_neg (by omega), if_neg (by omega), if_neg (by omega), if_neg (by omega)] at h
      cases h

/-- What follows an ASCII character in a string starts at a character boundary. -/
theorem starts_after {s u v : Bytes} {c : UInt8} (hs : Utf8.valid s = true) (h : s = u ++ c :: v)
    (hc : c.toNat < 0x80) : Starts v := by
  rw [h] at hs
  exact valid_starts (valid_after hc u.length u v (Nat.le_refl _) hs)

theorem boundary_mid {a t : Bytes} (h : Starts t) : boundary (a ++ t) a.length = true := by
  unfold boundary
  cases t with
  | nil => simp
  | cons x t =>
    simp only [List.length_append, List.length_cons, List.getElem?_append_right (Nat.le_refl _), Nat.sub_self,
      List.getElem?_cons_zero]
    rw [h x rfl]
    rfl

theorem slice_mid {s a b c : Bytes} (h : s = a ++ b ++ c) (hb : Starts (b ++ c)) (hc : Starts c) {i j : Nat}
    (hi : i = a.length) (hj : j = a.length + b.length) : slice s i j = some b := by
  subst h hi hj
  unfold slice
  have h1 : boundary (a ++ b ++ c) a.length = true := by rw [List.append_assoc]; exact boundary_mid hb
  have h2 : boundary (a ++ b ++ c) (a.length + b.length) = true := by
    rw [← List.length_append]; exact boundary_mid hc
  rw [if_pos ⟨by omega, h1, h2⟩, ← List.length_append, List.take_left', List.drop_left']
  · rfl
  · rfl

/-! ## The parsed URL -/

/-- The part of `processAuthority` after the user. -/
def hostPart (u : Url) (stop : Nat) : Wire.Res Url :=
  orPanic (slice u.serialized u.netloc stop) fun netloc =>
    if netloc.getLast? = some 93 then .ok u
    else
      match rfind 58 netloc with
      | none => .ok u
      | some delim =>
        let ppos := delim + 1
        orPanic (slice netloc ppos netloc.length) fun text =>
          match parseUInt 10 65535 text with
          | none => .err
          | some port => .ok { u with portpos := some (u.netloc + ppos), port := some (UInt16.ofNat port) }

/-- With the user known. -/
def withUser (s : Bytes) (h L : Nat) : Option (Bytes × Option Bytes) → Url
  | none => ⟨s, h, L, none, none, none, none, none, none, none⟩
  | some (n, none) => ⟨s, h, L + n.length + 1, some L, none, none, none, none, none, none⟩
  | some (n, some w) =>
    ⟨s, h, L + n.length + 1 + w.length + 1, some L, some (L + n.length + 1), none, none, none, none, none⟩

theorem withUser_serialized (s : Bytes) (h L : Nat) (user : Option (Bytes × Option Bytes)) :
    (withUser s h L user).serialized = s := by
  rcases user with _ | ⟨n, _ | w⟩ <;> rfl

theorem withUser_netloc (s : Bytes) (h L : Nat) (user : Option (Bytes × Option Bytes)) :
    (withUser s h L user).netloc = L + (userText user).length := by
  rcases user with _ | ⟨n, _ | w⟩ <;> simp [withUser, userText, opt] <;> omega

theorem processAuthority_ok {u u' : Url} {start stop delim : Nat} {auth : Bytes}
    (h1 : slice u.serialized start stop = some auth) (h2 : rfind 64 auth = some delim)
    (h3 : u.processUserInfo start (start + delim) = .ok u') :
    u.processAuthority start stop = hostPart { u' with netloc := start + delim + 1 } stop := by
  unfold Url.processAuthority
  rw [h1]
  simp only [orPanic, h2, h3]
  rfl

theorem processAuthority_none {u : Url} {start stop : Nat} {auth : Bytes}
    (h1 : slice u.serialized start stop = some auth) (h2 : rfind 64 auth = none) :
    u.processAuthority start stop = hostPart { u with netloc := start } stop := by
  unfold Url.processAuthority
  rw [h1]
  simp only [orPanic, h2]
  rfl

theorem authority_user {s pre T N : Bytes} {user : Option (Bytes × Option Bytes)} {h : Nat}
    (hs : s = pre ++ (userText user ++ N) ++ T) (hA : Starts (userText user ++ N ++ T)) (hT : Starts T)
    (hw : ∀ n w, user = some (n, w) → 58 ∉ n) (hN : 64 ∉ N) :
    Url.processAuthority ⟨s, h, 0, none, none, none, none, none, none, none⟩ pre.length
      (pre.length + (userText user ++ N).length) =
    hostPart (withUser s h pre.length user) (pre.length + (userText user ++ N).length) := by
  have h1 : slice s pre.length (pre.length + (userText user ++ N).length) = some (userText user ++ N) :=
    slice_mid hs hA hT rfl rfl
  rcases user with _ | ⟨n, _ | w⟩
  · exact processAuthority_none (u := ⟨s, h, 0, none, none, none, none, none, none, none⟩) h1
      (rfind_none hN)
  · have hn := hw n none rfl
    refine processAuthority_ok (u := ⟨s, h, 0, none, none, none, none, none, none, none⟩)
      (u' := ⟨s, h, 0, some pre.length, none, none, none, none, none, none⟩) (delim := n.length) h1 ?_ ?_
    · simp only [userText, opt, List.append_nil, List.append_assoc, List.cons_append, List.nil_append]
      exact rfind_mid n hN
    · have h2 : slice s pre.length (pre.length + n.length) = some n := by
        refine slice_mid (a := pre) (b := n) (c := 64 :: (N ++ T)) ?_ ?_ (starts_cons _ (by decide)) rfl rfl
        · rw [hs]; simp [userText, opt]
        · have : n ++ 64 :: (N ++ T) = userText (some (n, none)) ++ N ++ T := by simp [userText, opt]
          rw [this]; exact hA
      unfold Url.processUserInfo
      dsimp only
      rw [h2]
      simp only [orPanic, find_none hn]
  · have hn := hw n (some w) rfl
    have e1 : n.length + 1 + w.length = (n ++ 58 :: w).length := by simp; omega
    refine processAuthority_ok (u := ⟨s, h, 0, none, none, none, none, none, none, none⟩)
      (u' := ⟨s, h, 0, some pre.length, some (pre.length + n.length + 1), none, none, none, none, none⟩)
      (delim := n.length + 1 + w.length) h1 ?_ ?_ |>.trans ?_
    · have := rfind_mid (n ++ 58 :: w) hN
      rw [e1, ← this]
      simp [userText, opt]
    · have h2 : slice s pre.length (pre.length + (n.length + 1 + w.length)) = some (n ++ 58 :: w) := by
        refine slice_mid (a := pre) (b := n ++ 58 :: w) (c := 64 :: (N ++ T)) ?_ ?_ (starts_cons _ (by decide)) rfl
          (by rw [e1])
        · rw [hs]; simp [userText, opt]
        · have : (n ++ 58 :: w) ++ 64 :: (N ++ T) = userText (some (n, some w)) ++ N ++ T := by
            simp [userText, opt]
          rw [this]; exact hA
      unfold Url.processUserInfo
      dsimp only
      rw [h2]
      simp only [orPanic, find_mid w hn]
    · have e2 : pre.length + (n.length + 1 + w.length) + 1 = pre.length + n.length + 1 + w.length + 1 := by omega
      rw [e2]
      rfl

/-- With the port known. -/
def withPort (u : Url) (host : Bytes) : Option (Bytes × UInt16) → Url
  | none => u
  | some (_, p) => { u with portpos := some (u.netloc + (host.length + 1)), port := some p }

theorem hostPart_noPort {u : Url} {stop : Nat} {host : Bytes} (h1 : slice u.serialized u.netloc stop = some host)
    (h : 58 ∉ host ∨ host.getLast? = some 93) : hostPart u stop = .ok u := by
  unfold hostPart
  rw [h1]
  simp only [orPanic]
  split
  · rfl
  · rcases h with h | h
    · rw [rfind_none h]
    · rename_i hx; exact absurd h hx

theorem digitVal_ne {c : UInt8} {d : Nat} (h : digitVal 10 c = some d) : c ≠ 58 ∧ c ≠ 93 ∧ c ≠ 47 ∧ c ≠ 64 := by
  refine ⟨?_, ?_, ?_, ?_⟩ <;> rintro rfl <;> revert h <;> decide +revert

theorem parseDigits_mem {max : Nat} {s : Bytes} {a v : Nat} (h : parseDigits 10 max s a = some v) :
    ∀ c ∈ s, c ≠ 58 ∧ c ≠ 93 ∧ c ≠ 47 ∧ c ≠ 64 := by
  induction s generalizing a with
  | nil => intro c hc; cases hc
  | cons x s ih =>
    simp only [parseDigits] at h
    split at h
    · cases h
    · rename_i d hd
      split at h
      · intro c hc
        rcases List.mem_cons.mp hc with rfl | hc
        · exact digitVal_ne hd
        · exact ih h c hc
      · cases h

theorem parseUInt_mem {max v : Nat} {s : Bytes} (h : parseUInt 10 max s = some v) :
    ∀ c ∈ s, c ≠ 58 ∧ c ≠ 93 ∧ c ≠ 47 ∧ c ≠ 64 := by
  unfold parseUInt at h
  split at h
  · cases h
  · split at h
    · cases h
    · exact parseDigits_mem h
  · split at h
    · rename_i hc
      intro x hx
      rcases List.mem_cons.mp hx with rfl | hx
      · subst hc; decide
      · exact parseDigits_mem h x hx
    · exact parseDigits_mem h

theorem parseUInt_nil (max : Nat) : parseUInt 10 max [] = none := rfl

theorem last_ne {host t : Bytes} {v : Nat} (h : parseUInt 10 65535 t = some v) :
    (host ++ 58 :: t).getLast? ≠ some 93 := by
  rcases List.eq_nil_or_concat t with rfl | ⟨l, b, rfl⟩
  · rw [parseUInt_nil] at h; cases h
  · have := (parseUInt_mem h b (by simp)).2.1
    have e : host ++ 58 :: l.concat b = (host ++ 58 :: l) ++ [b] := by simp
    rw [e, List.getLast?_append]
    simpa using this

theorem slice_tail {a b : Bytes} (hb : Starts b) : slice (a ++ b) a.length (a ++ b).length = some b :=
  slice_mid (a := a) (b := b) (c := []) (by simp) (by simpa using hb) starts_nil rfl (by simp)

theorem hostPart_port {u : Url} {stop : Nat} {host t : Bytes}
    (h1 : slice u.serialized u.netloc stop = some (host ++ 58 :: t)) (ht : 58 ∉ t) (hst : Starts t)
    (hl : (host ++ 58 :: t).getLast? ≠ some 93) :
    hostPart u stop = match parseUInt 10 65535 t with
      | none => .err
      | some p => .ok (withPort u host (some (t, UInt16.ofNat p))) := by
  unfold hostPart
  rw [h1]
  simp only [orPanic]
  rw [if_neg hl, rfind_mid host ht]
  have : slice (host ++ 58 :: t) (host.length + 1) (host ++ 58 :: t).length = some t := by
    have := slice_tail (a := host ++ [58]) hst
    simpa using this
  simp only [this]
  rfl

/-- With the path known. -/
def withTail (u : Url) (L : Nat) : Option (Bytes × Option Bytes × Option Bytes) → Url
  | none => u
  | some (x, q, f) =>
    { u with
      path := some L
      query := q.map (fun _ => L + x.length + 1)
      fragment := f.map (fun _ => L + (x ++ opt 63 q).length + 1) }

theorem path_query {u : Url} {s pre x F : Bytes} {q : Option Bytes} {stop : Nat}
    (hs : s = pre ++ (x ++ opt 63 q) ++ F) (hA : Starts (x ++ opt 63 q ++ F)) (hF : Starts F)
    (hu : u.serialized = s) (hstop : stop = pre.length + (x ++ opt 63 q).length)
    (h1 : q = none → 63 ∉ x) (h2 : ∀ y, q = some y → 63 ∉ y) (hq : u.query = none) :
    (orPanic (slice u.serialized pre.length stop) fun path =>
      match rfind 63 path with
      | some delim => .ok { u with query := some (pre.length + delim + 1) }
      | none => .ok u) = .ok { u with query := q.map (fun _ => pre.length + x.length + 1) } := by
  have h3 : slice u.serialized pre.length stop = some (x ++ opt 63 q) := by
    rw [hu]; exact slice_mid hs hA hF rfl hstop
  rw [h3]
  cases q with
  | none =>
    simp only [orPanic, opt, List.append_nil, rfind_none (h1 rfl), Option.map_none]
    rw [← hq]
  | some y => simp only [orPanic, opt, rfind_mid x (h2 y rfl), Option.map_some]

theorem processPath_ok {u : Url} {s pre x : Bytes} {q f : Option Bytes}
    (hs : s = pre ++ (x ++ opt 63 q ++ opt 35 f)) (hA : Starts (x ++ opt 63 q ++ opt 35 f))
    (hu : u.serialized = s) (hq : u.query = none) (hf : u.fragment = none)
    (h1 : q = none → 63 ∉ x) (h2 : ∀ y, q = some y → 63 ∉ y)
    (h3 : f = none → 35 ∉ x ∧ ∀ y, q = some y → 35 ∉ y) (h4 : ∀ y, f = some y → 35 ∉ y) :
    u.processPath pre.length = .ok (withTail u pre.length (some (x, q, f))) := by
  have e1 : slice u.serialized pre.length u.serialized.length = some (x ++ opt 63 q ++ opt 35 f) := by
    rw [hu, hs]; exact slice_tail hA
  unfold Url.processPath
  rw [e1]
  simp only [orPanic]
  cases f with
  | none =>
    have hn : 35 ∉ x ++ opt 63 q ++ opt 35 none := by
      have := h3 rfl
      cases q with
      | none => simp [opt, this.1]
      | some y => simp [opt, this.1, this.2 y rfl]
    rw [rfind_none hn]
    simp only [hf]
    have := path_query (u := { u with path := some pre.length, fragment := none }) (s := s) (pre := pre) (x := x) (F := []) (q := q)
      (stop := u.serialized.length) (by rw [hs]; simp [opt]) (by simpa [opt] using hA) starts_nil hu
      (by rw [hu, hs]; simp [opt]) h1 h2 hq
    simp only [orPanic] at this
    refine Eq.trans ?_ (this.trans ?_)
    · rfl
    · simp only [withTail, Option.map_none]
  | some y =>
    simp only [opt] at *
    rw [rfind_mid (x ++ _) (h4 y rfl)]
    simp only
    have := path_query (u := { u with path := some pre.length, fragment := some (pre.length + (x ++ opt 63 q).length + 1) })
      (s := s) (pre := pre) (x := x) (F := 35 :: y) (q := q)
      (stop := pre.length + (x ++ opt 63 q).length + 1 - 1) (by rw [hs]; cases q <;> simp [opt])
      (by cases q <;> simpa [opt] using hA) (starts_cons _ (by decide)) hu
      (by omega) h1 h2 hq
    simp only [orPanic] at this
    refine Eq.trans ?_ (this.trans ?_)
    · rfl
    · simp only [withTail, Option.map_some]

theorem starts_opt {c : UInt8} (hc : c.toNat < 0x80) (o : Option Bytes) (r : Bytes) (hr : Starts r) :
    Starts (opt c o ++ r) := by
  cases o with
  | none => exact hr
  | some y => exact starts_cons _ hc

/-! ## The whole URL -/

/-- What comes before the authority, the authority, and what comes after it. -/
theorem render_eq (p : Parts) : render p =
    (p.scheme ++ [58, 47, 47]) ++ (userText p.user ++ (p.host ++ opt 58 p.port)) ++ tailText p.tail := by
  simp [render]

theorem wf_auth {p : Parts} (h : Wf p) : 47 ∉ userText p.user ++ (p.host ++ opt 58 p.port) ∧
    64 ∉ p.host ++ opt 58 p.port := by
  have hport : ∀ c ∈ opt 58 p.port, c ≠ 47 ∧ c ≠ 64 := by
    intro c hc
    cases hp : p.port with
    | none => rw [hp] at hc; cases hc
    | some t =>
      rw [hp] at hc
      simp only [opt, List.mem_cons] at hc
      rcases hc with rfl | hc
      · decide
      · obtain ⟨v, hv⟩ := h.port t hp
        replace hv := (parseUInt_iff _ _ _).mpr hv
        have := parseUInt_mem hv c hc
        exact ⟨this.2.2.1, this.2.2.2⟩
  have huser : 47 ∉ userText p.user := by
    cases hu : p.user with
    | none => simp [userText]
    | some x =>
      obtain ⟨n, w⟩ := x
      obtain ⟨-, h2, h3⟩ := h.user n w hu
      cases w with
      | none => simp [userText, opt, h2]
      | some w => simp [userText, opt, h2, h3 w rfl]
  constructor
  · intro hm
    rcases List.mem_append.mp hm with hm | hm
    · exact huser hm
    · rcases List.mem_append.mp hm with hm | hm
      · exact h.host.1 hm
      · exact (hport _ hm).1 rfl
  · intro hm
    rcases List.mem_append.mp hm with hm | hm
    · exact h.host.2 hm
    · exact (hport _ hm).2 rfl

/-- The number of a port. -/
def portOf (p : Parts) : Option (Bytes × UInt16) :=
  p.port.bind (fun t => (parseUInt 10 65535 t).map (fun v => (t, UInt16.ofNat v)))

/-- The URL the parser makes of the components. -/
def urlOf (p : Parts) : Url :=
  let u := withUser (render p) (p.scheme.length + 1) (p.scheme.length + 3) p.user
  withTail (withPort u p.host (portOf p))
    ((p.scheme ++ [58, 47, 47]) ++ (userText p.user ++ (p.host ++ opt 58 p.port))).length p.tail

theorem parse_hier {s sch rest : Bytes} (hs : s = sch ++ 58 :: rest) (hv : Utf8.valid s = true) (h : 58 ∉ sch) :
    parse s = if [47, 47].isPrefixOf rest then
        match find 47 (rest.drop 2) with
        | some pos =>
          match Url.processAuthority ⟨s, sch.length + 1, 0, none, none, none, none, none, none, none⟩
            (sch.length + 3) (sch.length + 3 + pos) with
          | .ok u => u.processPath (sch.length + 3 + pos)
          | .err => .err
          | .panic => .panic
        | none => Url.processAuthority ⟨s, sch.length + 1, 0, none, none, none, none, none, none, none⟩
            (sch.length + 3) s.length
      else .err := by
  have h1 : slice s (sch.length + 1) s.length = some rest := by
    have := slice_tail (a := sch ++ [58]) (starts_after hv hs (by decide))
    rw [hs]
    simpa using this
  unfold parse
  rw [show find 58 s = some sch.length by rw [hs]; exact find_mid rest h]
  simp only [Url.processHierarchy, orPanic, h1]
  split
  · rename_i hp
    obtain ⟨r, hr⟩ : ∃ r, rest = 47 :: 47 :: r := by
      rw [List.isPrefixOf_iff_prefix] at hp
      obtain ⟨r, hr⟩ := hp
      exact ⟨r, hr.symm⟩
    have h2 : slice s (sch.length + 1 + 2) s.length = some r := by
      have := slice_tail (a := sch ++ [58, 47, 47]) (b := r)
        (starts_after (u := sch ++ [58, 47]) hv (by rw [hs, hr]; simp) (by decide : (47 : UInt8).toNat < 0x80))
      rw [hs, hr]
      simpa using this
    rw [h2]
    simp only [hr, List.drop_succ_cons, List.drop_zero]
    rfl
  · rfl

theorem withPort_serialized (u : Url) (h : Bytes) (o : Option (Bytes × UInt16)) :
    (withPort u h o).serialized = u.serialized ∧ (withPort u h o).query = u.query ∧
    (withPort u h o).fragment = u.fragment := by
  cases o <;> exact ⟨rfl, rfl, rfl⟩

theorem withUser_rest (s : Bytes) (h L : Nat) (user : Option (Bytes × Option Bytes)) :
    (withUser s h L user).query = none ∧ (withUser s h L user).fragment = none := by
  rcases user with _ | ⟨n, _ | w⟩ <;> exact ⟨rfl, rfl⟩

theorem tail_starts {p : Parts} (h : Wf p) : Starts (tailText p.tail) := by
  cases ht : p.tail with
  | none => exact starts_nil
  | some x =>
    obtain ⟨x, q, f⟩ := x
    have := h.slash x q f ht
    cases x with
    | nil => cases this
    | cons b x =>
      injection this with this
      subst this
      exact starts_cons _ (by decide)

/-- The authority of a well-formed URL. -/
theorem authority_ok {p : Parts} (h : Wf p) (hv : Utf8.valid (render p) = true) :
    Url.processAuthority ⟨render p, p.scheme.length + 1, 0, none, none, none, none, none, none, none⟩
      (p.scheme.length + 3) (p.scheme.length + 3 + (userText p.user ++ (p.host ++ opt 58 p.port)).length) =
    .ok (withPort (withUser (render p) (p.scheme.length + 1) (p.scheme.length + 3) p.user) p.host (portOf p)) := by
  have hT := tail_starts h
  have hA : Starts (userText p.user ++ (p.host ++ opt 58 p.port) ++ tailText p.tail) :=
    starts_after (u := p.scheme ++ [58, 47]) hv (by rw [render_eq]; simp) (by decide : (47 : UInt8).toNat < 0x80)
  have hl : p.scheme.length + 3 = (p.scheme ++ [58, 47, 47]).length := by simp
  have h1 := authority_user (h := p.scheme.length + 1) (render_eq p) hA hT (fun n w e => (h.user n w e).1) (wf_auth h).2
  rw [← hl] at h1
  rw [h1]
  have hnet := withUser_netloc (render p) (p.scheme.length + 1) (p.scheme.length + 3) p.user
  have hser := withUser_serialized (render p) (p.scheme.length + 1) (p.scheme.length + 3) p.user
  have hN : Starts (p.host ++ opt 58 p.port ++ tailText p.tail) := by
    cases hu : p.user with
    | none => rw [hu] at hA; simpa [userText] using hA
    | some x =>
      obtain ⟨n, w⟩ := x
      exact starts_after (u := p.scheme ++ [58, 47, 47] ++ (n ++ opt 58 w)) hv
        (by rw [render_eq, hu]; simp [userText]) (by decide : (64 : UInt8).toNat < 0x80)
  have hslice : slice (render p) (p.scheme.length + 3 + (userText p.user).length)
      (p.scheme.length + 3 + (userText p.user ++ (p.host ++ opt 58 p.port)).length) =
      some (p.host ++ opt 58 p.port) :=
    slice_mid (a := p.scheme ++ [58, 47, 47] ++ userText p.user) (b := p.host ++ opt 58 p.port)
      (c := tailText p.tail) (by rw [render_eq]; simp) hN hT (by simp; omega) (by simp; omega)
  rw [← hnet] at hslice
  have hslice' : slice (withUser (render p) (p.scheme.length + 1) (p.scheme.length + 3) p.user).serialized
      (withUser (render p) (p.scheme.length + 1) (p.scheme.length + 3) p.user).netloc
      (p.scheme.length + 3 + (userText p.user ++ (p.host ++ opt 58 p.port)).length) =
      some (p.host ++ opt 58 p.port) := by rw [hser]; exact hslice
  cases hp : p.port with
  | none =>
    rw [hp] at hslice'
    have := hostPart_noPort (by simpa [opt] using hslice') (h.noPort hp)
    unfold portOf
    rw [hp]
    simpa [opt, withPort] using this
  | some t =>
    rw [hp] at hslice'
    obtain ⟨v, hv'⟩ := h.port t hp
    replace hv' := (parseUInt_iff _ _ _).mpr hv'
    have hst : Starts t := by
      intro b hb
      cases t with
      | nil => cases hb
      | cons c t =>
        exact starts_after (u := p.scheme ++ [58, 47, 47] ++ userText p.user ++ p.host) (c := 58)
          (v := (c :: t) ++ tailText p.tail) hv (by rw [render_eq, hp]; simp [opt]) (by decide) b hb
    have := hostPart_port hslice' (fun hm => (parseUInt_mem hv' _ hm).1 rfl) hst (last_ne hv')
    unfold portOf
    rw [hp]
    rw [hv'] at this
    simpa [hv', opt] using this

/-- Parsing a well-formed URL. -/
theorem parse_render {p : Parts} (h : Wf p) (hv : Utf8.valid (render p) = true) :
    parse (render p) = .ok (urlOf p) := by
  have e : render p = p.scheme ++ 58 :: (47 :: 47 :: ((userText p.user ++ (p.host ++ opt 58 p.port)) ++ tailText p.tail)) := by
    rw [render_eq]; simp
  rw [parse_hier e hv h.scheme, if_pos (by simp)]
  simp only [List.drop_succ_cons, List.drop_zero]
  have hau := authority_ok h hv
  cases ht : p.tail with
  | none =>
    have : find 47 ((userText p.user ++ (p.host ++ opt 58 p.port)) ++ tailText none) = none :=
      find_none (by simpa [tailText] using (wf_auth h).1)
    rw [this]
    have hlen : (render p).length = p.scheme.length + 3 + (userText p.user ++ (p.host ++ opt 58 p.port)).length := by
      rw [render_eq, ht]; simp [tailText]; omega
    simp only [hlen, hau]
    unfold urlOf
    rw [ht]
    rfl
  | some x =>
    obtain ⟨x, q, f⟩ := x
    obtain ⟨y, hy⟩ : ∃ y, x = 47 :: y := by
      have := h.slash x q f ht
      cases x with
      | nil => cases this
      | cons b x => injection this with this; subst this; exact ⟨x, rfl⟩
    have : find 47 ((userText p.user ++ (p.host ++ opt 58 p.port)) ++ tailText (some (x, q, f))) =
        some (userText p.user ++ (p.host ++ opt 58 p.port)).length := by
      rw [hy]
      exact find_mid _ (wf_auth h).1
    rw [this]
    simp only [hau]
    have hlen : p.scheme.length + 3 + (userText p.user ++ (p.host ++ opt 58 p.port)).length =
        ((p.scheme ++ [58, 47, 47]) ++ (userText p.user ++ (p.host ++ opt 58 p.port))).length := by
      simp; omega
    have hts := tail_starts h
    rw [ht] at hts
    obtain ⟨s1, s2, s3⟩ := withPort_serialized
      (withUser (render p) (p.scheme.length + 1) (p.scheme.length + 3) p.user) p.host (portOf p)
    obtain ⟨r1, r2⟩ := withUser_rest (render p) (p.scheme.length + 1) (p.scheme.length + 3) p.user
    have h7 := processPath_ok (u := withPort (withUser (render p) (p.scheme.length + 1) (p.scheme.length + 3) p.user)
        p.host (portOf p)) (s := render p)
      (pre := (p.scheme ++ [58, 47, 47]) ++ (userText p.user ++ (p.host ++ opt 58 p.port))) (x := x) (q := q) (f := f)
      (by rw [render_eq, ht]; rfl) hts (by rw [s1, withUser_serialized]) (by rw [s2, r1]) (by rw [s3, r2])
      (h.query x q f ht).1 (h.query x q f ht).2 (h.fragment x q f ht).1 (h.fragment x q f ht).2
    rw [hlen, h7]
    unfold urlOf
    rw [ht]

/-- A bad port is an error. -/
theorem parse_bad {s sch host t T : Bytes} {user : Option (Bytes × Option Bytes)}
    (hs : s = (sch ++ [58, 47, 47]) ++ (userText user ++ (host ++ 58 :: t)) ++ T) (hv : Utf8.valid s = true)
    (h1 : 58 ∉ sch) (h2 : 47 ∉ userText user ++ (host ++ 58 :: t)) (h3 : T = [] ∨ T.head? = some 47)
    (h4 : ∀ n w, user = some (n, w) → 58 ∉ n) (h5 : 64 ∉ host ++ 58 :: t) (h6 : 58 ∉ t)
    (h7 : (host ++ 58 :: t).getLast? ≠ some 93) (h8 : parseUInt 10 65535 t = none) : parse s = .err := by
  have hT : Starts T := by
    rcases h3 with rfl | h3
    · exact starts_nil
    · intro b hb; rw [h3] at hb; injection hb with hb; subst hb; rfl
  have hA : Starts (userText user ++ (host ++ 58 :: t) ++ T) :=
    starts_after (u := sch ++ [58, 47]) hv (by rw [hs]; simp) (by decide : (47 : UInt8).toNat < 0x80)
  have hl : sch.length + 3 = (sch ++ [58, 47, 47]).length := by simp
  have hauth : Url.processAuthority ⟨s, sch.length + 1, 0, none, none, none, none, none, none, none⟩
      (sch.length + 3) (sch.length + 3 + (userText user ++ (host ++ 58 :: t)).length) = .err := by
    have := authority_user (h := sch.length + 1) hs hA hT h4 h5
    rw [← hl] at this
    rw [this]
    have hN : Starts (host ++ 58 :: t ++ T) := by
      cases hu : user with
      | none => rw [hu] at hA; simpa [userText] using hA
      | some x =>
        obtain ⟨n, w⟩ := x
        exact starts_after (u := sch ++ [58, 47, 47] ++ (n ++ opt 58 w)) hv
          (by rw [hs, hu]; simp [userText]) (by decide : (64 : UInt8).toNat < 0x80)
    have hslice : slice s (sch.length + 3 + (userText user).length)
        (sch.length + 3 + (userText user ++ (host ++ 58 :: t)).length) = some (host ++ 58 :: t) :=
      slice_mid (a := sch ++ [58, 47, 47] ++ userText user) (b := host ++ 58 :: t)
        (c := T) (by rw [hs]; simp) hN hT (by simp; omega) (by simp; omega)
    have hst : Starts t := by
      intro b hb
      cases t with
      | nil => cases hb
      | cons c t =>
        exact starts_after (u := sch ++ [58, 47, 47] ++ userText user ++ host) (c := 58)
          (v := (c :: t) ++ T) hv (by rw [hs]; simp) (by decide) b hb
    have := hostPart_port (u := withUser s (sch.length + 1) (sch.length + 3) user)
      (by rw [withUser_serialized, withUser_netloc]; exact hslice) h6 hst h7
    rw [this, h8]
  have e : s = sch ++ 58 :: (47 :: 47 :: ((userText user ++ (host ++ 58 :: t)) ++ T)) := by
    rw [hs]; simp
  rw [parse_hier e hv h1, if_pos (by simp)]
  simp only [List.drop_succ_cons, List.drop_zero]
  cases T with
  | nil =>
    rw [find_none (by simpa using h2)]
    have hlen : s.length = sch.length + 3 + (userText user ++ (host ++ 58 :: t)).length := by
      rw [hs]; simp; omega
    simp only [hlen, hauth]
  | cons b T =>
    have hb : b = 47 := by
      rcases h3 with h3 | h3
      · cases h3
      · injection h3
    subst hb
    rw [find_mid T h2]
    simp only [hauth]

/-- Every text is a well-formed URL or an error. -/
theorem parse_cases {s : Bytes} (hv : Utf8.valid s = true) : parse s = .err ∨ ∃ p, Wf p ∧ render p = s := by
  rcases find_cases 58 s with h | ⟨sch, rest, hs, h1⟩
  · left; unfold parse; rw [find_none h]
  by_cases hp : [47, 47].isPrefixOf rest = true
  rotate_left
  · left; rw [parse_hier hs hv h1, if_neg hp]
  obtain ⟨r, rfl⟩ : ∃ r, rest = 47 :: 47 :: r := by
    rw [List.isPrefixOf_iff_prefix] at hp
    obtain ⟨r, hr⟩ := hp
    exact ⟨r, hr.symm⟩
  obtain ⟨A, T, hr, hA, hT⟩ : ∃ A T, r = A ++ T ∧ 47 ∉ A ∧ (T = [] ∨ T.head? = some 47) := by
    rcases find_cases 47 r with h | ⟨a, b, h, h'⟩
    · exact ⟨r, [], by simp, h, Or.inl rfl⟩
    · exact ⟨a, 47 :: b, h, h', Or.inr rfl⟩
  obtain ⟨user, N, hAe, hN, huser⟩ : ∃ user N, A = userText user ++ N ∧ 64 ∉ N ∧
      ∀ n w, user = some (n, w) → 58 ∉ n := by
    rcases rfind_cases 64 A with h | ⟨a, b, h, h'⟩
    · exact ⟨none, A, rfl, h, by intro n w h; cases h⟩
    · rcases find_cases 58 a with h2 | ⟨n, w, h2, h3⟩
      · refine ⟨some (a, none), b, ?_, h', ?_⟩
        · rw [h]; simp [userText, opt]
        · intro n w e; injection e with e; injection e with e e'; rw [← e]; exact h2
      · refine ⟨some (n, some w), b, ?_, h', ?_⟩
        · rw [h, h2]; simp [userText, opt]
        · intro n' w' e; injection e with e; injection e with e e'; rw [← e]; exact h3
  obtain ⟨host, port, hNe, hno, hyes⟩ : ∃ host port, N = host ++ opt 58 port ∧
      (port = none → 58 ∉ host ∨ host.getLast? = some 93) ∧
      (∀ t, port = some t → 58 ∉ t ∧ N.getLast? ≠ some 93) := by
    by_cases hl : N.getLast? = some 93
    · exact ⟨N, none, by simp [opt], fun _ => Or.inr hl, by intro t h; cases h⟩
    · rcases rfind_cases 58 N with h | ⟨a, b, h, h'⟩
      · exact ⟨N, none, by simp [opt], fun _ => Or.inl h, by intro t h; cases h⟩
      · exact ⟨a, some b, h, (by intro h; cases h), by intro t e; injection e with e; rw [← e]; exact ⟨h', hl⟩⟩
  obtain ⟨tail, hTe, t1, t2, t3⟩ : ∃ tail, T = tailText tail ∧
      (∀ x q f, tail = some (x, q, f) → x.head? = some 47) ∧
      (∀ x q f, tail = some (x, q, f) → (q = none → 63 ∉ x) ∧ ∀ y, q = some y → 63 ∉ y) ∧
      (∀ x q f, tail = some (x, q, f) →
        (f = none → 35 ∉ x ∧ ∀ y, q = some y → 35 ∉ y) ∧ ∀ y, f = some y → 35 ∉ y) := by
    rcases hT with rfl | hT
    · exact ⟨none, rfl, (by intro x q f h; cases h), (by intro x q f h; cases h), (by intro x q f h; cases h)⟩
    obtain ⟨B, f, hB, f1, f2⟩ : ∃ B f, T = B ++ opt 35 f ∧ (f = none → 35 ∉ B) ∧ ∀ y, f = some y → 35 ∉ y := by
      rcases rfind_cases 35 T with h | ⟨a, b, h, h'⟩
      · exact ⟨T, none, by simp [opt], fun _ => h, by intro y h; cases h⟩
      · exact ⟨a, some b, h, (by intro h; cases h), by intro y e; injection e with e; rw [← e]; exact h'⟩
    obtain ⟨x, q, hx, q1, q2⟩ : ∃ x q, B = x ++ opt 63 q ∧ (q = none → 63 ∉ x) ∧ ∀ y, q = some y → 63 ∉ y := by
      rcases rfind_cases 63 B with h | ⟨a, b, h, h'⟩
      · exact ⟨B, none, by simp [opt], fun _ => h, by intro y h; cases h⟩
      · exact ⟨a, some b, h, (by intro h; cases h), by intro y e; injection e with e; rw [← e]; exact h'⟩
    refine ⟨some (x, q, f), by rw [hB, hx]; rfl, ?_, ?_, ?_⟩
    · intro x' q' f' e
      injection e with e; injection e with e e2; injection e2 with e2 e3
      subst e
      rw [hB, hx] at hT
      cases x with
      | cons c x => simpa using hT
      | nil =>
        exfalso
        cases q with
        | some y => simp [opt] at hT
        | none =>
          cases f with
          | some y => simp [opt] at hT
          | none => simp [opt] at hT
    · intro x' q' f' e
      injection e with e; injection e with e e2; injection e2 with e2 e3
      subst e e2
      exact ⟨q1, q2⟩
    · intro x' q' f' e
      injection e with e; injection e with e e2; injection e2 with e2 e3
      subst e e2 e3
      refine ⟨?_, f2⟩
      intro hf
      have := f1 hf
      rw [hx] at this
      refine ⟨fun hm => this (List.mem_append_left _ hm), ?_⟩
      intro y hy hm
      refine this (List.mem_append_right _ ?_)
      rw [hy]
      exact List.mem_cons_of_mem _ hm
  have hse : s = (sch ++ [58, 47, 47]) ++ (userText user ++ (host ++ opt 58 port)) ++ T := by
    rw [hs, hr, hAe, hNe]; simp
  have hwf : (∀ t, port = some t → ∃ n, IsDecimal t n ∧ n ≤ 65535) → ∃ p, Wf p ∧ render p = s := by
    intro hd
    refine ⟨⟨sch, user, host, port, tail⟩, ⟨h1, ?_, ?_, hno, hd, t1, t2, t3⟩, ?_⟩
    · intro n w e
      dsimp only at e
      refine ⟨huser n w e, ?_, ?_⟩
      · intro hm; apply hA; rw [hAe, e]; simp [userText, hm]
      · intro x hx hm; apply hA; rw [hAe, e, hx]; simp [userText, opt, hm]
    · refine ⟨fun hm => hA ?_, fun hm => hN ?_⟩
      · rw [hAe, hNe]; exact List.mem_append_right _ (List.mem_append_left _ hm)
      · rw [hNe]; exact List.mem_append_left _ hm
    · rw [hse, hTe, render_eq]
  cases port with
  | none => exact Or.inr (hwf (by intro t h; cases h))
  | some t =>
    cases hpt : parseUInt 10 65535 t with
    | some n =>
      refine Or.inr (hwf ?_)
      intro t' e; injection e with e; subst e
      exact ⟨n, (parseUInt_iff _ _ _).mp hpt⟩
    | none =>
      left
      obtain ⟨y1, y2⟩ := hyes t rfl
      rw [hNe] at y2 hN
      exact parse_bad hse hv h1 (by
        have := hA
        rw [hAe, hNe] at this
        exact this) hT huser hN y1 y2 hpt

/-! ## Reading the components back -/

theorem urlOf_serialized (p : Parts) : (urlOf p).serialized = render p := by
  unfold urlOf
  dsimp only
  rcases p.tail with _ | ⟨x, q, f⟩
  · exact (withPort_serialized _ _ _).1.trans (withUser_serialized _ _ _ _)
  · exact (withPort_serialized _ _ _).1.trans (withUser_serialized _ _ _ _)

theorem urlOf_fields (p : Parts) :
    (urlOf p).hier = p.scheme.length + 1 ∧
    (urlOf p).netloc = p.scheme.length + 3 + (userText p.user).length ∧
    (urlOf p).username = p.user.map (fun _ => p.scheme.length + 3) ∧
    (urlOf p).password = p.user.bind (fun x => x.2.map (fun _ => p.scheme.length + 3 + x.1.length + 1)) ∧
    (urlOf p).portpos =
      (portOf p).map (fun _ => p.scheme.length + 3 + (userText p.user).length + (p.host.length + 1)) ∧
    (urlOf p).port = (portOf p).map (·.2) ∧
    (urlOf p).path = p.tail.map (fun _ => p.scheme.length + 3 +
      (userText p.user ++ (p.host ++ opt 58 p.port)).length) ∧
    (urlOf p).query = p.tail.bind (fun t => t.2.1.map (fun _ => p.scheme.length + 3 +
      (userText p.user ++ (p.host ++ opt 58 p.port)).length + t.1.length + 1)) ∧
    (urlOf p).fragment = p.tail.bind (fun t => t.2.2.map (fun _ => p.scheme.length + 3 +
      (userText p.user ++ (p.host ++ opt 58 p.port)).length + (t.1 ++ opt 63 t.2.1).length + 1)) := by
  have hl : ((p.scheme ++ [58, 47, 47]) ++ (userText p.user ++ (p.host ++ opt 58 p.port))).length =
      p.scheme.length + 3 + (userText p.user ++ (p.host ++ opt 58 p.port)).length := by
    simp; omega
  unfold urlOf
  dsimp only
  rw [hl]
  generalize (userText p.user ++ (p.host ++ opt 58 p.port)).length = n
  have hn := withUser_netloc (render p) (p.scheme.length + 1) (p.scheme.length + 3) p.user
  rw [← hn]
  rcases p.user with _ | ⟨un, _ | w⟩ <;> rcases portOf p with _ | ⟨t, v⟩ <;> rcases p.tail with _ | ⟨x, _ | q, _ | f⟩ <;>
    simp [withUser, withPort, withTail, Nat.add_assoc]

/-- A well-formed URL gives its components back. -/
theorem reads_urlOf {p : Parts} (h : Wf p) (hv : Utf8.valid (render p) = true) : Reads (urlOf p) p := by
  obtain ⟨f1, f2, f3, f4, f5, f6, f7, f8, f9⟩ := urlOf_fields p
  have hser := urlOf_serialized p
  have hT := tail_starts h
  have hA : Starts (userText p.user ++ (p.host ++ opt 58 p.port) ++ tailText p.tail) :=
    starts_after (u := p.scheme ++ [58, 47]) hv (by rw [render_eq]; simp) (by decide : (47 : UInt8).toNat < 0x80)
  have hPT : Starts (opt 58 p.port ++ tailText p.tail) := starts_opt (by decide) _ _ hT
  have hN : Starts (p.host ++ (opt 58 p.port ++ tailText p.tail)) := by
    cases hu : p.user with
    | none => rw [hu] at hA; simpa [userText] using hA
    | some x =>
      obtain ⟨n, w⟩ := x
      exact starts_after (u := p.scheme ++ [58, 47, 47] ++ (n ++ opt 58 w)) hv
        (by rw [render_eq, hu]; simp [userText]) (by decide : (64 : UInt8).toNat < 0x80)
  have hL : (render p).length = p.scheme.length + 3 +
      (userText p.user ++ (p.host ++ opt 58 p.port)).length + (tailText p.tail).length := by
    rw [render_eq]; simp; omega
  refine ⟨hser, ?_, ?_, ?_, ?_, ?_, ?_, ?_, ?_⟩
  · unfold Url.getScheme
    rw [hser, f1]
    exact slice_mid (a := []) (b := p.scheme)
      (c := [58, 47, 47] ++ (userText p.user ++ (p.host ++ opt 58 p.port)) ++ tailText p.tail)
      (by rw [render_eq]; simp)
      (by
        have := valid_starts hv
        rw [render_eq] at this
        simpa using this)
      (starts_cons _ (by decide)) rfl (by simp)
  · unfold Url.getUsername
    rw [hser, f3, f4, f2]
    rcases hu : p.user with _ | ⟨n, _ | w⟩
    · rfl
    · simp only [Option.map_some, Option.bind_some, Option.map_none]
      rw [hu] at hA
      rw [slice_mid (a := p.scheme ++ [58, 47, 47]) (b := n)
        (c := 64 :: (p.host ++ opt 58 p.port ++ tailText p.tail)) (by rw [render_eq, hu]; simp [userText, opt])
        (by simpa [userText, opt] using hA) (starts_cons _ (by decide)) (by simp) (by simp [userText, opt])]
      rfl
    · simp only [Option.map_some, Option.bind_some]
      rw [hu] at hA
      rw [slice_mid (a := p.scheme ++ [58, 47, 47]) (b := n)
        (c := 58 :: (w ++ 64 :: (p.host ++ opt 58 p.port ++ tailText p.tail)))
        (by rw [render_eq, hu]; simp [userText, opt])
        (by simpa [userText, opt] using hA) (starts_cons _ (by decide)) (by simp) (by simp)]
      rfl
  · unfold Url.getPassword
    rw [hser, f4, f2]
    rcases hu : p.user with _ | ⟨n, _ | w⟩
    · rfl
    · rfl
    · simp only [Option.map_some, Option.bind_some]
      have hw : Starts (w ++ 64 :: (p.host ++ opt 58 p.port ++ tailText p.tail)) :=
        starts_after (u := p.scheme ++ [58, 47, 47] ++ n) hv (by rw [render_eq, hu]; simp [userText, opt])
          (by decide : (58 : UInt8).toNat < 0x80)
      rw [slice_mid (a := p.scheme ++ [58, 47, 47] ++ (n ++ [58])) (b := w)
        (c := 64 :: (p.host ++ opt 58 p.port ++ tailText p.tail)) (by rw [render_eq, hu]; simp [userText, opt])
        hw (starts_cons _ (by decide)) (by simp; omega) (by simp [userText, opt]; omega)]
      rfl
  · have hh : ∀ j, j = p.scheme.length + 3 + (userText p.user).length + p.host.length →
        slice (render p) (p.scheme.length + 3 + (userText p.user).length) j = some p.host := by
      intro j hj
      exact slice_mid (a := p.scheme ++ [58, 47, 47] ++ userText p.user) (b := p.host)
        (c := opt 58 p.port ++ tailText p.tail) (by rw [render_eq]; simp) hN hPT (by simp; omega) (by simp; omega)
    unfold Url.getHost
    rw [hser, f5, f2, f7]
    cases hp : p.port with
    | none =>
      unfold portOf
      rw [hp]
      simp only [Option.bind_none, Option.map_none]
      cases ht : p.tail with
      | none =>
        simp only [Option.map_none]
        exact hh _ (by rw [hL, hp, ht]; simp [opt, tailText]; omega)
      | some x =>
        simp only [Option.map_some]
        exact hh _ (by simp [opt]; omega)
    | some t =>
      obtain ⟨v, hv'⟩ := h.port t hp
      replace hv' := (parseUInt_iff _ _ _).mpr hv'
      unfold portOf
      rw [hp]
      simp only [Option.bind_some, hv', Option.map_some]
      exact hh _ (by omega)
  · cases hp : p.port with
    | none =>
      unfold portOf at f6
      rw [hp] at f6
      exact f6
    | some t =>
      obtain ⟨v, hd, hle⟩ := h.port t hp
      have hv' := (parseUInt_iff _ _ _).mpr ⟨hd, hle⟩
      unfold portOf at f6
      rw [hp] at f6
      simp only [Option.bind_some, hv', Option.map_some] at f6
      refine ⟨UInt16.ofNat v, f6, ?_⟩
      rw [show (UInt16.ofNat v).toNat = v by simp; omega]
      exact hd
  · unfold Url.getPath
    rw [hser, f7, f8, f9]
    rcases ht : p.tail with _ | ⟨x, q, f⟩
    · rfl
    · rw [ht] at hT hL
      have hx : ∀ j, j = p.scheme.length + 3 + (userText p.user ++ (p.host ++ opt 58 p.port)).length + x.length →
          slice (render p) (p.scheme.length + 3 + (userText p.user ++ (p.host ++ opt 58 p.port)).length) j = some x := by
        intro j hj
        exact slice_mid (a := p.scheme ++ [58, 47, 47] ++ (userText p.user ++ (p.host ++ opt 58 p.port))) (b := x)
          (c := opt 63 q ++ opt 35 f) (by rw [render_eq, ht]; simp [tailText])
          (by simpa [tailText] using hT)
          (starts_opt (by decide) _ _ (by simpa using starts_opt (c := 35) (by decide) f [] starts_nil))
          (by simp; omega) (by simp at hj ⊢; omega)
      rcases q with _ | q <;> rcases f with _ | f
      · exact hx _ (by rw [hL]; simp [tailText, opt])
      · exact hx _ (by simp [opt])
      · exact hx _ (by dsimp only; omega)
      · exact hx _ (by dsimp only; omega)
  · unfold Url.getQuery
    rw [hser, f8, f9]
    rcases ht : p.tail with _ | ⟨x, _ | q, f⟩
    · rfl
    · rfl
    · rw [ht] at hL
      have hq : Starts (q ++ opt 35 f) :=
        starts_after (u := p.scheme ++ [58, 47, 47] ++ (userText p.user ++ (p.host ++ opt 58 p.port)) ++ x) hv
          (by rw [render_eq, ht]; simp [tailText, opt]) (by decide : (63 : UInt8).toNat < 0x80)
      have hx : ∀ j, j = p.scheme.length + 3 + (userText p.user ++ (p.host ++ opt 58 p.port)).length + x.length + 1 +
          q.length → slice (render p) (p.scheme.length + 3 +
          (userText p.user ++ (p.host ++ opt 58 p.port)).length + x.length + 1) j = some q := by
        intro j hj
        exact slice_mid (a := p.scheme ++ [58, 47, 47] ++ (userText p.user ++ (p.host ++ opt 58 p.port)) ++ (x ++ [63]))
          (b := q) (c := opt 35 f) (by rw [render_eq, ht]; simp [tailText, opt])
          hq (by simpa using starts_opt (c := 35) (by decide) f [] starts_nil)
          (by simp; omega) (by simp at hj ⊢; omega)
      rcases f with _ | f
      · simp only [Option.bind_some, Option.map_some, Option.map_none]
        rw [hx _ (by rw [hL]; simp [tailText, opt]; omega)]
        rfl
      · simp only [Option.bind_some, Option.map_some]
        rw [hx _ (by simp [opt]; omega)]
        rfl
  · unfold Url.getFragment
    rw [hser, f9]
    rcases ht : p.tail with _ | ⟨x, q, _ | f⟩
    · rfl
    · rfl
    · rw [ht] at hL
      have hf : Starts f :=
        starts_after (u := p.scheme ++ [58, 47, 47] ++ (userText p.user ++ (p.host ++ opt 58 p.port)) ++
            (x ++ opt 63 q)) hv
          (by rw [render_eq, ht]; simp [tailText, opt]) (by decide : (35 : UInt8).toNat < 0x80)
      simp only [Option.bind_some, Option.map_some]
      rw [slice_mid (a := p.scheme ++ [58, 47, 47] ++ (userText p.user ++ (p.host ++ opt 58 p.port)) ++
          (x ++ opt 63 q ++ [35])) (b := f) (c := []) (by rw [render_eq, ht]; simp [tailText, opt])
          (by simpa using hf) starts_nil (by simp; omega) (by rw [hL]; simp [tailText, opt]; omega)]
      rfl

end Verif.Url
