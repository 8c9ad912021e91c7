import Verif.Lemmas.Discovery
/-! # The choice of a stream -/
namespace Verif.Discovery
open Verif Spec.Discovery Spec.Http Spec.Sdp

/-! ## HTTP -/

theorem http_panic (E : Env) (N : Net) (probe : Probe) (addr : SocketAddr) (path : Bytes)
    (hv : Utf8.valid (httpUrl E addr path) = true) : getHttpResponse E N probe addr path ≠ .panic := by
  unfold getHttpResponse
  unfold httpUrl at hv
  rcases exchange_http E N probe _ hv with ⟨_, h⟩ | ⟨_, h⟩
  · rw [h]
    unfold sent
    split
    · nofun
    · exact Props.Http.C87_ignored _
  · rw [h]; nofun

/-- The answers to a request. -/
def HttpAnswer (E : Env) (N : Net) (probe : Probe) (addr : SocketAddr) (path : Bytes) (h : Head) : Prop :=
  HttpUrl E (httpUrl E addr path) ∧ ∃ pieces body, N.answer probe = some pieces ∧
    Reply E.T.lower .http true pieces h body

theorem http_answer (E : Env) (N : Net) (probe : Probe) (addr : SocketAddr) (path : Bytes)
    (hv : Utf8.valid (httpUrl E addr path) = true) :
    (∃ r h, getHttpResponse E N probe addr path = .ok r ∧ HttpAnswer E N probe addr path h ∧
      ∀ h, HttpAnswer E N probe addr path h → Shows E.T.lower r h [])
    ∨ (getHttpResponse E N probe addr path = .err ∧ ¬∃ h, HttpAnswer E N probe addr path h) := by
  have hp := http_panic E N probe addr path hv
  unfold getHttpResponse at hp ⊢
  unfold httpUrl at hv
  rcases exchange_http E N probe _ hv with ⟨hu, he⟩ | ⟨hu, he⟩
  · rw [he] at hp ⊢
    unfold sent at hp ⊢
    cases ha : N.answer probe with
    | none =>
      refine .inr ⟨rfl, ?_⟩
      rintro ⟨h, _, p, b, hp, _⟩
      rw [ha] at hp
      cases hp
    | some pieces =>
      rw [ha] at hp
      dsimp only at hp ⊢
      cases hr : Http.response E.T.lower .http true pieces with
      | panic => exact absurd hr hp
      | err =>
        refine .inr ⟨rfl, ?_⟩
        rintro ⟨h, _, p, b, hp, hrep⟩
        rw [ha] at hp
        cases hp
        obtain ⟨r, hr'⟩ := reply_response hrep
        rw [hr] at hr'
        cases hr'
      | ok r =>
        obtain ⟨⟨h, b, hrep, _⟩, hall⟩ := reply_ok hr
        refine .inl ⟨r, h, rfl, ⟨hu, pieces, b, ha, hrep⟩, ?_⟩
        rintro h ⟨_, p, b, hp, hrep⟩
        rw [ha] at hp
        cases hp
        exact hall h b hrep
  · refine .inr ⟨he, ?_⟩
    rintro ⟨h, hu', _⟩
    exact hu hu'

theorem pictures_iff {E : Env} {r : Http.Response} {h : Head} {body : Bytes} (hs : Shows E.T.lower r h body) :
    isSupportedMjpeg E r = true ↔ Pictures E.T.lower h := by
  unfold isSupportedMjpeg Pictures
  rw [shows_value hs]
  simp only [Bool.or_eq_true, List.isPrefixOf_iff_prefix, List.mem_cons, List.not_mem_nil, or_false,
    exists_eq_or_imp, exists_eq_left]
  exact or_assoc

/-- The verdict of the code. -/
def mverdictOf (E : Env) : Wire.Res Http.Response → Verdict
  | .ok r =>
    match httpStreamType E r with
    | .supported => .supported
    | .locked => .locked
    | _ => .nothing
  | .err => .nothing
  | .panic => .crash

theorem mjpegVerdict_iff (E : Env) (N : Net) (mac : MacAddr) (addr : SocketAddr) (i : Nat) (path : Bytes)
    (hv : Utf8.valid (httpUrl E addr path) = true) (v : Verdict) :
    mjpegVerdict E N mac addr i path v ↔ mverdictOf E (getHttpResponse E N (.mjpegPath mac addr i) addr path) = v := by
  have hR : ∀ h, HttpReply E N mac addr i path h ↔ HttpAnswer E N (.mjpegPath mac addr i) addr path h := fun _ => Iff.rfl
  rcases http_answer E N (.mjpegPath mac addr i) addr path hv with ⟨r, h, he, ha, hall⟩ | ⟨he, hno⟩
  · rw [he]
    have h200 : ∀ h, HttpReply E N mac addr i path h → (h.status = 200 ↔ r.header.status = 200) :=
      fun h ha => (shows_status (hall h ha) 200).symm
    have h401 : ∀ h, HttpReply E N mac addr i path h → (h.status = 401 ↔ r.header.status = 401) :=
      fun h ha => (shows_status (hall h ha) 401).symm
    have hpic : ∀ h, HttpReply E N mac addr i path h → (Pictures E.T.lower h ↔ isSupportedMjpeg E r = true) :=
      fun h ha => (pictures_iff (hall h ha)).symm
    have hS : mjpegVerdict E N mac addr i path .supported ↔ r.header.status = 200 ∧ isSupportedMjpeg E r = true := by
      constructor
      · rintro ⟨h, h1, h2, h3⟩; exact ⟨(h200 h h1).1 h2, (hpic h h1).1 h3⟩
      · rintro ⟨h2, h3⟩; exact ⟨h, ha, (h200 h ha).2 h2, (hpic h ha).2 h3⟩
    have hL : mjpegVerdict E N mac addr i path .locked ↔ r.header.status = 401 := by
      constructor
      · rintro ⟨h, h1, h2⟩; exact (h401 h h1).1 h2
      · intro h2; exact ⟨h, ha, (h401 h ha).2 h2⟩
    have hN : mjpegVerdict E N mac addr i path .nothing ↔
        ¬((r.header.status = 200 ∧ isSupportedMjpeg E r = true) ∨ r.header.status = 401) := by
      rw [← hS, ← hL]
      constructor
      · rintro hn (⟨h, h1, h2⟩ | ⟨h, h1, h2⟩)
        · exact hn ⟨h, h1, .inl h2⟩
        · exact hn ⟨h, h1, .inr h2⟩
      · rintro hn ⟨h, h1, h2 | h2⟩
        · exact hn (.inl ⟨h, h1, h2⟩)
        · exact hn (.inr ⟨h, h1, h2⟩)
    unfold mverdictOf
    dsimp only
    unfold httpStreamType
    by_cases g1 : r.header.status = 200
    · have g2 : r.header.status ≠ 401 := by rw [g1]; decide
      rw [if_pos g1]
      by_cases g3 : isSupportedMjpeg E r = true
      · rw [if_pos g3]
        show _ ↔ Verdict.supported = v
        cases v with
        | supported => rw [hS]; exact ⟨fun _ => rfl, fun _ => ⟨g1, g3⟩⟩
        | locked => rw [hL]; exact ⟨fun h => absurd h g2, nofun⟩
        | unsupported => exact ⟨fun h => h.elim, nofun⟩
        | crash => exact ⟨fun h => h.elim, nofun⟩
        | nothing => rw [hN]; exact ⟨fun h => absurd (.inl ⟨g1, g3⟩) h, nofun⟩
      · rw [if_neg g3]
        show _ ↔ Verdict.nothing = v
        cases v with
        | supported => rw [hS]; exact ⟨fun h => absurd h.2 g3, nofun⟩
        | locked => rw [hL]; exact ⟨fun h => absurd h g2, nofun⟩
        | unsupported => exact ⟨fun h => h.elim, nofun⟩
        | crash => exact ⟨fun h => h.elim, nofun⟩
        | nothing => rw [hN]; exact ⟨fun _ => rfl, fun _ h => h.elim (fun h => g3 h.2) g2⟩
    · rw [if_neg g1]
      by_cases g2 : r.header.status = 401
      · rw [if_pos g2]
        show _ ↔ Verdict.locked = v
        cases v with
        | supported => rw [hS]; exact ⟨fun h => absurd h.1 g1, nofun⟩
        | locked => rw [hL]; exact ⟨fun _ => rfl, fun _ => g2⟩
        | unsupported => exact ⟨fun h => h.elim, nofun⟩
        | crash => exact ⟨fun h => h.elim, nofun⟩
        | nothing => rw [hN]; exact ⟨fun h => absurd (.inr g2) h, nofun⟩
      · rw [if_neg g2]
        have : (match (if r.header.status = 404 then StreamType.notFound else .error) with
          | .supported => Verdict.supported
          | .locked => Verdict.locked
          | _ => Verdict.nothing) = .nothing := by
          by_cases g3 : r.header.status = 404
          · rw [if_pos g3]
          · rw [if_neg g3]
        rw [this]
        cases v with
        | supported => rw [hS]; exact ⟨fun h => absurd h.1 g1, nofun⟩
        | locked => rw [hL]; exact ⟨fun h => absurd h g2, nofun⟩
        | unsupported => exact ⟨fun h => h.elim, nofun⟩
        | crash => exact ⟨fun h => h.elim, nofun⟩
        | nothing => rw [hN]; exact ⟨fun _ => rfl, fun _ h => h.elim (fun h => g1 h.1) g2⟩
  · rw [he]
    show _ ↔ Verdict.nothing = v
    cases v with
    | supported => exact ⟨fun ⟨h, h1, _⟩ => absurd ⟨h, h1⟩ hno, nofun⟩
    | locked => exact ⟨fun ⟨h, h1, _⟩ => absurd ⟨h, h1⟩ hno, nofun⟩
    | unsupported => exact ⟨fun h => h.elim, nofun⟩
    | crash => exact ⟨fun h => h.elim, nofun⟩
    | nothing => exact ⟨fun _ => rfl, fun _ ⟨h, h1, _⟩ => hno ⟨h, h1⟩⟩

/-! ## The loops -/

/-- The choice of an RTSP stream, given the verdicts. -/
def choose (vo : Nat → Bytes → Verdict) (mac : MacAddr) (addr : SocketAddr) : Nat → List Bytes → Service →
    Wire.Res Service
  | _, [], res => .ok res
  | n, p :: ps, res =>
    match vo n p with
    | .supported => .ok (.rtsp mac addr p)
    | .locked => .ok (.lockedRtsp mac addr none)
    | .crash => .panic
    | .nothing => choose vo mac addr (n + 1) ps res
    | .unsupported => choose vo mac addr (n + 1) ps (.unsupportedRtsp mac addr p)

/-- The choice of an MJPEG stream, given the verdicts. -/
def mchoose (vo : Nat → Bytes → Verdict) (mac : MacAddr) (addr : SocketAddr) : Nat → List Bytes →
    Wire.Res (Option Service)
  | _, [] => .ok none
  | n, p :: ps =>
    match vo n p with
    | .supported => .ok (some (.mjpeg mac addr p))
    | .locked => .ok (some (.lockedMjpeg mac addr none))
    | .crash => .panic
    | .nothing => mchoose vo mac addr (n + 1) ps
    | .unsupported => mchoose vo mac addr (n + 1) ps

theorem rtspLoop_eq (E : Env) (N : Net) (mac : MacAddr) (addr : SocketAddr) (paths : List Bytes) :
    ∀ (n : Nat) (res : Service), rtspLoop E N mac addr n paths res =
      choose (fun i p => verdictOf (getRtspStreamType E N mac addr i p)) mac addr n paths res := by
  induction paths with
  | nil => intro n res; rfl
  | cons p ps ih =>
    intro n res
    unfold rtspLoop choose getRtspStream
    cases hg : getRtspStreamType E N mac addr n p with
    | panic => rfl
    | err => exact absurd hg (rtsp_err _ _ _ _ _ _)
    | ok t => cases t <;> first | rfl | exact ih _ _

theorem mjpegLoop_eq (E : Env) (N : Net) (mac : MacAddr) (addr : SocketAddr) (paths : List Bytes) :
    ∀ n : Nat, mjpegLoop E N mac addr n paths =
      mchoose (fun i p => mverdictOf E (getHttpResponse E N (.mjpegPath mac addr i) addr p)) mac addr n paths := by
  induction paths with
  | nil => intro n; rfl
  | cons p ps ih =>
    intro n
    unfold mjpegLoop mchoose getMjpegStream
    cases hg : getHttpResponse E N (.mjpegPath mac addr n) addr p with
    | panic => rfl
    | err => exact ih _
    | ok r =>
      unfold mverdictOf
      dsimp only
      cases httpStreamType E r <;> first | rfl | exact ih _

/-- Passed over, in terms of verdicts. -/
def passed (vo : Nat → Bytes → Verdict) (n : Nat) (paths : List Bytes) : Prop :=
  ∀ i p, paths[i]? = some p → vo (n + i) p = .nothing ∨ vo (n + i) p = .unsupported

theorem passed_cons {vo : Nat → Bytes → Verdict} {n : Nat} {p : Bytes} {ps : List Bytes} :
    passed vo n (p :: ps) ↔ (vo n p = .nothing ∨ vo n p = .unsupported) ∧ passed vo (n + 1) ps := by
  constructor
  · intro h
    refine ⟨h 0 p rfl, fun i q hq => ?_⟩
    have := h (i + 1) q hq
    rw [Nat.add_assoc, Nat.add_comm 1 i]
    exact this
  · rintro ⟨h1, h2⟩ i q hq
    cases i with
    | zero => cases hq; exact h1
    | succ i =>
      have := h2 i q hq
      rw [Nat.add_assoc, Nat.add_comm 1 i] at this
      exact this

theorem all_cons {vo : Nat → Bytes → Verdict} {n : Nat} {p : Bytes} {ps : List Bytes} {v : Verdict} :
    (∀ i q, (p :: ps)[i]? = some q → vo (n + i) q = v) ↔
      vo n p = v ∧ ∀ i q, ps[i]? = some q → vo (n + 1 + i) q = v := by
  constructor
  · intro h
    refine ⟨h 0 p rfl, fun i q hq => ?_⟩
    have := h (i + 1) q hq
    rw [Nat.add_assoc, Nat.add_comm 1 i]
    exact this
  · rintro ⟨h1, h2⟩ i q hq
    cases i with
    | zero => cases hq; exact h1
    | succ i =>
      have := h2 i q hq
      rw [Nat.add_assoc, Nat.add_comm 1 i] at this
      exact this

/-- What a list of paths comes to. -/
inductive Class (vo : Nat → Bytes → Verdict) (n : Nat) (paths : List Bytes) : Prop
  | stop {a p b} : paths = a ++ p :: b → passed vo n a →
      (vo (n + a.length) p = .supported ∨ vo (n + a.length) p = .locked ∨ vo (n + a.length) p = .crash) →
      Class vo n paths
  | last {a p b} : passed vo n paths → paths = a ++ p :: b → vo (n + a.length) p = .unsupported →
      (∀ i q, b[i]? = some q → vo (n + a.length + 1 + i) q = .nothing) → Class vo n paths
  | none : (∀ i p, paths[i]? = some p → vo (n + i) p = .nothing) → Class vo n paths

theorem classify (vo : Nat → Bytes → Verdict) (paths : List Bytes) : ∀ n, Class vo n paths := by
  induction paths with
  | nil => intro n; exact .none (fun i p h => by simp at h)
  | cons p ps ih =>
    intro n
    have e : ∀ k : Nat, n + 1 + k = n + (k + 1) := fun k => by omega
    have go : (vo n p = .nothing ∨ vo n p = .unsupported) → Class vo n (p :: ps) := by
      intro hp
      rcases ih (n + 1) with ⟨h1, h2, h3⟩ | ⟨h1, h2, h3, h4⟩ | h
      · rename_i a q b
        refine .stop (a := p :: a) (p := q) (b := b) (by rw [h1]; rfl) (passed_cons.2 ⟨hp, h2⟩) ?_
        rw [List.length_cons, ← e]
        exact h3
      · rename_i a q b
        refine .last (a := p :: a) (p := q) (b := b) (passed_cons.2 ⟨hp, h1⟩) (by rw [h2]; rfl) ?_ ?_
        · rw [List.length_cons, ← e]; exact h3
        · rw [List.length_cons, ← e]; exact h4
      · rcases hp with hp | hp
        · exact .none (all_cons.2 ⟨hp, h⟩)
        · refine .last (a := []) (p := p) (b := ps) (passed_cons.2 ⟨.inr hp, fun i q hq => .inl (h i q hq)⟩) rfl hp h
    cases hv : vo n p with
    | supported => exact .stop (a := []) rfl (fun i q h => by simp at h) (.inl hv)
    | locked => exact .stop (a := []) rfl (fun i q h => by simp at h) (.inr (.inl hv))
    | crash => exact .stop (a := []) rfl (fun i q h => by simp at h) (.inr (.inr hv))
    | nothing => exact go (.inl hv)
    | unsupported => exact go (.inr hv)

theorem choose_passed (vo : Nat → Bytes → Verdict) (mac : MacAddr) (addr : SocketAddr) (a q : List Bytes) :
    ∀ n res, passed vo n a → ∃ res', choose vo mac addr n (a ++ q) res = choose vo mac addr (n + a.length) q res' := by
  induction a with
  | nil => intro n res _; exact ⟨res, rfl⟩
  | cons p a ih =>
    intro n res h
    obtain ⟨h1, h2⟩ := passed_cons.1 h
    have e : n + (p :: a).length = n + 1 + a.length := by rw [List.length_cons]; omega
    rw [e]
    rcases h1 with h1 | h1
    · obtain ⟨r, hr⟩ := ih (n + 1) res h2
      refine ⟨r, ?_⟩
      rw [List.cons_append, choose, h1]
      exact hr
    · obtain ⟨r, hr⟩ := ih (n + 1) (.unsupportedRtsp mac addr p) h2
      refine ⟨r, ?_⟩
      rw [List.cons_append, choose, h1]
      exact hr

theorem choose_nothing (vo : Nat → Bytes → Verdict) (mac : MacAddr) (addr : SocketAddr) (b : List Bytes) :
    ∀ n res, (∀ i q, b[i]? = some q → vo (n + i) q = .nothing) → choose vo mac addr n b res = .ok res := by
  induction b with
  | nil => intro n res _; rfl
  | cons p b ih =>
    intro n res h
    obtain ⟨h1, h2⟩ := all_cons.1 h
    rw [choose, h1]
    exact ih _ _ h2

theorem choose_stop (vo : Nat → Bytes → Verdict) (mac : MacAddr) (addr : SocketAddr) {a b : List Bytes} {p : Bytes}
    {n : Nat} {res : Service} (h : passed vo n a) : ∃ res', choose vo mac addr n (a ++ p :: b) res =
      match vo (n + a.length) p with
      | .supported => .ok (.rtsp mac addr p)
      | .locked => .ok (.lockedRtsp mac addr none)
      | .crash => .panic
      | .nothing => choose vo mac addr (n + a.length + 1) b res'
      | .unsupported => choose vo mac addr (n + a.length + 1) b (.unsupportedRtsp mac addr p) := by
  obtain ⟨res', hr⟩ := choose_passed vo mac addr a (p :: b) n res h
  exact ⟨res', hr⟩

theorem passed_left {vo : Nat → Bytes → Verdict} {n : Nat} {a b : List Bytes} (h : passed vo n (a ++ b)) :
    passed vo n a := by
  intro i q hq
  obtain ⟨hi, _⟩ := List.getElem?_eq_some_iff.1 hq
  exact h i q (by rw [List.getElem?_append_left hi]; exact hq)

theorem choose_last (vo : Nat → Bytes → Verdict) (mac : MacAddr) (addr : SocketAddr) {a b : List Bytes} {p : Bytes}
    {n : Nat} {res : Service} (h : passed vo n (a ++ p :: b)) (hp : vo (n + a.length) p = .unsupported)
    (hb : ∀ i q, b[i]? = some q → vo (n + a.length + 1 + i) q = .nothing) :
    choose vo mac addr n (a ++ p :: b) res = .ok (.unsupportedRtsp mac addr p) := by
  obtain ⟨res', hr⟩ := choose_stop vo mac addr (p := p) (b := b) (res := res) (passed_left h)
  rw [hr, hp]
  exact choose_nothing _ _ _ _ _ _ hb

theorem mchoose_passed (vo : Nat → Bytes → Verdict) (mac : MacAddr) (addr : SocketAddr) (a q : List Bytes) :
    ∀ n, passed vo n a → mchoose vo mac addr n (a ++ q) = mchoose vo mac addr (n + a.length) q := by
  induction a with
  | nil => intro n _; rfl
  | cons p a ih =>
    intro n h
    obtain ⟨h1, h2⟩ := passed_cons.1 h
    have e : n + (p :: a).length = n + 1 + a.length := by rw [List.length_cons]; omega
    rw [e, ← ih (n + 1) h2]
    rcases h1 with h1 | h1 <;> rw [List.cons_append, mchoose, h1]

/-! ## The stream of a service -/

/-- The texts of the environment are UTF-8. -/
structure Env.Ok (E : Env) : Prop where
  format : ∀ a, Utf8.valid (E.format a) = true
  order : ∀ l, (E.order l).Perm l

theorem valid_describe {E : Env} (hE : ∀ a, Utf8.valid (E.format a) = true) (addr : SocketAddr) {path : Bytes}
    (hp : Utf8.valid path = true) : Utf8.valid (describeUrl E addr path) = true :=
  valid_append (valid_append (by decide +kernel) (hE addr)) hp

theorem valid_http {E : Env} (hE : ∀ a, Utf8.valid (E.format a) = true) (addr : SocketAddr) {path : Bytes}
    (hp : Utf8.valid path = true) : Utf8.valid (httpUrl E addr path) = true :=
  valid_append (valid_append (by decide +kernel) (hE addr)) hp

variable {E : Env} {N : Net} {mac : MacAddr} {addr : SocketAddr} {paths : List Bytes}

section
variable (V : Nat → Bytes → Verdict → Prop) (vo : Nat → Bytes → Verdict)

theorem passed_iff (n : Nat) (l : List Bytes) (h : ∀ i p v, p ∈ l → (V i p v ↔ vo i p = v)) :
    Passed V n l ↔ passed vo n l := by
  unfold Passed passed
  constructor
  · intro g i p hp
    have := g i p hp
    rw [h _ _ _ (List.mem_of_getElem? hp), h _ _ _ (List.mem_of_getElem? hp)] at this
    exact this
  · intro g i p hp
    rw [h _ _ _ (List.mem_of_getElem? hp), h _ _ _ (List.mem_of_getElem? hp)]
    exact g i p hp

theorem comes_iff (l : List Bytes) (p : Bytes) (v : Verdict) (h : ∀ i p v, p ∈ l → (V i p v ↔ vo i p = v)) :
    Comes V l p v ↔ ∃ a b, l = a ++ p :: b ∧ passed vo 0 a ∧ vo a.length p = v := by
  constructor
  · rintro ⟨a, b, rfl, h1, h2⟩
    refine ⟨a, b, rfl, (passed_iff V vo 0 a ?_).1 h1, (h _ _ _ (by simp)).1 h2⟩
    intro i q v hq
    exact h i q v (by simp [hq])
  · rintro ⟨a, b, rfl, h1, h2⟩
    refine ⟨a, b, rfl, (passed_iff V vo 0 a ?_).2 h1, (h _ _ _ (by simp)).2 h2⟩
    intro i q v hq
    exact h i q v (by simp [hq])
end

/-- The verdicts of the code. -/
abbrev rvo (E : Env) (N : Net) (mac : MacAddr) (addr : SocketAddr) (i : Nat) (p : Bytes) : Verdict :=
  verdictOf (getRtspStreamType E N mac addr i p)
/-- The verdicts of the code. -/
abbrev mvo (E : Env) (N : Net) (mac : MacAddr) (addr : SocketAddr) (i : Nat) (p : Bytes) : Verdict :=
  mverdictOf E (getHttpResponse E N (.mjpegPath mac addr i) addr p)

theorem rtsp_find (hE : ∀ a, Utf8.valid (E.format a) = true) (hp : ∀ p ∈ paths, Utf8.valid p = true) :
    (∀ s, RtspStream E N paths mac addr s → findRtspStream E N paths mac addr = .ok s)
    ∧ (∀ p, Comes (rtspVerdict E N mac addr) paths p .crash → findRtspStream E N paths mac addr = .panic)
    ∧ ((∃ s, RtspStream E N paths mac addr s) ∨ ∃ p, Comes (rtspVerdict E N mac addr) paths p .crash) := by
  have hV : ∀ i p v, p ∈ paths → (rtspVerdict E N mac addr i p v ↔ rvo E N mac addr i p = v) := fun i p v h =>
    rtspVerdict_iff E N mac addr i p (valid_describe hE addr (hp p h)) v
  have hc := fun p v => comes_iff _ _ paths p v hV
  have hf : ∀ res, rtspLoop E N mac addr 0 paths res = choose (rvo E N mac addr) mac addr 0 paths res :=
    fun res => rtspLoop_eq E N mac addr paths 0 res
  unfold findRtspStream
  rw [hf]
  refine ⟨?_, ?_, ?_⟩
  · rintro s (h | h | ⟨h1, a, b, h2, h3, h4⟩ | h)
    · obtain ⟨a, b, h1, h2, h3⟩ := (hc _ _).1 h
      rw [h1]
      obtain ⟨r, hr⟩ := choose_stop (rvo E N mac addr) mac addr (b := b) (res := .unknownRtsp mac addr) h2
      rw [hr, Nat.zero_add, h3]
      rfl
    · obtain ⟨a, b, h1, h2, h3⟩ := (hc _ _).1 h
      rw [h1]
      obtain ⟨r, hr⟩ := choose_stop (rvo E N mac addr) mac addr (b := b) (res := .unknownRtsp mac addr) h2
      rw [hr, Nat.zero_add, h3]
      rfl
    · rename_i p
      have h1' := (passed_iff _ _ 0 paths hV).1 h1
      rw [h2] at h1' ⊢
      refine choose_last _ mac addr h1' ?_ ?_
      · rw [Nat.zero_add]
        exact (hV _ _ _ (by rw [h2]; simp)).1 h3
      · intro i q hq
        rw [Nat.zero_add]
        exact (hV _ _ _ (by rw [h2]; simp [List.mem_of_getElem? hq])).1 (h4 i q hq)
    · refine choose_nothing _ mac addr _ _ _ ?_
      intro i q hq
      rw [Nat.zero_add]
      exact (hV _ _ _ (List.mem_of_getElem? hq)).1 (h i q hq)
  · intro p h
    obtain ⟨a, b, h1, h2, h3⟩ := (hc _ _).1 h
    rw [h1]
    obtain ⟨r, hr⟩ := choose_stop (rvo E N mac addr) mac addr (b := b) (res := .unknownRtsp mac addr) h2
    rw [hr, Nat.zero_add, h3]
  · rcases classify (rvo E N mac addr) paths 0 with ⟨h1, h2, h3⟩ | ⟨h1, h2, h3, h4⟩ | h
    · rename_i a p b
      rw [Nat.zero_add] at h3
      rcases h3 with h3 | h3 | h3
      · exact .inl ⟨_, .supported ((hc _ _).2 ⟨a, b, h1, h2, h3⟩)⟩
      · exact .inl ⟨_, .locked ((hc _ _).2 ⟨a, b, h1, h2, h3⟩)⟩
      · exact .inr ⟨p, (hc _ _).2 ⟨a, b, h1, h2, h3⟩⟩
    · rename_i a p b
      rw [Nat.zero_add] at h3 h4
      refine .inl ⟨_, .unsupported (p := p) ((passed_iff _ _ 0 paths hV).2 h1) ⟨a, b, h2, ?_, ?_⟩⟩
      · exact (hV _ _ _ (by rw [h2]; simp)).2 h3
      · intro i q hq
        exact (hV _ _ _ (by rw [h2]; simp [List.mem_of_getElem? hq])).2 (h4 i q hq)
    · refine .inl ⟨_, .unknown ?_⟩
      intro i q hq
      have := h i q hq
      rw [Nat.zero_add] at this
      exact (hV _ _ _ (List.mem_of_getElem? hq)).2 this

theorem mvo_crash (hE : ∀ a, Utf8.valid (E.format a) = true) (i : Nat) (p : Bytes) (hp : Utf8.valid p = true) :
    mvo E N mac addr i p ≠ .crash ∧ mvo E N mac addr i p ≠ .unsupported := by
  constructor
  · intro h
    exact (mjpegVerdict_iff E N mac addr i p (valid_http hE addr hp) .crash).2 h
  · intro h
    exact (mjpegVerdict_iff E N mac addr i p (valid_http hE addr hp) .unsupported).2 h

theorem mjpeg_find (hE : ∀ a, Utf8.valid (E.format a) = true) (hp : ∀ p ∈ paths, Utf8.valid p = true) :
    (∀ s, MjpegStream E N paths mac addr s → findMjpegPath E N paths mac addr = .ok s)
    ∧ ∃ s, MjpegStream E N paths mac addr s := by
  have hV : ∀ i p v, p ∈ paths → (mjpegVerdict E N mac addr i p v ↔ mvo E N mac addr i p = v) := fun i p v h =>
    mjpegVerdict_iff E N mac addr i p (valid_http hE addr (hp p h)) v
  have hc := fun p v => comes_iff _ _ paths p v hV
  unfold findMjpegPath
  rw [mjpegLoop_eq]
  refine ⟨?_, ?_⟩
  · rintro s (h | h | h)
    · rename_i p
      obtain ⟨a, b, h1, h2, h3⟩ := (hc _ _).1 h
      have := mchoose_passed (mvo E N mac addr) mac addr a (p :: b) 0 h2
      rw [Nat.zero_add, mchoose, h3, ← h1] at this
      exact this
    · rename_i p
      obtain ⟨a, b, h1, h2, h3⟩ := (hc _ _).1 h
      have := mchoose_passed (mvo E N mac addr) mac addr a (p :: b) 0 h2
      rw [Nat.zero_add, mchoose, h3, ← h1] at this
      exact this
    · have := mchoose_passed (mvo E N mac addr) mac addr paths [] 0 ((passed_iff _ _ 0 paths hV).1 h)
      rw [List.append_nil] at this
      exact this
  · rcases classify (mvo E N mac addr) paths 0 with ⟨h1, h2, h3⟩ | ⟨h1, h2, h3, h4⟩ | h
    · rename_i a p b
      rw [Nat.zero_add] at h3
      rcases h3 with h3 | h3 | h3
      · exact ⟨_, .supported ((hc _ _).2 ⟨a, b, h1, h2, h3⟩)⟩
      · exact ⟨_, .locked ((hc _ _).2 ⟨a, b, h1, h2, h3⟩)⟩
      · exact absurd h3 (mvo_crash hE _ _ (hp p (by rw [h1]; simp))).1
    · exact ⟨_, .none ((passed_iff _ _ 0 paths hV).2 h1)⟩
    · exact ⟨_, .none ((passed_iff _ _ 0 paths hV).2 (fun i p hp => .inl (h i p hp)))⟩

end Verif.Discovery
