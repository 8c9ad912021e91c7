import Verif.Spec.Outage
import Verif.Props.Silence
import Verif.Props.Uplink
/-!
# An outage ends soon after the server is back: C131
-/
namespace Verif.Props.Outage
open Verif Verif.Client Verif.Reconnect Verif.Uplink Verif.Spec.Client Verif.Spec.Reconnect Verif.Spec.Uplink Verif.Spec.Silence
  Verif.Spec.Outage Verif.Lemmas.Uplink Verif.Silence
open Verif.Props.Reconnect (trace)
open Verif.Props.Client (hist hist_append)

/-! ### The last timer event -/

theorem hist_eq (cfg : Cfg) (k : Call) (a : List COp) : ({ k with ops := a } : Call).hist cfg = hist cfg k.env a := rfl

theorem closing_last (gap t : Nat) (ops : List COp) (r : Result) (ht : Ticking gap t ops)
    (hn : ∀ a op b, ops = a ++ op :: b → ∀ r', ((Conn.closing r).run a).1 ≠ .over r') : lastTick t ops ≤ t + gap := by
  induction ops with
  | nil => exact Nat.le_add_right _ _
  | cons op ops ih =>
    have over : (∃ r', ((Conn.closing r).step op).1 = .over r') → ops = [] := by
      rintro ⟨r', h⟩
      cases ops with
      | nil => rfl
      | cons op' ops => exact absurd h (hn [op] op' ops rfl r')
    cases op with
    | tick e =>
      rw [over ⟨_, rfl⟩]
      exact ht.1
    | flushed =>
      rw [over ⟨_, rfl⟩]
      exact Nat.le_add_right _ _
    | sinkError e =>
      rw [over ⟨_, rfl⟩]
      exact Nat.le_add_right _ _
    | poll f i => exact ih ht (fun a op b h => hn (.poll f i :: a) op b (by rw [h]; rfl))
    | io s o => exact ih ht (fun a op b h => hn (.io s o :: a) op b (by rw [h]; rfl))

/-- If no timer event after `X` leaves the connection alive, the last one is not later than `X` and the distance of two. -/
theorem live_last (gap X : Nat) (ops : List COp) : ∀ (t : Nat) (c : Cli), Ticking gap t ops → t ≤ X →
    (∀ a op b, ops = a ++ op :: b → ∀ r', ((Conn.live c).run a).1 ≠ .over r') →
    (∀ a e b c', ops = a ++ .tick e :: b → ((Conn.live c).run (a ++ [.tick e])).1 = .live c' → e.now ≤ X) →
    lastTick t ops ≤ X + gap := by
  induction ops with
  | nil => intro t c _ h _ _; show t ≤ X + gap; omega
  | cons op ops ih =>
    intro t c ht hx hn hl
    have hn' : ∀ a op' b, ops = a ++ op' :: b → ∀ r', ((c.step op).1.run a).1 ≠ .over r' := fun a op' b h =>
      hn (op :: a) op' b (by rw [h]; rfl)
    have hl' : ∀ a e b c', ops = a ++ .tick e :: b → ((c.step op).1.run (a ++ [.tick e])).1 = .live c' → e.now ≤ X :=
      fun a e b c' h => hl (op :: a) e b c' (by rw [h]; rfl)
    have key : ∀ t', Ticking gap t' ops → t' ≤ X + gap → (∀ c', (c.step op).1 = .live c' → t' ≤ X) →
        (∀ r, (c.step op).1 = .closing r → t' ≤ X) → lastTick t' ops ≤ X + gap := by
      intro t' h1 h2 h3 h4
      cases hs : (c.step op).1 with
      | live c' =>
        rw [hs] at hn' hl'
        exact ih t' c' h1 (h3 c' hs) hn' hl'
      | closing r =>
        rw [hs] at hn'
        have := closing_last gap t' ops r h1 hn'
        have := h4 r hs
        omega
      | over r =>
        cases ops with
        | nil => exact h2
        | cons op' ops => exact absurd hs (hn' [] op' ops rfl r)
    cases op with
    | tick e =>
      refine key e.now ht.2 (Nat.le_trans ht.1 (by omega)) (fun c' h => hl [] e ops c' rfl h) ?_
      intro r h
      exfalso
      unfold Cli.step at h
      dsimp only at h
      split at h
      · cases h
      · split at h <;> cases h
    | poll f i => exact key t ht (by omega) (fun _ _ => hx) (fun _ _ => hx)
    | io s o => exact key t ht (by omega) (fun _ _ => hx) (fun _ _ => hx)
    | sinkError e => exact key t ht (by omega) (fun _ _ => hx) (fun _ _ => hx)
    | flushed => exact key t ht (by omega) (fun _ _ => hx) (fun _ _ => hx)

theorem call_last (cfg : Cfg) (k : Call) (s gap d X : Nat) (h : Timed cfg k s gap d) (hx : k.env.now ≤ X)
    (hl : ∀ a e b c, k.ops = a ++ .tick e :: b → (hist cfg k.env (a ++ [.tick e])).1 = .live c → e.now ≤ X) :
    s + d ≤ X + 2 * gap := by
  have h1 := live_last gap X k.ops k.env.now (Cli.new cfg k.env).1 h.timer hx h.last hl
  have h2 := h.ending
  omega

/-! ### Silence -/

theorem run_append (a b : List COp) : ∀ s : Conn, s.run (a ++ b) =
    (((s.run a).1.run b).1, (s.run a).2 ++ ((s.run a).1.run b).2) := by
  induction a with
  | nil => intro s; rfl
  | cons o a ih => intro s; simp only [List.cons_append, Conn.run, ih, List.append_assoc]

theorem ticking_append {gap : Nat} (a b : List COp) : ∀ {t : Nat}, Ticking gap t (a ++ b) →
    Ticking gap t a ∧ Ticking gap (lastTick t a) b := by
  induction a with
  | nil => exact fun h => ⟨trivial, h⟩
  | cons op a ih =>
    intro t h
    cases op with
    | tick e => exact ⟨⟨h.1, (ih h.2).1⟩, (ih h.2).2⟩
    | _ => exact ⟨(ih (t := t) h).1, (ih (t := t) h).2⟩

theorem ticking_mono {gap t t' : Nat} (ops : List COp) (h : Ticking gap t ops) (ht : t ≤ t') : Ticking gap t' ops := by
  induction ops with
  | nil => trivial
  | cons op ops ih =>
    cases op with
    | tick e => exact ⟨Nat.le_trans h.1 (by omega), h.2⟩
    | _ => exact ih h

theorem lastTick_mem (a : List COp) : ∀ t, lastTick t a ∈ t :: times a := by
  induction a with
  | nil => intro t; exact List.mem_cons_self
  | cons op a ih =>
    intro t
    cases op with
    | tick e => exact List.mem_cons_of_mem _ (ih e.now)
    | poll f i =>
      rcases List.mem_cons.mp (ih t) with h | h
      · rw [show lastTick t (COp.poll f i :: a) = lastTick t a from rfl, h]
        exact List.mem_cons_self
      · exact List.mem_cons_of_mem _ (List.mem_append_right _ h)
    | _ => exact ih t

theorem times_append (a b : List COp) : times (a ++ b) = times a ++ times b := by
  induction a with
  | nil => rfl
  | cons op a ih => cases op <;> simp [times, ih]

/-- C131: a call on which nothing is acknowledged after `t0` returns within 80 seconds and three times the delay of a timer
event. -/
theorem C131_returns (cfg : Cfg) (k : Call) (s gap d t0 : Nat) (h : Timed cfg k s gap d) (hs : SilentFrom cfg k t0) :
    s + d < t0 + 80 * sec + 3 * gap := by
  obtain ⟨p, q, hpq, ht, hn⟩ := hs
  have hX : s + d ≤ (t0 + 80 * sec + gap - 1) + 2 * gap := by
    have hsec : 80 * sec = 80000000000 := rfl
    refine call_last cfg k s gap d _ h ?_ ?_
    · have := ht k.env.now List.mem_cons_self
      omega
    · intro a e b c hk hl
      have hclock := h.clock
      have htimer := h.timer
      rw [hpq] at hk hclock htimer
      have hcases : (∃ x, p = a ++ .tick e :: x) ∨ ∃ r, a = p ++ r ∧ q = r ++ .tick e :: b := by
        rcases List.append_eq_append_iff.mp hk with ⟨r, h1, h2⟩ | ⟨r, h1, h2⟩
        · exact .inr ⟨r, h1, h2⟩
        · cases r with
          | nil =>
            rw [List.append_nil] at h1
            exact .inr ⟨[], by rw [h1, List.append_nil], h2.symm⟩
          | cons x r =>
            injection h2 with h2 h3
            exact .inl ⟨r, by rw [h1, h2]⟩
      rcases hcases with ⟨x, rfl⟩ | ⟨r, rfl, rfl⟩
      · have : e.now ≤ t0 := ht _ (List.mem_cons_of_mem _ (by
          rw [times_append]
          exact List.mem_append_right _ List.mem_cons_self))
        omega
      · have hm : Monotone k.env.now p := by
          unfold Monotone at hclock ⊢
          rw [times_append, ← List.cons_append] at hclock
          exact (List.pairwise_append.mp hclock).1
        have hg : Ticking gap t0 (r ++ [.tick e]) := by
          have h1 := (ticking_append p _ htimer).2
          rw [show r ++ COp.tick e :: b = (r ++ [.tick e]) ++ b by simp] at h1
          exact ticking_mono _ (ticking_append _ _ h1).1 (ht _ (lastTick_mem p _))
        have hn' : acked ((hist cfg k.env p).1.run (r ++ [.tick e])).2 = [] := by
          rw [hist_eq, show r ++ COp.tick e :: b = (r ++ [.tick e]) ++ b by simp, run_append, acked_append,
            List.append_eq_nil_iff] at hn
          exact hn.1
        rw [List.append_assoc] at hl
        have := Silence.C129_silent_server cfg k.env p r e c t0 gap hm ht hg hn' hl
        omega
  have hsec : 80 * sec = 80000000000 := rfl
  omega

/-- C131: so after the last acknowledgement of a server at `t0` the next attempt follows within 80 seconds (and the delays of
timer and task), or a minute after the last attempt if this is later. -/
theorem C131_reconnects (cfg : Cfg) (calls : Nat → Call) (addr : Bytes) (now : Nat) (rounds : List Round)
    (hc : Calls cfg calls rounds) (i : Nat) (r r' : Round) (hr : rounds[i]? = some r) (hr' : rounds[i + 1]? = some r')
    (s : Nat) (a : Bytes) (h : (attempts (trace addr false now rounds))[i]? = some (s, a))
    (h1 : ¬ Answers badVersion (calls i).chunks.flatten) (h2 : ¬ Answers notAuthorized (calls i).chunks.flatten)
    (gap t0 : Nat) (ht : Timed cfg (calls i) s gap r.duration) (hs : SilentFrom cfg (calls i) t0) :
    ∃ s' a', (attempts (trace addr false now rounds))[i + 1]? = some (s', a') ∧
      s' ≤ max (s + 60 * sec) (t0 + 80 * sec + 3 * gap + r.slack2) + r'.slack := by
  obtain ⟨s', a', h3, h4, -⟩ := Uplink.C119_next_attempt cfg calls addr now rounds hc i r r' hr hr' s a h h1 h2
  have h5 := C131_returns cfg (calls i) s gap r.duration t0 ht hs
  exact ⟨s', a', h3, by omega⟩

/-! ### A server that never acknowledges anything -/

theorem hs_got (reg : Control.ControlMessage) (st : Hs) (e : NEv) (h : hsNext reg st e = .established) :
    st = .established ∨ ∃ m, e = .ev (.got m .ok) := by
  cases st with
  | established => exact .inl rfl
  | start =>
    rcases e with e | m
    · cases e with
      | queued t m =>
        have h : (if m = reg then Hs.registered else .bad) = .established := h
        split at h <;> cases h
      | _ => cases h
    · cases h
  | registered =>
    rcases e with e | m
    · cases e with
      | got m o =>
        have h : (if o = handshakeOutcome m then (if o = .ok then Hs.established else .failed) else .bad) = .established := h
        by_cases ho : o = .ok
        · exact .inr ⟨m, by rw [ho]⟩
        · rw [if_neg ho] at h
          split at h <;> cases h
      | _ => cases h
    · have h : (if m = reg.toArrow then Hs.sent else .bad) = .established := h
      split at h <;> cases h
  | sent =>
    rcases e with e | m
    · cases e with
      | got m o =>
        have h : (if o = handshakeOutcome m then (if o = .ok then Hs.established else .failed) else .bad) = .established := h
        by_cases ho : o = .ok
        · exact .inr ⟨m, by rw [ho]⟩
        · rw [if_neg ho] at h
          split at h <;> cases h
      | _ => cases h
    · cases h
  | failed => cases h
  | bad => cases h

theorem established_got (reg : Control.ControlMessage) (es : List NEv) : ∀ st, st ≠ .established →
    es.foldl (hsNext reg) st = .established → ∃ m, .ev (.got m .ok) ∈ es := by
  induction es with
  | nil => intro st h h'; exact absurd h' h
  | cons e es ih =>
    intro st h h'
    by_cases hs : hsNext reg st e = .established
    · rcases hs_got reg st e hs with h1 | ⟨m, rfl⟩
      · exact absurd h1 h
      · exact ⟨m, List.mem_cons_self⟩
    · obtain ⟨m, hm⟩ := ih _ hs h'
      exact ⟨m, List.mem_cons_of_mem _ hm⟩

/-- A connection on which a message was accepted has accepted an acknowledgement. -/
theorem got_acked (cfg : Cfg) (env : Env) (ops : List COp) (m : Wire.Message) (h : .ev (.got m .ok) ∈ (hist cfg env ops).2) :
    acked (hist cfg env ops).2 ≠ [] := by
  have hr : received (hist cfg env ops).2 ≠ [] := by
    intro h0
    have : m ∈ received (hist cfg env ops).2 := List.mem_filterMap.mpr ⟨_, h, rfl⟩
    rw [h0] at this
    cases this
  obtain ⟨pre, m', o, rest, e1, e2, -⟩ := split_got _ hr
  obtain ⟨ho, hrest⟩ := Client.C30_first_answer cfg env ops pre rest m' o e1 e2
  by_cases hok : o = .ok
  · subst hok
    have ha : ackId m' = some 0 := by
      unfold handshakeOutcome at ho
      split at ho
      · assumption
      · cases ho
    intro h0
    rw [e1, acked_append] at h0
    have h1 := (List.append_eq_nil_iff.mp h0).2
    unfold acked at h1
    rw [List.filterMap_cons] at h1
    dsimp only at h1
    rw [ha] at h1
    cases h1
  · rw [e1, hrest hok] at h
    rcases List.mem_append.mp h with h | h
    · exact absurd h (e2 _ _)
    · rw [List.mem_singleton] at h
      injection h with h
      injection h with _ h
      exact absurd h.symm hok

/-- C131: a call on which nothing is ever acknowledged returns within 40 seconds and three delays: 20 for the connection, 20
for the answer to REGISTER. It does not redirect. -/
theorem C131_mute (cfg : Cfg) (k : Call) (s gap d : Nat) (r : ConnRes) (h : Timed cfg k s gap d) (hr : k.Returns cfg r d)
    (ht : k.tls = true) (i t : Nat) (hc : Tls.connect k.net = (.connected i, t)) (hm : Mute cfg k) :
    s + d ≤ s + 40 * sec + 3 * gap ∧ ∀ a, r ≠ .redirect a := by
  have hm' : acked (hist cfg k.env k.ops).2 = [] := hm
  constructor
  · have hup := h.up i t hc
    have hlim : t ≤ 20000 := by
      have := Uplink.connect_limit k.net
      rw [hc] at this
      exact this
    have hms : ms = 1000000 := by decide
    have hsec : 40 * sec = 40000000000 := rfl
    have := call_last cfg k s gap d (k.env.now + 20000000000) h (by omega) (by
      intro a e b c hk hl
      refine Nat.le_of_lt (Silence.C129_no_handshake cfg k.env a e c ?_ hl)
      intro he
      obtain ⟨m, hmem⟩ := established_got _ _ .start (by decide) he
      have := got_acked cfg k.env a m hmem
      rw [hk, hist_append, acked_append, List.append_eq_nil_iff] at hm'
      exact this hm'.1)
    rw [hms] at hup
    omega
  · intro a hra
    subst hra
    unfold Call.Returns at hr
    rw [if_pos ht, hc] at hr
    have hov : (hist cfg k.env k.ops).1 = .over (.redirect a) := by
      have hr := hr.2
      rw [show k.hist cfg = hist cfg k.env k.ops from rfl] at hr
      split at hr
      · rename_i hx
        injection hr with hr
        rw [hx, hr]
      · cases hr
      · cases hr
    obtain ⟨pre, e, h1, h2⟩ := Client.C34_redirect_origin cfg k.env k.ops a (.inr hov)
    unfold endOf at h2
    split at h2
    · exact got_acked cfg k.env k.ops _ (by rw [h1]; exact List.mem_append_right _ (List.mem_singleton.mpr rfl)) hm'
    · cases h2

/-- C131: then the next attempt begins exactly a minute after this one (but for the delay of the task), and goes to the
configured address. -/
theorem C131_next_minute (cfg : Cfg) (calls : Nat → Call) (addr : Bytes) (now : Nat) (rounds : List Round)
    (hc : Calls cfg calls rounds) (i : Nat) (r r' : Round) (hr : rounds[i]? = some r) (hr' : rounds[i + 1]? = some r')
    (s : Nat) (a : Bytes) (h : (attempts (trace addr false now rounds))[i]? = some (s, a)) (gap : Nat)
    (ht : Timed cfg (calls i) s gap r.duration) (ho : Out cfg (calls i)) (hs : 3 * gap + r.slack2 ≤ 19 * sec) :
    (attempts (trace addr false now rounds))[i + 1]? = some (s + 60 * sec + r'.slack, addr) := by
  have hsec : sec = 1000000000 := by decide
  by_cases hn : ∀ j t, Tls.connect (calls i).net ≠ (.connected j, t)
  · exact Uplink.C119_unreachable cfg calls addr now rounds hc i r r' hr hr' s a h ho.tls hn (by omega)
  · rcases ho.silent with h0 | hm
    · exact absurd h0 hn
    simp only [Classical.not_forall, Classical.not_not] at hn
    obtain ⟨j, t, hj⟩ := hn
    obtain ⟨hf, hret⟩ := hc i r hr
    obtain ⟨h1, h2⟩ := C131_mute cfg (calls i) s gap r.duration r.result ht hret ho.tls j t hj hm
    have hres := result_at rounds (Task.start addr false now) now rfl i r s a hr h
    have h3 := Reconnect.C45_retry_policy addr now rounds i r r' s _ a _ hr hr' h hres
    cases hx : r.result with
    | redirect x => exact absurd hx (h2 x)
    | error e =>
      rw [hx] at h3 hret
      have e1 : e ≠ .unsupportedVersion := fun he => ho.version (Uplink.C119_unsupported cfg _ hf _ (he ▸ hret)).2
      have e2 : e ≠ .unauthorized := fun he => ho.known (Uplink.C119_unauthorized cfg _ hf _ (he ▸ hret)).2
      rw [Reconnect.due_other _ _ _ _ e1 e2, if_pos (by rw [hsec] at hs h1 ⊢; omega)] at h3
      exact h3

/-- C131: while the server is out, from the attempt `i` on, the attempts come once a minute. -/
theorem C131_every_minute (cfg : Cfg) (calls : Nat → Call) (addr : Bytes) (now : Nat) (rounds : List Round)
    (hc : Calls cfg calls rounds) (i : Nat) (s : Nat) (a : Bytes)
    (h : (attempts (trace addr false now rounds))[i]? = some (s, a)) (gap : Nat) (hg : 4 * gap ≤ 19 * sec) (n : Nat)
    (hlen : i + n < rounds.length)
    (ho : ∀ j r s a, i ≤ j → j < i + n → rounds[j]? = some r → (attempts (trace addr false now rounds))[j]? = some (s, a) →
      Timed cfg (calls j) s gap r.duration ∧ Out cfg (calls j))
    (hsl : ∀ r ∈ rounds, r.slack ≤ gap ∧ r.slack2 ≤ gap) :
    ∃ s' a', (attempts (trace addr false now rounds))[i + n]? = some (s', a') ∧ s + n * (60 * sec) ≤ s' ∧
      s' ≤ s + n * (60 * sec + gap) ∧ (0 < n → a' = addr) := by
  induction n with
  | zero => exact ⟨s, a, h, by omega, by omega, fun h => absurd h (Nat.lt_irrefl 0)⟩
  | succ n ih =>
    obtain ⟨s', a', h1, h2, h3, -⟩ := ih (by omega) (fun j r s a h1 h2 => ho j r s a h1 (by omega))
    have hr : rounds[i + n]? = some rounds[i + n] := List.getElem?_eq_getElem (by omega)
    have hr' : rounds[i + n + 1]? = some rounds[i + n + 1] := List.getElem?_eq_getElem (by omega)
    obtain ⟨h4, h5⟩ := ho (i + n) _ s' a' (by omega) (by omega) hr h1
    have h6 := hsl _ (List.getElem_mem (show i + n < rounds.length by omega))
    have h7 := hsl _ (List.getElem_mem (show i + n + 1 < rounds.length by omega))
    refine ⟨_, _, C131_next_minute cfg calls addr now rounds hc (i + n) _ _ hr hr' s' a' h1 gap h4 h5 (by omega), ?_, ?_,
      fun _ => rfl⟩
    · rw [Nat.succ_mul n]
      omega
    · rw [Nat.succ_mul n]
      omega

/-- C131: so if the server comes back at any time `W`, an attempt follows within a minute (and a delay). -/
theorem C131_found_again (cfg : Cfg) (calls : Nat → Call) (addr : Bytes) (now : Nat) (rounds : List Round)
    (hc : Calls cfg calls rounds) (i : Nat) (s : Nat) (a : Bytes)
    (h : (attempts (trace addr false now rounds))[i]? = some (s, a)) (gap : Nat) (hg : 4 * gap ≤ 19 * sec) (W : Nat) (hW : s < W)
    (n : Nat) (hn : W ≤ s + n * (60 * sec)) (hlen : i + n < rounds.length)
    (ho : ∀ j r s a, i ≤ j → rounds[j]? = some r → (attempts (trace addr false now rounds))[j]? = some (s, a) → s < W →
      Timed cfg (calls j) s gap r.duration ∧ Out cfg (calls j))
    (hsl : ∀ r ∈ rounds, r.slack ≤ gap ∧ r.slack2 ≤ gap) :
    ∃ j s', i < j ∧ (attempts (trace addr false now rounds))[j]? = some (s', addr) ∧ W ≤ s' ∧ s' < W + 60 * sec + gap := by
  induction n generalizing i s a with
  | zero => omega
  | succ n ih =>
    have hr : rounds[i]? = some rounds[i] := List.getElem?_eq_getElem (by omega)
    have hr' : rounds[i + 1]? = some rounds[i + 1] := List.getElem?_eq_getElem (by omega)
    obtain ⟨h4, h5⟩ := ho i _ s a (by omega) hr h hW
    have h6 := hsl _ (List.getElem_mem (show i < rounds.length by omega))
    have h7 := hsl _ (List.getElem_mem (show i + 1 < rounds.length by omega))
    have h8 := C131_next_minute cfg calls addr now rounds hc i _ _ hr hr' s a h gap h4 h5 (by omega)
    by_cases hw : W ≤ s + 60 * sec + rounds[i + 1].slack
    · exact ⟨_, _, Nat.lt_succ_self i, h8, hw, by omega⟩
    · rw [Nat.succ_mul n] at hn
      obtain ⟨j, s', h9, h10⟩ := ih (i + 1) _ _ h8 (by omega) (by omega) (by omega)
        (fun j r s a h1 => ho j r s a (by omega))
      exact ⟨j, s', by omega, h10⟩

/-! ### Examples -/

/-- A server that is reached but never says anything. The timer fires every four seconds. -/
def demoMute (b : Nat) : Call :=
  ⟨true, Uplink.demoNet, Client.demoEnv (b + 1) 0,
    .poll .pending [] :: (List.range 5).map (fun i => .tick (Client.demoEnv (b + 5 + 4 * i) 0)), []⟩

/-- A server that accepts the client after two seconds and is not heard of any more. -/
def demoDead : Call :=
  ⟨true, Uplink.demoNet, Client.demoEnv 1 0,
    .poll .pending [] :: .poll (.msg (Client.demoEnv 2 0) ⟨⟨2, 0, 0, 8⟩, [0, 0, 0, 0, 0, 0, 0, 0]⟩) [] ::
      (List.range 20).map (fun i => .tick (Client.demoEnv (5 + 4 * i) 0)),
    [[2, 0, 0, 0, 0, 0, 0, 0, 0, 0, 8, 0, 0, 0, 0, 0, 0, 0, 0]]⟩

def ended : Conn → Option ErrKind
  | .over (.error e) => some e
  | _ => none

theorem ended_over {x : Conn} {e : ErrKind} (h : ended x = some e) : x = .over (.error e) := by
  unfold ended at h
  split at h
  · cases h; rfl
  · cases h

def alive : Conn → Bool
  | .live _ => true
  | _ => false

theorem last_of (cfg : Cfg) (k : Call)
    (h : (List.range k.ops.length).all (fun n => alive (hist cfg k.env (k.ops.take n)).1) = true) :
    ∀ a op b, k.ops = a ++ op :: b → ∀ r, (({ k with ops := a } : Call).hist cfg).1 ≠ .over r := by
  intro a op b hk r hr
  have h1 := List.all_eq_true.mp h a.length (List.mem_range.mpr (by rw [hk]; simp))
  rw [hk, List.take_left, show hist cfg k.env a = ({ k with ops := a } : Call).hist cfg from rfl, hr] at h1
  cases h1

/-- What has to be known of the silent server for a start at `b` seconds. -/
structure DemoMute (b : Nat) : Prop where
  over : ended ((demoMute b).hist Client.demoCfg).1 = some .connection
  mute : acked ((demoMute b).hist Client.demoCfg).2 = []
  got : received ((demoMute b).hist Client.demoCfg).2 = []
  alive : (List.range (demoMute b).ops.length).all
    (fun n => Outage.alive (hist Client.demoCfg (demoMute b).env ((demoMute b).ops.take n)).1) = true
  clock : Monotone (demoMute b).env.now (demoMute b).ops

theorem demoMute0 : DemoMute 0 :=
  ⟨by decide +kernel, by decide +kernel, by decide +kernel, by decide +kernel, by unfold Monotone; decide +kernel⟩
theorem demoMute60 : DemoMute 60 :=
  ⟨by decide +kernel, by decide +kernel, by decide +kernel, by decide +kernel, by unfold Monotone; decide +kernel⟩
theorem demoMute120 : DemoMute 120 :=
  ⟨by decide +kernel, by decide +kernel, by decide +kernel, by decide +kernel, by unfold Monotone; decide +kernel⟩

theorem DemoMute.timed {b : Nat} (h : DemoMute b) : Timed Client.demoCfg (demoMute b) (b * sec) (4 * sec) (21 * sec) := by
  have hsec : sec = 1000000000 := by decide
  refine ⟨fun i t ht => ?_, h.clock, ?_, ?_, last_of _ _ h.alive⟩
  · rw [show (demoMute b).net = Uplink.demoNet from rfl, Uplink.demo_connect] at ht
    cases ht
    show (b + 1) * sec ≤ b * sec + 145 * ms + 4 * sec
    rw [Nat.add_mul]
    omega
  · show Ticking (4 * sec) ((b + 1) * sec) _
    simp only [demoMute, show List.range 5 = [0, 1, 2, 3, 4] from rfl, List.map_cons, List.map_nil, Ticking, Client.demoEnv, hsec,
      and_true]
    refine ⟨?_, ?_, ?_, ?_, ?_⟩ <;> omega
  · show b * sec + 21 * sec ≤ lastTick _ (demoMute b).ops + 4 * sec
    simp only [demoMute, show List.range 5 = [0, 1, 2, 3, 4] from rfl, List.map_cons, List.map_nil, lastTick, Client.demoEnv, hsec]
    omega

theorem DemoMute.call {b : Nat} (h : DemoMute b) : (demoMute b).Fits Client.demoCfg ∧
    (demoMute b).Returns Client.demoCfg (.error .connection) (21 * sec) := by
  refine ⟨⟨by rw [h.got]; exact List.nil_prefix, fun op hop e he => ?_, fun e he => ?_⟩, ?_⟩
  · simp only [demoMute, List.mem_cons, List.mem_map] at hop
    rcases hop with rfl | ⟨i, -, rfl⟩ <;> simp [answers] at he
  · simp [demoMute] at he
  · unfold Call.Returns
    rw [if_pos (show (demoMute b).tls = true from rfl), show (demoMute b).net = Uplink.demoNet from rfl, Uplink.demo_connect]
    dsimp only
    rw [ended_over h.over]
    exact ⟨by decide, rfl⟩

theorem DemoMute.out {b : Nat} (h : DemoMute b) : Out Client.demoCfg (demoMute b) :=
  ⟨rfl, .inr h.mute, fun h => absurd h.whole (by show ¬ 19 ≤ 0; decide),
    fun h => absurd h.whole (by show ¬ 19 ≤ 0; decide)⟩

def demoCalls (i : Nat) : Call := demoMute (60 * i)

def demoRounds : List Round := List.replicate 3 ⟨0, 21 * sec, .error .connection, 0⟩

theorem demo_attempts : attempts (trace (asc "a:1") false 0 demoRounds) =
    [(0, asc "a:1"), (60 * sec, asc "a:1"), (120 * sec, asc "a:1")] := by decide +kernel

theorem demo_calls : Calls Client.demoCfg demoCalls demoRounds := by
  intro i r hr
  match i, hr with
  | 0, hr => cases hr; exact demoMute0.call
  | 1, hr => cases hr; exact demoMute60.call
  | 2, hr => cases hr; exact demoMute120.call
  | i + 3, hr => cases hr

theorem demo_timed (j : Nat) (r : Round) (s : Nat) (a : Bytes) (hr : demoRounds[j]? = some r)
    (h : (attempts (trace (asc "a:1") false 0 demoRounds))[j]? = some (s, a)) :
    Timed Client.demoCfg (demoCalls j) s (4 * sec) r.duration ∧ Out Client.demoCfg (demoCalls j) := by
  rw [demo_attempts] at h
  match j, hr, h with
  | 0, hr, h => cases hr; cases h; exact ⟨by have := demoMute0.timed; rwa [Nat.zero_mul] at this, demoMute0.out⟩
  | 1, hr, h => cases hr; cases h; exact ⟨demoMute60.timed, demoMute60.out⟩
  | 2, hr, h => cases hr; cases h; exact ⟨demoMute120.timed, demoMute120.out⟩
  | j + 3, hr, h => cases hr

theorem demo_slack : ∀ r ∈ demoRounds, r.slack ≤ 4 * sec ∧ r.slack2 ≤ 4 * sec := by
  intro r hr
  rw [(List.mem_replicate.mp hr).2]
  decide

/-- The server comes back after 100 seconds; an attempt follows (after 120). -/
example : ∃ j s', 0 < j ∧ (attempts (trace (asc "a:1") false 0 demoRounds))[j]? = some (s', asc "a:1") ∧ 100 * sec ≤ s' ∧
    s' < 100 * sec + 60 * sec + 4 * sec :=
  C131_found_again Client.demoCfg demoCalls (asc "a:1") 0 demoRounds demo_calls 0 0 (asc "a:1") (by rw [demo_attempts]; rfl)
    (4 * sec) (by decide) (100 * sec) (by decide) 2 (by decide) (by decide) (fun j r s a _ h1 h2 _ => demo_timed j r s a h1 h2)
    demo_slack

example : ∃ s' a', (attempts (trace (asc "a:1") false 0 demoRounds))[0 + 2]? = some (s', a') ∧ 0 + 2 * (60 * sec) ≤ s' ∧
    s' ≤ 0 + 2 * (60 * sec + 4 * sec) ∧ (0 < 2 → a' = asc "a:1") :=
  C131_every_minute Client.demoCfg demoCalls (asc "a:1") 0 demoRounds demo_calls 0 0 (asc "a:1") (by rw [demo_attempts]; rfl)
    (4 * sec) (by decide) 2 (by decide) (fun j r s a _ _ h1 h2 => demo_timed j r s a h1 h2) demo_slack

theorem demo_dead : Timed Client.demoCfg demoDead 0 (4 * sec) (81 * sec) ∧ SilentFrom Client.demoCfg demoDead (2 * sec) ∧
    demoDead.Fits Client.demoCfg ∧ demoDead.Returns Client.demoCfg (.error .connection) (81 * sec) := by
  refine ⟨⟨fun i t ht => ?_, by unfold Monotone; decide +kernel, ?_, by decide +kernel, last_of _ _ (by decide +kernel)⟩,
    ⟨demoDead.ops.take 2, demoDead.ops.drop 2, (List.take_append_drop _ _).symm, by decide +kernel, by decide +kernel⟩,
    ⟨by decide +kernel, fun op hop e he => ?_, fun e he => ?_⟩, ?_⟩
  · rw [show demoDead.net = Uplink.demoNet from rfl, Uplink.demo_connect] at ht
    cases ht
    decide
  · simp only [demoDead, show List.range 20 = [0, 1, 2, 3, 4, 5, 6, 7, 8, 9, 10, 11, 12, 13, 14, 15, 16, 17, 18, 19] from rfl,
      List.map_cons, List.map_nil, Ticking, Client.demoEnv]
    decide
  · simp only [demoDead, List.mem_cons, List.mem_map] at hop
    rcases hop with rfl | rfl | ⟨i, -, rfl⟩ <;> simp [answers] at he
  · simp [demoDead] at he
  · unfold Call.Returns
    rw [if_pos (show demoDead.tls = true from rfl), show demoDead.net = Uplink.demoNet from rfl, Uplink.demo_connect]
    dsimp only
    rw [ended_over (show ended (demoDead.hist Client.demoCfg).1 = some .connection by decide +kernel)]
    exact ⟨by decide, rfl⟩

/-- The last acknowledgement comes after 2 seconds; the next attempt begins at once when the connection is given up (after 81). -/
example : ∃ s' a', (attempts (trace (asc "a:1") false 0 (List.replicate 2 ⟨0, 81 * sec, .error .connection, 0⟩)))[0 + 1]? = some (s', a') ∧
      s' ≤ max (0 + 60 * sec) (2 * sec + 80 * sec + 3 * (4 * sec) + 0) + 0 := by
  refine C131_reconnects Client.demoCfg (fun _ => demoDead) (asc "a:1") 0 (List.replicate 2 ⟨0, 81 * sec, .error .connection, 0⟩) ?_ 0
    ⟨0, 81 * sec, .error .connection, 0⟩ ⟨0, 81 * sec, .error .connection, 0⟩ rfl rfl 0 (asc "a:1") (by decide +kernel)
    (fun h => absurd h.code (by decide)) (fun h => absurd h.code (by decide)) (4 * sec) (2 * sec) demo_dead.1 demo_dead.2.1
  intro i r hr
  match i, hr with
  | 0, hr => cases hr; exact demo_dead.2.2
  | 1, hr => cases hr; exact demo_dead.2.2
  | i + 2, hr => cases hr

end Verif.Props.Outage
