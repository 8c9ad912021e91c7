import Verif.Lemmas.TlsIo
/-!
# C99: asynchronous TLS streams

`xs` is any interleaving of the steps of any number of threads that poll any number of connections, with any answers of the
streams below. `eng` is OpenSSL; what is expected of it is `Honest`. The specification is in `Verif/Spec/TlsIo.lean`.
-/
namespace Verif.TlsIo
open Verif Verif.Spec.TlsIo

variable {E : Type} {eng : Engine E} {init : Nat → E}

/-- C99: what happens with a connection is a sequence of polls. Each does with the stream below what OpenSSL does with a stream
that answers at once, "would block" being told for "pending" and "pending" returned for "would block", and goes on from where
the one before it ended. Everything is asked of the stream below in the thread and with the waker of the poll. -/
theorem C99_polls (H : Honest eng) (xs : List Step) (i : Nat) :
    ∃ a b c, ((Sys.new init).run eng xs).2.filter (About i) = a ++ b ∧ Polls eng i (.fresh (init i)) a c ∧
      (b = [] ∨ Unfinished i b) := by
  have I := run_inv H init xs _ _ (Inv.start eng init)
  rw [List.nil_append] at I
  cases hb : ((Sys.new init).run eng xs).1.busy i with
  | false => exact ⟨_, [], _, (List.append_nil _).symm, I.free i hb, .inl rfl⟩
  | true =>
    obtain ⟨t, r, h1, rfl⟩ := I.owner i hb
    obtain ⟨-, ⟨c, a, op, l, p, h2, -, -, h3⟩⟩ := I.busy t r h1
    exact ⟨a, _, c, h3, h2, .inr ⟨t, r.waker, op, l, rfl⟩⟩

/-- C99: no poll panics: there always is a context for the callbacks, a connection that has ended is not polled, and a buffer is
not overrun. -/
theorem C99_no_panic (H : Honest eng) (xs : List Step) : Ev.abort ∉ ((Sys.new init).run eng xs).2 := by
  have I := run_inv H init xs _ _ (Inv.start eng init)
  rw [List.nil_append] at I
  exact I.quiet

/-- C99: a thread keeps no waker when it has left a poll. -/
theorem C99_context (H : Honest eng) (xs : List Step) (t : Nat) (h : ((Sys.new init).run eng xs).1.running t = none) :
    ((Sys.new init).run eng xs).1.context t = none := by
  have I := run_inv H init xs _ _ (Inv.start eng init)
  rw [I.context, h]
  rfl

theorem last_pending {l : List (Req × Answer)} (hl : ∀ x ∈ l, x.2 ≠ .failed .wouldBlock)
    (h : ∃ l' q a, l = l' ++ [(q, a)] ∧ tell a = .err .wouldBlock) : ∃ l' q, l = l' ++ [(q, .pending)] := by
  obtain ⟨l', q, a, rfl, ha⟩ := h
  cases a with
  | pending => exact ⟨l', q, rfl⟩
  | ready v => cases ha
  | failed k =>
    cases ha
    exact absurd rfl (hl (q, .failed .wouldBlock) (List.mem_append_right _ List.mem_cons_self))

/-- C99: a poll that returns "pending" was told so by the stream below in its last request, provided that the stream below
does not return "would block" as an error. -/
theorem C99_pending (H : Honest eng) {c c' : Conn E} {op : Op} {l : List (Req × Answer)} (h : Does eng c op l c' .pending)
    (hl : ∀ x ∈ l, x.2 ≠ .failed .wouldBlock) : ∃ l' q, l = l' ++ [(q, .pending)] := by
  cases h with
  | handshakePending ht =>
    obtain ⟨b, hb, hx⟩ := always_talk (H.handshake _) ht
    exact last_pending hl ((hx (hb _ rfl)).resolve_left fun h => by cases h.2)
  | readPending ht =>
    obtain ⟨b, hb, hx⟩ := always_talk (H.read _ _) ht
    exact last_pending hl ((hx (hb.1 rfl)).resolve_left fun h => by cases h.2)
  | writePending ht =>
    obtain ⟨b, hb, hx⟩ := always_talk (H.write _ _) ht
    exact last_pending hl ((hx (hb rfl)).resolve_left fun h => by cases h.2)
  | flushPending ht =>
    obtain ⟨b, hb, hx⟩ := always_talk (H.flush _) ht
    exact last_pending hl ((hx (hb rfl)).resolve_left fun h => by cases h.2)
  | shutPending ht =>
    obtain ⟨b, hb, hx⟩ := always_talk (H.shutdown _) ht
    exact last_pending hl ((hx (hb rfl)).resolve_left fun h => by cases h.2)
  | shutBelowPending ht => exact ⟨_, _, rfl⟩

theorem split_poll {t i w : Nat} {o : Out} : ∀ (l : List (Req × Answer)) (as post : List Ev) (t' w' : Nat) (o' : Out),
    l.map (fun x => Ev.below t' i w' x.1 x.2) ++ [.ret t' i w' o'] = as ++ .ret t i w o :: post →
    t = t' ∧ w = w' ∧ o = o' ∧ as = l.map fun x => Ev.below t' i w' x.1 x.2
  | [], as, post, t', w', o', h => by
    cases as with
    | nil => cases h; exact ⟨rfl, rfl, rfl, rfl⟩
    | cons a as =>
      injection h with _ h
      cases as <;> cases h
  | x :: l, as, post, t', w', o', h => by
    cases as with
    | nil => cases h
    | cons a as =>
      injection h with h1 h2
      obtain ⟨e1, e2, e3, e4⟩ := split_poll l as post t' w' o' h2
      exact ⟨e1, e2, e3, by rw [← h1, e4]; rfl⟩

theorem polls_ret {i : Nat} {c c' : Conn E} {evs : List Ev} (h : Polls eng i c evs c') (pre post : List Ev) (t w : Nat) (o : Out)
    (he : evs = pre ++ .ret t i w o :: post) : ∃ (c1 c2 : Conn E) (op : Op) (l : List (Req × Answer)) (a : List Ev),
      Does eng c1 op l c2 o ∧ pre = a ++ ([.begin t i w op] ++ l.map fun x => .below t i w x.1 x.2) := by
  induction h generalizing pre post with
  | nil => cases pre <;> cases he
  | @poll evs c1 c2 t' w' op l o' h hd ih =>
    rcases List.append_eq_append_iff.1 he with ⟨as, h1, h2⟩ | ⟨bs, h1, h2⟩
    · cases as with
      | nil => cases h2
      | cons a as =>
        rw [List.append_assoc] at h2
        injection h2 with h2 h3
        obtain ⟨rfl, rfl, rfl, h4⟩ := split_poll l as post t' w' o' h3
        exact ⟨c1, c2, op, l, evs, hd, by rw [h1, ← h2, h4]; rfl⟩
    · cases bs with
      | nil => cases h2
      | cons b bs =>
        injection h2 with h2 h3
        subst h2
        exact ih pre bs h1

/-- C99, no lost wake-up: when a poll of a task returns "pending", the last thing that happened to the connection is that the
stream below was polled with the waker of this task, in the same thread, and was not ready. -/
theorem C99_wake (H : Honest eng) (xs : List Step) (i t w : Nat) (pre post : List Ev)
    (he : ((Sys.new init).run eng xs).2.filter (About i) = pre ++ .ret t i w .pending :: post)
    (hl : ∀ t' w' r, .below t' i w' r (.failed .wouldBlock) ∉ ((Sys.new init).run eng xs).2) :
    ∃ pre' r, pre = pre' ++ [.below t i w r .pending] := by
  obtain ⟨a, b, c, h1, h2, h3⟩ := C99_polls (init := init) H xs i
  have hsub : ∀ e ∈ a, e ∈ ((Sys.new init).run eng xs).2 := by
    intro e hm
    have : e ∈ ((Sys.new init).run eng xs).2.filter (About i) := by rw [h1]; exact List.mem_append_left _ hm
    exact (List.mem_filter.1 this).1
  rw [h1] at he
  have hin : ∃ post', a = pre ++ .ret t i w .pending :: post' := by
    rcases List.append_eq_append_iff.1 he with ⟨as, e1, e2⟩ | ⟨bs, e1, e2⟩
    · rcases h3 with rfl | ⟨t', w', op, l, rfl⟩
      · cases as <;> cases e2
      · exfalso
        have : Ev.ret t i w .pending ∈ [Ev.begin t' i w' op] ++ l.map (fun x => Ev.below t' i w' x.1 x.2) := by
          rw [e2]; exact List.mem_append_right _ List.mem_cons_self
        rcases List.mem_append.1 this with h | h
        · cases List.mem_singleton.1 h
        · obtain ⟨x, -, hx⟩ := List.mem_map.1 h
          cases hx
    · cases bs with
      | nil =>
        exfalso
        rcases h3 with rfl | ⟨t', w', op, l, rfl⟩
        · cases e2
        · cases e2
      | cons x bs =>
        injection e2 with e2 e3
        subst e2
        exact ⟨bs, e1⟩
  obtain ⟨post', hin⟩ := hin
  obtain ⟨c1, c2, op, l, a', hd, hp⟩ := polls_ret h2 pre post' t w .pending hin
  have hok : ∀ x ∈ l, x.2 ≠ .failed .wouldBlock := by
    intro x hx hf
    refine hl t w x.1 (hsub _ ?_)
    rw [hin, hp, ← hf]
    exact List.mem_append_left _ (List.mem_append_right _ (List.mem_append_right _ (List.mem_map_of_mem hx)))
  obtain ⟨l', q, hlast⟩ := C99_pending H hd hok
  refine ⟨a' ++ ([.begin t i w op] ++ l'.map fun x => .below t i w x.1 x.2), q, ?_⟩
  rw [hp, hlast, List.map_append]
  simp

namespace Example

/-- A toy engine that shows its state as a first message, waits for one byte, and then changes every byte. -/
def crypt (bs : Bytes) : Bytes := bs.map (· ^^^ 0x55)

def toyHandshake (e : UInt8) : Prog (Handshake UInt8) :=
  .io (.read 1) fun
    | .ok _ => .ret (.ok e)
    | .err .wouldBlock => .ret (.wouldBlock e)
    | .err _ => .ret .failure

def toy : Engine UInt8 where
  connect e := .io (.write [e]) fun
    | .ok _ => toyHandshake e
    | .err .wouldBlock => .ret (.wouldBlock e)
    | .err _ => .ret .failure
  handshake := toyHandshake
  read e n := .io (.read n) fun
    | .ok (.bytes bs) => .ret (e, .ok (crypt (bs.take n)))
    | .ok _ => .ret (e, .ok [])
    | .err k => .ret (e, .err k)
  write e d := .io (.write (crypt d)) fun
    | .ok (.count n) => .ret (e, .ok n)
    | .ok _ => .ret (e, .ok 0)
    | .err k => .ret (e, .err k)
  flush e := .io .flush fun
    | .ok _ => .ret (e, .ok ())
    | .err k => .ret (e, .err k)
  shutdown e := .io (.write [0]) fun
    | .ok _ => .ret (e, .ok)
    | .err k => .ret (e, .io k)

theorem toyHandshake_honest (b : Bool) (e : UInt8) :
    Always (fun last h => ∀ e', h = Handshake.wouldBlock e' → last = true) b (toyHandshake e) := by
  refine .io fun x => ?_
  cases x with
  | ok v => exact .ret fun e' h => by cases h
  | err k =>
    cases k with
    | wouldBlock => exact .ret fun e' h => by simp
    | other n => exact .ret fun e' h => by cases h

/-- The engine is honest. -/
theorem toy_honest : Honest toy where
  connect e := by
    refine .io fun x => ?_
    cases x with
    | ok v => exact toyHandshake_honest _ e
    | err k =>
      cases k with
      | wouldBlock => exact .ret fun e' h => by simp
      | other n => exact .ret fun e' h => by cases h
  handshake e := toyHandshake_honest _ e
  read e n := by
    refine .io fun x => ?_
    cases x with
    | ok v =>
      cases v with
      | bytes bs =>
        refine .ret ⟨fun h => by (cases h; done), fun bs' h => ?_⟩
        cases h
        unfold crypt
        rw [List.length_map, List.length_take]
        exact Nat.min_le_left _ _
      | count m => exact .ret ⟨(fun h => by cases h), fun bs' h => by cases h; exact Nat.zero_le _⟩
      | unit => exact .ret ⟨(fun h => by cases h), fun bs' h => by cases h; exact Nat.zero_le _⟩
    | err k => exact .ret ⟨(fun h => by cases h; simp), fun bs' h => by cases h⟩
  write e d := by
    refine .io fun x => ?_
    cases x with
    | ok v => cases v <;> exact .ret fun h => by cases h
    | err k => exact .ret fun h => by cases h; simp
  flush e := by
    refine .io fun x => ?_
    cases x with
    | ok v => exact .ret fun h => by cases h
    | err k => exact .ret fun h => by cases h; simp
  shutdown e := by
    refine .io fun x => ?_
    cases x with
    | ok v => exact .ret fun h => by cases h
    | err k => exact .ret fun h => by cases h; simp

/-- Two threads connect two connections for the tasks 70 and 80; the steps alternate. The first has to wait and is woken up in
the other thread. -/
def steps : List Step :=
  [.begin 1 0 70 .start, .begin 2 1 80 .start, .next 1 (.ready (.count 1)), .next 2 (.ready (.count 1)), .next 1 .pending,
   .next 2 (.ready (.bytes [9])), .next 1 .pending, .next 2 .pending, .begin 2 1 80 .connect, .begin 1 0 70 .connect,
   .next 2 .pending, .next 1 .pending, .next 1 .pending, .begin 2 0 70 .connect, .begin 1 1 80 (.read 4),
   .next 1 (.ready (.bytes [1, 2])), .next 2 (.ready (.bytes [7])), .next 2 .pending, .next 1 .pending]

example : ((Sys.new (fun i => UInt8.ofNat i)).run toy steps).2.filter (About 0) =
    [.begin 1 0 70 .start, .below 1 0 70 (.write [0]) (.ready (.count 1)), .below 1 0 70 (.read 1) .pending,
     .ret 1 0 70 .started, .begin 1 0 70 .connect, .below 1 0 70 (.read 1) .pending, .ret 1 0 70 .pending,
     .begin 2 0 70 .connect, .below 2 0 70 (.read 1) (.ready (.bytes [7])), .ret 2 0 70 .connected] := by decide +kernel

example : ((Sys.new (fun i => UInt8.ofNat i)).run toy steps).2.filter (About 1) =
    [.begin 2 1 80 .start, .below 2 1 80 (.write [1]) (.ready (.count 1)), .below 2 1 80 (.read 1) (.ready (.bytes [9])),
     .ret 2 1 80 .started, .begin 2 1 80 .connect, .ret 2 1 80 .connected, .begin 1 1 80 (.read 4),
     .below 1 1 80 (.read 4) (.ready (.bytes [1, 2])), .ret 1 1 80 (.read (.ok [0x54, 0x57]))] := by decide +kernel

end Example

end Verif.TlsIo
