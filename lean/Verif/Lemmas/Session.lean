import Verif.Spec.Session
import Verif.Lemmas.Bytes
namespace Verif.Session
open Verif.Spec.Session

@[simp] theorem accepted_append (a b : List Obs) : accepted (a ++ b) = accepted a ++ accepted b := by
  simp [accepted]
@[simp] theorem wrote_append (a b : List Obs) : wrote (a ++ b) = wrote a ++ wrote b := by
  simp [wrote]
@[simp] theorem reads_append (a b : List Obs) : reads (a ++ b) = reads a ++ reads b := by
  simp [reads]
@[simp] theorem sentData_append (a b : List Obs) : sentData (a ++ b) = sentData a ++ sentData b := by
  simp [sentData]
@[simp] theorem gotAcks_append (a b : List Obs) : gotAcks (a ++ b) = gotAcks a + gotAcks b := by
  simp [gotAcks]
@[simp] theorem sentAcks_append (a b : List Obs) : sentAcks (a ++ b) = sentAcks a + sentAcks b := by
  simp [sentAcks]
@[simp] theorem causes_append (a b : List Obs) : causes (a ++ b) = causes a ++ causes b := by
  simp [causes]
@[simp] theorem ends_append (a b : List Obs) : ends (a ++ b) = ends a ++ ends b := by
  simp [ends]

@[simp] theorem accepted_nil : accepted [] = [] := rfl
@[simp] theorem wrote_nil : wrote [] = [] := rfl
@[simp] theorem reads_nil : reads [] = [] := rfl
@[simp] theorem sentData_nil : sentData [] = [] := rfl
@[simp] theorem gotAcks_nil : gotAcks [] = 0 := rfl
@[simp] theorem sentAcks_nil : sentAcks [] = 0 := rfl
@[simp] theorem causes_nil : causes [] = [] := rfl
@[simp] theorem ends_nil : ends [] = [] := rfl

theorem accepted_cons (o : Obs) (a : List Obs) :
    accepted (o :: a) = (match o with | .accepted d => d | _ => []) ++ accepted a := by
  cases o <;> rfl
theorem wrote_cons (o : Obs) (a : List Obs) :
    wrote (o :: a) = (match o with | .wrote d => d | _ => []) ++ wrote a := by
  cases o <;> rfl
theorem reads_cons (o : Obs) (a : List Obs) :
    reads (o :: a) = (match o with | .read d => d | _ => []) ++ reads a := by
  cases o <;> rfl
theorem sentData_cons (o : Obs) (a : List Obs) :
    sentData (o :: a) = (match o with | .sent (.data m) => m.payload | _ => []) ++ sentData a := by
  cases o with
  | sent i => cases i <;> rfl
  | _ => rfl
theorem gotAcks_cons (o : Obs) (a : List Obs) :
    gotAcks (o :: a) = (match o with | .gotAck d => d | _ => 0) + gotAcks a := by
  cases o <;> rfl
theorem sentAcks_cons (o : Obs) (a : List Obs) :
    sentAcks (o :: a) = (match o with | .sent (.ack m) => ackLength m | _ => 0) + sentAcks a := by
  cases o with
  | sent i => cases i <;> rfl
  | _ => rfl
theorem causes_cons (o : Obs) (a : List Obs) :
    causes (o :: a) = (match o with | .cause e => [e] | _ => []) ++ causes a := by
  cases o <;> rfl
theorem ends_cons (o : Obs) (a : List Obs) :
    ends (o :: a) = (match o with | .failed e => [some e] | .finished => [none] | _ => []) ++
      ends a := by
  cases o <;> rfl

/-- Rewrites projections of explicit observation lists. -/
macro "obs" : tactic => `(tactic| simp only [accepted_append, wrote_append, reads_append,
  sentData_append, gotAcks_append, sentAcks_append, causes_append, ends_append, accepted_cons,
  wrote_cons, reads_cons, sentData_cons, gotAcks_cons, sentAcks_cons, causes_cons, ends_cons,
  accepted_nil, wrote_nil, reads_nil, sentData_nil, gotAcks_nil, sentAcks_nil, causes_nil, ends_nil,
  List.append_nil, List.nil_append, Nat.add_zero, Nat.zero_add])

theorem run_append (s : Sess) (a b : List Op) :
    s.run (a ++ b) = (((s.run a).1.run b).1, (s.run a).2 ++ ((s.run a).1.run b).2) := by
  induction a generalizing s with
  | nil => rfl
  | cons o a ih => simp [Sess.run, ih]

/-- Invariants of a session are shown step by step. -/
theorem run_induct (P : Sess → List Obs → Prop)
    (hstep : ∀ s os op, P s os → P (s.step op).1 (os ++ (s.step op).2))
    (s : Sess) (os : List Obs) (h : P s os) (ops : List Op) :
    P (s.run ops).1 (os ++ (s.run ops).2) := by
  induction ops generalizing s os with
  | nil => simpa [Sess.run] using h
  | cons o ops ih =>
    have := ih _ _ (hstep s os o h)
    simpa [Sess.run] using this

/-- The accounting part of the session invariant. -/
structure Inv (svc : UInt16) (sess : UInt32) (W : Nat) (c : Ctx) (os : List Obs) : Prop where
  svcId : c.svc = svc
  sessId : c.sess = sess
  reads : reads os = sentData os ++ c.input
  accepted : accepted os = wrote os ++ c.output
  inCap : c.inCap + (sentData os).length = W + gotAcks os
  outCap : c.outCap + c.output.length + c.written = W
  acks : sentAcks os + c.written = (wrote os).length
  sent : ∀ i, .sent i ∈ os → match i with
    | .ack m => ∃ l : UInt32, m.body = .dataAck (mask24 sess) l ∧ 0 < l.toNat ∧ m.msgType = 0xc
    | .data m => m = Wire.Message.new svc sess m.payload ∧ m.payload ≠ []
  closed : c.closed = true ↔ causes os ≠ []
  open_ : c.closed = false → c.error = none ∧ ends os = []
  err : ends os = [] → c.closed = true → (causes os).head? = some c.error
  ended : ∀ r, (ends os).head? = some r → (causes os).head? = some r ∧ c.error = none
  tail : ∀ r ∈ (ends os).tail, r = none

/-- Operations that only touch the waker slots. -/
theorem Inv.wakers {svc sess W c os} (h : Inv svc sess W c os) (m t : Bool) :
    Inv svc sess W { c with mgrTask := m, transTask := t } os :=
  ⟨h.svcId, h.sessId, h.reads, h.accepted, h.inCap, h.outCap, h.acks, h.sent, h.closed, h.open_, h.err,
    h.ended, h.tail⟩

theorem close_eq (c : Ctx) :
    c.close.1 = { c with closed := true, mgrTask := false, transTask := false } := rfl

theorem setError_eq (c : Ctx) (e : ConnErr) :
    (c.setError e).1 = if c.closed then c else
      { c with error := some e, closed := true, mgrTask := false, transTask := false } := by
  unfold Ctx.setError; split <;> rfl

theorem Inv.close {svc sess W c os} (h : Inv svc sess W c os) :
    Inv svc sess W c.close.1 (os ++ [.cause none]) := by
  rw [close_eq]
  refine ⟨h.svcId, h.sessId, ?_, ?_, ?_, h.outCap, ?_, ?_, ?_, ?_, ?_, ?_, ?_⟩
  · obs; exact h.reads
  · obs; exact h.accepted
  · obs; exact h.inCap
  · obs; exact h.acks
  · intro i hi; exact h.sent i (by simpa using hi)
  · obs; simp
  · simp
  · obs
    intro he _
    cases hc : c.closed
    · have : causes os = [] := by
        have := h.closed; rw [hc] at this; simpa using this
      simp [this, (h.open_ hc).1]
    · have := h.err he hc
      rw [List.head?_append, this]; rfl
  · obs
    intro r hr
    have := h.ended r hr
    exact ⟨by rw [List.head?_append, this.1]; rfl, this.2⟩
  · obs; exact h.tail

theorem Inv.setError {svc sess W c os} (h : Inv svc sess W c os) (e : ConnErr) :
    Inv svc sess W (c.setError e).1 (os ++ [.cause (some e)]) := by
  rw [setError_eq]
  have hcl : c.closed = true → ∃ x, (causes os).head? = some x := by
    intro hc
    have := h.closed.mp hc
    cases hx : causes os with
    | nil => exact absurd hx this
    | cons a l => exact ⟨a, rfl⟩
  have hop : c.closed = false → causes os = [] := by
    intro hc
    have := h.closed; rw [hc] at this; simpa using this
  split
  · rename_i hc
    obtain ⟨x, hx⟩ := hcl hc
    refine ⟨h.svcId, h.sessId, ?_, ?_, ?_, h.outCap, ?_, ?_, ?_, ?_, ?_, ?_, ?_⟩
    · obs; exact h.reads
    · obs; exact h.accepted
    · obs; exact h.inCap
    · obs; exact h.acks
    · intro i hi; exact h.sent i (by simpa using hi)
    · obs; simp [hc]
    · simp [hc]
    · obs
      intro he _
      rw [List.head?_append, h.err he hc]; rfl
    · obs
      intro r hr
      have := h.ended r hr
      exact ⟨by rw [List.head?_append, this.1]; rfl, this.2⟩
    · obs; exact h.tail
  · rename_i hc
    simp only [Bool.not_eq_true] at hc
    refine ⟨h.svcId, h.sessId, ?_, ?_, ?_, h.outCap, ?_, ?_, ?_, ?_, ?_, ?_, ?_⟩
    · obs; exact h.reads
    · obs; exact h.accepted
    · obs; exact h.inCap
    · obs; exact h.acks
    · intro i hi; exact h.sent i (by simpa using hi)
    · obs; simp
    · simp
    · obs; simp [hop hc]
    · obs
      rw [(h.open_ hc).2]; simp
    · obs; exact h.tail

theorem push_inv {svc sess W c os} (h : Inv svc sess W c os) (data : Bytes) :
    Inv svc sess W (c.push data).1 (os ++ match (c.push data).2.2 with
      | .ignored => []
      | .exceeded => [.cause (some .capacityExceeded)]
      | .accepted => [.accepted data]) := by
  unfold Ctx.push
  split
  · simpa using h
  · rename_i hc
    simp only [Bool.not_eq_true] at hc
    split
    · exact h.setError _
    · rename_i hl
      have key : Inv svc sess W { c with outCap := c.outCap - data.length, output := c.output ++ data }
          (os ++ [.accepted data]) := by
        refine ⟨h.svcId, h.sessId, ?_, ?_, ?_, ?_, ?_, ?_, ?_, ?_, ?_, ?_, ?_⟩
        · obs; exact h.reads
        · obs; simp [h.accepted]
        · obs; exact h.inCap
        · have := h.outCap
          simp only [List.length_append]
          omega
        · obs; exact h.acks
        · intro i hi; exact h.sent i (by simpa using hi)
        · obs; exact h.closed
        · obs; exact h.open_
        · obs; exact h.err
        · obs; exact h.ended
        · obs; exact h.tail
      dsimp only
      split
      · exact key.wakers _ _
      · exact key

theorem dataAck_inv {svc sess W c os} (h : Inv svc sess W c os) (len : Nat) :
    Inv svc sess W (c.processDataAck len).1 (os ++ [.gotAck len]) := by
  refine ⟨h.svcId, h.sessId, ?_, ?_, ?_, h.outCap, ?_, ?_, ?_, ?_, ?_, ?_, ?_⟩
  · obs; exact h.reads
  · obs; exact h.accepted
  · obs
    have := h.inCap
    simp only [Ctx.processDataAck, Ctx.wakeMgr]
    omega
  · obs; exact h.acks
  · intro i hi; exact h.sent i (by simpa using hi)
  · obs; exact h.closed
  · obs; exact h.open_
  · obs; exact h.err
  · obs; exact h.ended
  · obs; exact h.tail

/-- What `take` does when nothing is to be acknowledged: the context after the buffer operation. -/
def Ctx.afterTake (c : Ctx) : Ctx :=
  let k := min c.inCap c.input.length
  { c with
    inCap := c.inCap - k
    input := c.input.drop k
    transTask := if c.input.length - k < bufferCapacity then false else c.transTask }

/-- `take` case by case. -/
theorem take_cases (n : Nat) (c : Ctx) :
    (0 < c.written → (c.take n).1 =
        .item (.ack (Control.mkDataAck (UInt16.ofNat n) c.sess (UInt32.ofNat c.written))) ∧
      (c.take n).2.1 = { c with written := 0, outCap := c.outCap + c.written } ∧
      (c.take n).2.2 = (n + 1, .none)) ∧
    (c.written = 0 →
      (c.take n).2.2.2 = ⟨false, decide (c.input.length - min c.inCap c.input.length <
        bufferCapacity) && c.transTask⟩ ∧ (c.take n).2.2.1 = n ∧
      (c.input.take c.inCap ≠ [] → (c.take n).1 =
          .item (.data (Wire.Message.new c.svc c.sess (c.input.take c.inCap))) ∧
        (c.take n).2.1 = c.afterTake) ∧
      (c.input.take c.inCap = [] → c.closed = false →
        (c.take n).1 = .pending ∧ (c.take n).2.1 = { c.afterTake with mgrTask := true }) ∧
      (c.input.take c.inCap = [] → c.closed = true → c.error = none →
        (c.take n).1 = .finished ∧ (c.take n).2.1 = c.afterTake) ∧
      (∀ e, c.input.take c.inCap = [] → c.closed = true → c.error = some e →
        (c.take n).1 = .err e ∧ (c.take n).2.1 = { c.afterTake with error := none })) := by
  have hmin : ∀ l : Bytes, l.take (min c.inCap l.length) = l.take c.inCap := by
    intro l; rw [List.take_eq_take_iff]; omega
  constructor
  · intro hw
    simp [Ctx.take, Ctx.takeDataAck, hw]
  · intro hw
    have h0 : c.takeDataAck n = (none, c, n) := by simp [Ctx.takeDataAck, hw]
    obtain ⟨csvc, csess, cin, cout, ic, oc, w, mt, tt, cl, er⟩ := c
    simp only at hw h0 hmin
    subst hw
    simp only [Ctx.take, h0, hmin, List.length_drop, Ctx.afterTake, Ctx.wakeTrans]
    by_cases hlt : cin.length - min ic cin.length < bufferCapacity <;>
      by_cases hd : cin.take ic = [] <;> cases cl <;> cases er <;>
      simp [hlt, hd, Wakes.none]

theorem afterTake_inv_empty {svc sess W c os} (h : Inv svc sess W c os)
    (he : c.input.take c.inCap = []) : Inv svc sess W c.afterTake os := by
  have hk : min c.inCap c.input.length = 0 := by
    have := congrArg List.length he
    simpa using this
  refine ⟨h.svcId, h.sessId, ?_, h.accepted, ?_, h.outCap, h.acks, h.sent, h.closed, h.open_, h.err,
    h.ended, h.tail⟩
  · simpa only [Ctx.afterTake, hk, List.drop_zero] using h.reads
  · simpa only [Ctx.afterTake, hk, Nat.sub_zero] using h.inCap

theorem take_inv {svc sess W c os} (h : Inv svc sess W c os) (hW : W < 2 ^ 32) (n : Nat) :
    Inv svc sess W (c.take n).2.1 (os ++ match (c.take n).1 with
      | .item i => [.sent i]
      | .err e => [.failed e]
      | .finished => [.finished]
      | .pending => []) := by
  obtain ⟨h1, h2⟩ := take_cases n c
  rcases Nat.eq_zero_or_pos c.written with hw | hw
  · obtain ⟨-, -, ha, hb, hc, hd⟩ := h2 hw
    by_cases he : c.input.take c.inCap = []
    · have hA := afterTake_inv_empty h he
      cases hcl : c.closed
      · obtain ⟨e1, e2⟩ := hb he hcl
        rw [e1, e2]
        simpa using hA.wakers true c.afterTake.transTask
      · cases her : c.error with
        | none =>
          obtain ⟨e1, e2⟩ := hc he hcl her
          rw [e1, e2]
          have hcl' : c.afterTake.closed = true := hcl
          have her' : c.afterTake.error = none := her
          dsimp only
          refine ⟨hA.svcId, hA.sessId, ?_, ?_, ?_, hA.outCap, ?_, ?_, ?_, ?_, ?_, ?_, ?_⟩
          · obs; exact hA.reads
          · obs; exact hA.accepted
          · obs; exact hA.inCap
          · obs; exact hA.acks
          · intro i hi; exact hA.sent i (by simpa using hi)
          · obs; exact hA.closed
          · simp [hcl']
          · obs; simp
          · obs
            intro r hr
            refine ⟨?_, her'⟩
            cases hE : ends os with
            | nil =>
              rw [hE] at hr
              simp at hr
              subst hr
              rw [h.err hE hcl, her]
            | cons a l =>
              rw [hE] at hr
              exact (hA.ended r (by rw [hE]; simpa using hr)).1
          · obs
            intro r hr
            cases hE : ends os with
            | nil => rw [hE] at hr; simp at hr
            | cons a l =>
              rw [hE] at hr
              simp at hr
              rcases hr with hr | hr
              · exact hA.tail r (by rw [hE]; simpa using hr)
              · exact hr
        | some e =>
          obtain ⟨e1, e2⟩ := hd e he hcl her
          rw [e1, e2]
          have hE : ends os = [] := by
            cases hE : ends os with
            | nil => rfl
            | cons a l =>
              have := (h.ended a (by rw [hE]; rfl)).2
              rw [her] at this; cases this
          dsimp only
          refine ⟨hA.svcId, hA.sessId, ?_, ?_, ?_, hA.outCap, ?_, ?_, ?_, ?_, ?_, ?_, ?_⟩
          · obs; exact hA.reads
          · obs; exact hA.accepted
          · obs; exact hA.inCap
          · obs; exact hA.acks
          · intro i hi; exact hA.sent i (by simpa using hi)
          · obs; exact hA.closed
          · have hcl' : c.afterTake.closed = true := hcl
            simp [hcl']
          · obs; simp
          · obs
            intro r hr
            rw [hE] at hr
            simp at hr
            subst hr
            exact ⟨by rw [h.err hE hcl, her], trivial⟩
          · obs; rw [hE]; simp
    · obtain ⟨e1, e2⟩ := ha he
      rw [e1, e2]
      dsimp only
      have hlen : (c.input.take c.inCap).length = min c.inCap c.input.length := by simp
      refine ⟨h.svcId, h.sessId, ?_, ?_, ?_, h.outCap, ?_, ?_, ?_, ?_, ?_, ?_, ?_⟩
      · obs
        rw [h.reads]
        simp only [Wire.Message.new, Ctx.afterTake, List.append_assoc]
        congr 1
        have : c.input.take c.inCap = c.input.take (min c.inCap c.input.length) := by
          rw [List.take_eq_take_iff]; omega
        rw [this, List.take_append_drop]
      · obs; exact h.accepted
      · obs
        have := h.inCap
        simp only [Wire.Message.new, Ctx.afterTake, List.length_append, hlen]
        omega
      · obs; exact h.acks
      · intro i hi
        simp only [List.mem_append, List.mem_singleton] at hi
        rcases hi with hi | hi
        · exact h.sent i hi
        · cases hi
          dsimp only
          rw [h.svcId, h.sessId]
          exact ⟨rfl, he⟩
      · obs; exact h.closed
      · obs; exact h.open_
      · obs; exact h.err
      · obs; exact h.ended
      · obs; exact h.tail
  · obtain ⟨e1, e2, -⟩ := h1 hw
    rw [e1, e2]
    have hlt : c.written < 2 ^ 32 := by have := h.outCap; omega
    have hnat : (UInt32.ofNat c.written).toNat = c.written := by
      rw [UInt32.toNat_ofNat']; omega
    dsimp only
    refine ⟨h.svcId, h.sessId, ?_, ?_, ?_, ?_, ?_, ?_, ?_, ?_, ?_, ?_, ?_⟩
    · obs; exact h.reads
    · obs; exact h.accepted
    · obs; exact h.inCap
    · have := h.outCap
      dsimp only
      omega
    · obs
      have := h.acks
      simp only [ackLength, Control.mkDataAck, hnat]
      omega
    · intro i hi
      simp only [List.mem_append, List.mem_singleton] at hi
      rcases hi with hi | hi
      · exact h.sent i hi
      · cases hi
        dsimp only
        rw [h.sessId]
        exact ⟨UInt32.ofNat c.written, rfl, by rw [hnat]; exact hw, rfl⟩
    · obs; exact h.closed
    · obs; exact h.open_
    · obs; exact h.err
    · obs; exact h.ended
    · obs; exact h.tail

theorem pollRead_inv {svc sess W c os} (h : Inv svc sess W c os) (hc : c.closed = false)
    (rd : ReadRes) : Inv svc sess W (c.pollRead rd).1 (os ++ readObs c rd) := by
  unfold Ctx.pollRead readObs
  rw [if_neg (by simp [hc])]
  split
  · simpa using h.wakers c.mgrTask true
  · cases rd with
    | pending => simpa using h.wakers c.mgrTask true
    | err n =>
      have h1 := h.setError (.io n)
      dsimp only
      split
      · exact h1.wakers _ _
      · exact h1
    | ok bs =>
      dsimp only
      by_cases hb : bs = []
      · simp only [hb, if_true]
        have h1 := h.close
        split
        · exact h1.wakers _ _
        · exact h1
      · simp only [hb, if_false]
        have h1 : Inv svc sess W { c with input := c.input ++ bs } (os ++ [.read bs]) := by
          refine ⟨h.svcId, h.sessId, ?_, ?_, ?_, h.outCap, ?_, ?_, ?_, ?_, ?_, ?_, ?_⟩
          · obs; simp [h.reads]
          · obs; exact h.accepted
          · obs; exact h.inCap
          · obs; exact h.acks
          · intro i hi; exact h.sent i (by simpa using hi)
          · obs; exact h.closed
          · obs; exact h.open_
          · obs; exact h.err
          · obs; exact h.ended
          · obs; exact h.tail
        split
        · exact h1.wakers _ _
        · exact h1

theorem pollWrite_inv {svc sess W c os} (h : Inv svc sess W c os)
    (wr : WriteRes) : Inv svc sess W (c.pollWrite wr).1 (os ++ writeObs c wr) := by
  unfold Ctx.pollWrite writeObs
  split
  · split
    · simpa using h
    · simpa using h.wakers c.mgrTask true
  · cases wr with
    | pending => simpa using h.wakers c.mgrTask true
    | err n => exact h.setError (.io n)
    | ok k =>
      have hmin : c.output.take (min k c.output.length) = c.output.take k := by
        rw [List.take_eq_take_iff]; omega
      refine ⟨h.svcId, h.sessId, ?_, ?_, ?_, ?_, ?_, ?_, ?_, ?_, ?_, ?_, ?_⟩
      · obs; exact h.reads
      · obs
        simp only [Ctx.wakeMgr, List.append_assoc]
        rw [h.accepted, ← hmin, List.take_append_drop]
      · obs; exact h.inCap
      · have := h.outCap
        simp only [Ctx.wakeMgr, List.length_drop]
        omega
      · obs
        have := h.acks
        simp only [Ctx.wakeMgr, List.length_append, List.length_take]
        omega
      · intro i hi; exact h.sent i (by simpa using hi)
      · obs; exact h.closed
      · obs; exact h.open_
      · obs; exact h.err
      · obs; exact h.ended
      · obs; exact h.tail

theorem step_inv {svc sess W} {s : Sess} {os} (hW : W < 2 ^ 32) (h : Inv svc sess W s.ctx os)
    (op : Op) : Inv svc sess W (s.step op).1.ctx (os ++ (s.step op).2) := by
  cases op with
  | push data => exact push_inv h data
  | dataAck len => exact dataAck_inv h len
  | take n => exact take_inv h hW n
  | close => exact h.close
  | connected => simp only [Sess.step]; split <;> simpa using h
  | connectFailed n =>
    simp only [Sess.step]
    split
    · exact h.setError _
    · simpa using h
  | transport rd wr =>
    simp only [Sess.step]
    split
    · split
      · simpa using h
      · rename_i hc
        simp only [Bool.not_eq_true] at hc
        have h1 := pollWrite_inv (pollRead_inv h hc rd) wr
        simpa [Ctx.pollTransport, hc] using h1
    · simpa using h

theorem new_inv (svc : UInt16) (sess : UInt32) (W : Nat) : Inv svc sess W (Ctx.new svc sess W) [] := by
  refine ⟨rfl, rfl, rfl, rfl, ?_, ?_, rfl, ?_, ?_, ?_, ?_, ?_, ?_⟩ <;> simp [Ctx.new]

/-- The invariant holds after every history. -/
theorem run_inv (svc : UInt16) (sess : UInt32) (W : Nat) (hW : W < 2 ^ 32) (ops : List Op) :
    Inv svc sess W ((Sess.new svc sess W).run ops).1.ctx ((Sess.new svc sess W).run ops).2 := by
  have := run_induct (fun s os => Inv svc sess W s.ctx os) (fun s os op h => step_inv hW h op)
    (Sess.new svc sess W) [] (new_inv svc sess W) ops
  simpa using this

end Verif.Session
