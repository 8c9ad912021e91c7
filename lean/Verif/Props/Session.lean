import Verif.Lemmas.Session
/-!
# Properties C11–C20: one session

`life svc sess W ops` is the life of a session created by `Session::new` with window `W` under the
operations `ops`, in any order and with any behaviour of server and service: the final state and
the list of observations. The client uses `W = 65536`; the theorems hold for all `W < 2^32`.
-/
namespace Verif.Props.Session
open Verif.Session Verif.Spec.Session

/-- A session after a history, with everything observed. -/
def life (svc : UInt16) (sess : UInt32) (W : Nat) (ops : List Op) : Sess × List Obs :=
  (Sess.new svc sess W).run ops

theorem inv (svc : UInt16) (sess : UInt32) (W : Nat) (hW : W < 2 ^ 32) (ops : List Op) :
    Inv svc sess W (life svc sess W ops).1.ctx (life svc sess W ops).2 := run_inv svc sess W hW ops

theorem life_snoc (svc : UInt16) (sess : UInt32) (W : Nat) (ops : List Op) (op : Op) :
    life svc sess W (ops ++ [op]) = (((life svc sess W ops).1.step op).1,
      (life svc sess W ops).2 ++ ((life svc sess W ops).1.step op).2) := by
  simp [life, run_append, Sess.run]

/-! ## C11 -/

/-- C11: bytes accepted from the server and not yet acknowledged never exceed the window. -/
theorem C11_unacknowledged_le_window (svc : UInt16) (sess : UInt32) (W : Nat) (hW : W < 2 ^ 32)
    (ops : List Op) :
    let os := (life svc sess W ops).2
    (accepted os).length ≤ sentAcks os + W := by
  have h := inv svc sess W hW ops
  have h1 := h.acks
  have h2 := h.outCap
  have h3 := congrArg List.length h.accepted
  simp only [List.length_append] at h3
  dsimp only
  omega

/-- C11: a data message for an open session is accepted as a whole iff it fits into the window;
otherwise the session is closed with the error, and nothing of it is accepted. -/
theorem C11_push_outcome (svc : UInt16) (sess : UInt32) (W : Nat) (hW : W < 2 ^ 32)
    (ops : List Op) (data : Bytes) (hopen : (life svc sess W ops).1.ctx.closed = false) :
    let os := (life svc sess W ops).2
    let r := (life svc sess W ops).1.step (.push data)
    ((accepted os).length + data.length ≤ sentAcks os + W →
      r.2 = [.accepted data] ∧ r.1.ctx.closed = false) ∧
    (sentAcks os + W < (accepted os).length + data.length →
      r.2 = [.cause (some .capacityExceeded)] ∧ r.1.ctx.closed = true ∧
      r.1.ctx.output = (life svc sess W ops).1.ctx.output) := by
  have h := inv svc sess W hW ops
  have h1 := h.acks
  have h2 := h.outCap
  have h3 := congrArg List.length h.accepted
  simp only [List.length_append] at h3
  generalize life svc sess W ops = l at *
  obtain ⟨s, os⟩ := l
  simp only at *
  have key : s.ctx.outCap + (accepted os).length = sentAcks os + W := by omega
  constructor
  · intro hl
    have : ¬ data.length > s.ctx.outCap := by omega
    by_cases ho : s.ctx.output ++ data = [] <;>
      simp only [Sess.step, Ctx.push, hopen, Bool.false_eq_true, if_false, if_neg this, ho, ne_eq,
        not_true, not_false_eq_true, if_true, Ctx.wakeTrans, and_self]
  · intro hl
    have : data.length > s.ctx.outCap := by omega
    simp [Sess.step, Ctx.push, hopen, if_pos this, setError_eq]

/-- C11: once a session is closed the transport passes nothing on any more. -/
theorem C11_closed_writes_nothing (svc : UInt16) (sess : UInt32) (W : Nat)
    (ops more : List Op) (hcl : (life svc sess W ops).1.ctx.closed = true) :
    wrote (life svc sess W (ops ++ more)).2 = wrote (life svc sess W ops).2 ∧
      (life svc sess W (ops ++ more)).1.ctx.closed = true := by
  have key := run_induct (fun s os => s.ctx.closed = true ∧
      wrote os = wrote (life svc sess W ops).2) ?_
    (life svc sess W ops).1 (life svc sess W ops).2 ⟨hcl, rfl⟩ more
  · rw [life, run_append]
    exact ⟨key.2, key.1⟩
  · rintro s os op ⟨hc, hw⟩
    rw [wrote_append, hw]
    cases op with
    | push data => simp [Sess.step, Ctx.push, hc]
    | dataAck len => simp [Sess.step, Ctx.processDataAck, Ctx.wakeMgr, hc, wrote_cons]
    | take n =>
      obtain ⟨h1, h2⟩ := take_cases n s.ctx
      simp only [Sess.step]
      rcases Nat.eq_zero_or_pos s.ctx.written with hz | hp
      · obtain ⟨-, -, ha, hb, hd, he⟩ := h2 hz
        by_cases hi : s.ctx.input.take s.ctx.inCap = []
        · cases her : s.ctx.error with
          | none => rw [(hd hi hc her).1, (hd hi hc her).2]; exact ⟨hc, by simp [wrote_cons]⟩
          | some e => rw [(he e hi hc her).1, (he e hi hc her).2]; exact ⟨hc, by simp [wrote_cons]⟩
        · rw [(ha hi).1, (ha hi).2]; exact ⟨hc, by simp [wrote_cons]⟩
      · rw [(h1 hp).1, (h1 hp).2.1]; exact ⟨hc, by simp [wrote_cons]⟩
    | close => exact ⟨rfl, by simp [Sess.step, wrote_cons]⟩
    | connected => simp only [Sess.step]; split <;> simp [hc]
    | connectFailed n => simp only [Sess.step]; split <;> simp [hc, setError_eq, wrote_cons]
    | transport rd wr => simp only [Sess.step]; split <;> simp [hc]

/-- Non-vacuity of C11: 3 of 4 window bytes used, two more do not fit, one does. -/
example : ((life 1 1 4 [.push [1, 2, 3], .push [4]]).2 = [.accepted [1, 2, 3], .accepted [4]]) ∧
    (life 1 1 4 [.push [1, 2, 3], .push [4, 5]]).2 =
      [.accepted [1, 2, 3], .cause (some .capacityExceeded)] := by decide +kernel

/-! ## C12 -/

/-- C12: data sent to the server never exceeds the window plus what the server acknowledged. -/
theorem C12_sent_le_window (svc : UInt16) (sess : UInt32) (W : Nat) (hW : W < 2 ^ 32)
    (ops : List Op) :
    let os := (life svc sess W ops).2
    (sentData os).length ≤ W + gotAcks os := by
  have h := (inv svc sess W hW ops).inCap
  dsimp only
  omega

/-- Non-vacuity of C12: the bound is reached and holds back the third byte until an acknowledgement. -/
example : let ops := [Op.connected, .transport (.ok [1, 2, 3]) .pending, .take 0, .take 0]
    sentData (life 1 1 2 ops).2 = [1, 2] ∧
    sentData (life 1 1 2 (ops ++ [.dataAck 1, .take 0])).2 = [1, 2, 3] := by decide +kernel

/-! ## C13 -/

/-- C13: what was read from the service is what was sent to the server followed by what is buffered. -/
theorem C13_reads_eq_sent_append_buffer (svc : UInt16) (sess : UInt32) (W : Nat) (hW : W < 2 ^ 32)
    (ops : List Op) :
    reads (life svc sess W ops).2 =
      sentData (life svc sess W ops).2 ++ (life svc sess W ops).1.ctx.input :=
  (inv svc sess W hW ops).reads

/-- C13: every data message carries the service id and the (24-bit) session id of the session and a
non-empty payload. -/
theorem C13_data_headers (svc : UInt16) (sess : UInt32) (W : Nat) (hW : W < 2 ^ 32)
    (ops : List Op) (m : Wire.Message) (hm : .sent (.data m) ∈ (life svc sess W ops).2) :
    m.header.service = svc ∧ m.header.session.toNat = sess.toNat % 2 ^ 24 ∧ m.payload ≠ [] := by
  obtain ⟨h1, h2⟩ := (inv svc sess W hW ops).sent _ hm
  refine ⟨?_, ?_, h2⟩
  · rw [h1]; rfl
  · rw [h1]; exact mask24_toNat sess

/-- Non-vacuity of C13. -/
example : let l := life 7 9 65536 [.connected, .transport (.ok [1, 2]) .pending, .take 0,
      .transport (.ok [3]) .pending]
    reads l.2 = [1, 2, 3] ∧ sentData l.2 = [1, 2] ∧ l.1.ctx.input = [3] := by decide +kernel

/-! ## C14 -/

/-- C14: what was accepted from the server is what was written to the service followed by what is
buffered. -/
theorem C14_accepted_eq_wrote_append_buffer (svc : UInt16) (sess : UInt32) (W : Nat)
    (hW : W < 2 ^ 32) (ops : List Op) :
    accepted (life svc sess W ops).2 =
      wrote (life svc sess W ops).2 ++ (life svc sess W ops).1.ctx.output :=
  (inv svc sess W hW ops).accepted

/-- C14: the payloads accepted are exactly those pushed while the session was open and within the
window: what arrives after the session is closed is discarded and changes nothing. -/
theorem C14_discarded_when_closed (s : Sess) (data : Bytes) (h : s.ctx.closed = true) :
    (s.step (.push data)).1.ctx = s.ctx ∧ (s.step (.push data)).2 = [] := by
  simp [Sess.step, Ctx.push, h]

/-- Non-vacuity of C14. -/
example : let l := life 7 9 65536 [.push [1, 2, 3], .connected, .transport .pending (.ok 2), .push [4]]
    accepted l.2 = [1, 2, 3, 4] ∧ wrote l.2 = [1, 2] ∧ l.1.ctx.output = [3, 4] := by decide +kernel

/-! ## C15 -/

/-- C15: acknowledged bytes plus bytes written but not yet acknowledged are the bytes written. -/
theorem C15_ack_accounting (svc : UInt16) (sess : UInt32) (W : Nat) (hW : W < 2 ^ 32)
    (ops : List Op) :
    sentAcks (life svc sess W ops).2 + (life svc sess W ops).1.ctx.written =
      (wrote (life svc sess W ops).2).length :=
  (inv svc sess W hW ops).acks

/-- C15: after a poll that returns anything else than a DATA_ACK, everything written is acknowledged. -/
theorem C15_nothing_left_unacknowledged (svc : UInt16) (sess : UInt32) (W : Nat) (hW : W < 2 ^ 32)
    (ops : List Op) (n : Nat)
    (h : ∀ m, ((life svc sess W ops).1.ctx.take n).1 ≠ .item (.ack m)) :
    let os := (life svc sess W (ops ++ [.take n])).2
    sentAcks os = (wrote os).length := by
  have hi := (inv svc sess W hW ops).acks
  rw [life_snoc]
  generalize life svc sess W ops = l at *
  obtain ⟨s, os⟩ := l
  obtain ⟨h1, h2⟩ := take_cases n s.ctx
  rcases Nat.eq_zero_or_pos s.ctx.written with hz | hp
  · have h0 : sentAcks ((s.step (.take n)).2) = 0 ∧ wrote ((s.step (.take n)).2) = [] := by
      simp only [Sess.step]
      cases hr : (s.ctx.take n).1 with
      | item i =>
        cases i with
        | ack m => exact absurd hr (h m)
        | data m => simp [sentAcks_cons, wrote_cons]
      | err e => simp [sentAcks_cons, wrote_cons]
      | finished => simp [sentAcks_cons, wrote_cons]
      | pending => simp
    dsimp only at hi ⊢
    rw [sentAcks_append, wrote_append, h0.1, h0.2, List.append_nil]
    omega
  · exact absurd (h1 hp).1 (h _)

/-- C15: every DATA_ACK has the session's (24-bit) id and a positive length. -/
theorem C15_ack_content (svc : UInt16) (sess : UInt32) (W : Nat) (hW : W < 2 ^ 32)
    (ops : List Op) (m : Control.ControlMessage)
    (hm : .sent (.ack m) ∈ (life svc sess W ops).2) :
    ∃ s l : UInt32, m.msgType = 0xc ∧ m.body = .dataAck s l ∧ s.toNat = sess.toNat % 2 ^ 24 ∧
      0 < l.toNat := by
  obtain ⟨l, h1, h2, h3⟩ := (inv svc sess W hW ops).sent _ hm
  exact ⟨_, l, h3, h1, mask24_toNat sess, h2⟩

/-- Non-vacuity of C15. -/
example : let l := life 7 9 65536 [.push [1, 2, 3], .connected, .transport .pending (.ok 2), .take 5,
      .transport .pending (.ok 1)]
    sentAcks l.2 = 2 ∧ l.1.ctx.written = 1 ∧ (wrote l.2).length = 3 := by decide +kernel

/-! ## C16 -/

/-- C16: when the session is reported finished or failed, everything read from the service has been
sent, unless the server's window is used up completely. -/
theorem C16_delivered_before_end (svc : UInt16) (sess : UInt32) (W : Nat) (hW : W < 2 ^ 32)
    (ops : List Op) (n : Nat) (hend : ((life svc sess W ops).1.ctx.take n).1 = .finished ∨
      ∃ e, ((life svc sess W ops).1.ctx.take n).1 = .err e) :
    let os := (life svc sess W ops).2
    sentData os = reads os ∨ (sentData os).length = W + gotAcks os := by
  have h := inv svc sess W hW ops
  generalize life svc sess W ops = l at *
  obtain ⟨s, os⟩ := l
  dsimp only at *
  obtain ⟨h1, h2⟩ := take_cases n s.ctx
  rcases Nat.eq_zero_or_pos s.ctx.written with hz | hp
  · obtain ⟨-, -, ha, -, -, -⟩ := h2 hz
    by_cases hi : s.ctx.input.take s.ctx.inCap = []
    · rw [List.take_eq_nil_iff] at hi
      rcases hi with hi | hi
      · right; have := h.inCap; omega
      · left; rw [h.reads, hi, List.append_nil]
    · rw [(ha hi).1] at hend
      simp at hend
  · rw [(h1 hp).1] at hend
    simp at hend

/-- Take repeatedly, collecting the items, until an end or "pending" or `fuel` runs out. -/
def drainTake : Nat → Nat → Ctx → List Item × Option TakeRes
  | 0, _, _ => ([], none)
  | fuel + 1, n, c =>
    match c.take n with
    | (.item i, c', n', _) => let r := drainTake fuel n' c'; (i :: r.1, r.2)
    | (r, _, _, _) => ([], some r)

/-- The payload carried by an item. -/
def itemData : Item → Bytes
  | .data m => m.payload
  | .ack _ => []

/-- C16 (progress): polling a closed session whose window covers the buffer delivers the whole buffer
and then the end, in at most three polls. -/
theorem C16_closed_session_drains (c : Ctx) (n : Nat) (hc : c.closed = true)
    (hw : c.input.length ≤ c.inCap) :
    ∃ items r, drainTake 3 n c = (items, some r) ∧ items.flatMap itemData = c.input ∧
      r = (match c.error with | some e => .err e | none => .finished) := by
  -- from a state with nothing to acknowledge and an empty buffer
  have stage3 : ∀ (f n : Nat) (c : Ctx), c.closed = true → c.written = 0 → c.input = [] →
      drainTake (f + 1) n c = ([], some (match c.error with | some e => .err e | none => .finished)) := by
    intro f n c hc hw hi
    obtain ⟨-, h2⟩ := take_cases n c
    obtain ⟨-, -, -, -, hf, he⟩ := h2 hw
    have hi' : c.input.take c.inCap = [] := by rw [hi]; simp
    cases her : c.error with
    | none =>
      have := (hf hi' hc her).1
      simp only [drainTake]
      split
      · rename_i h; rw [h] at this; cases this
      · rename_i r _ _ _ _ h; rw [h] at this; simp only at this; rw [this]
    | some e =>
      have := (he e hi' hc her).1
      simp only [drainTake]
      split
      · rename_i h; rw [h] at this; cases this
      · rename_i r _ _ _ _ h; rw [h] at this; simp only at this; rw [this]
  have stage2 : ∀ (f n : Nat) (c : Ctx), c.closed = true → c.written = 0 → c.input.length ≤ c.inCap →
      ∃ items r, drainTake (f + 2) n c = (items, some r) ∧ items.flatMap itemData = c.input ∧
        r = (match c.error with | some e => .err e | none => .finished) := by
    intro f n c hc hw hl
    by_cases hi : c.input = []
    · exact ⟨[], _, stage3 (f + 1) n c hc hw hi, by simp [hi], rfl⟩
    · obtain ⟨-, h2⟩ := take_cases n c
      obtain ⟨-, -, ha, -, -, -⟩ := h2 hw
      have htk : c.input.take c.inCap = c.input := List.take_of_length_le hl
      obtain ⟨e1, e2⟩ := ha (by rw [htk]; exact hi)
      rw [htk] at e1
      have h3 := stage3 f (c.take n).2.2.1 c.afterTake hc hw (by
        simp only [Ctx.afterTake]
        rw [List.drop_eq_nil_iff]; omega)
      refine ⟨[.data (Wire.Message.new c.svc c.sess c.input)], _, ?_, by simp [itemData, Wire.Message.new], rfl⟩
      rw [show f + 2 = (f + 1) + 1 from rfl, drainTake]
      split
      · rename_i i c' n' w h
        rw [h] at e1 e2 h3
        simp only at e1 e2 h3
        cases e1
        rw [e2, h3]
        rfl
      · rename_i r _ _ _ hne h
        rw [h] at e1
        exact absurd e1 (hne _)
  rcases Nat.eq_zero_or_pos c.written with hz | hp
  · exact stage2 1 n c hc hz hw
  · obtain ⟨h1, -⟩ := take_cases n c
    obtain ⟨e1, e2, e3⟩ := h1 hp
    obtain ⟨items, r, h2, h4, h5⟩ := stage2 0 (c.take n).2.2.1 (c.take n).2.1
      (by rw [e2]; exact hc) (by rw [e2]) (by rw [e2]; exact hw)
    rw [e2] at h4 h5
    refine ⟨.ack (Control.mkDataAck (UInt16.ofNat n) c.sess (UInt32.ofNat c.written)) :: items, r,
      ?_, ?_, h5⟩
    · rw [show (3 : Nat) = 2 + 1 from rfl, drainTake]
      split
      · rename_i i c' n' w h
        rw [h] at e1 h2
        simp only at e1 h2
        cases e1
        rw [h2]
      · rename_i r _ _ _ hne h
        rw [h] at e1
        exact absurd e1 (hne _)
    · simpa [itemData] using h4

/-- C16 (loss): with the window used up, buffered bytes of a closed session are lost: the session is
reported finished although a byte read from the service was never sent. -/
theorem C16_lost_without_window : ∃ (ops : List Op) (n : Nat),
    ((life 1 1 1 ops).1.ctx.take n).1 = .finished ∧
    reads (life 1 1 1 ops).2 = [5, 6] ∧ sentData (life 1 1 1 ops).2 = [5] :=
  ⟨[.connected, .transport (.ok [5, 6]) .pending, .transport (.ok []) .pending, .take 0], 0,
    by decide +kernel⟩

/-- Non-vacuity of C16: service sends and closes, all is delivered, then the end is reported. -/
example : let ops := [Op.connected, .transport (.ok [5, 6]) .pending, .transport (.ok []) .pending, .take 0]
    ((life 1 1 65536 ops).1.ctx.take 0).1 = .finished ∧ sentData (life 1 1 65536 ops).2 = [5, 6] := by
  decide +kernel

/-! ## C17 -/

/-- C17 is false: after the server's data is accepted and the server hangs up, nothing is ever
written, whatever happens later. -/
theorem C17_false_data_lost_on_hup (more : List Op) :
    accepted (life 1 1 65536 [.connected, .push [1, 2, 3], .close]).2 = [1, 2, 3] ∧
    wrote (life 1 1 65536 ([.connected, .push [1, 2, 3], .close] ++ more)).2 = [] := by
  refine ⟨by decide +kernel, ?_⟩
  have h0 : (life 1 1 65536 [.connected, .push [1, 2, 3], .close]).1.ctx.closed = true := by
    decide +kernel
  have h1 : wrote (life 1 1 65536 [.connected, .push [1, 2, 3], .close]).2 = [] := by decide +kernel
  rw [(C11_closed_writes_nothing 1 1 65536 _ more h0).1, h1]

/-- C17, the part that holds (`_partial`: only while the session is not closed): accepted data stays
buffered in order, and each poll of the transport whose stream takes `k` bytes writes the next `k`
bytes of it. -/
theorem C17_written_while_open_partial (s : Sess) (rd : ReadRes) (k : Nat)
    (hrun : s.phase = .running) (hopen : s.ctx.closed = false) (hout : s.ctx.output ≠ []) :
    wrote (s.step (.transport rd (.ok k))).2 = s.ctx.output.take k ∧
    (s.step (.transport rd (.ok k))).1.ctx.output = s.ctx.output.drop k := by
  have hmid : (s.ctx.pollRead rd).1.output = s.ctx.output := by
    unfold Ctx.pollRead
    rw [if_neg (by simp [hopen])]
    split
    · rfl
    · cases rd <;> dsimp only
      · split
        · split <;> rfl
        · split <;> rfl
      · rw [setError_eq]; simp only [hopen, Bool.false_eq_true, if_false]; split <;> rfl
  have hr : wrote (readObs s.ctx rd) = [] := by
    unfold readObs
    split
    · rfl
    · cases rd <;> dsimp only
      · rfl
      · split <;> rfl
      · rfl
  have hd : s.ctx.output.drop (min k s.ctx.output.length) = s.ctx.output.drop k := by
    rcases Nat.le_total k s.ctx.output.length with h | h
    · rw [Nat.min_eq_left h]
    · rw [Nat.min_eq_right h, List.drop_length, List.drop_eq_nil_iff.mpr h]
  simp only [Sess.step, hrun, if_true, hopen, Bool.false_eq_true, if_false, wrote_append, hr,
    List.nil_append, Ctx.pollTransport, Ctx.pollWrite, hmid, hout, writeObs, Ctx.wakeMgr, hd,
    wrote_cons, wrote_nil, List.append_nil, and_self]

/-! ## C18 -/

/-- C18: the client does not read from the service while 8192 or more bytes are buffered. -/
theorem C18_no_read_when_full (s : Sess) (rd : ReadRes) (wr : WriteRes)
    (hfull : 8192 ≤ s.ctx.input.length) :
    reads (s.step (.transport rd wr)).2 = [] ∧
    (s.step (.transport rd wr)).1.ctx.input = s.ctx.input := by
  have hf : s.ctx.input.length ≥ bufferCapacity := hfull
  have hw : ∀ c : Ctx, reads (writeObs c wr) = [] := by
    intro c; unfold writeObs; split
    · rfl
    · cases wr <;> rfl
  have hi : ∀ c : Ctx, (c.pollWrite wr).1.input = c.input := by
    intro c; unfold Ctx.pollWrite; split
    · split <;> rfl
    · cases wr <;> dsimp only
      · rfl
      · rw [setError_eq]; split <;> rfl
  simp only [Sess.step]
  split
  · split
    · exact ⟨rfl, rfl⟩
    · rename_i hc
      simp only [Bool.not_eq_true] at hc
      simp only [readObs, if_pos hf, List.nil_append, hw, Ctx.pollTransport, hc,
        Bool.false_eq_true, if_false, hi, Ctx.pollRead, true_and]
  · exact ⟨rfl, rfl⟩

/-- All reads of a history deliver at most `m` bytes at a time. -/
def ReadsAtMost (m : Nat) (ops : List Op) : Prop :=
  ∀ bs wr, Op.transport (.ok bs) wr ∈ ops → bs.length ≤ m

/-- C18: the buffer never exceeds 8191 bytes plus one read. -/
theorem C18_buffer_bound (svc : UInt16) (sess : UInt32) (W m : Nat) (ops : List Op)
    (h : ReadsAtMost m ops) : (life svc sess W ops).1.ctx.input.length ≤ 8191 + m := by
  have hstep : ∀ (s : Sess) (op : Op), s.ctx.input.length ≤ 8191 + m →
      (∀ bs wr, op = .transport (.ok bs) wr → bs.length ≤ m) →
      (s.step op).1.ctx.input.length ≤ 8191 + m := by
    intro s op hs hb
    cases op with
    | push data =>
      have : (s.ctx.push data).1.input = s.ctx.input := by
        unfold Ctx.push; split
        · rfl
        · split
          · dsimp only; rw [setError_eq]; split <;> rfl
          · dsimp only; split <;> rfl
      simpa [Sess.step, this] using hs
    | dataAck len => exact hs
    | take n =>
      have : (s.ctx.take n).2.1.input.length ≤ s.ctx.input.length := by
        obtain ⟨h1, h2⟩ := take_cases n s.ctx
        have hA : s.ctx.afterTake.input.length ≤ s.ctx.input.length := by simp [Ctx.afterTake]
        rcases Nat.eq_zero_or_pos s.ctx.written with hz | hp
        · obtain ⟨-, -, ha, hb, hd, he⟩ := h2 hz
          by_cases hi : s.ctx.input.take s.ctx.inCap = []
          · cases hc : s.ctx.closed
            · rw [(hb hi hc).2]; exact hA
            · cases her : s.ctx.error with
              | none => rw [(hd hi hc her).2]; exact hA
              | some e => rw [(he e hi hc her).2]; exact hA
          · rw [(ha hi).2]; exact hA
        · rw [(h1 hp).2.1]; exact Nat.le_refl _
      simp only [Sess.step]
      omega
    | close => exact hs
    | connected => simp only [Sess.step]; split <;> exact hs
    | connectFailed n =>
      simp only [Sess.step]; split
      · simp only [setError_eq]; split <;> exact hs
      · exact hs
    | transport rd wr =>
      have hi : ∀ c : Ctx, (c.pollWrite wr).1.input = c.input := by
        intro c; unfold Ctx.pollWrite; split
        · split <;> rfl
        · cases wr <;> dsimp only
          · rfl
          · rw [setError_eq]; split <;> rfl
      simp only [Sess.step]
      split
      · split
        · exact hs
        · rename_i hc
          simp only [Bool.not_eq_true] at hc
          simp only [Ctx.pollTransport, hc, Bool.false_eq_true, if_false, hi]
          unfold Ctx.pollRead
          rw [if_neg (by simp [hc])]
          split
          · exact hs
          · rename_i hlt
            simp only [bufferCapacity] at hlt
            cases rd with
            | pending => exact hs
            | err n =>
              dsimp only; rw [setError_eq]; simp only [hc, Bool.false_eq_true, if_false]
              split <;> exact hs
            | ok bs =>
              have := hb bs wr rfl
              by_cases he : bs = []
              · simp only [he, if_true]
                split <;> exact hs
              · simp only [he, if_false]
                split <;> simp only [Ctx.wakeMgr, List.length_append] <;> omega
      · exact hs
  have hrun : ∀ (ops : List Op) (s : Sess), ReadsAtMost m ops → s.ctx.input.length ≤ 8191 + m →
      (s.run ops).1.ctx.input.length ≤ 8191 + m := by
    intro ops
    induction ops with
    | nil => intro s _ hs; exact hs
    | cons o ops ih =>
      intro s hr hs
      simp only [Sess.run]
      refine ih _ (fun bs wr hm => hr bs wr (List.mem_cons_of_mem _ hm)) (hstep s o hs ?_)
      intro bs wr ho
      exact hr bs wr (ho ▸ List.mem_cons_self)
  exact hrun ops _ h (by simp [Sess.new, Ctx.new])

/-- Non-vacuity of C18: the bound of a history with reads of two bytes, and the buffer in it. -/
example : ReadsAtMost 2 [.connected, .transport (.ok [1, 2]) .pending] ∧
    (life 1 1 65536 [.connected, .transport (.ok [1, 2]) .pending]).1.ctx.input.length = 2 := by
  refine ⟨?_, by decide +kernel⟩
  intro bs wr h
  simp at h
  simp [h.1]

/-! ## C19 -/

/-- Manager part of the wake-up invariant: if the manager is idle, its waker is stored and there is
nothing for it. -/
def MgrOk (c : Ctx) (idle : Bool) : Prop :=
  idle = true → c.mgrTask = true ∧ c.written = 0 ∧ c.input.take c.inCap = [] ∧ c.closed = false

/-- Transport part: if the transport is idle, its waker is stored and there is nothing for it, unless
the stream is what it waits for. -/
def TransOk (c : Ctx) (g : Ghost) : Prop :=
  g.transIdle = true → c.transTask = true ∧ c.closed = false ∧
    (c.input.length ≥ bufferCapacity ∨ g.rdBlocked = true) ∧ (c.output = [] ∨ g.wrBlocked = true)

theorem mgrOk_close {c : Ctx} {i : Bool} (h : MgrOk c i) (e : Option ConnErr) :
    MgrOk { c with error := e }.close.1 (i && !{ c with error := e }.close.2.mgr) := by
  intro hi
  simp only [Ctx.close, Wakes.or, Ctx.wakeTrans, Ctx.wakeMgr, Bool.and_eq_true,
    Bool.not_eq_true', Bool.or_eq_false_iff] at hi
  have := (h hi.1).1
  simp [this] at hi

theorem transOk_close {c : Ctx} {g : Ghost} (h : TransOk c g) (e : Option ConnErr) :
    TransOk { c with error := e }.close.1 (g.woken { c with error := e }.close.2) := by
  intro hi
  simp only [Ghost.woken, Ctx.close, Wakes.or, Ctx.wakeTrans, Ctx.wakeMgr, Bool.and_eq_true,
    Bool.not_eq_true', Bool.or_eq_false_iff] at hi
  have := (h hi.1).1
  simp [this] at hi

theorem mgrOk_setError {c : Ctx} {i : Bool} (h : MgrOk c i) (e : ConnErr) :
    MgrOk (c.setError e).1 (i && !(c.setError e).2.mgr) := by
  unfold Ctx.setError
  split
  · simpa [Wakes.none] using h
  · exact mgrOk_close h (some e)

theorem transOk_setError {c : Ctx} {g : Ghost} (h : TransOk c g) (e : ConnErr) :
    TransOk (c.setError e).1 (g.woken (c.setError e).2) := by
  unfold Ctx.setError
  split
  · simpa [Wakes.none, Ghost.woken] using h
  · exact transOk_close h (some e)

theorem mgrOk_wakeMgr (c : Ctx) (i : Bool) (h : i = true → c.mgrTask = true) :
    MgrOk c.wakeMgr.1 (i && !c.wakeMgr.2.mgr) := by
  intro hi
  simp only [Ctx.wakeMgr, Bool.and_eq_true, Bool.not_eq_true'] at hi
  rw [h hi.1] at hi
  cases hi.2

theorem mgrOk_pollRead {c : Ctx} {i : Bool} (h : MgrOk c i) (rd : ReadRes) :
    MgrOk (c.pollRead rd).1 (i && !(c.pollRead rd).2.1.mgr) := by
  unfold Ctx.pollRead
  split
  · simpa [Wakes.none] using h
  · split
    · simpa [Wakes.none, MgrOk] using h
    · cases rd with
      | pending => simpa [Wakes.none, MgrOk] using h
      | err n =>
        have h1 := mgrOk_setError h (.io n)
        dsimp only
        split
        · simp only [Wakes.or, Bool.not_or, ← Bool.and_assoc]
          exact mgrOk_wakeMgr _ _ (fun hi => (h1 hi).1)
        · simpa [Wakes.or, Wakes.none] using h1
      | ok bs =>
        by_cases hb : bs = []
        · have h1 := mgrOk_close h c.error
          simp only [hb, if_true]
          split
          · simp only [Wakes.or, Bool.not_or, ← Bool.and_assoc]
            exact mgrOk_wakeMgr _ _ (fun hi => (h1 hi).1)
          · simpa [Wakes.or, Wakes.none] using h1
        · simp only [hb, if_false]
          split
          · simp only [Wakes.or, Wakes.none, Bool.false_or]
            exact mgrOk_wakeMgr { c with input := c.input ++ bs } _ (fun hi => (h hi).1)
          · rename_i hn
            simp [hb] at hn

theorem mgrOk_pollWrite {c : Ctx} {i : Bool} (h : MgrOk c i) (wr : WriteRes) :
    MgrOk (c.pollWrite wr).1 (i && !(c.pollWrite wr).2.1.mgr) := by
  unfold Ctx.pollWrite
  split
  · split
    · simpa [Wakes.none] using h
    · simpa [Wakes.none, MgrOk] using h
  · cases wr with
    | pending => simpa [Wakes.none, MgrOk] using h
    | err n => exact mgrOk_setError h (.io n)
    | ok k => exact mgrOk_wakeMgr _ _ (fun hi => (h hi).1)

theorem pollRead_not_ready {c : Ctx} {rd : ReadRes} (hc : c.closed = false)
    (h : (c.pollRead rd).2.2 = false) :
    (c.pollRead rd).1 = { c with transTask := true } ∧
      (c.input.length ≥ bufferCapacity ∨ rd = .pending) := by
  unfold Ctx.pollRead at h ⊢
  rw [if_neg (by simp [hc])] at h ⊢
  split
  · exact ⟨rfl, .inl ‹_›⟩
  · rename_i hf
    rw [if_neg hf] at h
    cases rd with
    | pending => exact ⟨rfl, .inr rfl⟩
    | ok bs => cases h
    | err n => cases h

theorem pollWrite_not_ready {c : Ctx} {wr : WriteRes} (h : (c.pollWrite wr).2.2 = false) :
    (c.pollWrite wr).1 = { c with transTask := true } ∧
      (c.output = [] ∧ c.closed = false ∨ c.output ≠ [] ∧ wr = .pending) := by
  unfold Ctx.pollWrite at h ⊢
  split
  · rename_i ho
    rw [if_pos ho] at h
    split
    · rename_i hc; rw [if_pos hc] at h; cases h
    · rename_i hc; exact ⟨rfl, .inl ⟨ho, by simpa using hc⟩⟩
  · rename_i ho
    rw [if_neg ho] at h
    cases wr with
    | pending => exact ⟨rfl, .inr ⟨ho, rfl⟩⟩
    | ok k => cases h
    | err n => cases h

theorem wake_step (s : Sess) (op : Op) (hm : MgrOk s.ctx s.ghost.mgrIdle)
    (ht : TransOk s.ctx s.ghost) :
    MgrOk (s.step op).1.ctx (s.step op).1.ghost.mgrIdle ∧
      TransOk (s.step op).1.ctx (s.step op).1.ghost := by
  cases op with
  | push data =>
    simp only [Sess.step, Ctx.push]
    split
    · exact ⟨by simpa [Ghost.woken, Wakes.none] using hm, by simpa [Ghost.woken, Wakes.none] using ht⟩
    · split
      · exact ⟨mgrOk_setError hm _, transOk_setError ht _⟩
      · split
        · constructor
          · simpa [Ghost.woken, Ctx.wakeTrans, MgrOk] using hm
          · intro hi
            simp only [Ghost.woken, Ctx.wakeTrans, Bool.and_eq_true, Bool.not_eq_true'] at hi
            rw [(ht hi.1).1] at hi
            cases hi.2
        · rename_i ho
          simp only [ne_eq, Decidable.not_not, List.append_eq_nil_iff] at ho
          constructor
          · simpa [Ghost.woken, Wakes.none, MgrOk] using hm
          · intro hi
            have := ht (by simpa [Ghost.woken, Wakes.none] using hi)
            exact ⟨this.1, this.2.1, this.2.2.1, .inl (by simp [ho])⟩
  | dataAck len =>
    constructor
    · exact mgrOk_wakeMgr _ _ (fun hi => (hm hi).1)
    · intro hi
      have := ht (by simpa [Sess.step, Ghost.woken, Ctx.processDataAck, Ctx.wakeMgr] using hi)
      exact this
  | take n =>
    obtain ⟨h1, h2⟩ := take_cases n s.ctx
    simp only [Sess.step]
    rcases Nat.eq_zero_or_pos s.ctx.written with hz | hp
    · obtain ⟨hw, -, ha, hb, hd, he⟩ := h2 hz
      have hT : ∀ c : Ctx, c.transTask = s.ctx.afterTake.transTask → c.closed = s.ctx.closed →
          c.input = s.ctx.afterTake.input → c.output = s.ctx.output → ∀ b,
          TransOk c { (s.ghost.woken (s.ctx.take n).2.2.2) with mgrIdle := b } := by
        intro c e1 e2 e3 e4 b hi
        rw [hw] at hi
        simp only [Ghost.woken, Bool.and_eq_true, Bool.not_eq_true', Bool.and_eq_false_iff,
          decide_eq_false_iff_not] at hi
        obtain ⟨t1, t2, t3, t4⟩ := ht hi.1
        rcases hi.2 with hi | hi
        · refine ⟨?_, by rw [e2, t2], ?_, ?_⟩
          · rw [e1]; simp only [Ctx.afterTake, if_neg hi, t1]
          · left; rw [e3]
            simp only [Ctx.afterTake, List.length_drop]
            omega
          · simpa [Ghost.woken, e4] using t4
        · rw [t1] at hi; cases hi
      by_cases hi : s.ctx.input.take s.ctx.inCap = []
      · cases hc : s.ctx.closed
        · rw [(hb hi hc).1, (hb hi hc).2]
          refine ⟨?_, hT _ rfl rfl rfl rfl _⟩
          intro _
          refine ⟨rfl, hz, ?_, hc⟩
          have hk : min s.ctx.inCap s.ctx.input.length = 0 := by
            have := congrArg List.length hi
            simpa using this
          simp only [Ctx.afterTake, hk, List.drop_zero, Nat.sub_zero, hi]
        · cases her : s.ctx.error with
          | none =>
            rw [(hd hi hc her).1, (hd hi hc her).2]
            exact ⟨by simp [MgrOk], hT _ rfl rfl rfl rfl _⟩
          | some e =>
            rw [(he e hi hc her).1, (he e hi hc her).2]
            exact ⟨by simp [MgrOk], hT _ rfl rfl rfl rfl _⟩
      · rw [(ha hi).1, (ha hi).2]
        exact ⟨by simp [MgrOk], hT _ rfl rfl rfl rfl _⟩
    · rw [(h1 hp).1, (h1 hp).2.1]
      refine ⟨by simp [MgrOk], ?_⟩
      have : (s.ctx.take n).2.2.2 = .none := by rw [(h1 hp).2.2]
      rw [this]
      intro hi
      have := ht (by simpa [Ghost.woken, Wakes.none] using hi)
      exact this
  | close => exact ⟨mgrOk_close hm s.ctx.error, transOk_close ht s.ctx.error⟩
  | connected => simp only [Sess.step]; split <;> exact ⟨hm, ht⟩
  | connectFailed n =>
    simp only [Sess.step]
    split
    · exact ⟨mgrOk_setError hm _, transOk_setError ht _⟩
    · exact ⟨hm, ht⟩
  | transport rd wr =>
    simp only [Sess.step]
    split
    · split
      · exact ⟨hm, ht⟩
      · rename_i hc
        simp only [Bool.not_eq_true] at hc
        constructor
        · have h1 := mgrOk_pollWrite (mgrOk_pollRead hm rd) wr
          simpa [Ctx.pollTransport, hc, Ghost.woken, Wakes.or, Bool.not_or, Bool.and_assoc] using h1
        · intro hi
          simp only [Ctx.pollTransport, hc, Bool.false_eq_true, if_false, Bool.and_eq_true,
            decide_eq_true_eq] at hi
          have hnr : (s.ctx.pollRead rd).2.2 = false ∧
              ((s.ctx.pollRead rd).1.pollWrite wr).2.2 = false := by
            cases h1 : (s.ctx.pollRead rd).2.2 <;>
              cases h2 : ((s.ctx.pollRead rd).1.pollWrite wr).2.2 <;> simp_all
          obtain ⟨r1, r2⟩ := pollRead_not_ready hc hnr.1
          obtain ⟨w1, w2⟩ := pollWrite_not_ready hnr.2
          simp only [Ctx.pollTransport, hc, Bool.false_eq_true, if_false]
          rw [w1, r1]
          rw [r1] at w2
          refine ⟨rfl, hc, ?_, ?_⟩
          · rcases Nat.lt_or_ge s.ctx.input.length bufferCapacity with hl | hl
            · rcases r2 with r2 | r2
              · omega
              · right; simp [hl, r2]
            · exact .inl hl
          · rcases w2 with w2 | w2
            · exact .inl w2.1
            · right; simp only [ne_eq] at w2; simp [w2.1, w2.2]
    · exact ⟨hm, ht⟩

theorem wake_inv (svc : UInt16) (sess : UInt32) (W : Nat) (ops : List Op) :
    MgrOk (life svc sess W ops).1.ctx (life svc sess W ops).1.ghost.mgrIdle ∧
      TransOk (life svc sess W ops).1.ctx (life svc sess W ops).1.ghost :=
  run_induct (fun s _ => MgrOk s.ctx s.ghost.mgrIdle ∧ TransOk s.ctx s.ghost)
    (fun s _ op h => wake_step s op h.1 h.2) (Sess.new svc sess W) []
    ⟨by simp [MgrOk, Sess.new], by simp [TransOk, Sess.new]⟩ ops

/-- C19 (manager): as long as the manager has been told "pending" and not been woken since, there is
nothing it could get: polling the session again would still say "pending". -/
theorem C19_manager_not_forgotten (svc : UInt16) (sess : UInt32) (W : Nat) (ops : List Op)
    (h : (life svc sess W ops).1.ghost.mgrIdle = true) (n : Nat) :
    ((life svc sess W ops).1.ctx.take n).1 = .pending := by
  obtain ⟨-, h2, h3, h4⟩ := (wake_inv svc sess W ops).1 h
  exact (((take_cases n _).2 h2).2.2.2.1 h3 h4).1

/-- C19 (transport): as long as the transport task waits and has not been woken since, the session is
open, there is no room to read or the stream itself is what it waits for, and there is nothing to
write or the stream itself is what it waits for. -/
theorem C19_transport_not_forgotten (svc : UInt16) (sess : UInt32) (W : Nat) (ops : List Op)
    (h : (life svc sess W ops).1.ghost.transIdle = true) :
    let s := (life svc sess W ops).1
    s.ctx.closed = false ∧ (8192 ≤ s.ctx.input.length ∨ s.ghost.rdBlocked = true) ∧
      (s.ctx.output = [] ∨ s.ghost.wrBlocked = true) := by
  obtain ⟨-, h2, h3, h4⟩ := (wake_inv svc sess W ops).2 h
  exact ⟨h2, h3, h4⟩

/-- Non-vacuity of C19: both tasks wait after an idle start; data from the server wakes the transport
only, data from the service wakes the manager. -/
example : let l := life 1 1 65536 [.connected, .transport .pending .pending, .take 0]
    let l' := life 1 1 65536 [.connected, .transport .pending .pending, .take 0,
      .transport .pending .pending]
    l.1.ghost.mgrIdle = true ∧ l'.1.ghost.transIdle = true ∧ l'.1.ghost.mgrIdle = true ∧
    (l'.1.step (.push [1])).1.ghost = ⟨true, false, true, false⟩ ∧
    (l'.1.step (.transport (.ok [1]) .pending)).1.ghost.mgrIdle = false := by
  decide +kernel

/-! ## C20 -/

/-- C20: the first end reported to the manager is the first reason the session had to end, and after
it no error is reported. -/
theorem C20_first_close_decides (svc : UInt16) (sess : UInt32) (W : Nat) (hW : W < 2 ^ 32)
    (ops : List Op) :
    let os := (life svc sess W ops).2
    (∀ r, (ends os).head? = some r → (causes os).head? = some r) ∧
    (∀ r ∈ (ends os).tail, r = none) := by
  have h := inv svc sess W hW ops
  exact ⟨fun r hr => (h.ended r hr).1, h.tail⟩

/-- C20: errors are reported at most once. -/
theorem C20_error_reported_once (svc : UInt16) (sess : UInt32) (W : Nat) (hW : W < 2 ^ 32)
    (ops : List Op) : ((ends (life svc sess W ops).2).filter Option.isSome).length ≤ 1 := by
  have h := (inv svc sess W hW ops).tail
  cases hE : ends (life svc sess W ops).2 with
  | nil => simp
  | cons a l =>
    rw [hE] at h
    have : l.filter Option.isSome = [] := by
      rw [List.filter_eq_nil_iff]
      intro x hx
      rw [h x hx]; simp
    rw [List.filter_cons, this]
    split <;> simp

/-- C20: a session has ended exactly if it was given a reason; while it has none, no end is reported. -/
theorem C20_closed_iff_cause (svc : UInt16) (sess : UInt32) (W : Nat) (hW : W < 2 ^ 32)
    (ops : List Op) :
    ((life svc sess W ops).1.ctx.closed = true ↔ causes (life svc sess W ops).2 ≠ []) ∧
    (causes (life svc sess W ops).2 = [] → ends (life svc sess W ops).2 = []) := by
  have h := inv svc sess W hW ops
  refine ⟨h.closed, fun hc => (h.open_ ?_).2⟩
  cases hb : (life svc sess W ops).1.ctx.closed
  · rfl
  · exact absurd hc (h.closed.mp hb)

/-- C20: what happens to a closed session changes neither its buffers nor its result. -/
theorem C20_closed_is_final (c : Ctx) (h : c.closed = true) (data : Bytes) (e : ConnErr) :
    (c.push data).1 = c ∧ (c.setError e).1 = c ∧
    c.close.1 = { c with mgrTask := false, transTask := false } := by
  refine ⟨by simp [Ctx.push, h], by simp [setError_eq, h], ?_⟩
  rw [close_eq, ← h]

/-- Non-vacuity of C20: an I/O error, then the server's HUP; the error is reported, once. -/
example : (life 1 1 65536 [.connected, .transport (.err 7) .pending, .close, .take 0, .take 0]).2 =
    [.cause (some (.io 7)), .cause none, .failed (.io 7), .finished] := by decide +kernel

end Verif.Props.Session
