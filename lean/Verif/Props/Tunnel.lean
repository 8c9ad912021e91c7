import Verif.Lemmas.Tunnel
import Verif.Props.Wire
/-!
# C103: a tunnelled connection from end to end

What the theorems on messages (C02), sessions (C13, C14), the session manager (C81) and the connection say
separately, put together: the bytes on the two ends of a tunnel.
-/
namespace Verif.Props.Tunnel
open Verif Verif.Control Verif.Session Verif.Client Verif.Tunnel Verif.Spec Verif.Spec.Tunnel
open Verif.Spec.Session (accepted wrote reads sentData)
open Verif.Spec.SessionLog (notTake payloadOf sentItems dataOf)
open Verif.Props.Session (life life_snoc)
open Verif.Props.Client (hist demoCfg demoEnv demoMsg demoStart)

/-! ### Lemmas -/

theorem payloadOf_inbox (x : UInt32) (r : List Seen) : payloadOf (inbox x r) = payloads x (gotMessages r) := by
  induction r with
  | nil => rfl
  | cons v r ih =>
    have e0 : payloadOf (inbox x (v :: r)) = payloadOf (inboxOf x v) ++ payloadOf (inbox x r) := by
      simp [inbox, payloadOf]
    have q0 : payloads x (gotMessages (v :: r)) = payloads x (gotMessages [v]) ++ payloads x (gotMessages r) := by
      simp only [gotMessages, payloads, ← List.flatMap_append, ← List.filterMap_append, List.singleton_append]
    rw [e0, q0, ih]
    clear e0 q0
    congr 1
    cases v with
    | io s o =>
      simp only [inboxOf]
      split
      · cases o <;> rfl
      · rfl
    | ev e =>
      cases e with
      | sent m => rfl
      | ev e =>
        cases e with
        | got m o =>
          cases o with
          | ok =>
            simp only [inboxOf]
            by_cases h : Carries x m
            · simp [h, payloadOf, gotMessages, payloads]
            · simp only [if_neg h]
              cases Spec.Tunnel.dataAck m with
              | none => simp [h, payloadOf, gotMessages, payloads]
              | some q =>
                obtain ⟨a, b⟩ := q
                by_cases ha : a = x.toNat <;> simp [ha, h, payloadOf, gotMessages, payloads]
          | err e => rfl
          | panic => rfl
        | _ => rfl

theorem accepted_append' (a b : List Obs) : accepted (a ++ b) = accepted a ++ accepted b := by simp [accepted]

theorem accepted_other (s : Sess) (op : Op) (h : ∀ d, op ≠ .push d) : accepted (s.step op).2 = [] := by
  cases op with
  | push d => exact absurd rfl (h d)
  | take n => simp only [Sess.step]; split <;> rfl
  | dataAck len => rfl
  | close => rfl
  | connected => simp only [Sess.step]; split <;> rfl
  | connectFailed n => simp only [Sess.step]; split <;> rfl
  | transport rd wr =>
    simp only [Sess.step]
    split
    · split
      · rfl
      · rw [accepted_append']
        have h1 : accepted (readObs s.ctx rd) = [] := by
          unfold readObs; split
          · rfl
          · cases rd <;> dsimp only
            · rfl
            · split <;> rfl
            · rfl
        have h2 : ∀ c, accepted (writeObs c wr) = [] := by
          intro c; unfold writeObs; split
          · rfl
          · cases wr <;> rfl
        rw [h1, h2]; rfl
    · rfl

/-- A session accepts what it is given, up to its end. -/
theorem accepted_prefix (svc : UInt16) (sid : UInt32) (W : Nat) (sops : List Op) :
    ∃ rest, payloadOf (sops.filter notTake) = accepted (life svc sid W sops).2 ++ rest ∧
      ((life svc sid W sops).1.ctx.closed = false → rest = []) := by
  have hrev : ∀ n (sops : List Op), sops.length = n →
      ∃ rest, payloadOf (sops.filter notTake) = accepted (life svc sid W sops).2 ++ rest ∧
        ((life svc sid W sops).1.ctx.closed = false → rest = []) := by
    intro n
    induction n with
    | zero =>
      intro sops h
      cases List.eq_nil_of_length_eq_zero h
      exact ⟨[], rfl, fun _ => rfl⟩
    | succ n ih =>
      intro sops h
      rcases List.eq_nil_or_concat sops with rfl | ⟨sops, op, rfl⟩
      · cases h
      · rw [List.concat_eq_append] at h ⊢
        obtain ⟨rest, h1, h2⟩ := ih sops (by simpa using h)
        have hp : payloadOf ((sops ++ [op]).filter notTake) = payloadOf (sops.filter notTake) ++ payloadOf [op] := by
          have e : payloadOf ([op].filter notTake) = payloadOf [op] := by cases op <;> rfl
          rw [List.filter_append, ← e]
          simp [payloadOf]
        have hmono : (life svc sid W sops).1.ctx.closed = true →
            (life svc sid W (sops ++ [op])).1.ctx.closed = true :=
          fun hc => (Props.Session.C11_closed_writes_nothing svc sid W sops [op] hc).2
        rw [hp, h1]
        rw [life_snoc, accepted_append'] at *
        cases hcl : (life svc sid W sops).1.ctx.closed with
        | true =>
          have hm := hmono hcl
          dsimp only at hm ⊢
          have h0 : accepted ((life svc sid W sops).1.step op).2 = [] := by
            cases op with
            | push d => rw [(Props.Session.C14_discarded_when_closed _ d hcl).2]; rfl
            | _ => exact accepted_other _ _ (by simp)
          refine ⟨rest ++ payloadOf [op], by rw [h0]; simp, fun h => ?_⟩
          rw [hm] at h; cases h
        | false =>
          rw [h2 hcl, List.append_nil]
          dsimp only
          generalize life svc sid W sops = l at hcl
          obtain ⟨s, os⟩ := l
          dsimp only at hcl ⊢
          by_cases hop : ∃ d, op = .push d
          · obtain ⟨d, rfl⟩ := hop
            simp only [Sess.step, Ctx.push, hcl, Bool.false_eq_true, if_false]
            by_cases hd : d.length > s.ctx.outCap
            · simp only [if_pos hd, setError_eq, hcl]
              refine ⟨d, by simp [payloadOf, accepted], fun h => ?_⟩
              simp at h
            · simp only [if_neg hd]
              refine ⟨[], ?_, fun _ => rfl⟩
              split <;> rename_i hx
              · split at hx <;> cases hx
              · split at hx <;> cases hx
              · simp [payloadOf, accepted]
          · rw [accepted_other _ _ (fun d h => hop ⟨d, h⟩)]
            refine ⟨[], ?_, fun _ => rfl⟩
            cases op with
            | push d => exact absurd ⟨d, rfl⟩ hop
            | _ => simp [payloadOf]
  exact hrev _ sops rfl

/-! ### C103 -/

/-- C103: for every connection, whatever server, services and scheduling do: an open session is the result of
a history of its own, which was given exactly the payloads, acknowledgements and I/O for its id since it was
opened. What its service sent is what was sent to the server as payload of this session since the opening, in
order, followed by what is buffered. What the server sent as payload of this session is what was written to
the service, followed by what is buffered, followed by what was discarded; and nothing is discarded as long as the
session was not given a reason to end. -/
theorem C103_both_ways (cfg : Cfg) (env : Env) (ops : List COp) (c : Cli) (hl : (hist cfg env ops).1 = .live c)
    (hu : Usable (record cfg env ops)) (sid : UInt32) (s : Sess) (hs : c.mgr.sessions.get sid = some s) :
    let t := since sid (record cfg env ops)
    ∃ sops, sops.filter notTake = inbox sid t.2 ∧ (life t.1 sid 65536 sops).1 = s ∧
      reads (life t.1 sid 65536 sops).2 = payloads sid (sentMessages t.2) ++ s.ctx.input ∧
      ∃ discarded, payloads sid (gotMessages t.2) =
          wrote (life t.1 sid 65536 sops).2 ++ s.ctx.output ++ discarded ∧
        (s.ctx.closed = false → discarded = []) := by
  intro t
  have h := record_fits cfg env ops c hl hu
  obtain ⟨sops, h1, h2, h3, h4⟩ := h.kept sid s hs
  rw [h.window] at h1 h3 h4
  refine ⟨sops, h2, h1, ?_, ?_⟩
  · rw [Props.Session.C13_reads_eq_sent_append_buffer t.1 sid 65536 (by decide) sops,
      SessionLog.sentData_items]
    have e : sentItems (life t.1 sid 65536 sops).2 = (acc (record cfg env ops) sid).outbox := h3
    rw [e, (h.data sid s hs).1]
    have e : (life t.1 sid 65536 sops).1 = s := h1
    rw [e]
    rfl
  · obtain ⟨rest, h5, h6⟩ := accepted_prefix t.1 sid 65536 sops
    have e : sops.filter notTake = inbox sid t.2 := h2
    have e1 : (life t.1 sid 65536 sops).1 = s := h1
    rw [e, payloadOf_inbox, Props.Session.C14_accepted_eq_wrote_append_buffer t.1 sid 65536 (by decide) sops, e1] at h5
    rw [e1] at h6
    exact ⟨rest, h5, h6⟩

/-! ### What the codecs make of it -/

/-- Every message of the control protocol or with a session id that fits into its field. -/
def Narrow (m : Wire.Message) : Prop := m.header.service = 0 ∨ m.header.session.toNat < 2 ^ 24

theorem new_narrow (svc : UInt16) (sid : UInt32) (p : Bytes) : Narrow (Wire.Message.new svc sid p) := by
  refine .inr ?_
  show (mask24 sid).toNat < _
  rw [mask24_toNat]
  exact Nat.mod_lt _ (by decide)

theorem take_narrow {n : Nat} {c : Ctx} {i : Item} (h : (c.take n).1 = .item i) : Narrow i.toArrow := by
  unfold Ctx.take at h
  split at h
  · cases h; exact .inl rfl
  · dsimp only at h
    repeat' split at h
    all_goals first
      | (injection h with h; rw [← h]; exact new_narrow _ _ _)
      | cases h

theorem poll_narrow (m : Mgr) (hq : ∀ x ∈ m.queue, Calm x) (d : Wire.Message)
    (h : m.poll.1 = .ready d) : Narrow d := by
  have hQ : ∀ d, m.poll.1 = .ready d → Narrow d := by
    unfold Mgr.poll
    split
    · rename_i msg q hmq
      intro d h
      injection h with h
      rw [← h]
      exact .inl (hq msg (by rw [hmq]; exact List.mem_cons_self)).1
    · refine pollLoop_cases (fun _ _ => True) (fun r => ∀ d, r.1 = .ready d → Narrow d)
        ?_ ?_ ?_ ?_ ?_ ?_ ?_ _ m trivial
      · intro m' _ d h; cases h
      · intros; trivial
      · intros; trivial
      · intros; trivial
      · intro k m' sid rest s _ _ _ _ d h; injection h with h; rw [← h]; exact .inl rfl
      · intro k m' sid rest s i _ _ hi _ d h; injection h with h; rw [← h]; exact take_narrow hi
      · intro k m' sid rest s e _ _ _ _ d h; injection h with h; rw [← h]; exact .inl rfl
  exact hQ d h

structure NI (c : Cli) (es : List NEv) : Prop where
  messages : ∀ m ∈ c.messages, Calm m
  queue : ∀ m ∈ c.mgr.queue, Calm m
  sent : ∀ m, NEv.sent m ∈ es → Narrow m

theorem NI.more {c c' : Cli} {es l : List NEv} (h : NI c es)
    (hm : c'.messages = c.messages ∨ ∃ y : ControlMessage, y.msgType ≠ 12 ∧ c'.messages = c.messages ++ [y.toArrow])
    (hq : ∀ m ∈ c'.mgr.queue, Calm m) (hl : ∀ m, NEv.sent m ∈ l → Narrow m) : NI c' (es ++ l) := by
  refine ⟨?_, hq, ?_⟩
  · intro m hmem
    rcases hm with hm | ⟨y, hy, hm⟩ <;> rw [hm] at hmem
    · exact h.messages m hmem
    · rcases List.mem_append.1 hmem with h1 | h1
      · exact h.messages m h1
      · rw [List.mem_singleton.1 h1]; exact calm_toArrow y hy
  · intro m hmem
    rcases List.mem_append.1 hmem with h1 | h1
    · exact h.sent m h1
    · exact hl m h1

theorem evs_not_sent (evs : List CEv) (m : Wire.Message) : NEv.sent m ∉ evs.map NEv.ev := by
  intro h
  obtain ⟨e, -, he⟩ := List.mem_map.1 h
  cases he

theorem ni_steps : Steps (fun _ _ => True) (fun _ => True) (fun c es _ => NI c es) (fun _ _ => True) where
  time := fun _ _ _ _ h _ => h
  idle := fun _ _ _ h => ⟨h.messages, h.queue, h.sent⟩
  close := fun _ _ _ h => ⟨h.messages, h.queue, h.sent⟩
  timeout := fun _ _ _ _ _ _ => trivial
  refused := fun _ _ _ _ _ _ _ _ => trivial
  ping := fun c es t h _ _ _ => h.more (.inr ⟨_, ctl_type (by decide), rfl⟩) h.queue (fun m hm => absurd hm (evs_not_sent _ m))
  check := by
    intro c es env _ h _ _ _
    rw [check_eq]
    split
    · exact h.more (.inr ⟨_, ctl_type (by decide), rfl⟩) h.queue (fun m hm => by simp at hm)
    · exact h.more (.inl rfl) h.queue (fun m hm => by simp at hm)
  ready := by
    intro c es t m h ho hr
    rw [List.append_assoc]
    rcases ctxPoll_ready hr with ⟨ms, h1, h3⟩ | ⟨h1, h2, h3⟩ <;> rw [h3]
    · have hm := h.messages m (by rw [h1]; exact List.mem_cons_self)
      refine ⟨fun y hy => h.messages y (by rw [h1]; exact List.mem_cons_of_mem _ hy), h.queue, ?_⟩
      intro y hy
      simp only [List.map_nil, List.nil_append] at hy
      rcases List.mem_append.1 hy with hy | hy
      · exact h.sent y hy
      · cases List.mem_singleton.1 hy
        exact .inl hm.1
    · refine h.more (.inl rfl) (poll_cases c.mgr h.queue).2.1 ?_
      intro y hy
      rcases List.mem_append.1 hy with hy | hy
      · exact absurd hy (evs_not_sent _ y)
      · cases List.mem_singleton.1 hy
        exact poll_narrow _ h.queue _ h2
  pending := by
    intro c es t h ho hr
    obtain ⟨h1, h2, h3⟩ := ctxPoll_pending hr
    rw [h3]
    exact h.more (.inl rfl) (poll_cases c.mgr h.queue).2.1 (fun m hm => absurd hm (evs_not_sent _ m))
  recv := by
    intro c es env m _ h ho hok
    have H := handle_tunnelled c env m hok
    generalize (c.handle env m).2.1 = c' at H ⊢
    generalize (c.handle env m).2.2 = evs at H ⊢
    have hl : ∀ evs : List CEv, ∀ y, NEv.sent y ∈ (NEv.ev (.got m .ok) :: evs.map NEv.ev) → Narrow y := by
      intro evs y hy
      rcases List.mem_cons.1 hy with hy | hy
      · cases hy
      · exact absurd hy (evs_not_sent _ y)
    cases H with
    | mgr op h1 h2 => exact h.more (.inl rfl) (queue_step _ _ h1 h.queue) (hl _)
    | quiet _ _ h1 h2 h3 h4 h5 h6 h7 => exact h.more h7 (by rw [h3]; exact h.queue) (hl _)
  io := by
    intro c es t sid o h _
    exact h.more (.inl rfl) (queue_step _ _ (by simp) h.queue) (fun m hm => absurd hm (evs_not_sent _ m))

/-- The events of a connection, as they are seen in its record, are those of its history. -/
theorem record_events (cfg : Cfg) (env : Env) (ops : List COp) :
    (record cfg env ops).filterMap (fun | .ev e => some e | .io _ _ => none) = (hist cfg env ops).2 := by
  have hmap : ∀ es : List NEv, (es.map Seen.ev).filterMap (fun | .ev e => some e | .io _ _ => none) = es := by
    intro es
    induction es with
    | nil => rfl
    | cons e es ih => simpa using ih
  have hrun : ∀ (ops : List COp) (s : Conn),
      (seenFrom s ops).filterMap (fun | .ev e => some e | .io _ _ => none) = (s.run ops).2 := by
    intro ops
    induction ops with
    | nil => intro s; rfl
    | cons op ops ih =>
      intro s
      have h0 : (ioOf op).filterMap (fun | .ev e => some e | .io _ _ => none) = ([] : List NEv) := by
        cases op <;> rfl
      simp only [seenFrom, List.filterMap_append, h0, hmap, ih, List.nil_append, Conn.run]
  simp only [record, List.filterMap_append, hmap, hrun]
  rfl

theorem sent_narrow (cfg : Cfg) (env : Env) (ops : List COp) (c : Cli) (hl : (hist cfg env ops).1 = .live c) :
    ∀ m ∈ sentMessages (record cfg env ops), Narrow m := by
  intro m hm
  rcases Props.Client.hist_inv' ni_steps cfg env ops
      ⟨(fun m hm => by rw [List.mem_singleton.1 hm]; exact calm_toArrow _ (by show ¬ (2 : UInt16) = 12; decide)), (fun m hm => by cases hm), (fun m hm => by simp at hm)⟩ with
    ⟨c', t, h, -⟩ | ⟨x, h, -⟩
  · refine h.sent m ?_
    rw [← record_events]
    unfold sentMessages at hm
    obtain ⟨v, hv, he⟩ := List.mem_filterMap.1 hm
    refine List.mem_filterMap.2 ⟨v, hv, ?_⟩
    cases v with
    | io s o => cases he
    | ev e =>
      cases e with
      | sent y => cases Option.some.inj he; rfl
      | ev y => cases he
  · rw [hl] at h; cases h

theorem since_suffix (x : UInt32) (r : List Seen) : ∃ a, r = a ++ (since x r).2 := by
  have hrev : ∀ n (r : List Seen), r.length = n → ∃ a, r = a ++ (since x r).2 := by
    intro n
    induction n with
    | zero => intro r h; cases List.eq_nil_of_length_eq_zero h; exact ⟨[], rfl⟩
    | succ n ih =>
      intro r h
      rcases List.eq_nil_or_concat r with rfl | ⟨r, v, rfl⟩
      · cases h
      · rw [List.concat_eq_append] at h ⊢
        obtain ⟨a, ha⟩ := ih r (by simpa using h)
        cases hv : openingOf x v with
        | none =>
          rw [since_append x r [v] (fun w hw => by rw [List.mem_singleton.1 hw]; exact hv)]
          refine ⟨a, ?_⟩
          dsimp only
          rw [← List.append_assoc, ← ha]
        | some svc =>
          rw [since_opened x r [] v svc hv (fun _ hw => by cases hw)]
          exact ⟨r ++ [v], by simp⟩
  exact hrev _ r rfl

/-- The service, session and payload of a message. -/
def parts (m : Wire.Message) : UInt16 × UInt32 × Bytes := (m.header.service, m.header.session, m.payload)

theorem served_seen (x : UInt32) (ms : List Wire.Message) (xs : List (UInt16 × UInt32 × Bytes))
    (h : ms.map Props.Wire.seen = xs.map Props.Wire.expected) : payloads x ms = served x xs := by
  induction ms generalizing xs with
  | nil => cases xs with
    | nil => rfl
    | cons y ys => cases h
  | cons m ms ih =>
    cases xs with
    | nil => cases h
    | cons y ys =>
      rw [List.map_cons, List.map_cons] at h
      injection h with h1 h2
      simp only [payloads, served, List.flatMap_cons]
      have := ih ys h2
      unfold payloads served at this
      rw [this]
      congr 1
      simp only [Props.Wire.seen, Props.Wire.expected, Prod.mk.injEq] at h1
      obtain ⟨a, b, c⟩ := h1
      have e : Carries x m ↔ (y.1 ≠ 0 ∧ y.2.1.toNat % 2 ^ 24 = x.toNat) := by
        unfold Carries
        rw [a, ← b]
        exact ⟨fun h => ⟨h.1, by rw [h.2]⟩, fun h => ⟨h.1, UInt32.toNat.inj h.2⟩⟩
      by_cases hc : Carries x m
      · rw [if_pos hc, if_pos (e.1 hc), c]
      · rw [if_neg hc, if_neg (fun h => hc (e.2 h))]

theorem served_parts (x : UInt32) (ms : List Wire.Message) (h : ∀ m ∈ ms, Narrow m) :
    served x (ms.map parts) = payloads x ms := by
  induction ms with
  | nil => rfl
  | cons m ms ih =>
    have := ih (fun y hy => h y (List.mem_cons_of_mem _ hy))
    simp only [payloads, served, List.map_cons, List.flatMap_cons] at this ⊢
    rw [this]
    congr 1
    have e : ((parts m).1 ≠ 0 ∧ (parts m).2.1.toNat % 2 ^ 24 = x.toNat) ↔ Carries x m := by
      rcases h m List.mem_cons_self with h0 | h0
      · simp [parts, Carries, h0]
      · unfold Carries parts
        rw [Nat.mod_eq_of_lt h0]
        exact ⟨fun h => ⟨h.1, UInt32.toNat.inj h.2⟩, fun h => ⟨h.1, by rw [h.2]⟩⟩
    by_cases hc : Carries x m
    · rw [if_pos hc, if_pos (e.2 hc)]; rfl
    · rw [if_neg hc, if_neg (fun h => hc (e.1 h))]

theorem encode_parts (m : Wire.Message) :
    m.encode = (Wire.Message.new (parts m).1 (parts m).2.1 (parts m).2.2).encode := by
  unfold Wire.Message.encode Wire.Message.new parts Wire.Header.new
  simp only [mask24_idem]

/-- C103 (to the server): the messages a client sends on a connection, encoded and cut into pieces in any way by
the network, reach the server as messages whose payload for the session is exactly what the service sent,
up to what the client still holds back. -/
theorem C103_to_server (cfg : Cfg) (env : Env) (ops : List COp) (c : Cli) (hl : (hist cfg env ops).1 = .live c)
    (hu : Usable (record cfg env ops)) (sid : UInt32) (s : Sess) (hs : c.mgr.sessions.get sid = some s)
    (cs : List Bytes) (hlen : ∀ m ∈ sentMessages (since sid (record cfg env ops)).2, m.payload.length < 2 ^ 32)
    (hcs : cs.flatten = (sentMessages (since sid (record cfg env ops)).2).flatMap Wire.Message.encode) :
    ∃ sops ms, sops.filter notTake = inbox sid (since sid (record cfg env ops)).2 ∧
      Wire.feedAll Wire.Reader.init cs = (ms, Wire.Reader.init) ∧
      reads (life (since sid (record cfg env ops)).1 sid 65536 sops).2 = payloads sid ms ++ s.ctx.input := by
  obtain ⟨sops, h1, -, h2, -⟩ := C103_both_ways cfg env ops c hl hu sid s hs
  obtain ⟨ms, h3, h4⟩ := Props.Wire.C02_stream_of_messages
    ((sentMessages (since sid (record cfg env ops)).2).map parts) cs
    (by
      intro y hy
      obtain ⟨m, hm, rfl⟩ := List.mem_map.1 hy
      exact hlen m hm)
    (by
      rw [hcs, List.flatMap_map]
      congr 1
      funext m
      exact encode_parts m)
  refine ⟨sops, ms, h1, h4, ?_⟩
  rw [h2, served_seen sid ms _ h3, served_parts]
  intro m hm
  obtain ⟨a, ha⟩ := since_suffix sid (record cfg env ops)
  refine sent_narrow cfg env ops c hl m ?_
  rw [ha]
  unfold sentMessages at hm ⊢
  rw [List.filterMap_append]
  exact List.mem_append_right _ hm

theorem payloads_append (x : UInt32) (a b : List Wire.Message) : payloads x (a ++ b) = payloads x a ++ payloads x b := by
  simp [payloads]

/-- C103 (from the server): if a server sends the messages `xs`, cut into pieces in any way by the network, and the
client has handled the first ones of the messages received, then what was written to the service of a
session is the beginning of the payload the server sent for this session after the message that opened it. -/
theorem C103_to_service (cfg : Cfg) (env : Env) (ops : List COp) (c : Cli) (hl : (hist cfg env ops).1 = .live c)
    (hu : Usable (record cfg env ops)) (sid : UInt32) (s : Sess) (hs : c.mgr.sessions.get sid = some s)
    (xs : List (UInt16 × UInt32 × Bytes)) (cs : List Bytes) (hlen : ∀ x ∈ xs, x.2.2.length < 2 ^ 32)
    (hcs : cs.flatten = xs.flatMap (fun x => (Wire.Message.new x.1 x.2.1 x.2.2).encode))
    (hgot : gotMessages (record cfg env ops) <+: (Wire.feedAll Wire.Reader.init cs).1) :
    ∃ sops, sops.filter notTake = inbox sid (since sid (record cfg env ops)).2 ∧
      (life (since sid (record cfg env ops)).1 sid 65536 sops).1 = s ∧
      wrote (life (since sid (record cfg env ops)).1 sid 65536 sops).2 <+:
        served sid (xs.drop (handledBefore sid (record cfg env ops))) := by
  obtain ⟨sops, h1, h0, -, rest, h2, -⟩ := C103_both_ways cfg env ops c hl hu sid s hs
  obtain ⟨ms, h3, h4⟩ := Props.Wire.C02_stream_of_messages xs cs hlen hcs
  refine ⟨sops, h1, h0, ?_⟩
  rw [h4] at hgot
  obtain ⟨later, hgot⟩ := hgot
  dsimp only at hgot
  obtain ⟨a, ha⟩ := since_suffix sid (record cfg env ops)
  have hg : gotMessages (record cfg env ops) = gotMessages a ++ gotMessages (since sid (record cfg env ops)).2 := by
    conv => lhs; rw [ha]
    simp [gotMessages]
  have hn : handledBefore sid (record cfg env ops) = (gotMessages a).length := by
    unfold handledBefore
    rw [hg, List.length_append, Nat.add_sub_cancel]
  have hd : ms.drop (handledBefore sid (record cfg env ops)) =
      gotMessages (since sid (record cfg env ops)).2 ++ later := by
    rw [hn, ← hgot, hg, List.append_assoc, List.drop_left]
  have he : (ms.drop (handledBefore sid (record cfg env ops))).map Props.Wire.seen =
      (xs.drop (handledBefore sid (record cfg env ops))).map Props.Wire.expected := by
    rw [List.map_drop, List.map_drop, h3]
  rw [← served_seen sid _ _ he, hd, payloads_append, h2, List.append_assoc, List.append_assoc]
  exact List.prefix_append _ _

/-! ### A concrete connection -/

/-- What the server sends: the acknowledgement of REGISTER, CONNECT for service 1 as session 7, some data for it, an
acknowledgement of two bytes, further data. -/
def demoSent : List (UInt16 × UInt32 × Bytes) :=
  [(0, 0, be16 0 ++ be16 0 ++ be32 0), (0, 0, be16 5 ++ be16 13 ++ (be16 1 ++ be32 7)), (1, 7, [8, 9]),
   (0, 0, be16 6 ++ be16 12 ++ (be32 7 ++ be32 2)), (1, 7, [10])]

/-- The bytes arrive one by one. -/
def demoChunks : List Bytes :=
  (demoSent.flatMap (fun x => (Wire.Message.new x.1 x.2.1 x.2.2).encode)).map fun b => [b]

/-- The `i`-th message as the client's decoder delivers it. -/
def demoGot (i : Nat) : Wire.Message :=
  ((Wire.feedAll Wire.Reader.init demoChunks).1[i]?).getD (Wire.Message.new 0 0 [])

/-- The connection of the client: all but the last message are handled; the service sends [1, 2, 3] and, later, [4]
which is not sent to the server yet; it accepts one byte. -/
def demoOps : List COp :=
  [.poll .pending [], .poll (.msg (demoEnv 1 0) (demoGot 0)) [], .poll (.msg (demoEnv 2 0) (demoGot 1)) [],
   .io 7 .connected, .poll (.msg (demoEnv 3 0) (demoGot 2)) [],
   .io 7 (.transport (.ok [1, 2, 3]) (.ok 1)), .poll .pending [], .poll (.msg (demoEnv 3 0) (demoGot 3)) [],
   .poll .pending [], .io 7 (.transport (.ok [4]) .pending)]

theorem usable_of {r : List Seen} (h : ∀ p ∈ r.filterMap opening, p.1.toNat < 2 ^ 24 ∧ p.2 ≠ 0) : Usable r :=
  fun v hv sid svc ho => h (sid, svc) (List.mem_filterMap.2 ⟨v, hv, ho⟩)

/-- Non-vacuity of C103: a connection with an open session that both sides use, with data in both buffers; what was
read, sent, received and written; and the messages handled are the first four of those the server sent. -/
example :
    let r := record demoCfg (demoEnv 0 0) demoOps
    let t := since 7 r
    Usable r ∧ t.1 = 1 ∧ payloads 7 (sentMessages t.2) = [1, 2, 3] ∧ payloads 7 (gotMessages t.2) = [8, 9] ∧
    handledBefore 7 r = 2 ∧ served 7 (demoSent.drop 2) = [8, 9, 10] ∧
    gotMessages r = (Wire.feedAll Wire.Reader.init demoChunks).1.take 4 ∧
    (∃ c, (hist demoCfg (demoEnv 0 0) demoOps).1 = .live c ∧
      ((c.mgr.sessions.get 7).map fun s => (s.ctx.input, s.ctx.output, s.ctx.closed)) = some ([4], [9], false)) := by
  refine ⟨usable_of (by decide +kernel), by decide +kernel, by decide +kernel, by decide +kernel, by decide +kernel,
    by decide +kernel, by decide +kernel, ?_⟩
  have h : (Props.Client.demoLive demoOps).map (fun c =>
      (c.mgr.sessions.get 7).map fun s => (s.ctx.input, s.ctx.output, s.ctx.closed)) =
      some (some ([4], [9], false)) := by decide +kernel
  unfold Props.Client.demoLive at h
  split at h
  · rename_i c hc
    exact ⟨c, hc, Option.some.inj h⟩
  · cases h

/-- Non-vacuity of the hypotheses about the two byte streams. -/
example :
    demoChunks.flatten = demoSent.flatMap (fun x => (Wire.Message.new x.1 x.2.1 x.2.2).encode) ∧
    (∀ x ∈ demoSent, x.2.2.length < 2 ^ 32) ∧
    gotMessages (record demoCfg (demoEnv 0 0) demoOps) <+: (Wire.feedAll Wire.Reader.init demoChunks).1 ∧
    (∀ m ∈ sentMessages (since 7 (record demoCfg (demoEnv 0 0) demoOps)).2, m.payload.length < 2 ^ 32) ∧
    (sentMessages (since 7 (record demoCfg (demoEnv 0 0) demoOps)).2).length = 2 := by
  refine ⟨by decide +kernel, by decide +kernel, by decide +kernel, by decide +kernel, by decide +kernel⟩

end Verif.Props.Tunnel
