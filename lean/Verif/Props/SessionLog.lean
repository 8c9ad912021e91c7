import Verif.Spec.SessionLog
import Verif.Props.SessionManager
/-!
# The session manager as a collection of independent sessions: C81, C82
-/
namespace Verif.Props.SessionLog
open Verif Verif.Session Verif.Spec.SessionManager Verif.Spec.SessionLog
open Verif.Spec.Session (accepted wrote reads sentData gotAcks sentAcks ends)
open Verif.Props.Session (life life_snoc)
open Verif.Props.SessionManager (hist hup_eq demoTable)

/-! ### Sessions -/

theorem sentItems_append (a b : List Obs) : sentItems (a ++ b) = sentItems a ++ sentItems b := by
  simp [sentItems]

theorem step_no_sent (s : Sess) (op : Op) (hop : notTake op = true) : sentItems (s.step op).2 = [] := by
  cases op with
  | take n => cases hop
  | push data => simp only [Sess.step]; split <;> rfl
  | dataAck len => rfl
  | close => rfl
  | connected => simp only [Sess.step]; split <;> rfl
  | connectFailed n => simp only [Sess.step]; split <;> rfl
  | transport rd wr =>
    simp only [Sess.step]
    split
    · split
      · rfl
      · rw [sentItems_append]
        have h1 : sentItems (readObs s.ctx rd) = [] := by
          unfold readObs; split
          · rfl
          · cases rd <;> dsimp only
            · rfl
            · split <;> rfl
            · rfl
        have h2 : ∀ c, sentItems (writeObs c wr) = [] := by
          intro c; unfold writeObs; split
          · rfl
          · cases wr <;> rfl
        rw [h1, h2]; rfl
    · rfl

/-- A session is what its account says. -/
def Matches (W : Nat) (sid : UInt32) (a : Account) (s : Sess) : Prop :=
  ∃ sops, (life a.svc sid W sops).1 = s ∧ sops.filter notTake = a.inbox ∧
    sentItems (life a.svc sid W sops).2 = a.outbox ∧ ends (life a.svc sid W sops).2 = []

theorem Matches.new (W : Nat) (sid : UInt32) (svc : UInt16) :
    Matches W sid ⟨svc, [], []⟩ (Sess.new svc sid W) := ⟨[], rfl, rfl, rfl, rfl⟩

theorem Matches.give {W sid a s} (h : Matches W sid a s) (op : Op) (hop : notTake op = true) :
    Matches W sid { a with inbox := a.inbox ++ [op] } (s.step op).1 := by
  obtain ⟨sops, h1, h2, h3, h4⟩ := h
  refine ⟨sops ++ [op], ?_, ?_, ?_, ?_⟩
  · dsimp only; rw [life_snoc, h1]
  · rw [List.filter_append, h2]; simp [hop]
  · dsimp only; rw [life_snoc, sentItems_append, step_no_sent _ _ hop, h3, List.append_nil]
  · dsimp only
    rw [life_snoc, ends_append, h4, step_no_end _ _ (by rintro n rfl; cases hop)]
    rfl

theorem Matches.take {W sid a s} (h : Matches W sid a s) (n : Nat) (is : List Item)
    (ht : (s.ctx.take n).1 = .pending ∧ is = [] ∨ ∃ i, (s.ctx.take n).1 = .item i ∧ is = [i]) :
    Matches W sid { a with outbox := a.outbox ++ is } (s.step (.take n)).1 := by
  obtain ⟨sops, h1, h2, h3, h4⟩ := h
  have hs : sentItems (s.step (.take n)).2 = is := by
    simp only [Sess.step]
    rcases ht with ⟨ht, rfl⟩ | ⟨i, ht, rfl⟩ <;> rw [ht] <;> rfl
  refine ⟨sops ++ [.take n], ?_, ?_, ?_, ?_⟩
  · dsimp only; rw [life_snoc, h1]
  · rw [List.filter_append, h2]; simp [notTake]
  · dsimp only; rw [life_snoc, sentItems_append, h1, hs, h3]
  · dsimp only
    rw [life_snoc, ends_append, h4, h1]
    have := take_no_end s n (by
      rcases ht with ⟨ht, -⟩ | ⟨i, ht, -⟩
      · exact .inl ht
      · exact .inr ⟨i, ht⟩)
    rw [this]; rfl

/-! ### The manager -/

/-- All open sessions are what their accounts say. -/
def Kept (m : Mgr) (acc : UInt32 → Account) : Prop :=
  ∀ sid s, m.sessions.get sid = some s → Matches m.window sid (acc sid) s

theorem step_account_quiet (sid : UInt32) (a : Account) (op : MOp) (evs : List Ev) (ps : List PollRes)
    (h1 : opens sid evs = none) (h2 : given sid op = []) (h3 : items sid evs = []) :
    a.step sid (op, evs, ps) = a := by
  simp [Account.step, h1, h2, h3]

theorem kept_onSession {m : Mgr} {acc} (h : Kept m acc) {sid s} (hs : m.sessions.get sid = some s) (o : Op)
    (op : MOp) (ho : notTake o = true) (hg : ∀ x, given x op = if sid = x then [o] else [])
    (ps : List PollRes) :
    Kept (m.onSession sid s o) (fun x => (acc x).step x (op, [], ps)) := by
  intro x t ht
  have hw : (m.onSession sid s o).window = m.window := rfl
  rw [hw]
  have hacc : (acc x).step x (op, [], ps) = { acc x with inbox := (acc x).inbox ++ given x op } := by
    simp [Account.step, opens, items]
  dsimp only at hacc ⊢
  rw [hacc, hg]
  rcases get_insert_cases ht with ⟨rfl, rfl⟩ | ⟨hx, ht⟩
  · rw [if_pos rfl]
    exact (h _ _ hs).give o ho
  · rw [if_neg (Ne.symm hx), List.append_nil]
    exact h _ _ ht

theorem kept_poll {m : Mgr} {acc} (h : Kept m acc) :
    Kept m.poll.2.1 (fun x => (acc x).step x (.poll, m.poll.2.2, [m.poll.1])) := by
  have hstep : ∀ (x : UInt32) (evs : List Ev) (p : PollRes), opens x evs = none →
      (acc x).step x (.poll, evs, [p]) = { acc x with outbox := (acc x).outbox ++ items x evs } := by
    intro x evs p ho
    simp [Account.step, ho, given]
  have hnil : ∀ x p, (acc x).step x (.poll, [], [p]) = acc x := by
    intro x p
    simp [Account.step, opens, given, items]
  unfold Mgr.poll
  split
  · dsimp only
    intro x t ht
    dsimp only
    rw [hnil]
    exact h x t ht
  · refine pollLoop_cases (fun _ m' => Kept m' acc ∧ m'.window = m.window)
      (fun r => Kept r.2.1 (fun x => (acc x).step x (.poll, r.2.2, [r.1]))) ?_ ?_ ?_ ?_ ?_ ?_ ?_ _ m ⟨h, rfl⟩
    · rintro m' ⟨h', -⟩ x t ht
      dsimp only
      rw [hnil]
      exact h' x t ht
    · rintro k m' - h'
      exact h'
    · rintro k m' sid rest - - ⟨h', hw⟩
      exact ⟨h', hw⟩
    · rintro k m' sid rest s - hs hno ⟨h', hw⟩
      refine ⟨?_, hw⟩
      intro x t ht
      rcases get_insert_cases ht with ⟨rfl, rfl⟩ | ⟨hx, ht⟩
      · have := (h' _ _ hs).take m'.counter [] (.inl ⟨(take_pending_iff _ _).mpr hno, rfl⟩)
        rw [List.append_nil] at this
        exact this
      · exact h' _ _ ht
    · rintro k m' sid rest s - hs hf ⟨h', hw⟩ x t ht
      obtain ⟨hx, ht⟩ := get_remove_cases ht
      dsimp only
      rw [hstep _ _ _ rfl]
      simp only [items, List.filterMap_cons, List.filterMap_nil, List.append_nil]
      exact h' _ _ ht
    · rintro k m' sid rest s i - hs hi ⟨h', hw⟩ x t ht
      dsimp only
      rw [hstep _ _ _ rfl]
      rcases get_insert_cases ht with ⟨rfl, rfl⟩ | ⟨hx, ht⟩
      · have := (h' _ _ hs).take m'.counter [i] (.inr ⟨i, hi, rfl⟩)
        simpa [items] using this
      · have := h' _ _ ht
        simpa [items, Ne.symm hx] using this
    · rintro k m' sid rest s e - hs hf ⟨h', hw⟩ x t ht
      obtain ⟨hx, ht⟩ := get_remove_cases ht
      dsimp only
      rw [hstep _ _ _ rfl]
      simp only [items, List.filterMap_cons, List.filterMap_nil, List.append_nil]
      exact h' _ _ ht

theorem kept_step {m : Mgr} {acc} (h : Kept m acc) (op : MOp) :
    Kept (m.step op).1 (fun x => (acc x).step x (op, (m.step op).2)) := by
  have hrefuse : ∀ (op : MOp) (sid : UInt32) (m' : Mgr), m'.sessions = m.sessions → m'.window = m.window →
      (∀ x, given x op ≠ [] → m.sessions.get x = none) →
      Kept m' (fun x => (acc x).step x (op, [.refused sid], [])) := by
    intro op sid m' h1 h2 h3 x t ht
    rw [h1] at ht
    rw [h2]
    dsimp only
    rw [step_account_quiet]
    · exact h _ _ ht
    · rfl
    · by_cases hg : given x op = []
      · exact hg
      · rw [h3 x hg] at ht; cases ht
    · rfl
  have hskip : ∀ (op : MOp) (m' : Mgr), m'.sessions = m.sessions → m'.window = m.window →
      (∀ x, given x op ≠ [] → m.sessions.get x = none) →
      Kept m' (fun x => (acc x).step x (op, [], [])) := by
    intro op m' h1 h2 h3 x t ht
    rw [h1] at ht
    rw [h2]
    dsimp only
    rw [step_account_quiet]
    · exact h _ _ ht
    · rfl
    · by_cases hg : given x op = []
      · exact hg
      · rw [h3 x hg] at ht; cases ht
    · rfl
  cases op with
  | connect get svc sid =>
    simp only [Mgr.step, Mgr.connect]
    split
    · rename_i t a ht
      intro x u hu
      dsimp only
      rcases get_insert_cases hu with ⟨rfl, rfl⟩ | ⟨hx, hu⟩
      · have : (acc x).step x (MOp.connect get svc x, [Ev.opened x svc t.svcType (t.mac.getD .zero) a], []) =
            ⟨svc, [], []⟩ := by
          simp [Account.step, opens]
        rw [this]
        exact Matches.new _ _ _
      · rw [step_account_quiet]
        · exact h _ _ hu
        · simp [opens, Ne.symm hx]
        · rfl
        · rfl
    · refine hrefuse _ _ _ rfl rfl ?_
      intro x hx
      exact absurd rfl hx
  | send msg =>
    simp only [Mgr.step, Mgr.send]
    split
    · rename_i s hs
      refine kept_onSession h hs (.push msg.payload) _ rfl ?_ _
      intro x
      rfl
    · rename_i hs
      refine hrefuse _ _ _ rfl rfl ?_
      intro x hx
      simp only [given, ne_eq, ite_eq_right_iff, reduceCtorEq, imp_false, Decidable.not_not] at hx
      rw [← hx]; exact hs
  | close sid =>
    simp only [Mgr.step, Mgr.close]
    split
    · intro x t ht
      dsimp only
      obtain ⟨hx, ht⟩ := get_remove_cases ht
      rw [step_account_quiet]
      · rcases get_insert_cases ht with ⟨hc, -⟩ | ⟨-, ht⟩
        · exact absurd hc hx
        · exact h _ _ ht
      · rfl
      · rfl
      · rfl
    · refine hskip _ _ rfl rfl ?_
      intro x hx
      exact absurd rfl hx
  | dataAck sid len =>
    simp only [Mgr.step, Mgr.dataAck]
    split
    · rename_i s hs
      refine kept_onSession h hs (.dataAck len.toNat) _ rfl ?_ _
      intro x
      rfl
    · rename_i hs
      refine hskip _ _ rfl rfl ?_
      intro x hx
      simp only [given, ne_eq, ite_eq_right_iff, reduceCtorEq, imp_false, Decidable.not_not] at hx
      rw [← hx]; exact hs
  | io sid o =>
    simp only [Mgr.step]
    split
    · rename_i s hs
      refine kept_onSession h hs o.op _ (by cases o <;> rfl) ?_ _
      intro x
      rfl
    · rename_i hs
      refine hskip _ _ rfl rfl ?_
      intro x hx
      simp only [given, ne_eq, ite_eq_right_iff, reduceCtorEq, imp_false, Decidable.not_not] at hx
      rw [← hx]; exact hs
  | poll => exact kept_poll h
  | newId =>
    refine hskip _ _ rfl rfl ?_
    intro x hx
    exact absurd rfl hx

theorem kept_run (ops : List MOp) {m : Mgr} {acc} (h : Kept m acc) :
    Kept (m.run ops).1 (fun x => (log m ops).foldl (Account.step x) (acc x)) := by
  induction ops generalizing m acc with
  | nil => exact h
  | cons op ops ih => exact ih (kept_step h op)

/-- C81: in every history every open session behaves as if it were alone: it is the result of its own history,
whose inputs are exactly the payloads, acknowledgements and service I/O addressed to its id since it was
opened, in order, for the service it was opened for; and the messages handed to the connection for its id
since then are exactly the messages it produced, in order. -/
theorem C81_sessions_independent (gw : Bool) (W n : Nat) (ops : List MOp) (sid : UInt32) (s : Sess)
    (h : (hist gw W n ops).1.sessions.get sid = some s) :
    let a := account sid (log (Mgr.new gw W n) ops)
    ∃ sops, (life a.svc sid W sops).1 = s ∧ sops.filter notTake = a.inbox ∧
      sentItems (life a.svc sid W sops).2 = a.outbox ∧ ends (life a.svc sid W sops).2 = [] := by
  have h0 : Kept (Mgr.new gw W n) (fun _ => ⟨0, [], []⟩) := by
    intro x t ht; cases ht
  have := kept_run ops h0 sid s h
  rw [(run_const (Mgr.new gw W n) ops).2] at this
  exact this

theorem sentData_items (os : List Obs) : sentData os = dataOf (sentItems os) := by
  induction os with
  | nil => rfl
  | cons o os ih =>
    cases o with
    | sent i => cases i <;> simp_all [sentData, sentItems, dataOf]
    | _ => simp_all [sentData, sentItems, dataOf]

theorem gotAcks_append' (a b : List Obs) : gotAcks (a ++ b) = gotAcks a + gotAcks b := by
  simp [gotAcks]

theorem gotAcks_step (s : Sess) (op : Op) : gotAcks (s.step op).2 = acksOf [op] := by
  cases op with
  | take n => simp only [Sess.step]; split <;> rfl
  | push data => simp only [Sess.step]; split <;> rfl
  | dataAck len => rfl
  | close => rfl
  | connected => simp only [Sess.step]; split <;> rfl
  | connectFailed n => simp only [Sess.step]; split <;> rfl
  | transport rd wr =>
    simp only [Sess.step]
    split
    · split
      · rfl
      · rw [gotAcks_append']
        have h1 : gotAcks (readObs s.ctx rd) = 0 := by
          unfold readObs; split
          · rfl
          · cases rd <;> dsimp only
            · rfl
            · split <;> rfl
            · rfl
        have h2 : ∀ c, gotAcks (writeObs c wr) = 0 := by
          intro c; unfold writeObs; split
          · rfl
          · cases wr <;> rfl
        rw [h1, h2]; rfl
    · rfl

theorem gotAcks_run (s : Sess) (ops : List Op) : gotAcks (s.run ops).2 = acksOf (ops.filter notTake) := by
  induction ops generalizing s with
  | nil => rfl
  | cons op ops ih =>
    simp only [Sess.run, gotAcks_append', gotAcks_step, ih]
    cases op <;> simp [List.filter_cons, notTake, acksOf]

/-- C81 with C12: for every open session the data sent to the server since it was opened is at most the window
plus what the server acknowledged since then. -/
theorem C81_window_respected (gw : Bool) (W n : Nat) (hW : W < 2 ^ 32) (ops : List MOp) (sid : UInt32)
    (s : Sess) (h : (hist gw W n ops).1.sessions.get sid = some s) :
    let a := account sid (log (Mgr.new gw W n) ops)
    (dataOf a.outbox).length ≤ W + acksOf a.inbox := by
  obtain ⟨sops, h1, h2, h3, -⟩ := C81_sessions_independent gw W n ops sid s h
  have := Props.Session.C12_sent_le_window (account sid (log (Mgr.new gw W n) ops)).svc sid W hW sops
  dsimp only at this ⊢
  rw [sentData_items, h3] at this
  unfold life at this
  rw [gotAcks_run, h2] at this
  exact this

/-- The window must be what it is: without the bound on `W` acknowledgements are cut to 32 bits. Here, a
session sends 2 of 3 bytes, the server acknowledges one, the third is sent. -/
example :
    let ops := [MOp.connect demoTable 1 7, .io 7 .connected, .io 7 (.transport (.ok [1, 2, 3]) .pending),
      .poll, .dataAck 7 1, .poll]
    let a := account 7 (log (Mgr.new false 2 0) ops)
    (hist false 2 0 ops).1.sessions.get 7 ≠ none ∧ a.svc = 1 ∧ dataOf a.outbox = [1, 2, 3] ∧
      acksOf a.inbox = 1 := by decide +kernel

/-! ### C82 -/

theorem answers_poll (m : Mgr) :
    answers [(.poll, m.poll.2.2, [m.poll.1])] ++ m.poll.2.1.queue = m.queue ∧
      refusals [(.poll, m.poll.2.2, [m.poll.1])] = [] := by
  unfold Mgr.poll
  split
  · rename_i msg q hq
    simp [answers, refusals, hq]
  · rename_i hq
    rw [hq]
    refine pollLoop_cases (fun _ m' => m'.queue = [])
      (fun r => answers [(.poll, r.2.2, [r.1])] ++ r.2.1.queue = [] ∧ refusals [(.poll, r.2.2, [r.1])] = [])
      ?_ ?_ ?_ ?_ ?_ ?_ ?_ _ m hq
    · intro m' h'
      simpa [answers, refusals] using h'
    all_goals intros
    all_goals first
      | assumption
      | (constructor
         · simp only [answers, List.flatMap_cons, List.flatMap_nil, reduceCtorEq, if_false, List.nil_append]
           assumption
         · rfl)

theorem answers_append (a b : List Entry) : answers (a ++ b) = answers a ++ answers b := by
  simp [answers]

theorem refusals_append (a b : List Entry) : refusals (a ++ b) = refusals a ++ refusals b := by
  simp [refusals]

theorem answers_step (m : Mgr) (op : MOp) : ∃ ids : List UInt16,
    ids.length = (refusals [(op, (m.step op).2)]).length ∧
    answers [(op, (m.step op).2)] ++ (m.step op).1.queue =
      m.queue ++ List.zipWith (fun id sid => hupMessage id sid 3) ids (refusals [(op, (m.step op).2)]) := by
  have hquiet : ∀ (op : MOp) (evs : List Ev) (q : List Wire.Message), q = m.queue →
      refusals [(op, evs, [])] = [] →
      ∃ ids : List UInt16, ids.length = (refusals [(op, evs, [])]).length ∧
        answers [(op, evs, [])] ++ q =
          m.queue ++ List.zipWith (fun id sid => hupMessage id sid 3) ids (refusals [(op, evs, [])]) := by
    intro op evs q hq hr
    refine ⟨[], by rw [hr]; rfl, ?_⟩
    rw [hr, hq]
    simp [answers]
  have hrefuse : ∀ (op : MOp) (sid : UInt32) (q : List Wire.Message),
      q = m.queue ++ [(Control.mkHup (UInt16.ofNat m.counter) sid Control.ecConnectionError).toArrow] →
      ∃ ids : List UInt16, ids.length = (refusals [(op, [.refused sid], [])]).length ∧
        answers [(op, [.refused sid], [])] ++ q =
          m.queue ++ List.zipWith (fun id sid => hupMessage id sid 3) ids
            (refusals [(op, [.refused sid], [])]) := by
    intro op sid q hq
    refine ⟨[UInt16.ofNat m.counter], rfl, ?_⟩
    rw [hq, hup_eq]
    simp [answers, refusals, Control.ecConnectionError]
  cases op with
  | connect get svc sid =>
    simp only [Mgr.step, Mgr.connect]
    split
    · exact hquiet _ _ _ rfl rfl
    · exact hrefuse _ _ _ rfl
  | send msg =>
    simp only [Mgr.step, Mgr.send]
    split
    · exact hquiet _ _ _ rfl rfl
    · exact hrefuse _ _ _ rfl
  | close sid =>
    simp only [Mgr.step, Mgr.close]
    split
    · exact hquiet _ _ _ rfl rfl
    · exact hquiet _ _ _ rfl rfl
  | dataAck sid len =>
    simp only [Mgr.step, Mgr.dataAck]
    split
    · exact hquiet _ _ _ rfl rfl
    · exact hquiet _ _ _ rfl rfl
  | io sid o =>
    simp only [Mgr.step]
    split
    · exact hquiet _ _ _ rfl rfl
    · exact hquiet _ _ _ rfl rfl
  | poll =>
    simp only [Mgr.step]
    obtain ⟨h1, h2⟩ := answers_poll m
    exact ⟨[], by rw [h2]; rfl, by rw [h1, h2]; simp⟩
  | newId => exact hquiet _ _ _ rfl rfl

/-- C82: every refusal is answered exactly once and in order: the messages handed to the connection that do
not come from a session, followed by those still queued, are one HUP with the code "connection error" per
refused CONNECT or data message, in the order of the refusals. -/
theorem C82_refusals_answered_once (gw : Bool) (W n : Nat) (ops : List MOp) :
    ∃ ids : List UInt16, ids.length = (refusals (log (Mgr.new gw W n) ops)).length ∧
      answers (log (Mgr.new gw W n) ops) ++ (hist gw W n ops).1.queue =
        List.zipWith (fun id sid => hupMessage id sid 3) ids (refusals (log (Mgr.new gw W n) ops)) := by
  have key : ∀ (ops : List MOp) (m : Mgr), ∃ ids : List UInt16,
      ids.length = (refusals (log m ops)).length ∧
      answers (log m ops) ++ (m.run ops).1.queue = m.queue ++
        List.zipWith (fun id sid => hupMessage id sid 3) ids (refusals (log m ops)) := by
    intro ops
    induction ops with
    | nil => intro m; exact ⟨[], rfl, by simp [log, answers, refusals, Mgr.run]⟩
    | cons op ops ih =>
      intro m
      obtain ⟨i1, hl1, h1⟩ := answers_step m op
      obtain ⟨i2, hl2, h2⟩ := ih (m.step op).1
      have ha : answers (log m (op :: ops)) = answers [(op, (m.step op).2)] ++ answers (log (m.step op).1 ops) := by
        rw [← answers_append]; rfl
      have hr : refusals (log m (op :: ops)) =
          refusals [(op, (m.step op).2)] ++ refusals (log (m.step op).1 ops) := by
        rw [← refusals_append]; rfl
      refine ⟨i1 ++ i2, ?_, ?_⟩
      · rw [hr]; simp [hl1, hl2]
      · rw [ha, hr, List.zipWith_append hl1, ← List.append_assoc, ← h1, List.append_assoc,
          List.append_assoc]
        congr 1
  obtain ⟨ids, h1, h2⟩ := key ops (Mgr.new gw W n)
  exact ⟨ids, h1, h2.trans (List.nil_append _)⟩

example :
    let es := log (Mgr.new false 65536 5) [.connect demoTable 1 7, .connect demoTable 1 7,
      .send (Wire.Message.new 1 9 [3]), .poll]
    refusals es = [7, 9] ∧ answers es = [hupMessage 5 7 3] := by decide +kernel

end Verif.Props.SessionLog
