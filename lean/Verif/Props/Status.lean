import Verif.Spec.Status
import Verif.Lemmas.SessionManager
import Verif.Props.Client
/-!
# C139: a STATUS message tells the number of open sessions
-/
namespace Verif.Props.Status
open Verif Verif.Control Verif.Session Verif.Client Verif.Spec.Client Verif.Spec Verif.Spec.Status
open Verif.Props.Client (hist hist_inv' demoCfg demoEnv demoStart demoMsg)

theorem length_remove {κ β : Type} [DecidableEq κ] {m : AMap κ β} (hn : m.keys.Nodup) {k : κ} {v : β}
    (h : m.get k = some v) : (m.remove k).length + 1 = m.length := by
  induction m with
  | nil => cases h
  | cons p m ih =>
    have hn' : p.1 ∉ AMap.keys m ∧ (AMap.keys m).Nodup := List.nodup_cons.1 hn
    by_cases hk : p.1 = k
    · have h1 : AMap.get m k = none := (AMap.get_none_iff m k).2 (hk ▸ hn'.1)
      have h2 : AMap.remove (p :: m) k = m := by
        rw [show AMap.remove (p :: m) k = AMap.remove m k from List.filter_cons_of_neg (by simp [hk])]
        exact AMap.remove_of_get_none h1
      rw [h2]; rfl
    · have h1 : AMap.get m k = some v := by rw [AMap.get_cons, if_neg hk] at h; exact h
      have h2 : AMap.remove (p :: m) k = p :: AMap.remove m k := List.filter_cons_of_pos (by simp [hk])
      rw [h2, List.length_cons, List.length_cons, ih hn'.2 h1]

theorem length_insert {κ β : Type} [DecidableEq κ] {m : AMap κ β} (hn : m.keys.Nodup) {k : κ} {v : β}
    (h : m.get k = some v) (w : β) : (m.insert k w).length = m.length := by
  rw [← length_remove hn h]
  unfold AMap.insert
  rw [List.length_append]; rfl

/-- The sessions of the manager are those that are open. -/
structure MI (m : Mgr) (es : List NEv) : Prop where
  nodup : m.sessions.keys.Nodup
  count : OpenNow es m.sessions.length

def evs (l : List Ev) : List NEv := (l.map CEv.mgr).map NEv.ev

theorem now_quiet {es l : List NEv} {n : Nat} (h : OpenNow es n) (h1 : l.countP isOpening = 0)
    (h2 : l.countP isEnding = 0) : OpenNow (es ++ l) n := by
  unfold OpenNow at h ⊢
  rw [List.countP_append, List.countP_append, h1, h2]; exact h

theorem now_opened {es : List NEv} {n : Nat} (h : OpenNow es n) {l : List NEv} (h1 : l.countP isOpening = 1)
    (h2 : l.countP isEnding = 0) : OpenNow (es ++ l) (n + 1) := by
  unfold OpenNow at h ⊢
  rw [List.countP_append, List.countP_append, h1, h2]; omega

theorem now_ended {es : List NEv} {n : Nat} (h : OpenNow es (n + 1)) {l : List NEv} (h1 : l.countP isOpening = 0)
    (h2 : l.countP isEnding = 1) : OpenNow (es ++ l) n := by
  unfold OpenNow at h ⊢
  rw [List.countP_append, List.countP_append, h1, h2]; omega

theorem MI.on {m : Mgr} {es : List NEv} (h : MI m es) {sid : UInt32} {s : Sess} (hs : m.sessions.get sid = some s)
    (op : Op) : MI (m.onSession sid s op) (es ++ []) := by
  refine ⟨AMap.nodup_insert h.nodup _ _, ?_⟩
  show OpenNow _ (m.sessions.insert sid _).length
  rw [length_insert h.nodup hs, List.append_nil]
  exact h.count

theorem MI.quiet {m m' : Mgr} {es l : List NEv} (h : MI m es) (hm : m'.sessions = m.sessions)
    (h1 : l.countP isOpening = 0) (h2 : l.countP isEnding = 0) : MI m' (es ++ l) := by
  refine ⟨by rw [hm]; exact h.nodup, ?_⟩
  rw [hm]; exact now_quiet h.count h1 h2

theorem MI.step {m : Mgr} {es : List NEv} (h : MI m es) (op : MOp) (hop : op ≠ .poll) :
    MI (m.step op).1 (es ++ evs (m.step op).2.1) := by
  cases op with
  | poll => exact absurd rfl hop
  | connect get sv sid =>
    simp only [Mgr.step, Mgr.connect]
    split
    · rename_i s a ht
      have hg : m.sessions.get sid = none := by
        unfold Mgr.connectTarget at ht
        split at ht
        · cases ht
        · rename_i hn
          cases hx : m.sessions.get sid with
          | none => rfl
          | some _ => rw [hx] at hn; exact absurd rfl hn
      refine ⟨AMap.nodup_insert h.nodup _ _, ?_⟩
      show OpenNow _ (m.sessions.insert sid _).length
      rw [AMap.length_insert_new hg]
      exact now_opened h.count rfl rfl
    · exact h.quiet rfl rfl rfl
  | send msg =>
    simp only [Mgr.step, Mgr.send]
    split
    · rename_i s hs; exact h.on hs _
    · exact h.quiet rfl rfl rfl
  | close sid =>
    simp only [Mgr.step, Mgr.close]
    split
    · rename_i s hs
      have h' := h.on hs .close
      rw [List.append_nil] at h'
      have hg : (m.onSession sid s .close).sessions.get sid = some (s.step .close).1 := AMap.get_insert_self _ _ _
      refine ⟨AMap.nodup_remove h'.nodup _, ?_⟩
      have hc := h'.count
      rw [← length_remove h'.nodup hg] at hc
      exact now_ended hc rfl rfl
    · exact h.quiet rfl rfl rfl
  | dataAck sid len =>
    simp only [Mgr.step, Mgr.dataAck]
    split
    · rename_i s hs; exact h.on hs _
    · exact h.quiet rfl rfl rfl
  | io sid o =>
    simp only [Mgr.step]
    split
    · rename_i s hs; exact h.on hs _
    · exact h.quiet rfl rfl rfl
  | newId => exact h.quiet rfl rfl rfl

theorem MI.poll {m : Mgr} {es : List NEv} (h : MI m es) : MI m.poll.2.1 (es ++ evs m.poll.2.2) := by
  unfold Mgr.poll
  split
  · exact h.quiet rfl rfl rfl
  · refine pollLoop_cases (fun _ m => MI m es) (fun r => MI r.2.1 (es ++ evs r.2.2)) ?_ ?_ ?_ ?_ ?_ ?_ ?_ _ m h
    · intro m h; exact h.quiet rfl rfl rfl
    · intro k m _ h; exact h
    · intro k m sid rest _ _ h; exact ⟨h.nodup, h.count⟩
    · intro k m sid rest s _ hs _ h
      refine ⟨AMap.nodup_insert h.nodup _ _, ?_⟩
      show OpenNow _ (m.sessions.insert sid _).length
      rw [length_insert h.nodup hs]; exact h.count
    · intro k m sid rest s _ hs _ h
      refine ⟨AMap.nodup_remove h.nodup _, ?_⟩
      have hc := h.count
      rw [← length_remove h.nodup hs] at hc
      exact now_ended hc rfl rfl
    · intro k m sid rest s i _ hs _ h
      refine ⟨AMap.nodup_insert h.nodup _ _, ?_⟩
      show OpenNow _ (m.sessions.insert sid _).length
      rw [length_insert h.nodup hs]; exact now_quiet h.count rfl rfl
    · intro k m sid rest s e _ hs _ h
      refine ⟨AMap.nodup_remove h.nodup _, ?_⟩
      have hc := h.count
      rw [← length_remove h.nodup hs] at hc
      exact now_ended hc rfl rfl

/-! ## The client -/

/-- What an event may be, given what happened before: a STATUS answers a request and tells the sessions. -/
def Fits (before : List NEv) : NEv → Prop
  | .ev (.queued _ m) => ∀ req f n, m.body = .status req f n →
      Asked before req ∧ ∃ k, OpenNow before k ∧ n = UInt32.ofNat k
  | _ => True

def Ok (es : List NEv) : Prop := ∀ before e after, es = before ++ e :: after → Fits before e

theorem Ok.one {es : List NEv} (h : Ok es) {e : NEv} (he : Fits es e) : Ok (es ++ [e]) := by
  intro pre x post hx
  rcases List.append_eq_append_iff.1 hx with ⟨a, h1, h2⟩ | ⟨a, h1, h2⟩
  · cases a with
    | nil =>
      injection h2 with h2 _
      subst h2
      rw [List.append_nil] at h1
      rw [h1]; exact he
    | cons b a => injection h2 with _ h2; simp at h2
  · cases a with
    | nil =>
      rw [List.nil_append] at h2
      injection h2 with h2 _
      subst h2
      rw [List.append_nil] at h1
      rw [← h1]; exact he
    | cons b a =>
      rw [List.cons_append] at h2
      injection h2 with h2 h3
      subst h2
      exact h pre x a h1

/-- Not a STATUS. -/
def Free (e : NEv) : Prop := ∀ b, Fits b e

theorem Ok.free {es : List NEv} (h : Ok es) {l : List NEv} (hl : ∀ e ∈ l, Free e) : Ok (es ++ l) := by
  induction l generalizing es with
  | nil => rw [List.append_nil]; exact h
  | cons e l ih =>
    rw [show es ++ e :: l = (es ++ [e]) ++ l by simp]
    exact ih (h.one (hl e List.mem_cons_self es)) (fun x hx => hl x (List.mem_cons_of_mem _ hx))

theorem free_evs (l : List Ev) : ∀ e ∈ evs l, Free e := by
  intro e he b
  obtain ⟨x, hx, rfl⟩ := List.mem_map.1 he
  obtain ⟨y, _, rfl⟩ := List.mem_map.1 hx
  trivial

structure CI (c : Cli) (es : List NEv) : Prop where
  mgr : MI c.mgr es
  ok : Ok es

/-- A step that does not touch sessions and creates nothing but messages that are no STATUS. -/
theorem CI.quiet {c c' : Cli} {es l : List NEv} (h : CI c es) (hm : c'.mgr.sessions = c.mgr.sessions)
    (h1 : l.countP isOpening = 0) (h2 : l.countP isEnding = 0) (hf : ∀ e ∈ l, Free e) : CI c' (es ++ l) :=
  ⟨h.mgr.quiet hm h1 h2, h.ok.free hf⟩

theorem free_one {e : NEv} (h : Free e) : ∀ x ∈ [e], Free x := by
  intro x hx; rw [List.mem_singleton.1 hx]; exact h

theorem free_queued (t : Nat) (m : ControlMessage) (h : ∀ req f n, m.body ≠ .status req f n) :
    Free (.ev (.queued t m)) := fun _ req f n hb => absurd hb (h req f n)

theorem CI.onMgr {c : Cli} {es : List NEv} (h : CI c es) (op : MOp) (hop : op ≠ .poll) :
    CI (c.onMgr op).1 (es ++ (c.onMgr op).2.map .ev) :=
  ⟨h.mgr.step op hop, h.ok.free (free_evs _)⟩

theorem handshake_mgr (c : Cli) (e : UInt32) : (c.handshakeAck e).2.mgr = c.mgr := by
  unfold Cli.handshakeAck
  repeat' split
  all_goals rfl

theorem ack_mgr (c : Cli) (id : UInt16) (b : Body) : (c.processAck id b).2.mgr = c.mgr := by
  unfold Cli.processAck
  split
  · rfl
  · dsimp only
    split
    · split
      · rfl
      · split
        · exact handshake_mgr _ _
        · rfl
    · rfl

/-- The type and the id of a message that was decoded. -/
theorem decoded_fields {bs : Bytes} {m : ControlMessage} (h : ControlMessage.fromBytes bs = .ok m) :
    field bs 2 2 = m.msgType.toNat ∧ field bs 0 2 = m.msgId.toNat := by
  unfold ControlMessage.fromBytes at h
  split at h
  · split at h
    · cases h
      exact ⟨field_msgType _ _ _ _ _, field_msgId _ _ _ _ _⟩
    all_goals cases h
  · cases h

theorem ofCode_getStatus {c : UInt16} (h : MsgType.ofCode c = .getStatus) : c.toNat = 8 := by
  have h1 := Props.Control.code_of_ofCode c (by rw [h]; simp)
  rw [h] at h1
  cases h1; rfl

theorem CI.recv {c : Cli} {es : List NEv} (h : CI c es) (env : Env) (m : Wire.Message) (o : Out)
    (ho : o = (c.handle env m).1) :
    CI (c.handle env m).2.1 ((es ++ [.ev (.got m o)]) ++ (c.handle env m).2.2.map .ev) := by
  have h : CI c (es ++ [.ev (.got m o)]) := h.quiet rfl rfl rfl (free_one (fun _ => trivial))
  have hsame : CI c ((es ++ [.ev (.got m o)]) ++ ([] : List CEv).map .ev) := by
    rw [List.map_nil, List.append_nil]; exact h
  have hcmd : ∀ x, CI c ((es ++ [.ev (.got m o)]) ++ [CEv.command x].map .ev) := fun x =>
    h.quiet rfl rfl rfl (free_one (fun _ => trivial))
  unfold Cli.handle at ho ⊢
  split
  · rename_i hsvc
    rw [if_pos hsvc] at ho
    split
    · rename_i cm hcm
      rw [hcm] at ho
      dsimp only at ho
      unfold Cli.processControl Cli.whenEstablished at ho ⊢
      split
      · exact h.quiet (l := []) (by rw [ack_mgr]) rfl rfl (fun _ hx => by cases hx)
      · split
        · split
          · exact h.onMgr _ (by simp)
          · exact hsame
        · exact hsame
      · split
        · split
          · exact h.onMgr _ (by simp)
          · exact hsame
        · exact hsame
      · split
        · exact h.quiet rfl rfl rfl (free_one (free_queued _ _ (by intro _ _ _ hb; cases hb)))
        · exact hsame
      · split
        · split
          · exact h.onMgr _ (by simp)
          · exact hsame
        · exact hsame
      · split
        · split
          · exact h.quiet (l := []) rfl rfl rfl (fun _ hx => by cases hx)
          · exact hsame
        · exact hsame
      · rename_i hty
        split
        · rename_i he
          rw [hty] at ho
          dsimp only at ho
          rw [if_pos he] at ho
          subst ho
          refine ⟨h.mgr.quiet rfl rfl rfl, h.ok.one ?_⟩
          intro req f n hb
          cases hb
          obtain ⟨k1, k2⟩ := decoded_fields hcm
          refine ⟨⟨m, by simp, hsvc, ?_, k2⟩, c.mgr.sessions.length, h.mgr.count, rfl⟩
          rw [k1, ofCode_getStatus hty]
        · exact hsame
      · split
        · exact h.quiet rfl rfl rfl (free_one (free_queued _ _ (by intro _ _ _ hb; cases hb)))
        · exact hsame
      · split
        · exact hcmd _
        · exact hsame
      · split
        · exact hcmd _
        · exact hsame
      all_goals exact hsame
    · exact hsame
    · exact hsame
  · unfold Cli.whenEstablished
    split
    · exact h.onMgr _ (by simp)
    · exact hsame

theorem status_steps : Steps (fun _ _ => True) (fun _ => True) (fun c es _ => CI c es) (fun es _ => Ok es) where
  time _ _ _ _ h _ := h
  idle _ _ _ h := ⟨h.mgr, h.ok⟩
  close _ _ _ h := ⟨h.mgr, h.ok⟩
  timeout _ _ _ h _ _ := h.ok
  ping c es t h _ _ _ := h.quiet rfl rfl rfl (free_one (free_queued _ _ (by intro _ _ _ hb; cases hb)))
  check c es env _ h _ _ _ := by
    unfold Cli.checkForUpdates
    dsimp only
    split
    · refine h.quiet rfl rfl rfl ?_
      intro e he
      rcases List.mem_cons.1 he with rfl | he
      · exact fun _ => trivial
      · rw [List.mem_singleton.1 he]
        exact free_queued _ _ (by intro _ _ _ hb; cases hb)
    · exact h.quiet rfl rfl rfl (free_one (fun _ => trivial))
  ready c es t m h ho hr := by
    rcases ctxPoll_ready hr with ⟨ms, hm, h2⟩ | ⟨hm, hp, h2⟩ <;> rw [h2] <;> dsimp only
    · rw [List.map_nil, List.append_nil]
      exact h.quiet rfl rfl rfl (free_one (fun _ => trivial))
    · have hq : CI { c with mgr := c.mgr.poll.2.1 } (es ++ evs c.mgr.poll.2.2) :=
        ⟨h.mgr.poll, h.ok.free (free_evs _)⟩
      exact hq.quiet rfl rfl rfl (free_one (fun _ => trivial))
  pending c es t h ho hr := by
    obtain ⟨h1, h2, h3⟩ := ctxPoll_pending hr
    rw [h3]
    exact ⟨h.mgr.poll, h.ok.free (free_evs _)⟩
  io c es t sid o h _ := h.onMgr _ (by simp)
  recv c es env m _ h ho hok := by
    rw [show es ++ NEv.ev (.got m .ok) :: (c.handle env m).2.2.map .ev =
      (es ++ [.ev (.got m .ok)]) ++ (c.handle env m).2.2.map .ev by simp]
    exact h.recv env m .ok hok.symm
  refused c es env m _ h ho hok := by
    rw [show es ++ NEv.ev (.got m (c.handle env m).1) :: (c.handle env m).2.2.map .ev =
      (es ++ [.ev (.got m (c.handle env m).1)]) ++ (c.handle env m).2.2.map .ev by simp]
    exact (h.recv env m _ rfl).ok

/-- C139: whenever the client creates a STATUS message, the last thing that happened was an accepted GET_STATUS
with the id the message names, and the number of sessions it tells is the number of sessions that were opened and
are not over. -/
theorem C139_status (cfg : Cfg) (env : Env) (ops : List COp) (before after : List NEv) (t : Nat) (id ty req : UInt16)
    (flags n : UInt32)
    (h : (hist cfg env ops).2 = before ++ .ev (.queued t ⟨id, ty, .status req flags n⟩) :: after) :
    Asked before req ∧ ∃ k, OpenNow before k ∧ n = UInt32.ofNat k := by
  have h0 : CI (Cli.new cfg env).1 [.ev (.queued env.now (register cfg env))] := by
    rw [new_eq]
    refine ⟨⟨List.nodup_nil, rfl⟩, ?_⟩
    exact Ok.one (es := []) (fun pre m post he => by simp at he) (free_queued _ _ (by intro _ _ _ hb; cases hb) [])
  rcases hist_inv' status_steps cfg env ops h0 with ⟨c, t, hI, _⟩ | ⟨x, _, hJ⟩
  · exact hI.ok _ _ _ h _ _ _ rfl
  · exact hJ _ _ _ h _ _ _ rfl

/-- C139: the sessions a running client holds are at any time those that were opened and are not over. -/
theorem C139_open (cfg : Cfg) (env : Env) (ops : List COp) (c : Cli) (h : (hist cfg env ops).1 = .live c) :
    OpenNow (hist cfg env ops).2 c.mgr.sessions.length := by
  have h0 : CI (Cli.new cfg env).1 [.ev (.queued env.now (register cfg env))] := by
    rw [new_eq]
    refine ⟨⟨List.nodup_nil, rfl⟩, ?_⟩
    exact Ok.one (es := []) (fun pre m post he => by simp at he) (free_queued _ _ (by intro _ _ _ hb; cases hb) [])
  rcases hist_inv' status_steps cfg env ops h0 with ⟨c', t, hI, hF⟩ | ⟨x, hx, _⟩
  · rw [h] at hF
    obtain ⟨rfl, _⟩ := hF
    exact hI.mgr.count
  · rw [h] at hx; cases hx

/-- Non-vacuity of C139: two sessions are opened, one is hung up, then the server asks: one is open. -/
example :
    let es := (hist demoCfg (demoEnv 0 0) (demoStart ++
      [.poll (.msg (demoEnv 2 0) (demoMsg 5 13 (be16 1 ++ be32 7)))
        [.msg (demoEnv 2 0) (demoMsg 6 13 (be16 1 ++ be32 8)),
         .msg (demoEnv 2 0) (demoMsg 7 5 (be32 7 ++ be32 0)),
         .msg (demoEnv 2 0) (demoMsg 8 8 [])]])).2
    es.countP isOpening = 2 ∧ es.countP isEnding = 1 ∧
    .ev (.queued 2000000000 ⟨1, 9, .status 8 1 1⟩) ∈ es := by
  decide +kernel

end Verif.Props.Status
