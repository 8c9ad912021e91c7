import Verif.Spec.Solicited
import Verif.Lemmas.SessionManager
import Verif.Props.Client
import Verif.Props.Status
/-!
# C140: nothing unsolicited
-/
namespace Verif.Props.Solicited
open Verif Verif.Control Verif.Session Verif.Client Verif.Spec.Client Verif.Spec Verif.Spec.Solicited
open Verif.Props.Client (hist hist_inv' demoCfg demoEnv demoStart demoMsg)
open Verif.Props.Status (decoded_fields evs)

def Ok (es : List NEv) : Prop := ∀ before e after, es = before ++ e :: after → Solicited before e

theorem Ok.one {es : List NEv} (h : Ok es) {e : NEv} (he : Solicited es e) : Ok (es ++ [e]) := by
  intro pre x post hx
  rcases List.append_eq_append_iff.1 hx with ⟨a, h1, h2⟩ | ⟨a, h1, h2⟩
  · cases a with
    | nil =>
      injection h2 with h2 _
      subst h2
      rw [List.append_nil] at h1
      rw [h1]; exact he
    | cons b a => injection h2 with _ h2; simp at h2
  · cases a with
    | nil =>
      rw [List.nil_append] at h2
      injection h2 with h2 _
      subst h2
      rw [List.append_nil] at h1
      rw [← h1]; exact he
    | cons b a =>
      rw [List.cons_append] at h2
      injection h2 with h2 h3
      subst h2
      exact h pre x a h1

theorem Ok.none {es : List NEv} (h : Ok es) : Ok (es ++ ([] : List CEv).map .ev) := by
  rw [List.map_nil, List.append_nil]; exact h

/-- Needs no request. -/
def Free (e : NEv) : Prop := ∀ b, Solicited b e

theorem Ok.free {es : List NEv} (h : Ok es) {l : List NEv} (hl : ∀ e ∈ l, Free e) : Ok (es ++ l) := by
  induction l generalizing es with
  | nil => rw [List.append_nil]; exact h
  | cons e l ih =>
    rw [show es ++ e :: l = (es ++ [e]) ++ l by simp]
    exact ih (h.one (hl e List.mem_cons_self es)) (fun x hx => hl x (List.mem_cons_of_mem _ hx))

theorem free_one {e : NEv} (h : Free e) : ∀ x ∈ [e], Free x := by
  intro x hx; rw [List.mem_singleton.1 hx]; exact h

/-- Polling the manager has no effect that needs a request. -/
theorem free_poll (m : Mgr) : ∀ e ∈ evs m.poll.2.2, Free e := by
  have hnil : ∀ e ∈ evs [], Free e := fun _ he => by cases he
  unfold Mgr.poll
  split
  · exact hnil
  · refine pollLoop_cases (fun _ _ => True) (fun r => ∀ e ∈ evs r.2.2, Free e) ?_ ?_ ?_ ?_ ?_ ?_ ?_ _ m trivial
    · intro m _; exact hnil
    · intros; trivial
    · intros; trivial
    · intros; trivial
    · intros; rename_i he; rw [List.mem_singleton.1 he]; exact fun _ => trivial
    · intros; rename_i he; rw [List.mem_singleton.1 he]; exact fun _ => trivial
    · intros; rename_i he; rw [List.mem_singleton.1 he]; exact fun _ => trivial

theorem type_of {bs : Bytes} {m : ControlMessage} {t : MsgType} {n : UInt16} (h : ControlMessage.fromBytes bs = .ok m)
    (ht : MsgType.ofCode m.msgType = t) (hu : t ≠ .unknown) (hn : t.code = some n) : field bs 2 2 = n.toNat := by
  have h1 := Props.Control.code_of_ofCode m.msgType (by rw [ht]; exact hu)
  rw [ht, hn] at h1
  rw [(decoded_fields h).1]
  cases h1; rfl

theorem connect_fields {bs : Bytes} {m : ControlMessage} {svc : UInt16} {sid : UInt32}
    (h : ControlMessage.fromBytes bs = .ok m) (ht : MsgType.ofCode m.msgType = .connect)
    (hb : m.body = .connect svc sid) : field bs 4 2 = svc.toNat ∧ field bs 6 4 = sid.toNat := by
  unfold ControlMessage.fromBytes at h
  split at h
  · rename_i i0 i1 t0 t1 rest
    split at h
    · rename_i b hd
      cases h
      rw [show MsgType.ofCode (rd16 t0 t1) = .connect from ht] at hd
      change decodeConnect rest = .ok b at hd
      unfold decodeConnect at hd
      split at hd
      · cases hd
        cases hb
        constructor
        · simp [field, slice, natBE_two]
        · simp [field, slice, natBE_four]
      · cases hd
    all_goals cases h
  · cases h

theorem hup_field {bs : Bytes} {m : ControlMessage} {sid code : UInt32}
    (h : ControlMessage.fromBytes bs = .ok m) (ht : MsgType.ofCode m.msgType = .hup)
    (hb : m.body = .hup sid code) : field bs 4 4 = sid.toNat := by
  unfold ControlMessage.fromBytes at h
  split at h
  · rename_i i0 i1 t0 t1 rest
    split at h
    · rename_i b hd
      cases h
      rw [show MsgType.ofCode (rd16 t0 t1) = .hup from ht] at hd
      change decodeHup rest = .ok b at hd
      unfold decodeHup at hd
      split at hd
      · cases hd
        cases hb
        simp [field, slice, natBE_four]
      · cases hd
    all_goals cases h
  · cases h

theorem Ok.recv {c : Cli} {es : List NEv} (h : Ok es) (env : Env) (m : Wire.Message) (o : Out)
    (ho : o = (c.handle env m).1) : Ok ((es ++ [.ev (.got m o)]) ++ (c.handle env m).2.2.map .ev) := by
  have h : Ok (es ++ [.ev (.got m o)]) := h.one trivial
  have hl : o = .ok → (es ++ [NEv.ev (.got m o)]).getLast? = some (.ev (.got m .ok)) := by
    intro ho; rw [ho]; simp
  unfold Cli.handle at ho ⊢
  split
  · rename_i hsvc
    rw [if_pos hsvc] at ho
    split
    · rename_i cm hcm
      rw [hcm] at ho
      dsimp only at ho
      unfold Cli.processControl Cli.whenEstablished at ho ⊢
      split
      · exact h.none
      · rename_i hty
        rw [hty] at ho
        dsimp only at ho
        split
        · rename_i he
          rw [if_pos he] at ho
          split
          · rename_i svc sid hb
            rw [hb] at ho
            obtain ⟨k1, k2⟩ := connect_fields hcm hty hb
            have kl : Last (es ++ [.ev (.got m o)]) 13 m := ⟨hl ho, hsvc, type_of hcm hty (by simp) rfl⟩
            simp only [Cli.onMgr, Mgr.step, Mgr.connect]
            split
            · exact h.one ⟨m, kl, k1, k2⟩
            · exact h.one (.inl ⟨m, kl, k2⟩)
          · exact h.none
        · exact h.none
      · split
        · split
          · rename_i sid len _
            simp only [Cli.onMgr, Mgr.step, Mgr.dataAck]
            split <;> exact h.none
          · exact h.none
        · exact h.none
      · rename_i hty
        rw [hty] at ho
        dsimp only at ho
        split
        · rename_i he
          rw [if_pos he] at ho
          exact h.one ⟨rfl, rfl, m, ⟨hl ho, hsvc, type_of hcm hty (by simp) rfl⟩, (decoded_fields hcm).2⟩
        · exact h.none
      · rename_i hty
        rw [hty] at ho
        dsimp only at ho
        split
        · rename_i he
          rw [if_pos he] at ho
          split
          · rename_i sid code hb
            rw [hb] at ho
            have kl : Last (es ++ [.ev (.got m o)]) 5 m := ⟨hl ho, hsvc, type_of hcm hty (by simp) rfl⟩
            simp only [Cli.onMgr, Mgr.step, Mgr.close]
            split
            · exact h.one ⟨m, kl, hup_field hcm hty hb⟩
            · exact h.none
          · exact h.none
        · exact h.none
      · split
        · split <;> exact h.none
        · exact h.none
      · rename_i hty
        rw [hty] at ho
        dsimp only at ho
        split
        · rename_i he
          rw [if_pos he] at ho
          exact h.one ⟨rfl, m, ⟨hl ho, hsvc, type_of hcm hty (by simp) rfl⟩, (decoded_fields hcm).2⟩
        · exact h.none
      · rename_i hty
        rw [hty] at ho
        dsimp only at ho
        split
        · rename_i he
          rw [if_pos he] at ho
          exact h.one ⟨rfl, m, ⟨hl ho, hsvc, type_of hcm hty (by simp) rfl⟩, (decoded_fields hcm).2⟩
        · exact h.none
      · rename_i hty
        rw [hty] at ho
        dsimp only at ho
        split
        · rename_i he
          rw [if_pos he] at ho
          exact h.one ⟨_, m, ⟨hl ho, hsvc, type_of hcm hty (by simp) rfl⟩, (decoded_fields hcm).2⟩
        · exact h.none
      · rename_i hty
        rw [hty] at ho
        dsimp only at ho
        split
        · rename_i he
          rw [if_pos he] at ho
          exact h.one ⟨_, m, ⟨hl ho, hsvc, type_of hcm hty (by simp) rfl⟩, (decoded_fields hcm).2⟩
        · exact h.none
      all_goals exact h.none
    · exact h.none
    · exact h.none
  · rename_i hsvc
    rw [if_neg hsvc] at ho
    unfold Cli.whenEstablished at ho ⊢
    split
    · rename_i he
      rw [if_pos he] at ho
      simp only [Cli.onMgr, Mgr.step, Mgr.send]
      split
      · exact h.none
      · exact h.one (.inr ⟨m, hl ho, hsvc, rfl⟩)
    · exact h.none

theorem solicited_steps : Steps (fun _ _ => True) (fun _ => True) (fun _ es _ => Ok es) (fun es _ => Ok es) where
  time _ _ _ _ h _ := h
  idle _ _ _ h := h
  close _ _ _ h := h
  timeout _ _ _ h _ _ := h
  ping c es t h _ _ _ := h.one rfl
  check c es env _ h _ _ _ := by
    unfold Cli.checkForUpdates
    dsimp only
    split
    · rename_i hv
      refine h.free ?_
      intro e he
      rcases List.mem_cons.1 he with rfl | he
      · exact fun _ => trivial
      · rw [List.mem_singleton.1 he]
        exact fun _ => rfl
    · exact h.one trivial
  ready c es t m h ho hr := by
    rcases ctxPoll_ready hr with ⟨ms, hm, h2⟩ | ⟨hm, hp, h2⟩ <;> rw [h2] <;> dsimp only
    · exact h.none.one trivial
    · exact (h.free (free_poll c.mgr)).one trivial
  pending c es t h ho hr := by
    obtain ⟨h1, h2, h3⟩ := ctxPoll_pending hr
    rw [h3]
    exact h.free (free_poll c.mgr)
  io c es t sid o h _ := by
    simp only [Cli.onMgr, Mgr.step]
    split <;> exact h.none
  recv c es env m _ h ho hok := by
    rw [show es ++ NEv.ev (.got m .ok) :: (c.handle env m).2.2.map .ev =
      (es ++ [.ev (.got m .ok)]) ++ (c.handle env m).2.2.map .ev by simp]
    exact h.recv env m .ok hok.symm
  refused c es env m _ h ho hok := by
    rw [show es ++ NEv.ev (.got m (c.handle env m).1) :: (c.handle env m).2.2.map .ev =
      (es ++ [.ev (.got m (c.handle env m).1)]) ++ (c.handle env m).2.2.map .ev by simp]
    exact h.recv env m _ rfl

/-- C140: nothing happens unsolicited: every reply, command, opened connection, refusal and hang-up comes
immediately after the accepted message of the server that asks for it, and names what that message names. -/
theorem C140_solicited (cfg : Cfg) (env : Env) (ops : List COp) (before after : List NEv) (e : NEv)
    (h : (hist cfg env ops).2 = before ++ e :: after) : Solicited before e := by
  have h0 : Ok [.ev (.queued env.now (register cfg env))] :=
    Ok.one (es := []) (fun pre m post he => by simp at he) ⟨rfl, rfl⟩
  rcases hist_inv' solicited_steps cfg env ops h0 with ⟨_, _, hI, _⟩ | ⟨_, _, hJ⟩
  · exact hI _ _ _ h
  · exact hJ _ _ _ h

/-- Non-vacuity of C140: a connection with each kind of request, and what each leads to. -/
example :
    let es := (hist demoCfg (demoEnv 0 0) (demoStart ++
      [.poll (.msg (demoEnv 2 0) (demoMsg 5 13 (be16 1 ++ be32 7)))
        [.msg (demoEnv 2 0) (demoMsg 7 5 (be32 7 ++ be32 0)), .msg (demoEnv 2 0) (demoMsg 8 7 []),
         .msg (demoEnv 2 0) (demoMsg 6 13 (be16 9 ++ be32 8))],
       .poll (.msg (demoEnv 2 0) (demoMsg 9 1 [])) []])).2
    (es.filter fun e => match e with | .ev (.got _ _) => false | .sent _ => false | _ => true).length = 6 ∧
    .ev (.mgr (.opened 7 1 .http .zero ⟨.v4 127 0 0 1, 80⟩)) ∈ es ∧ .ev (.mgr (.refused 8)) ∈ es ∧
    .ev (.mgr (.hungUp 7)) ∈ es ∧ .ev (.command .scanNetwork) ∈ es ∧
    .ev (.queued 2000000000 ⟨9, 0, .ack 0⟩) ∈ es := by
  decide +kernel

end Verif.Props.Solicited
