import Verif.Lemmas.Silence
import Verif.Props.Silence
/-!
# Lemmas: what the server has been told was read at the last look at the table
-/
namespace Verif.Told
open Verif Verif.Client Verif.Control Verif.Spec.Client Verif.Props.Client

/-- Events that are no look at the table. -/
def Blind (l : List NEv) : Prop := ∀ e ∈ l, ∀ t v, e ≠ .ev (.checked t v)

theorem blind_fold {α : Type} (f : α → NEv → α) (hf : ∀ a e, (∀ t v, e ≠ .ev (.checked t v)) → f a e = a) (l : List NEv) :
    Blind l → ∀ a, l.foldl f a = a := by
  induction l with
  | nil => intro _ a; rfl
  | cons e l ih =>
    intro h a
    rw [List.foldl_cons, hf a e (h e List.mem_cons_self)]
    exact ih (fun x hx => h x (List.mem_cons_of_mem _ hx)) a

theorem lastCheck_blind (t0 : Nat) (a b : List NEv) (h : Blind b) : lastCheck t0 (a ++ b) = lastCheck t0 a := by
  unfold lastCheck
  rw [List.foldl_append]
  refine blind_fold _ ?_ b h _
  intro x e he
  split
  · exact absurd rfl (he _ _)
  · rfl

theorem lastSeen_blind (v0 : UInt32) (a b : List NEv) (h : Blind b) : lastSeen v0 (a ++ b) = lastSeen v0 a := by
  unfold lastSeen
  rw [List.foldl_append]
  refine blind_fold _ ?_ b h _
  intro x e he
  split
  · exact absurd rfl (he _ _)
  · rfl

theorem blind_mgr (x : List Session.Ev) : Blind ((x.map CEv.mgr).map NEv.ev) := by
  intro e he
  simp only [List.map_map, List.mem_map, Function.comp_apply] at he
  obtain ⟨_, _, rfl⟩ := he
  nofun

/-- The last look at the table was one of the readings. -/
def Looked (L : List Env) (t0 : Nat) (v0 : UInt32) (es : List NEv) : Prop :=
  ∃ x ∈ L, x.now = lastCheck t0 es ∧ x.version = lastSeen v0 es

theorem Looked.blind {L : List Env} {t0 : Nat} {v0 : UInt32} {a b : List NEv} (h : Looked L t0 v0 a) (hb : Blind b) :
    Looked L t0 v0 (a ++ b) := by
  unfold Looked
  rw [lastCheck_blind _ _ _ hb, lastSeen_blind _ _ _ hb]
  exact h

theorem looked_steps (L : List Env) (t0 : Nat) (v0 : UInt32) :
    Steps (fun _ _ => True) (fun x => x ∈ L) (fun _ es _ => Looked L t0 v0 es) (fun _ _ => True) where
  time _ _ _ _ h _ := h
  idle _ _ _ h := h
  close _ _ _ h := h
  timeout _ _ _ _ _ _ := trivial
  refused _ _ _ _ _ _ _ _ := trivial
  ping c es t h _ _ _ := by
    refine h.blind ?_
    intro e he
    simp only [Cli.sendPing, Cli.sendUnconfirmed, Cli.sendControl, List.map_cons, List.map_nil, List.mem_singleton] at he
    subst he; nofun
  check c es x hx h _ _ _ := by
    have h1 : Looked L t0 v0 (es ++ [.ev (.checked x.now x.version)]) := by
      refine ⟨x, hx, ?_, ?_⟩
      · simp only [lastCheck, List.foldl_append, List.foldl_cons, List.foldl_nil]
      · simp only [lastSeen, List.foldl_append, List.foldl_cons, List.foldl_nil]
    rw [check_eq]
    split
    · simp only [List.map_cons, List.map_nil]
      rw [List.append_cons]
      refine h1.blind ?_
      intro e he
      rw [List.mem_singleton] at he
      subst he; nofun
    · exact h1
  ready c es t m h ho hr := by
    have hb : ∀ x : List NEv, Blind x → ∀ m, Looked L t0 v0 (es ++ x ++ [.sent m]) := by
      intro x hx m
      refine (h.blind hx).blind ?_
      intro e he
      rw [List.mem_singleton] at he
      subst he; nofun
    rcases ctxPoll_ready hr with ⟨ms, _, h3⟩ | ⟨_, _, h3⟩ <;> rw [h3]
    · exact hb _ (by intro e he; cases he) _
    · exact hb _ (blind_mgr _) _
  pending c es t h ho hr := by
    rw [(ctxPoll_pending hr).2.2]
    exact h.blind (blind_mgr _)
  io c es t sid o h _ := h.blind (blind_mgr _)
  recv c es x m _ h ho hok := by
    have H := handle_handled c x m
    generalize c.handle x m = r at H hok ⊢
    obtain ⟨o, c', evs⟩ := r
    subst hok
    dsimp only
    refine h.blind ?_
    intro e he
    rcases List.mem_cons.mp he with rfl | he
    · nofun
    · cases H with
      | mgr op => exact blind_mgr _ e he
      | reply x _ _ _ hp =>
        simp only [List.map_cons, List.map_nil, List.mem_singleton] at he
        subst he; nofun
      | replyId x _ _ _ hp =>
        simp only [List.map_cons, List.map_nil, List.mem_singleton] at he
        subst he; nofun
      | command x =>
        simp only [List.map_cons, List.map_nil, List.mem_singleton] at he
        subst he; nofun
      | hsOk => cases he
      | ackOk => cases he
      | redirect => cases he

theorem looked_live (cfg : Cfg) (env : Env) (ops : List COp) (c : Cli) (hl : (hist cfg env ops).1 = .live c) :
    Looked (env :: envs ops) env.now env.version (hist cfg env ops).2 := by
  have h0 : Looked (env :: envs ops) env.now env.version (hist cfg env []).2 := ⟨env, List.mem_cons_self, rfl, rfl⟩
  rcases hist_inv (looked_steps (env :: envs ops) env.now env.version) cfg env ops
    (fun x hx => List.mem_cons_of_mem _ hx) (pairwise_true _) h0 with ⟨c', t, h1, h2⟩ | ⟨x, h1, _⟩
  · exact h1
  · rw [hl] at h1; cases h1

/-- After a timer event of an established connection the server has been told about services that were read together with a
version, and the same version was read less than five seconds ago. -/
theorem told (cfg : Cfg) (env : Env) (ops : List COp) (e : Env) (c c' : Cli)
    (hE : ∀ x ∈ env :: envs (ops ++ [.tick e]), x.versionAfter = x.version)
    (hm : Monotone env.now (ops ++ [.tick e])) (hl : (hist cfg env ops).1 = .live c)
    (hl' : (hist cfg env (ops ++ [.tick e])).1 = .live c')
    (hh : hsRun (register cfg env) (hist cfg env ops).2 = .established) :
    ∃ x ∈ env :: envs (ops ++ [.tick e]), ∃ y ∈ env :: envs (ops ++ [.tick e]),
      announced (hist cfg env (ops ++ [.tick e])).2 = some (SimpleTable.ofServices x.visible) ∧
      x.version = y.version ∧ e.now < y.now + 5000000000 := by
  obtain ⟨l, ⟨x, h1, h2, h3⟩, h4⟩ := announced_live
    (fun v l => ∃ x ∈ env :: envs (ops ++ [.tick e]), x.version = v ∧ x.visible = l) cfg env (ops ++ [.tick e]) c'
    (fun x hx => ⟨x, hx, (hE x hx).symm, rfl⟩) hl'
  obtain ⟨y, k1, k2, k3⟩ := looked_live cfg env (ops ++ [.tick e]) c' hl'
  refine ⟨x, h1, y, k1, by rw [h3]; exact h4, ?_, ?_⟩
  · rw [h2, k3]
    exact C33_announced_version cfg env (ops ++ [.tick e]) c' hE hl'
  · rw [k2]
    exact (Props.Silence.C129_fresh cfg env ops e c hm hl hh).2

end Verif.Told
