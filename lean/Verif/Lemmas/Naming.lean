import Verif.Spec.Naming
import Verif.Lemmas.Config
import Verif.Props.Config
import Verif.Props.Client
/-!
# Lemmas for the meaning of service ids
-/
namespace Verif.Naming
open Verif Verif.Control Verif.SvcTable Verif.Client Verif.Session Verif.Spec.Client Verif.Spec.Naming

/-! ## Where the events of a connection come from -/

/-- What an event says about ids was read from `env`. -/
def Src (Es : Env → Prop) (e : NEv) : Prop :=
  (∀ i s, Tells e i s → ∃ env, Es env ∧ ((i, s) ∈ env.visible ∨ env.getId s.toIdentifier = some i)) ∧
  (∀ i ty mac a, Opens e i ty mac a → ∃ env s, Es env ∧ env.table i = some s ∧ s.svcType = ty ∧
    s.mac.getD .zero = mac ∧ s.address = some a)

theorem insertElem_mem {l : List SvcElement} {x e : SvcElement} (h : e ∈ insertElem l x) : e = x ∨ e ∈ l := by
  unfold insertElem at h
  split at h
  · obtain ⟨y, hy, h⟩ := List.mem_map.mp h
    split at h
    · exact .inl h.symm
    · exact .inr (h ▸ hy)
  · rcases List.mem_append.mp h with h | h
    · exact .inr h
    · exact .inl (List.mem_singleton.mp h)

theorem ofServices_mem {l : List (UInt16 × Service)} {e : SvcElement}
    (h : e ∈ (SimpleTable.ofServices l).elems) : (e.id, e.service) ∈ l := by
  have key : ∀ (l : List (UInt16 × Service)) (acc : List SvcElement),
      e ∈ l.foldl (fun l p => insertElem l ⟨p.1, p.2⟩) acc → (e.id, e.service) ∈ l ∨ e ∈ acc := by
    intro l
    induction l with
    | nil => intro acc h; exact .inr h
    | cons p l ih =>
      intro acc h
      rcases ih _ h with h | h
      · exact .inl (List.mem_cons_of_mem _ h)
      · rcases insertElem_mem h with rfl | h
        · exact .inl (by simp)
        · exact .inr h
  rcases key l [] h with h | h
  · exact h
  · cases h

/-- Only a CONNECT opens a connection, and to the service found under the id asked for. -/
theorem step_opened {m : Mgr} {op : MOp} {sid : UInt32} {i : UInt16} {ty : ServiceType} {mac : MacAddr}
    {a : SocketAddr} (h : .opened sid i ty mac a ∈ (m.step op).2.1) :
    ∃ get s, op = .connect get i sid ∧ get i = some s ∧ s.svcType = ty ∧ s.mac.getD .zero = mac ∧
      s.address = some a := by
  cases op with
  | connect get sv sid' =>
    simp only [Mgr.step, Mgr.connect] at h
    split at h
    · rename_i s addr ht
      have h := List.mem_singleton.mp h
      injection h with h1 h2 h3 h4 h5
      subst h1 h2 h3 h4 h5
      unfold Mgr.connectTarget at ht
      split at ht
      · cases ht
      · split at ht
        · cases ht
        · rename_i s' hs
          split at ht
          · cases ht
          · rename_i a' ha
            split at ht
            · cases ht
            · injection ht with ht
              injection ht with h1 h2
              subst h1 h2
              exact ⟨_, _, rfl, hs, rfl, rfl, ha⟩
    · have h := List.mem_singleton.mp h
      cases h
  | send msg => simp only [Mgr.step, Mgr.send] at h; split at h <;> simp at h
  | close sid => simp only [Mgr.step, Mgr.close] at h; split at h <;> simp at h
  | dataAck sid len => simp only [Mgr.step, Mgr.dataAck] at h; split at h <;> simp at h
  | io sid o => simp only [Mgr.step] at h; split at h <;> simp at h
  | newId => simp [Mgr.step] at h
  | poll =>
    exfalso
    have := Props.SessionManager.openedAddrs_poll m
    simp only [Mgr.step] at h
    generalize m.poll.2.2 = evs at this h
    induction evs with
    | nil => cases h
    | cons e evs ih =>
      cases e with
      | opened => cases this
      | _ =>
        rcases List.mem_cons.1 h with h | h
        · cases h
        · exact ih this h

/-- Events that say nothing about ids. -/
theorem src_quiet {Es : Env → Prop} {e : NEv} (h1 : ∀ at_ m, e ≠ .ev (.queued at_ m))
    (h2 : ∀ x, e ≠ .ev (.mgr x)) : Src Es e :=
  ⟨fun _ _ ⟨at_, m, _, h, _⟩ => absurd h (h1 at_ m), fun _ _ _ _ ⟨_, h⟩ => absurd h (h2 _)⟩

/-- Messages that list no services. -/
theorem src_plain {Es : Env → Prop} {at_ : Nat} {m : ControlMessage}
    (h1 : ∀ uuid key mac w f info t, m.body ≠ .register uuid key mac w f info t)
    (h2 : ∀ t, m.body ≠ .update t) (h3 : ∀ req hosts t, m.body ≠ .scanReport req hosts t) :
    Src Es (.ev (.queued at_ m)) := by
  refine ⟨?_, fun _ _ _ _ ⟨_, h⟩ => by cases h⟩
  rintro i s ⟨at', m', t, h, -, h'⟩
  cases h
  rcases h' with ⟨_, _, _, _, _, _, h'⟩ | h' | ⟨_, _, h'⟩
  · exact absurd h' (h1 _ _ _ _ _ _ _)
  · exact absurd h' (h2 _)
  · exact absurd h' (h3 _ _ _)

/-- Messages that list the visible services. -/
theorem src_visible {Es : Env → Prop} {at_ : Nat} {m : ControlMessage} {env : Env} (he : Es env)
    (h : (∃ uuid key mac w f info, m.body = .register uuid key mac w f info (.ofServices env.visible)) ∨
      m.body = .update (.ofServices env.visible)) : Src Es (.ev (.queued at_ m)) := by
  refine ⟨?_, fun _ _ _ _ ⟨_, h⟩ => by cases h⟩
  rintro i s ⟨at', m', t, hq, hm, h'⟩
  cases hq
  refine ⟨env, he, .inl ?_⟩
  rcases h with ⟨_, _, _, _, _, _, h⟩ | h <;> rw [h] at h' <;>
    rcases h' with ⟨_, _, _, _, _, _, h'⟩ | h' | ⟨_, _, h'⟩ <;> cases h'
  · exact ofServices_mem hm
  · exact ofServices_mem hm

theorem src_report {Es : Env → Prop} {at_ : Nat} {id req : UInt16} {env : Env} (he : Es env) :
    Src Es (.ev (.queued at_ (mkScanReport id req env.hosts env.services env.getId))) := by
  refine ⟨?_, fun _ _ _ _ ⟨_, h⟩ => by cases h⟩
  rintro i s ⟨at', m', t, hq, hm, h'⟩
  cases hq
  refine ⟨env, he, .inr ?_⟩
  unfold mkScanReport at h'
  rcases h' with ⟨_, _, _, _, _, _, h'⟩ | h' | ⟨_, _, h'⟩ <;> cases h'
  obtain ⟨x, hx, h⟩ := List.mem_filterMap.mp (ofServices_mem hm)
  obtain ⟨j, hj, h⟩ := Option.map_eq_some_iff.mp h
  injection h with h1 h2
  subst h1 h2
  exact hj

theorem src_mgr {Es : Env → Prop} {c : Cli} {op : MOp} (h : ∀ get svc sid, op ≠ .connect get svc sid)
    {e : CEv} (he : e ∈ (c.onMgr op).2) : Src Es (.ev e) := by
  simp only [Cli.onMgr, List.mem_map] at he
  obtain ⟨x, hx, rfl⟩ := he
  refine ⟨(fun _ _ ⟨_, _, _, h, _⟩ => by cases h), ?_⟩
  rintro i ty mac a ⟨sid, ho⟩
  cases ho
  obtain ⟨get, s, h1, -⟩ := step_opened hx
  exact absurd h1 (h _ _ _)

theorem src_connect {Es : Env → Prop} {c : Cli} {env : Env} (henv : Es env) {svc : UInt16} {sid : UInt32}
    {e : CEv} (he : e ∈ (c.onMgr (.connect env.table svc sid)).2) : Src Es (.ev e) := by
  simp only [Cli.onMgr, List.mem_map] at he
  obtain ⟨x, hx, rfl⟩ := he
  refine ⟨(fun _ _ ⟨_, _, _, h, _⟩ => by cases h), ?_⟩
  rintro i ty mac a ⟨sid, ho⟩
  cases ho
  obtain ⟨get, s, h1, h2, h3⟩ := step_opened hx
  injection h1 with h1 h4
  subst h1
  exact ⟨env, s, henv, h2, h3⟩

theorem src_handle {Es : Env → Prop} {c : Cli} {env : Env} (henv : Es env) {m : Wire.Message}
    {e : CEv} (he : e ∈ (c.handle env m).2.2) : Src Es (.ev e) := by
  unfold Cli.handle at he
  split at he
  · split at he
    · rename_i cm _
      unfold Cli.processControl Cli.whenEstablished at he
      split at he
      · cases he
      all_goals (try split at he)
      all_goals (try (split at he))
      all_goals first
        | exact absurd he List.not_mem_nil
        | exact src_connect henv he
        | exact src_mgr (by intro _ _ _ h; cases h) he
        | skip
      all_goals simp only [Cli.sendControl, List.mem_singleton] at he
      all_goals subst he
      · exact src_plain nofun nofun nofun
      · exact src_plain nofun nofun nofun
      · exact src_plain nofun nofun nofun
      · exact src_report henv
      · exact src_quiet nofun nofun
      · exact src_quiet nofun nofun
    · cases he
    · cases he
  · unfold Cli.whenEstablished at he
    split at he
    · exact src_mgr (by intro _ _ _ h; cases h) he
    · cases he

theorem src_steps (Es : Env → Prop) : Steps (fun _ _ => True) Es (fun _ es _ => ∀ e ∈ es, Src Es e)
    (fun es _ => ∀ e ∈ es, Src Es e) where
  time _ _ _ _ h _ := h
  idle _ _ _ h := h
  close _ _ _ h := h
  timeout _ _ _ h _ _ := h
  recv c es env m he h _ _ := by
    intro e hx
    rcases List.mem_append.mp hx with hx | hx
    · exact h e hx
    · rcases List.mem_cons.mp hx with rfl | hx
      · exact src_quiet nofun nofun
      · obtain ⟨x, hx', rfl⟩ := List.mem_map.mp hx
        replace hx := hx'
        exact src_handle he hx
  refused c es env m he h _ _ := by
    intro e hx
    rcases List.mem_append.mp hx with hx | hx
    · exact h e hx
    · rcases List.mem_cons.mp hx with rfl | hx
      · exact src_quiet nofun nofun
      · obtain ⟨x, hx', rfl⟩ := List.mem_map.mp hx
        replace hx := hx'
        exact src_handle he hx
  ping c es t h _ _ _ := by
    intro e hx
    rcases List.mem_append.mp hx with hx | hx
    · exact h e hx
    · simp only [Cli.sendPing, Cli.sendUnconfirmed, Cli.sendControl, List.map_cons, List.map_nil,
        List.mem_singleton] at hx
      subst hx
      exact src_plain nofun nofun nofun
  check c es env he h _ _ _ := by
    intro e hx
    rcases List.mem_append.mp hx with hx | hx
    · exact h e hx
    · obtain ⟨x, hx', rfl⟩ := List.mem_map.mp hx
      replace hx := hx'
      unfold Cli.checkForUpdates at hx
      dsimp only at hx
      rcases List.mem_cons.mp hx with rfl | hx
      · exact src_quiet nofun nofun
      · split at hx
        · simp only [Cli.sendUpdate, Cli.sendControl, List.mem_singleton] at hx
          subst hx
          exact src_visible he (.inr rfl)
        · cases hx
  ready c es t m h _ hr := by
    intro e hx
    rcases List.mem_append.mp hx with hx | hx
    · rcases List.mem_append.mp hx with hx | hx
      · exact h e hx
      · obtain ⟨x, hx', rfl⟩ := List.mem_map.mp hx
        replace hx := hx'
        rcases ctxPoll_ready hr with ⟨ms, _, h3⟩ | ⟨_, _, h3⟩ <;> rw [h3] at hx
        · cases hx
        · exact src_mgr (c := c) (op := .poll) (by intro _ _ _ h; cases h) hx
    · rw [List.mem_singleton.mp hx]
      exact src_quiet nofun nofun
  pending c es t h _ hr := by
    intro e hx
    rcases List.mem_append.mp hx with hx | hx
    · exact h e hx
    · obtain ⟨x, hx', rfl⟩ := List.mem_map.mp hx
      replace hx := hx'
      rw [(ctxPoll_pending hr).2.2] at hx
      exact src_mgr (c := c) (op := .poll) (by intro _ _ _ h; cases h) hx
  io c es t sid o h _ := by
    intro e hx
    rcases List.mem_append.mp hx with hx | hx
    · exact h e hx
    · obtain ⟨x, hx', rfl⟩ := List.mem_map.mp hx
      replace hx := hx'
      exact src_mgr (by intro _ _ _ h; cases h) hx

/-- Everything a connection says about ids was read from the service table. -/
theorem src_hist (cfg : Cfg) (env : Env) (ops : List COp) :
    ∀ e ∈ (Props.Client.hist cfg env ops).2, Src (· ∈ env :: envs ops) e := by
  rcases Props.Client.hist_inv (src_steps (· ∈ env :: envs ops)) cfg env ops
    (fun x hx => List.mem_cons_of_mem _ hx) (Props.Client.pairwise_true _) (by
      intro e he
      rw [List.mem_singleton.mp he]
      exact src_visible List.mem_cons_self (.inl ⟨_, _, _, _, _, _, rfl⟩)) with ⟨c, t, h, -⟩ | ⟨x, -, h⟩
  · exact h
  · exact h

/-! ## Names in tables -/

/-- In the table `t` the id `i` stands for the service with identity `k`, visible or not. -/
def Named (t : Table) (i : UInt16) (k : ServiceIdentifier) : Prop :=
  ∃ s, Spec.SvcTable.known t i = some s ∧ s.toIdentifier = k

theorem Named.elem {t : Table} {i : UInt16} {k : ServiceIdentifier} (h : Named t i k) :
    ∃ e, t.svcMap.get i = some e ∧ e.service.toIdentifier = k := by
  obtain ⟨s, h, hk⟩ := h
  obtain ⟨e, he, hs⟩ := Option.map_eq_some_iff.mp h
  exact ⟨e, he, by rw [hs]; exact hk⟩

theorem Named.mk {t : Table} {i : UInt16} {k : ServiceIdentifier} {e : Elem} (h : t.svcMap.get i = some e)
    (hk : e.service.toIdentifier = k) : Named t i k :=
  ⟨e.service, by unfold Spec.SvcTable.known; rw [h]; rfl, hk⟩

theorem Named.unique {t : Table} {i : UInt16} {k k' : ServiceIdentifier} (h : Named t i k) (h' : Named t i k') :
    k = k' := by
  obtain ⟨s, h1, rfl⟩ := h
  obtain ⟨s', h2, rfl⟩ := h'
  rw [h1] at h2
  injection h2 with h2
  rw [h2]

theorem Named.id {t : Table} (I : SvcTable.Inv t) {i : UInt16} {k : ServiceIdentifier} (h : Named t i k) :
    t.idMap.get k = some i := by
  obtain ⟨e, he, hk⟩ := h.elem
  rw [← hk]
  exact (I.elem i e he).2

theorem Named.of_id {t : Table} (I : SvcTable.Inv t) {i : UInt16} {k : ServiceIdentifier}
    (h : t.idMap.get k = some i) : Named t i k := by
  obtain ⟨e, he, hk⟩ := I.back k i h
  exact .mk he hk

theorem Named.run {farm : Bytes → UInt64} {t t' : Table} {ops : List TOp} (I : SvcTable.Inv t)
    (I' : SvcTable.Inv t') (h : t.run farm ops = some t') {i : UInt16} {k : ServiceIdentifier}
    (hn : Named t i k) : Named t' i k :=
  .of_id I' (run_idMap h k i (hn.id I))

theorem Named.visible {t : Table} (I : SvcTable.Inv t) {i : UInt16} {s : Service} (h : (i, s) ∈ t.visible) :
    Named t i s.toIdentifier := by
  rw [mem_visible I] at h
  obtain ⟨e, he, h⟩ := Option.bind_eq_some_iff.mp h
  split at h
  · injection h with h
    exact .mk he (by rw [h])
  · cases h

theorem Named.get {t : Table} {i : UInt16} {s : Service} (h : t.get i = some s) : Named t i s.toIdentifier := by
  unfold Table.get at h
  split at h
  · rename_i e he
    split at h
    · injection h with h
      exact .mk he (by rw [h])
    · cases h
  · cases h

theorem Named.control {t : Table} (I : SvcTable.Inv t) : Named t 0 Service.control.toIdentifier := by
  obtain ⟨e, h1, h2, -⟩ := I.ctrl
  exact .mk h1 (by rw [h2])

/-- What a connection says about ids is the case in some of the tables it read. -/
theorem tells_named {T : Table → Prop} (hT : ∀ t, T t → SvcTable.Inv t) {Es : Env → Prop}
    (hr : ∀ e, Es e → ReadsIn T e) {x : NEv} (hx : Src Es x) {i : UInt16} {s : Service} (h : Tells x i s) :
    ∃ t, T t ∧ Named t i s.toIdentifier := by
  obtain ⟨env, he, hv | hg⟩ := hx.1 i s h
  · obtain ⟨t, ht, hv'⟩ := (hr env he).visible
    rw [hv'] at hv
    exact ⟨t, ht, Named.visible (hT t ht) hv⟩
  · obtain ⟨t, ht, hg'⟩ := (hr env he).getId s.toIdentifier
    rw [hg] at hg'
    obtain ⟨s', h1, h2⟩ := get_of_getId (hT t ht) hg'
    exact ⟨t, ht, h2 ▸ Named.get h1⟩

theorem opens_named {T : Table → Prop} {Es : Env → Prop}
    (hr : ∀ e, Es e → ReadsIn T e) {x : NEv} (hx : Src Es x) {i : UInt16} {ty : ServiceType} {mac : MacAddr}
    {a : SocketAddr} (h : Opens x i ty mac a) :
    ∃ t s, T t ∧ Named t i s.toIdentifier ∧ Fits s ty mac a := by
  obtain ⟨env, s, he, ht, h1, h2, h3⟩ := hx.2 i ty mac a h
  obtain ⟨t, hT, hg⟩ := (hr env he).table i
  rw [ht] at hg
  exact ⟨t, s, hT, Named.get hg.symm, h1, h2, by unfold Service.port; rw [h3]; rfl⟩

theorem fits_of_identifier {s s' : Service} {ty : ServiceType} {mac : MacAddr} {a : SocketAddr}
    (h : s.toIdentifier = s'.toIdentifier) (hf : Fits s' ty mac a) : Fits s ty mac a := by
  unfold Service.toIdentifier at h
  injection h with h1 h2 h3 h4
  exact ⟨h1.trans hf.1, by rw [h2]; exact hf.2.1, h3.trans hf.2.2⟩

/-! ## Stages of one table -/

theorem stages_inv {farm : Bytes → UInt64} {t0 t : Table} {ops : List TOp} (I : SvcTable.Inv t0)
    (hs : Spec.SvcTable.Services ops) (h : Stages farm t0 ops t) : SvcTable.Inv t := by
  obtain ⟨pre, post, rfl, hr⟩ := h
  exact inv_run I (services_append hs).1 hr

theorem stages_named {farm : Bytes → UInt64} {t0 t : Table} {ops : List TOp} (I : SvcTable.Inv t0)
    (hs : Spec.SvcTable.Services ops) (h : Stages farm t0 ops t) {i : UInt16} {k : ServiceIdentifier}
    (hn : Named t0 i k) : Named t i k := by
  have I' := stages_inv I hs h
  obtain ⟨pre, post, rfl, hr⟩ := h
  exact hn.run I I' hr

/-- Of two stages one is the later one. -/
theorem stages_total {farm : Bytes → UInt64} {t0 t t' : Table} {ops : List TOp}
    (h : Stages farm t0 ops t) (h' : Stages farm t0 ops t') :
    (∃ mid, (∀ o ∈ mid, o ∈ ops) ∧ t.run farm mid = some t') ∨
    (∃ mid, (∀ o ∈ mid, o ∈ ops) ∧ t'.run farm mid = some t) := by
  obtain ⟨pre, post, h1, hr⟩ := h
  obtain ⟨pre', post', h2, hr'⟩ := h'
  rw [h1] at h2
  have key : ∀ (pre pre' mid : List TOp) (t t' : Table), pre' = pre ++ mid → t0.run farm pre = some t →
      t0.run farm pre' = some t' → t.run farm mid = some t' := by
    intro pre pre' mid t t' hp hr hr'
    rw [hp, SvcTable.run_append, hr] at hr'
    exact hr'
  rcases List.append_eq_append_iff.mp h2 with ⟨mid, h3, h4⟩ | ⟨mid, h3, h4⟩
  · exact .inl ⟨mid, fun o ho => by rw [h1, h4]; simp [ho], key pre pre' mid t t' h3 hr hr'⟩
  · exact .inr ⟨mid, fun o ho => by rw [h1, h3]; simp [ho], key pre' pre mid t' t h3 hr' hr⟩

/-- Two stages agree about ids. -/
theorem stages_agree {farm : Bytes → UInt64} {t0 t t' : Table} {ops : List TOp} (I : SvcTable.Inv t0)
    (hs : Spec.SvcTable.Services ops) (h : Stages farm t0 ops t) (h' : Stages farm t0 ops t')
    {i j : UInt16} {k k' : ServiceIdentifier} (hn : Named t i k) (hn' : Named t' j k') : i = j ↔ k = k' := by
  have I1 := stages_inv I hs h
  have I2 := stages_inv I hs h'
  have key : ∀ (u : Table), SvcTable.Inv u → Named u i k → Named u j k' → (i = j ↔ k = k') := by
    intro u Iu a b
    constructor
    · rintro rfl; exact a.unique b
    · rintro rfl
      have h1 := a.id Iu
      rw [b.id Iu] at h1
      injection h1 with h1
      exact h1.symm
  rcases stages_total h h' with ⟨mid, hm, hr⟩ | ⟨mid, hm, hr⟩
  · exact key t' I2 (hn.run I1 I2 hr) hn'
  · exact key t I1 hn (hn'.run I2 I1 hr)

/-! ## One table while the process lives -/

theorem proc_dead {E : Config.Env} {S : Config.Setup} {w : Config.World} {ops : List Config.Op}
    (hw : w.proc = none) (hn : ∀ op ∈ ops, NoStart op) : (w.run E S ops).1.proc = none := by
  induction ops generalizing w with
  | nil => exact hw
  | cons op ops ih =>
    refine ih ?_ (fun o ho => hn o (List.mem_cons_of_mem _ ho))
    cases op with
    | start a => exact (hn _ List.mem_cons_self).elim
    | update l now o => simp only [Config.World.step, hw]
    | reset o => simp only [Config.World.step, hw]
    | stop => rfl

theorem sane_services {op : Config.Op} (h : Spec.Config.Sane op) : Spec.SvcTable.Services (changesOf op) := by
  cases op with
  | update l now o =>
    intro x hx a ha
    exact (Config.update_services h x hx a ha).1
  | _ => nofun

theorem heap_append {w : Config.World} {n : Nat} {t u : Table} (h : w.heap[n]? = some t) :
    (w.heap ++ [u])[n]? = some t := by
  rw [List.getElem?_append_left (List.getElem?_eq_some_iff.mp h).1, h]

/-- What one operation does to a shared table. -/
theorem cell_step {E : Config.Env} {S : Config.Setup} {w : Config.World} {c : Config.Cfg} {n : Nat} {t : Table}
    (hc : w.proc = some c) (ht : w.heap[n]? = some t) (op : Config.Op) (hn : NoStart op) :
    (c.cell = n ∧ t.run E.farm (changesOf op) = none ∧ (w.step E S op).1.proc = none) ∨
    ∃ t', (w.step E S op).1.heap[n]? = some t' ∧
      t.run E.farm (if c.cell = n then changesOf op else []) = some t' := by
  cases op with
  | start a => exact hn.elim
  | stop =>
    refine .inr ⟨t, ht, ?_⟩
    split <;> rfl
  | reset o =>
    refine .inr ⟨t, ?_, ?_⟩
    · simp only [Config.World.step, hc]
      exact heap_append ht
    · split <;> rfl
  | update l now o =>
    simp only [Config.World.step, hc]
    cases hcell : w.heap[c.cell]? with
    | none =>
      right
      refine ⟨t, ?_, ?_⟩
      · unfold Config.World.update; rw [hcell]; exact ht
      · rw [if_neg]
        · rfl
        · intro h; rw [h, ht] at hcell; cases hcell
    | some u =>
      rcases Config.update_cases E w c l now o hcell with ⟨h1, h2⟩ | ⟨u', h1, h2⟩
      · by_cases hcn : c.cell = n
        · rw [hcn, ht] at hcell
          injection hcell with hcell
          subst hcell
          exact .inl ⟨hcn, h1, by rw [h2]⟩
        · exact .inr ⟨t, by rw [h2]; exact ht, by rw [if_neg hcn]; rfl⟩
      · have hheap : (w.update E c l now o).1.heap = w.heap.set c.cell u' := by
          rcases h2 with ⟨-, -, h2⟩ | ⟨-, h2⟩ <;> rw [h2] <;> rfl
        right
        rw [hheap]
        by_cases hcn : c.cell = n
        · rw [hcn, ht] at hcell
          injection hcell with hcell
          subst hcell
          rw [if_pos hcn, hcn]
          exact ⟨u', Config.heap_set ht u', h1⟩
        · rw [if_neg hcn, List.getElem?_set_ne hcn]
          exact ⟨t, ht, rfl⟩

theorem during_stages {E : Config.Env} {S : Config.Setup} (ops : List Config.Op) :
    ∀ {w : Config.World} {c : Config.Cfg} {n : Nat} {t : Table}, w.proc = some c → w.heap[n]? = some t →
    (∀ op ∈ ops, Spec.Config.Sane op) → (∀ op ∈ ops, NoStart op) →
    ∃ tops, Spec.SvcTable.Services tops ∧ Spec.SvcTable.costs tops ≤ Spec.SvcTable.costs (ops.flatMap changesOf) ∧
      ∀ t', DuringOf E S w ops n t' → Stages E.farm t tops t' := by
  induction ops with
  | nil =>
    intro w c n t _ _ _ _
    refine ⟨[], nofun, Nat.zero_le _, ?_⟩
    rintro t' ⟨pre, op, post, c, t0, h, -⟩
    simp at h
  | cons op ops ih =>
    intro w c n t hc ht hs hn
    have hs1 := hs op List.mem_cons_self
    have hn1 := hn op List.mem_cons_self
    have hs2 := fun o ho => hs o (List.mem_cons_of_mem _ ho)
    have hn2 := fun o ho => hn o (List.mem_cons_of_mem _ ho)
    -- the states seen during the first operation
    have first : ∀ tops u c', w.proc = some c' →
        (u = t ∨ (c'.cell = n ∧ Stages E.farm t (changesOf op) u)) →
        Stages E.farm t ((if c.cell = n then changesOf op else []) ++ tops) u := by
      intro tops u c' hc' hu
      rw [hc] at hc'
      injection hc' with hc'
      subst hc'
      rcases hu with rfl | ⟨h1, pre, post, h2, h3⟩
      · exact ⟨[], _, rfl, rfl⟩
      · rw [if_pos h1, h2]
        exact ⟨pre, post ++ tops, by simp, h3⟩
    -- the others
    have split : ∀ u, DuringOf E S w (op :: ops) n u →
        (∃ c', w.proc = some c' ∧ (u = t ∨ (c'.cell = n ∧ Stages E.farm t (changesOf op) u))) ∨
        DuringOf E S (w.step E S op).1 ops n u := by
      rintro u ⟨pre, op', post, c', t0, h1, h2, h3, h4⟩
      cases pre with
      | nil =>
        injection h1 with h1 h1'
        subst h1 h1'
        simp only [Config.World.run] at h2 h3
        rw [ht] at h3
        injection h3 with h3
        subst h3
        exact .inl ⟨c', h2, h4⟩
      | cons o pre =>
        injection h1 with h1 h1'
        subst h1
        exact .inr ⟨pre, op', post, c', t0, h1', h2, h3, h4⟩
    have hserv : Spec.SvcTable.Services (if c.cell = n then changesOf op else []) := by
      split
      · exact sane_services hs1
      · nofun
    have happ : ∀ {a b : List TOp}, Spec.SvcTable.Services a → Spec.SvcTable.Services b →
        Spec.SvcTable.Services (a ++ b) := by
      intro a b ha hb o ho
      rcases List.mem_append.mp ho with ho | ho
      · exact ha o ho
      · exact hb o ho
    have hcost : ∀ tops, Spec.SvcTable.costs tops ≤ Spec.SvcTable.costs (ops.flatMap changesOf) →
        Spec.SvcTable.costs ((if c.cell = n then changesOf op else []) ++ tops) ≤
          Spec.SvcTable.costs ((op :: ops).flatMap changesOf) := by
      intro tops h
      simp only [Spec.SvcTable.costs, List.flatMap_cons, List.map_append, List.sum_append_nat] at h ⊢
      split
      · omega
      · simp only [List.map_nil, List.sum_nil]; omega
    have dead : (w.step E S op).1.proc = none → ∃ tops, Spec.SvcTable.Services tops ∧
        Spec.SvcTable.costs tops ≤ Spec.SvcTable.costs ((op :: ops).flatMap changesOf) ∧
        ∀ t', DuringOf E S w (op :: ops) n t' → Stages E.farm t tops t' := by
      intro hd
      refine ⟨_, happ hserv (b := []) nofun, hcost [] (Nat.zero_le _), ?_⟩
      intro u hu
      rcases split u hu with ⟨c', h1, h2⟩ | ⟨pre, op', post, c', t0, h1, h2, -⟩
      · exact first [] u c' h1 h2
      · rw [proc_dead hd (fun o ho => hn2 o (by rw [h1]; simp [ho]))] at h2
        cases h2
    cases hp : (w.step E S op).1.proc with
    | none => exact dead hp
    | some c1 =>
      rcases cell_step hc ht op hn1 (E := E) (S := S) with ⟨-, -, h⟩ | ⟨t1, h1, h2⟩
      · exact dead h
      · obtain ⟨tops, k1, kc, k2⟩ := ih hp h1 hs2 hn2
        refine ⟨_, happ hserv k1, hcost tops kc, ?_⟩
        intro u hu
        rcases split u hu with ⟨c', h3, h4⟩ | hu
        · exact first tops u c' h3 h4
        · obtain ⟨pre, post, h3, h4⟩ := k2 u hu
          refine ⟨(if c.cell = n then changesOf op else []) ++ pre, post, by rw [h3]; simp, ?_⟩
          rw [SvcTable.run_append, h2]
          exact h4

/-! ## Across restarts -/

/-- The id `i` stands for `k` in memory and in the configuration file. -/
structure Holds (E : Config.Env) (w : Config.World) (i : UInt16) (k : ServiceIdentifier) : Prop where
  file : ∃ d : Config.PConfig, w.fs.config = some (E.render (d.toJson E)) ∧ Config.Good E d.table ∧
    Named d.table i k
  mem : ∀ c, w.proc = some c → ∃ t, w.heap[c.cell]? = some t ∧ Named t i k

theorem named_matches {b : Bool} {t u : Table} (It : SvcTable.Inv t) (Iu : SvcTable.Inv u)
    (h : Spec.Config.Matches b t u) {i : UInt16} {k : ServiceIdentifier} (hn : Named u i k) : Named t i k := by
  by_cases hi : i = 0
  · subst hi
    rw [hn.unique (.control Iu)]
    exact .control It
  · obtain ⟨e, he, hk⟩ := hn.elem
    have := h i hi
    rw [Config.saved_some he] at this
    cases ht : t.svcMap.get i with
    | none => rw [Config.saved_none ht] at this; exact this.elim
    | some e' =>
      rw [Config.saved_some ht] at this
      exact .mk ht (by rw [this.1]; exact hk)

/-- What is loaded at the start. -/
theorem load_config {E : Config.Env} {S : Config.Setup} {fs : Config.Files} {a : Config.StartUp}
    {p p' : Config.PConfig} (h : (Config.loadConfiguration E S fs a).2 = some p)
    (hl : Config.loadFile E a.now fs.config a.readConfig = .ok (some p')) : p = p' := by
  rcases Config.load_cases E S fs a with h' | ⟨skel, config, -, hc, f, o, h', ho⟩
  · rw [h'] at h; cases h
  · rw [h'] at h
    rw [hl] at hc
    injection hc with hc
    subst hc
    rcases ho with ho | ho
    · rw [ho] at h; cases h
    · rw [ho] at h
      injection h with h
      exact h.symm

theorem holds_step {E : Config.Env} (hE : Spec.Config.Faithful E) (S : Config.Setup) {w : Config.World}
    (hw : Config.WInv E w) {i : UInt16} {k : ServiceIdentifier} (h : Holds E w i k) {op : Config.Op}
    (hs : Spec.Config.Sane op) (ho : Spec.Config.SavesWork op) (hn : NoReset op) (hr : ConfigReadable op) :
    Holds E (w.step E S op).1 i k := by
  cases op with
  | reset o => exact hn.elim
  | stop => exact ⟨h.file, nofun⟩
  | start a =>
    simp only [Config.World.step]
    cases hp : w.proc with
    | some c => exact h
    | none =>
      dsimp only
      obtain ⟨k1, -, k3⟩ := Config.load_clean hE S a hw.config hw.skeleton
      obtain ⟨d, d1, d2, d3⟩ := h.file
      rcases Config.start_cases E S w a with h' | ⟨p, t, hp', hrun, -, ⟨ho', h', hpr⟩ | ⟨hne, -⟩⟩
      · rw [h']
        exact ⟨⟨d, k1.trans d1, d2, d3⟩, nofun⟩
      · have hg := (Config.Good.start (k3 p hp')).run (Config.start_services hs) hrun
        have hnp : Named p.table i k := by
          obtain ⟨t', l1, l2, l3⟩ := Config.loadFile_render hE d2 a.now
          have hp2 := load_config hp' (by
            rw [d1, show a.readConfig = true from hr]
            exact l1)
          rw [hp2]
          exact named_matches (start_inv l3) (reachable_inv d2.reach) (Config.matches_reload l2) d3
        have hnt := hnp.run (start_inv (k3 p hp')) (reachable_inv hg.reach) hrun
        rw [h']
        refine ⟨⟨⟨p.uuid, p.passwd, p.version, t⟩, ?_, hg, hnt⟩, ?_⟩
        · rw [ho']; rfl
        · intro c hc
          rw [hpr] at hc
          injection hc with hc
          subst hc
          exact ⟨t, by rw [Config.save_heap]; simp, hnt⟩
      · exact absurd ho hne
  | update l now o =>
    simp only [Config.World.step]
    cases hp : w.proc with
    | none => exact h
    | some c =>
      dsimp only
      cases (show o = .ok from ho)
      obtain ⟨⟨t, ht, hg⟩, -⟩ := hw.proc c hp
      obtain ⟨t1, h1, hnt⟩ := h.mem c hp
      rw [ht] at h1
      injection h1 with h1
      subst h1
      rcases Config.update_cases E w c l now .ok ht with ⟨-, hu⟩ | ⟨t', hrun, hu⟩
      · rw [hu]; exact ⟨h.file, nofun⟩
      · have hg' := hg.run (Config.update_services hs) hrun
        have hnt' := hnt.run (reachable_inv hg.reach) (reachable_inv hg'.reach) hrun
        rcases hu with ⟨-, -, hu⟩ | ⟨-, hu⟩
        · rw [hu]
          refine ⟨h.file, ?_⟩
          intro c' hc'
          rw [show c' = c from by rw [hp] at hc'; injection hc' with hc'; exact hc'.symm]
          exact ⟨t', Config.heap_set ht t', hnt'⟩
        · rw [hu]
          refine ⟨⟨⟨c.uuid, c.passwd, c.version + 1, t'⟩, rfl, hg', hnt'⟩, ?_⟩
          intro c' hc'
          have := Config.save_proc hc'
          subst this
          exact ⟨t', by rw [Config.save_heap]; exact Config.heap_set ht t', hnt'⟩

/-- Whatever is seen during an operation holds after it. -/
theorem holds_after {E : Config.Env} (hE : Spec.Config.Faithful E) (S : Config.Setup) {w : Config.World}
    (hw : Config.WInv E w) (hy : Props.Config.InSync E w) {op : Config.Op}
    (hs : Spec.Config.Sane op) (ho : Spec.Config.SavesWork op) (hn : NoReset op)
    (hfit : ∀ l now o, op = .update l now o → (w.step E S op).1.proc ≠ none)
    {t0 t : Table} (ht0 : Spec.Config.table w = some t0) (ht : Stages E.farm t0 (changesOf op) t)
    {i : UInt16} {k : ServiceIdentifier} (hnm : Named t i k) : Holds E (w.step E S op).1 i k := by
  unfold Spec.Config.table at ht0
  obtain ⟨c, hp, hc⟩ := Option.bind_eq_some_iff.mp ht0
  -- an operation that changes nothing
  have plain : Stages E.farm t0 [] t → Holds E w i k := by
    rintro ⟨pre, post, h1, h2⟩
    obtain ⟨rfl, -⟩ := List.append_eq_nil_iff.mp h1.symm
    injection h2 with h2
    subst h2
    obtain ⟨t1, tf, e1, e2, e3, e4, e5⟩ := hy c hp
    rw [hc] at e1
    injection e1 with e1
    subst e1
    refine ⟨⟨_, e4, e3, named_matches (reachable_inv e3.reach) (reachable_inv e2.reach) e5 hnm⟩, ?_⟩
    intro c' hc'
    rw [hp] at hc'
    injection hc' with hc'
    subst hc'
    exact ⟨t0, hc, hnm⟩
  cases op with
  | reset o => exact hn.elim
  | stop => exact ⟨(plain ht).file, nofun⟩
  | start a =>
    simp only [Config.World.step, hp]
    exact plain ht
  | update l now o =>
    have hy' := Props.Config.sync_step hE S hw hy hs ho
    have hf := hfit l now o rfl
    simp only [Config.World.step, hp] at hy' hf ⊢
    obtain ⟨⟨t1, e1, hg⟩, -⟩ := hw.proc c hp
    rw [hc] at e1
    injection e1 with e1
    subst e1
    rcases Config.update_cases E w c l now o hc with ⟨-, hu⟩ | ⟨t', hrun, hu⟩
    · rw [hu] at hf; exact absurd rfl hf
    · have hg' := hg.run (Config.update_services hs) hrun
      have I := reachable_inv hg.reach
      have hnt' : Named t' i k := by
        obtain ⟨pre, post, h1, h2⟩ := ht
        have hserv := sane_services hs
        rw [h1] at hserv
        have It := inv_run I (services_append hserv).1 h2
        refine hnm.run (farm := E.farm) It (reachable_inv hg'.reach) (ops := post) ?_
        rw [show Spec.Config.changes l now = pre ++ post from h1, SvcTable.run_append, h2] at hrun
        exact hrun
      have hheap : (w.update E c l now o).1.heap[c.cell]? = some t' := by
        rcases hu with ⟨-, -, hu⟩ | ⟨-, hu⟩ <;> rw [hu] <;> exact Config.heap_set hc t'
      cases hp' : (w.update E c l now o).1.proc with
      | none => exact absurd hp' hf
      | some c' =>
        have hcell : c'.cell = c.cell := by
          rcases hu with ⟨-, -, hu⟩ | ⟨-, hu⟩ <;> rw [hu] at hp'
          · rw [show w.proc = some c' from hp'] at hp
            injection hp with hp
            rw [hp]
          · have := Config.save_proc hp'
            rw [this]
        obtain ⟨t1, tf, e1, e2, e3, e4, e5⟩ := hy' c' hp'
        rw [hcell, hheap] at e1
        injection e1 with e1
        subst e1
        refine ⟨⟨_, e4, e3, named_matches (reachable_inv e3.reach) (reachable_inv e2.reach) e5 hnt'⟩, ?_⟩
        intro c'' hc''
        rw [hp'] at hc''
        injection hc'' with hc''
        subst hc''
        rw [hcell]
        exact ⟨t', hheap, hnt'⟩

theorem sync_run {E : Config.Env} (hE : Spec.Config.Faithful E) (S : Config.Setup) {w : Config.World}
    {ops : List Config.Op} (hw : Config.WInv E w) (h : Props.Config.InSync E w)
    (hs : ∀ op ∈ ops, Spec.Config.Sane op) (ho : ∀ op ∈ ops, Spec.Config.SavesWork op) :
    Props.Config.InSync E (w.run E S ops).1 := by
  induction ops generalizing w with
  | nil => exact h
  | cons op ops ih =>
    exact ih (Config.winv_step hE S hw (hs op List.mem_cons_self))
      (Props.Config.sync_step hE S hw h (hs op List.mem_cons_self) (ho op List.mem_cons_self))
      (fun o h => hs o (List.mem_cons_of_mem _ h)) (fun o h => ho o (List.mem_cons_of_mem _ h))

theorem holds_run {E : Config.Env} (hE : Spec.Config.Faithful E) (S : Config.Setup) {w : Config.World}
    (hw : Config.WInv E w) {i : UInt16} {k : ServiceIdentifier} (h : Holds E w i k) {ops : List Config.Op}
    (hs : ∀ op ∈ ops, Spec.Config.Sane op) (ho : ∀ op ∈ ops, Spec.Config.SavesWork op)
    (hn : ∀ op ∈ ops, NoReset op) (hr : ∀ op ∈ ops, ConfigReadable op) :
    Holds E (w.run E S ops).1 i k := by
  induction ops generalizing w with
  | nil => exact h
  | cons op ops ih =>
    exact ih (Config.winv_step hE S hw (hs op List.mem_cons_self))
      (holds_step hE S hw h (hs op List.mem_cons_self) (ho op List.mem_cons_self) (hn op List.mem_cons_self)
        (hr op List.mem_cons_self))
      (fun o h => hs o (List.mem_cons_of_mem _ h)) (fun o h => ho o (List.mem_cons_of_mem _ h))
      (fun o h => hn o (List.mem_cons_of_mem _ h)) (fun o h => hr o (List.mem_cons_of_mem _ h))

/-- The table of the running client is a consistent one. -/
theorem table_inv {E : Config.Env} (hE : Spec.Config.Faithful E) (S : Config.Setup) {w0 : Config.World}
    (h0 : Spec.Config.Fresh E w0) {ops : List Config.Op} (hs : ∀ op ∈ ops, Spec.Config.Sane op) {t : Table}
    (ht : Spec.Config.table (w0.run E S ops).1 = some t) : SvcTable.Inv t := by
  obtain ⟨c, -, -, hg⟩ := Props.Config.run_table hE S h0 hs ht
  exact reachable_inv hg.reach

theorem during_inv {E : Config.Env} (hE : Spec.Config.Faithful E) (S : Config.Setup) {w0 : Config.World}
    (h0 : Spec.Config.Fresh E w0) {ops : List Config.Op} (hs : ∀ op ∈ ops, Spec.Config.Sane op) {t : Table}
    (h : During E S w0 ops t) : SvcTable.Inv t := by
  obtain ⟨pre, op, post, t0, rfl, h1, h2⟩ := h
  exact stages_inv (table_inv hE S h0 (fun o ho => hs o (by simp [ho])) h1)
    (sane_services (hs op (by simp))) h2

/-- An id seen at one moment still means the same at a later one. -/
theorem later_named {E : Config.Env} (hE : Spec.Config.Faithful E) (S : Config.Setup) {w0 : Config.World}
    (h0 : Spec.Config.Fresh E w0) {pre mid post : List Config.Op} {op op2 : Config.Op}
    (hst : Steady E S w0 (pre ++ op :: (mid ++ op2 :: post))) {t0 t t0' t' : Table}
    (h1 : Spec.Config.table (w0.run E S pre).1 = some t0) (h2 : Stages E.farm t0 (changesOf op) t)
    (h3 : Spec.Config.table (w0.run E S (pre ++ op :: mid)).1 = some t0')
    (h4 : Stages E.farm t0' (changesOf op2) t') {i : UInt16} {k : ServiceIdentifier} (hn : Named t i k) :
    Named t' i k := by
  have hpre : ∀ o ∈ pre, o ∈ pre ++ op :: (mid ++ op2 :: post) := fun o ho => by simp [ho]
  have hmid : ∀ o ∈ mid, o ∈ pre ++ op :: (mid ++ op2 :: post) := fun o ho => by simp [ho]
  have hop : op ∈ pre ++ op :: (mid ++ op2 :: post) := by simp
  have hall : ∀ o ∈ pre ++ op :: mid, o ∈ pre ++ op :: (mid ++ op2 :: post) := by
    intro o ho
    simp only [List.mem_append, List.mem_cons] at ho ⊢
    rcases ho with h | h | h
    · exact .inl h
    · exact .inr (.inl h)
    · exact .inr (.inr (.inl h))
  have hw := Config.winv_run hE S (Config.WInv.fresh h0) (fun o ho => hst.sane o (hpre o ho))
  have hy := sync_run hE S (Config.WInv.fresh h0) (by
    intro c hc; rw [h0.noProcess] at hc; cases hc) (fun o ho => hst.sane o (hpre o ho))
    (fun o ho => hst.saves o (hpre o ho))
  have hstep : (w0.run E S (pre ++ [op])).1 = ((w0.run E S pre).1.step E S op).1 := by
    rw [Config.run_append]; rfl
  have hh := holds_after hE S hw hy (hst.sane op hop) (hst.saves op hop) (hst.noReset op hop) (by
      intro l now o he
      subst he
      rw [← hstep]
      refine hst.fit pre l now o _ rfl ?_
      unfold Spec.Config.table at h1
      intro hd
      rw [hd] at h1
      cases h1) h1 h2 hn
  have hh2 := holds_run hE S (Config.winv_step hE S hw (hst.sane op hop)) hh
    (fun o ho => hst.sane o (hmid o ho)) (fun o ho => hst.saves o (hmid o ho))
    (fun o ho => hst.noReset o (hmid o ho)) (fun o ho => hst.readable o (hmid o ho))
  have hrun : (w0.run E S (pre ++ op :: mid)).1 = (((w0.run E S pre).1.step E S op).1.run E S mid).1 := by
    rw [Config.run_append]; rfl
  rw [← hrun] at hh2
  have I0 := table_inv hE S h0 (fun o ho => hst.sane o (hall o ho)) h3
  unfold Spec.Config.table at h3
  obtain ⟨c, hc, h3⟩ := Option.bind_eq_some_iff.mp h3
  obtain ⟨t1, e1, e2⟩ := hh2.mem c hc
  rw [h3] at e1
  injection e1 with e1
  subst e1
  exact stages_named I0 (sane_services (hst.sane op2 (by simp))) h4 e2

/-- Any two moments agree about ids. -/
theorem during_agree {E : Config.Env} (hE : Spec.Config.Faithful E) (S : Config.Setup) {w0 : Config.World}
    (h0 : Spec.Config.Fresh E w0) {ops : List Config.Op} (hst : Steady E S w0 ops) {t t' : Table}
    (h : During E S w0 ops t) (h' : During E S w0 ops t') {i j : UInt16} {k k' : ServiceIdentifier}
    (hn : Named t i k) (hn' : Named t' j k') : i = j ↔ k = k' := by
  have I := during_inv hE S h0 hst.sane h
  have I' := during_inv hE S h0 hst.sane h'
  have key : ∀ (u : Table), SvcTable.Inv u → Named u i k → Named u j k' → (i = j ↔ k = k') := by
    intro u Iu a b
    constructor
    · rintro rfl; exact a.unique b
    · rintro rfl
      have h1 := a.id Iu
      rw [b.id Iu] at h1
      injection h1 with h1
      exact h1.symm
  obtain ⟨pre, op, post, t0, e1, e2, e3⟩ := h
  obtain ⟨pre', op', post', t0', f1, f2, f3⟩ := h'
  have heq := e1.symm.trans f1
  rcases List.append_eq_append_iff.mp heq with ⟨mid, g1, g2⟩ | ⟨mid, g1, g2⟩
  · cases mid with
    | nil =>
      rw [List.append_nil] at g1
      simp only [List.nil_append, List.cons.injEq] at g2
      obtain ⟨rfl, -⟩ := g2
      subst g1
      rw [e2] at f2
      injection f2 with f2
      subst f2
      exact stages_agree (table_inv hE S h0 (fun o ho => hst.sane o (by rw [e1]; simp [ho])) e2)
        (sane_services (hst.sane op (by rw [e1]; simp))) e3 f3 hn hn'
    | cons x mid =>
      simp only [List.cons_append, List.cons.injEq] at g2
      obtain ⟨rfl, rfl⟩ := g2
      subst g1
      refine key t' I' (later_named hE S h0 (mid := mid) (op2 := op') (post := post') (e1 ▸ hst) e2 e3 f2 f3 hn) hn'
  · cases mid with
    | nil =>
      rw [List.append_nil] at g1
      simp only [List.nil_append, List.cons.injEq] at g2
      obtain ⟨rfl, -⟩ := g2
      subst g1
      rw [f2] at e2
      injection e2 with e2
      subst e2
      exact stages_agree (table_inv hE S h0 (fun o ho => hst.sane o (by rw [e1]; simp [ho])) f2)
        (sane_services (hst.sane op' (by rw [e1]; simp))) e3 f3 hn hn'
    | cons x mid =>
      simp only [List.cons_append, List.cons.injEq] at g2
      obtain ⟨rfl, rfl⟩ := g2
      subst g1
      refine key t I hn (later_named hE S h0 (mid := mid) (op2 := op) (post := post) (f1 ▸ hst) f2 f3 e2 e3 hn')

end Verif.Naming
