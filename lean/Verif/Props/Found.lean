import Verif.Lemmas.Found
import Verif.Props.Naming
/-!
# From the scan to the server: C121
-/
namespace Verif.Props.Found
open Verif Verif.Control Verif.SvcTable Verif.Client Verif.Spec.Client Verif.Spec.Naming Verif.Spec.Found Verif.Naming
open Verif.Found
open Verif.Props.Client (hist hist_append announced_live announced_append announced_new)

/-! ### From the scan to the table -/

/-- C121, the scan. A client that was used in whatever way is told about the services found by a scan. If it
survives this, every service of the scan (the last one of each identity), seen at most 1200 s ago, is visible
afterwards, in the form in which it was found. -/
theorem C121_found_is_visible (E : Config.Env) (hE : Spec.Config.Faithful E) (S : Config.Setup)
    (w0 : Config.World) (h0 : Spec.Config.Fresh E w0) (pre : List Config.Op) (l : List (Int64 × Service))
    (now : Int64) (o : Config.Out) (hs : ∀ op ∈ pre ++ [.update l now o], Spec.Config.Sane op) (t : Table)
    (ht : Spec.Config.table (w0.run E S (pre ++ [.update l now o])).1 = some t) (seen : Int64) (s : Service)
    (hl : Latest l seen s) (hc : s.isControl = false) (hclock : seen.toInt + 1200 < 9223372036854775808)
    (ha : now.toInt ≤ seen.toInt + 1200) :
    ∃ i, (i, s) ∈ t.visible := by
  have hw := Config.winv_run hE S (Config.WInv.fresh h0) (fun o ho => hs o (List.mem_append_left _ ho))
  rw [Config.run_append] at ht
  generalize hw1 : (w0.run E S pre).1 = w at hw ht
  simp only [Config.World.run, Config.World.step] at ht
  cases hp : w.proc with
  | none => rw [hp] at ht; simp only [Spec.Config.table, hp] at ht; cases ht
  | some c =>
    rw [hp] at ht
    dsimp only at ht
    obtain ⟨⟨u, hu, hg⟩, -⟩ := hw.proc c hp
    have I := reachable_inv hg.reach
    have hserv := sane_services (hs (.update l now o) (by simp))
    rcases Config.update_cases E w c l now o hu with ⟨-, h⟩ | ⟨t', hr, h⟩
    · rw [h] at ht; cases ht
    · have : t = t' := by
        rcases h with ⟨-, -, h⟩ | ⟨-, h⟩
        · rw [h] at ht
          simp only [Spec.Config.table, hp, Option.bind_some, Config.heap_set hu] at ht
          injection ht with ht
          exact ht.symm
        · rw [h] at ht
          unfold Spec.Config.table at ht
          obtain ⟨c', h1, h2⟩ := Option.bind_eq_some_iff.mp ht
          have := Config.save_proc h1
          subst this
          rw [Config.save_heap] at h2
          simp only [Config.heap_set hu] at h2
          injection h2 with h2
          exact h2.symm
      subst this
      exact found_visible I hserv hr hl hc hclock ha

/-! ### From the table to the server -/

/-- C121, the announcement. The client is started and used in whatever way (`pre`), then the connection is
made, and things happen to the client during the connection (`wops`). If the table does not change between
the two reads made for one message (`Together`), then whenever the client checks the table (at least every 5 s,
C33), the services the server has been told about last are exactly the services that are visible then. -/
theorem C121_announced (E : Config.Env) (hE : Spec.Config.Faithful E) (S : Config.Setup)
    (w0 : Config.World) (h0 : Spec.Config.Fresh E w0) (pre wops : List Config.Op)
    (hs : ∀ op ∈ pre ++ wops, Spec.Config.Sane op) (hn : ∀ op ∈ wops, NoStart op)
    (hcost : Spec.SvcTable.costs (wops.flatMap changesOf) < 4294967296) (c : Config.Cfg)
    (hc : (w0.run E S pre).1.proc = some c) (cfg : Cfg) (env : Env) (ops : List COp)
    (hr : ∀ x ∈ env :: envs ops, ∃ u, DuringOf E S (w0.run E S pre).1 wops c.cell u ∧ Together u x)
    (e : Env) (t : Table) (ht : DuringOf E S (w0.run E S pre).1 wops c.cell t)
    (he : e.visible = t.visible ∧ e.version = t.visVersion) (cli : Cli)
    (hm : Monotone env.now (ops ++ [.tick e])) (hl : (hist cfg env ops).1 = .live cli)
    (hh : hsRun (register cfg env) (hist cfg env ops).2 = .established)
    (hlate : 5000000000 ≤ e.now - lastCheck env.now (hist cfg env ops).2) (i : UInt16) (s : Service) :
    Listed (hist cfg env (ops ++ [.tick e])).2 i s ↔ (i, s) ∈ t.visible := by
  have hw := Config.winv_run hE S (Config.WInv.fresh h0) (fun o ho => hs o (List.mem_append_left _ ho))
  obtain ⟨⟨t0, ht0, hg⟩, -⟩ := hw.proc c hc
  obtain ⟨tops, k1, kc, k2⟩ := during_stages wops hc ht0 (fun o ho => hs o (List.mem_append_right _ ho)) hn
  have I := reachable_inv hg.reach
  have hcost' : Spec.SvcTable.costs tops < 4294967296 := by omega
  have hlist : ∀ u, Stages E.farm t0 tops u → ∀ i s,
      (⟨i, s⟩ : SvcElement) ∈ (SimpleTable.ofServices u.visible).elems ↔ (i, s) ∈ u.visible :=
    fun u hu => mem_ofServices (consistent_of_inv (stages_inv I k1 hu)).unique
  -- what the server knew before
  obtain ⟨l, ⟨u, hu, huv, rfl⟩, ha⟩ := announced_live
    (fun v l => ∃ u, Stages E.farm t0 tops u ∧ u.visVersion = v ∧ l = u.visible) cfg env ops cli
    (fun x hx => by
      obtain ⟨u, h1, h2, h3⟩ := hr x hx
      exact ⟨u, k2 u h1, h3.symm, h2⟩) hl
  obtain ⟨id, id', h1⟩ := Client.C33_schedule cfg env ops e cli hm hl hh
  rw [h1, if_pos hlate]
  unfold Listed
  by_cases hv : cli.lastVer ≠ e.version
  · rw [if_pos hv]
    generalize (hist cfg env ops).2 ++ _ = es
    rw [List.append_cons, announced_new _ _ (SimpleTable.ofServices e.visible) rfl, he.1, ← hlist t (k2 t ht) i s]
    constructor
    · rintro ⟨x, h2, h3⟩
      injection h2 with h2
      rw [h2]; exact h3
    · exact fun h => ⟨_, rfl, h⟩
  · rw [if_neg hv, announced_append _ _ (by simp [tableOf]), announced_append, ha]
    · have hv' : cli.lastVer = e.version := by
        apply Classical.byContradiction; exact hv
      have hsame := stages_version I k1 hcost' hu (k2 t ht) (by rw [huv, hv', he.2])
      rw [← hsame (i, s), ← hlist u hu i s]
      constructor
      · rintro ⟨x, h2, h3⟩
        injection h2 with h2
        rw [h2]; exact h3
      · exact fun h => ⟨_, rfl, h⟩
    · intro x hx
      split at hx
      · simp only [List.mem_singleton] at hx; subst hx; rfl
      · cases hx

/-! ### From the server to the service -/

theorem connect_decoded {m : Wire.Message} {i : UInt16} {sid : UInt32} (h : Connect m i sid) :
    m.header.service = 0 ∧ ∃ id, ControlMessage.fromBytes m.payload = .ok ⟨id, 0xd, .connect i sid⟩ := by
  obtain ⟨h1, h2, h3, h4, h5⟩ := h
  refine ⟨h1, ?_⟩
  generalize m.payload = bs at h2 h3 h4 h5
  obtain ⟨i0, i1, t0, t1, rest, rfl⟩ := Control.four_of_length (bs := bs) (by omega)
  obtain ⟨a, b, c, d, e, f, rfl⟩ := Control.six_of_length (bs := rest) (by simpa using h2)
  have g3 : rd16 t0 t1 = 0xd := Control.ofCode_of_toNat (n := 13) (by decide)
    (by simpa [Spec.field, Spec.slice, natBE_two] using h3)
  have g4 : rd16 a b = i := UInt16.toNat_inj.mp (by simpa [Spec.field, Spec.slice, natBE_two] using h4)
  have g5 : rd32 c d e f = sid := UInt32.toNat_inj.mp (by simpa [Spec.field, Spec.slice, natBE_four] using h5)
  refine ⟨rd16 i0 i1, ?_⟩
  simp only [ControlMessage.fromBytes, g3]
  rw [← g4, ← g5]
  rfl

/-- C121, the use. Whatever happens to the client and on the connection: if the server was told that a service
has the id `i`, and asks for a session with `i` under a session id that is not in use, while the service (type,
device, port and path) is visible, then the client connects to the address the service has then, provided the
gateway mode or the address allow it. -/
theorem C121_told_can_be_used (E : Config.Env) (hE : Spec.Config.Faithful E) (S : Config.Setup)
    (w0 : Config.World) (h0 : Spec.Config.Fresh E w0) (pre wops : List Config.Op)
    (hs : ∀ op ∈ pre ++ wops, Spec.Config.Sane op) (hn : ∀ op ∈ wops, NoStart op) (c : Config.Cfg)
    (hc : (w0.run E S pre).1.proc = some c) (cfg : Cfg) (env : Env) (ops : List COp)
    (hr : ∀ e ∈ env :: envs ops, ReadsIn (DuringOf E S (w0.run E S pre).1 wops c.cell) e)
    (x : NEv) (hx : x ∈ (hist cfg env ops).2) (i : UInt16) (s : Service) (hi : Tells x i s)
    (cli : Cli) (hl : (hist cfg env ops).1 = .live cli)
    (hh : hsRun (register cfg env) (hist cfg env ops).2 = .established)
    (m : Wire.Message) (sid : UInt32) (hm : Connect m i sid) (hf : Free (hist cfg env ops).2 sid)
    (e : Env) (t : Table) (ht : DuringOf E S (w0.run E S pre).1 wops c.cell t) (he : e.table i = t.get i)
    (j : UInt16) (s' : Service) (hv : (j, s') ∈ t.visible) (hid : s'.toIdentifier = s.toIdentifier)
    (a : SocketAddr) (ha : s'.address = some a)
    (hgw : cfg.gateway = true ∨ Spec.SessionManager.Loopback a.ip) (ins : List Incoming) :
    .ev (.mgr (.opened sid i s'.svcType (s'.mac.getD .zero) a)) ∈
      (hist cfg env (ops ++ [.poll (.msg e m) ins])).2 := by
  have hw := Config.winv_run hE S (Config.WInv.fresh h0) (fun o ho => hs o (List.mem_append_left _ ho))
  obtain ⟨⟨t0, ht0, hg⟩, -⟩ := hw.proc c hc
  obtain ⟨tops, k1, -, k2⟩ := during_stages wops hc ht0 (fun o ho => hs o (List.mem_append_right _ ho)) hn
  have I := reachable_inv hg.reach
  have It := stages_inv I k1 (k2 t ht)
  have hr' : ∀ e, e ∈ env :: envs ops → ReadsIn (Stages E.farm t0 tops) e := by
    intro e he
    obtain ⟨r1, ⟨u, r2, r3⟩, r4⟩ := hr e he
    refine ⟨?_, ⟨u, k2 u r2, r3⟩, ?_⟩
    · intro i; obtain ⟨u, h1, h2⟩ := r1 i; exact ⟨u, k2 u h1, h2⟩
    · intro k; obtain ⟨u, h1, h2⟩ := r4 k; exact ⟨u, k2 u h1, h2⟩
  obtain ⟨u, hu, hnu⟩ := tells_named (fun u hu => stages_inv I k1 hu) hr' (src_hist cfg env ops x hx) hi
  have hij : i = j := (stages_agree I k1 hu (k2 t ht) hnu (Named.visible It hv)).mpr hid.symm
  subst hij
  have hget := (((consistent_of_inv It).listed i s').mp hv).1
  rw [← he] at hget
  -- the client
  have hest := (Client.live_established cfg env ops cli hl).mpr hh
  obtain ⟨hopen, mops, hm1, hm2⟩ : cli.isClosed = false ∧ ∃ mops,
      cli.mgr = (SessionManager.hist cfg.gateway 65536 0 mops).1 ∧
      mgrEvents (hist cfg env ops).2 = (SessionManager.hist cfg.gateway 65536 0 mops).2.1 := by
    rcases Client.hist_inv' (Client.emb_steps cfg.gateway) cfg env ops (Client.emb_start cfg env) with
      ⟨c', t, ⟨mops, h3, h4⟩, h5⟩ | ⟨x, h3, _⟩
    · rw [hl] at h5
      obtain ⟨rfl, h5⟩ := h5
      exact ⟨h5, mops, h3, h4⟩
    · rw [hl] at h3; cases h3
  have hfree : cli.mgr.sessions.get sid = none := by
    unfold Free at hf
    rw [hm2, SessionManager.C25_lives, ← hm1] at hf
    injection hf with hf
    simpa using hf
  have hgate : cli.mgr.gateway = cfg.gateway := by rw [hm1]; exact (Session.run_const _ mops).1
  obtain ⟨g1, id, hcm⟩ := connect_decoded hm
  have hrecv : ∃ c', ({ cli with idle := false } : Cli).recv e m =
      (.ok, c', [.got m .ok, .mgr (.opened sid i s'.svcType (s'.mac.getD .zero) a)]) := by
    have hop := (SessionManager.C21_connect_granted cli.mgr e.table i sid s' a
      ⟨hfree, hget, ha, by rw [hgate]; exact hgw⟩).1
    have hd : ({ cli with idle := false } : Cli).handle e m =
        (.ok, (({ cli with idle := false } : Cli).onMgr (.connect e.table i sid)).1,
          (({ cli with idle := false } : Cli).onMgr (.connect e.table i sid)).2) := by
      have ht : MsgType.ofCode 0xd = .connect := rfl
      have hest' : ({ cli with idle := false } : Cli).established = true := hest
      generalize ({ cli with idle := false } : Cli) = cc at hest' ⊢
      simp only [Cli.handle, g1, if_true, hcm, Cli.processControl, ht, Cli.whenEstablished, hest']
    have hev : (({ cli with idle := false } : Cli).onMgr (.connect e.table i sid)).2 =
        [.mgr (.opened sid i s'.svcType (s'.mac.getD .zero) a)] := by
      show (cli.mgr.step (.connect e.table i sid)).2.1.map CEv.mgr = _
      rw [hop]; rfl
    unfold Cli.recv
    rw [if_neg (by rw [show ({ cli with idle := false } : Cli).isClosed = false from hopen]; decide), hd, hev]
    exact ⟨_, rfl⟩
  obtain ⟨c', hrecv⟩ := hrecv
  rw [hist_append, hl]
  refine List.mem_append_right _ ?_
  simp only [Conn.run, Conn.step, Cli.step, Cli.poll, hrecv, List.append_nil]
  split <;> simp

/-! ### A concrete device -/

open Verif.Props.Naming (demoEnv demoSetup demoCfg demoTable demoWorld firstRun envOf reads_envOf demo_table demo_inv
  demo_constructible demo_faithful demo_fresh)

/-- The client is started; a scan finds a service. -/
def started : List Config.Op := [.start (Props.Config.demoStart .ok)]

def found : List Config.Op := [.update [(0, SvcTable.svcA)] 5 .ok, .reset .ok]

/-- The server accepts the client before the scan is finished. -/
noncomputable def accepted : List COp :=
  [.poll .pending [], .poll (.msg (envOf (demoTable started) 1) (Client.demoAck 0)) []]

/-- The client looks at its services after the scan. -/
noncomputable def checked : List COp := accepted ++ [.tick (envOf (demoTable firstRun) (10 * sec))]

noncomputable def history (ops : List COp) : Conn × List NEv := hist demoCfg (envOf (demoTable started) 0) ops

theorem demo_sane : ∀ op ∈ started ++ found, Spec.Config.Sane op := by
  intro op ho
  rcases ho with _ | ⟨_, _ | ⟨_, _ | ⟨_, h⟩⟩⟩
  · exact demo_constructible.1
  · exact demo_constructible.2
  · trivial
  · cases h

theorem demo_live {ops : List COp} (h : (match (history ops).1 with | .live _ => true | _ => false) = true) :
    ∃ cli, (history ops).1 = .live cli := by
  split at h
  · exact ⟨_, by assumption⟩
  · cases h

/-- Non-vacuity of C121: the way of a service from the scan to the server, and back. -/
example :
    let t := demoTable started
    let u := demoTable firstRun
    -- the scan
    Spec.Config.table (demoWorld (started ++ [.update [(0, SvcTable.svcA)] 5 .ok])) = some u ∧
    Latest [(0, SvcTable.svcA)] 0 SvcTable.svcA ∧ (1, SvcTable.svcA) ∈ u.visible ∧ (1, SvcTable.svcA) ∉ t.visible ∧
    ∃ c, (demoWorld started).proc = some c ∧
    -- what the connection reads
    DuringOf demoEnv demoSetup (demoWorld started) found c.cell t ∧
    DuringOf demoEnv demoSetup (demoWorld started) found c.cell u ∧
    Spec.SvcTable.costs (found.flatMap changesOf) < 4294967296 ∧
    (∀ x ∈ envOf t 0 :: envs checked,
      ∃ y, DuringOf demoEnv demoSetup (demoWorld started) found c.cell y ∧
      Together y x ∧ ReadsIn (DuringOf demoEnv demoSetup (demoWorld started) found c.cell) x) ∧
    -- the announcement
    (∃ cli, (history accepted).1 = .live cli) ∧ Monotone 0 checked ∧
    hsRun (register demoCfg (envOf t 0)) (history accepted).2 = .established ∧
    5000000000 ≤ 10 * sec - lastCheck 0 (history accepted).2 ∧
    -- the use
    (∃ x ∈ (history checked).2, Tells x 1 SvcTable.svcA) ∧ (∃ cli, (history checked).1 = .live cli) ∧
    hsRun (register demoCfg (envOf t 0)) (history checked).2 = .established ∧
    Connect (Client.demoMsg 5 13 (be16 1 ++ be32 9)) 1 9 ∧ Free (history checked).2 9 := by
  intro t u
  have hp : (demoWorld started).proc.map (·.cell) = some 0 := by decide +kernel
  have hp' : (demoWorld firstRun).proc.map (·.cell) = some 0 := by decide +kernel
  obtain ⟨c, hc, hcc⟩ := Option.map_eq_some_iff.mp hp
  obtain ⟨c', hc', hcc'⟩ := Option.map_eq_some_iff.mp hp'
  have hcell : ∀ {l : List Config.Op} {c : Config.Cfg}, (demoWorld l).proc = some c →
      (demoWorld l).heap[c.cell]? = Spec.Config.table (demoWorld l) := by
    intro l c h; unfold Spec.Config.table; rw [h]; rfl
  have ht : (demoWorld started).heap[c.cell]? = some t := (hcell hc).trans (demo_table (by decide +kernel))
  have hu : (demoWorld firstRun).heap[c.cell]? = some u := by
    rw [hcc, ← hcc', hcell hc']; exact demo_table (by decide +kernel)
  have d1 : DuringOf demoEnv demoSetup (demoWorld started) found c.cell t :=
    ⟨[], _, _, c, t, rfl, hc, ht, .inl rfl⟩
  have d2 : DuringOf demoEnv demoSetup (demoWorld started) found c.cell u :=
    ⟨[.update [(0, SvcTable.svcA)] 5 .ok], _, _, c', u, rfl, hc', hu, .inl rfl⟩
  have i1 : SvcTable.Inv t := demo_inv (ops := started ++ found) started (.update [(0, SvcTable.svcA)] 5 .ok)
    [.reset .ok] rfl demo_sane (by decide +kernel)
  have i2 : SvcTable.Inv u := demo_inv (ops := started ++ found) firstRun (.reset .ok) [] rfl demo_sane
    (by decide +kernel)
  refine ⟨demo_table (by decide +kernel), ⟨[], [], rfl, nofun⟩, by decide +kernel, by decide +kernel, c, hc, d1, d2,
    by decide +kernel, ?_, demo_live (by decide +kernel), ?_, by decide +kernel, by decide +kernel,
    ⟨.ev (.queued (10 * sec) (mkUpdate 1 (SimpleTable.ofServices u.visible))), by decide +kernel, ?_⟩,
    demo_live (by decide +kernel), by decide +kernel, by unfold Connect; decide +kernel,
    by unfold Free; decide +kernel⟩
  · intro x hx
    have h : envOf t 0 :: envs checked = [envOf t 0, envOf t 1, envOf u (10 * sec)] := rfl
    rw [h] at hx
    rcases hx with _ | ⟨_, _ | ⟨_, _ | ⟨_, h⟩⟩⟩
    · exact ⟨t, d1, ⟨rfl, rfl⟩, reads_envOf d1 i1 _⟩
    · exact ⟨t, d1, ⟨rfl, rfl⟩, reads_envOf d1 i1 _⟩
    · exact ⟨u, d2, ⟨rfl, rfl⟩, reads_envOf d2 i2 _⟩
    · cases h
  · show ([0, 1, 10 * sec] : List Nat).Pairwise (· ≤ ·)
    decide
  · exact ⟨_, _, _, rfl, by decide +kernel, .inr (.inl rfl)⟩

end Verif.Props.Found
