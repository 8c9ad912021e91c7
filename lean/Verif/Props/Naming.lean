import Verif.Lemmas.Naming
/-!
# What a service id means to the server: C104
-/
namespace Verif.Props.Naming
open Verif Verif.Control Verif.SvcTable Verif.Client Verif.Spec.Client Verif.Spec.Naming Verif.Naming
open Verif.Props.Client (hist)

/-! ### One connection -/

/-- C104, for one connection. The client is started and used in whatever way (`pre`), then the connection
is made; it has the service table the client has at that time. Whatever happens to the client during the
connection (scans add and update services, services expire, the table is reset, saving fails), and whenever
the connection looks at the table, even in the middle of an update: if the server is told that a service has
the id `i`, then every connection the client opens for the id `i`, before or after, goes to a service of the
same type, device and port; and two services the server is told about have the same id exactly if they
are the same (type, device, port and path). -/
theorem C104_one_connection (E : Config.Env) (hE : Spec.Config.Faithful E) (S : Config.Setup)
    (w0 : Config.World) (h0 : Spec.Config.Fresh E w0) (pre wops : List Config.Op)
    (hs : ∀ op ∈ pre ++ wops, Spec.Config.Sane op) (hn : ∀ op ∈ wops, NoStart op) (c : Config.Cfg)
    (hc : (w0.run E S pre).1.proc = some c) (cfg : Cfg) (env : Env) (ops : List COp)
    (hr : ∀ e ∈ env :: envs ops, ReadsIn (DuringOf E S (w0.run E S pre).1 wops c.cell) e)
    (x y : NEv) (hx : x ∈ (hist cfg env ops).2) (hy : y ∈ (hist cfg env ops).2) :
    (∀ i s ty mac a, Tells x i s → Opens y i ty mac a → Fits s ty mac a) ∧
    (∀ i j s s', Tells x i s → Tells y j s' → (i = j ↔ s.toIdentifier = s'.toIdentifier)) := by
  have hw := Config.winv_run hE S (Config.WInv.fresh h0) (fun o ho => hs o (List.mem_append_left _ ho))
  obtain ⟨⟨t, ht, hg⟩, -⟩ := hw.proc c hc
  obtain ⟨tops, k1, -, k2⟩ := during_stages wops hc ht (fun o ho => hs o (List.mem_append_right _ ho)) hn
  have I := reachable_inv hg.reach
  have hr' : ∀ e, e ∈ env :: envs ops → ReadsIn (Stages E.farm t tops) e := by
    intro e he
    obtain ⟨r1, ⟨u, r2, r3⟩, r4⟩ := hr e he
    refine ⟨?_, ⟨u, k2 u r2, r3⟩, ?_⟩
    · intro i; obtain ⟨u, h1, h2⟩ := r1 i; exact ⟨u, k2 u h1, h2⟩
    · intro k; obtain ⟨u, h1, h2⟩ := r4 k; exact ⟨u, k2 u h1, h2⟩
  have hT : ∀ u, Stages E.farm t tops u → SvcTable.Inv u := fun u hu => stages_inv I k1 hu
  have sx := src_hist cfg env ops x hx
  have sy := src_hist cfg env ops y hy
  constructor
  · intro i s ty mac a h1 h2
    obtain ⟨u, hu, hnu⟩ := tells_named hT hr' sx h1
    obtain ⟨v, s', hv, hnv, hf⟩ := opens_named hr' sy h2
    exact fits_of_identifier ((stages_agree I k1 hu hv hnu hnv).mp rfl) hf
  · intro i j s s' h1 h2
    obtain ⟨u, hu, hnu⟩ := tells_named hT hr' sx h1
    obtain ⟨v, hv, hnv⟩ := tells_named hT hr' sy h2
    exact stages_agree I k1 hu hv hnu hnv

/-! ### The life of a device -/

/-- C104, for the whole life of a device: as long as saving works, the configuration file can be read at
every start, the services are not reset and the table does not get full, an id means the same service on all
connections of all runs of the client. -/
theorem C104_whole_life (E : Config.Env) (hE : Spec.Config.Faithful E) (S : Config.Setup)
    (w0 : Config.World) (h0 : Spec.Config.Fresh E w0) (wops : List Config.Op) (hst : Steady E S w0 wops)
    (cfg cfg' : Cfg) (env env' : Env) (ops ops' : List COp)
    (hr : ∀ e ∈ env :: envs ops, ReadsIn (During E S w0 wops) e)
    (hr' : ∀ e ∈ env' :: envs ops', ReadsIn (During E S w0 wops) e)
    (x y : NEv) (hx : x ∈ (hist cfg env ops).2) (hy : y ∈ (hist cfg' env' ops').2) :
    (∀ i s ty mac a, Tells x i s → Opens y i ty mac a → Fits s ty mac a) ∧
    (∀ i j s s', Tells x i s → Tells y j s' → (i = j ↔ s.toIdentifier = s'.toIdentifier)) := by
  have hT : ∀ u, During E S w0 wops u → SvcTable.Inv u := fun u hu => during_inv hE S h0 hst.sane hu
  have sx := src_hist cfg env ops x hx
  have sy := src_hist cfg' env' ops' y hy
  constructor
  · intro i s ty mac a h1 h2
    obtain ⟨u, hu, hnu⟩ := tells_named hT hr sx h1
    obtain ⟨v, s', hv, hnv, hf⟩ := opens_named hr' sy h2
    exact fits_of_identifier ((during_agree hE S h0 hst hu hv hnu hnv).mp rfl) hf
  · intro i j s s' h1 h2
    obtain ⟨u, hu, hnu⟩ := tells_named hT hr sx h1
    obtain ⟨v, hv, hnv⟩ := tells_named hT hr' sy h2
    exact during_agree hE S h0 hst hu hv hnu hnv

/-! ### A concrete device, for the examples -/

/-- What is read from a table at one moment. -/
def envOf (t : Table) (now : Nat) : Env :=
  { now := now, table := t.get, version := t.visVersion, visible := t.visible, versionAfter := t.visVersion
    scanning := false, hosts := [], services := [], getId := fun k => (t.getId k).join }

theorem reads_envOf {T : Table → Prop} {t : Table} (ht : T t) (I : SvcTable.Inv t) (now : Nat) :
    ReadsIn T (envOf t now) := by
  refine ⟨fun _ => ⟨t, ht, rfl⟩, ⟨t, ht, rfl⟩, fun k => ⟨t, ht, ?_⟩⟩
  show _ = some (t.getId k).join
  cases h : t.getId k with
  | none => exact absurd h (getId_ne_none I k)
  | some o => rfl

def demoCfg : Cfg := { Client.demoCfg with gateway := true }

/-- A connection on which the server accepts the client and asks for the service with the id `i`. -/
def demoOps (t : Table) (i : UInt16) : List COp :=
  [.poll .pending [], .poll (.msg (envOf t 1) (Client.demoAck 0))
    [.msg (envOf t 2) (Client.demoMsg 5 13 (be16 i ++ be32 7))]]

/-- There is no skeleton file. -/
def demoSetup : Config.Setup := ⟨false, true⟩

/-- The first run of the client: it has a configured service and finds another one. -/
def firstRun : List Config.Op := [.start (Props.Config.demoStart .ok), .update [(0, SvcTable.svcA)] 5 .ok]

/-- What the configuration file holds then. -/
noncomputable def savedJson : Json :=
  match (Props.Config.emptyWorld.run Props.Config.demoEnv demoSetup firstRun).1 with
  | ⟨_, heap, some c⟩ => Config.PConfig.toJson Props.Config.demoEnv ⟨c.uuid, c.passwd, c.version, heap.getD c.cell (Table.new 0)⟩
  | _ => .null

/-- `Props.Config.demoEnv`, with a parser that can be evaluated for this file. -/
noncomputable def demoEnv : Config.Env :=
  { Props.Config.demoEnv with
    parse := fun b => if b = JsonCode.enc savedJson then some savedJson else JsonCode.dec b }

theorem demo_parse (b : Bytes) : demoEnv.parse b = JsonCode.dec b := by
  show (if b = JsonCode.enc savedJson then some savedJson else JsonCode.dec b) = _
  split
  · rename_i h; rw [h, JsonCode.dec_enc]
  · rfl

theorem demo_faithful : Spec.Config.Faithful demoEnv where
  addr := Props.Config.demo_faithful.addr
  uuid := Props.Config.demo_faithful.uuid
  json := fun j => (demo_parse _).trans (JsonCode.dec_enc j)
  cut := fun l n h => (demo_parse _).trans (JsonCode.dec_cut (.obj l) n h)

theorem demo_fresh : Spec.Config.Fresh demoEnv Props.Config.emptyWorld := ⟨rfl, nofun, nofun⟩

/-- The client is restarted. -/
def secondRun : List Config.Op := firstRun ++ [.stop, .start (Props.Config.demoStart .ok)]

def demoLife : List Config.Op := firstRun ++ [.stop, .start (Props.Config.demoStart .ok), .stop]

theorem demoLife_eq : demoLife = secondRun ++ [.stop] := by simp [demoLife, secondRun]

noncomputable def demoWorld (ops : List Config.Op) : Config.World :=
  (Props.Config.emptyWorld.run demoEnv demoSetup ops).1

/-- The service table of the client after these operations. -/
noncomputable def demoTable (ops : List Config.Op) : Table :=
  (Spec.Config.table (demoWorld ops)).getD (Table.new 0)

theorem demo_table {ops : List Config.Op} (h : (Spec.Config.table (demoWorld ops)).isSome = true) :
    Spec.Config.table (demoWorld ops) = some (demoTable ops) := by
  unfold demoTable
  cases hq : Spec.Config.table (demoWorld ops) with
  | none => rw [hq] at h; cases h
  | some t => rfl

theorem demo_during {ops : List Config.Op} (pre : List Config.Op) (op : Config.Op) (post : List Config.Op)
    (h : ops = pre ++ op :: post) (h1 : (Spec.Config.table (demoWorld pre)).isSome = true) :
    During demoEnv demoSetup Props.Config.emptyWorld ops (demoTable pre) :=
  ⟨pre, op, post, demoTable pre, h, demo_table h1, [], _, rfl, rfl⟩

theorem demo_constructible : Spec.Config.Sane (.start (Props.Config.demoStart .ok)) ∧
    Spec.Config.Sane (.update [(0, SvcTable.svcA)] 5 .ok) := by
  constructor
  · intro s h
    rw [List.mem_singleton.mp h]
    exact ⟨.rtsp .., fun h => absurd h.2 (by decide)⟩
  · refine ⟨by decide, ?_⟩
    intro s h
    rw [List.mem_singleton.mp h]
    exact ⟨.http .., fun h => absurd h.2 (by decide)⟩

theorem demo_inv {ops : List Config.Op} (pre : List Config.Op) (op : Config.Op) (post : List Config.Op)
    (h : ops = pre ++ op :: post) (hs : ∀ o ∈ ops, Spec.Config.Sane o)
    (h1 : (Spec.Config.table (demoWorld pre)).isSome = true) : SvcTable.Inv (demoTable pre) :=
  during_inv demo_faithful demoSetup demo_fresh hs (demo_during pre op post h h1)

theorem envs_demoOps {t : Table} {i : UInt16} {e : Env} (he : e ∈ envOf t 0 :: envs (demoOps t i)) :
    ∃ n, e = envOf t n := by
  have h : envOf t 0 :: envs (demoOps t i) = [envOf t 0, envOf t 1, envOf t 2] := rfl
  rw [h] at he
  rcases he with _ | ⟨_, _ | ⟨_, _ | ⟨_, h⟩⟩⟩
  · exact ⟨0, rfl⟩
  · exact ⟨1, rfl⟩
  · exact ⟨2, rfl⟩
  · cases h

theorem demo_reads {ops : List Config.Op} (pre : List Config.Op) (op : Config.Op) (post : List Config.Op)
    (h : ops = pre ++ op :: post) (hs : ∀ o ∈ ops, Spec.Config.Sane o)
    (h1 : (Spec.Config.table (demoWorld pre)).isSome = true) (i : UInt16) :
    ∀ e ∈ envOf (demoTable pre) 0 :: envs (demoOps (demoTable pre) i),
      ReadsIn (During demoEnv demoSetup Props.Config.emptyWorld ops) e := by
  intro e he
  obtain ⟨n, rfl⟩ := envs_demoOps he
  exact reads_envOf (demo_during pre op post h h1) (demo_inv pre op post h hs h1) n

theorem demo_steady : Steady demoEnv demoSetup Props.Config.emptyWorld demoLife where
  sane := by
    intro op ho
    rcases ho with _ | ⟨_, _ | ⟨_, _ | ⟨_, _ | ⟨_, _ | ⟨_, h⟩⟩⟩⟩⟩
    · exact demo_constructible.1
    · exact demo_constructible.2
    · trivial
    · exact demo_constructible.1
    · trivial
    · cases h
  saves := by
    intro op ho
    rcases ho with _ | ⟨_, _ | ⟨_, _ | ⟨_, _ | ⟨_, _ | ⟨_, h⟩⟩⟩⟩⟩ <;> first | rfl | trivial | cases h
  noReset := by
    intro op ho
    rcases ho with _ | ⟨_, _ | ⟨_, _ | ⟨_, _ | ⟨_, _ | ⟨_, h⟩⟩⟩⟩⟩ <;> first | trivial | cases h
  readable := by
    intro op ho
    rcases ho with _ | ⟨_, _ | ⟨_, _ | ⟨_, _ | ⟨_, _ | ⟨_, h⟩⟩⟩⟩⟩ <;> first | rfl | trivial | cases h
  fit := by
    intro pre services now o post h _
    have h' : pre = [.start (Props.Config.demoStart .ok)] ∧ services = [(0, SvcTable.svcA)] ∧ now = 5 ∧ o = .ok := by
      rcases pre with _ | ⟨a, _ | ⟨b, _ | ⟨c, _ | ⟨d, _ | ⟨e, p⟩⟩⟩⟩⟩ <;> simp [demoLife, firstRun] at h ⊢
      · exact ⟨h.1.symm, h.2.1.1.symm, h.2.1.2.1.symm, h.2.1.2.2.symm⟩
    obtain ⟨rfl, rfl, rfl, rfl⟩ := h'
    show (demoWorld firstRun).proc ≠ none
    have : (demoWorld firstRun).proc.isSome = true := by decide +kernel
    intro h
    rw [h] at this
    cases this

/-- Non-vacuity of C104, for one connection: a service is found after REGISTER; the server asks for its id, a
connection to it is opened, and then the server is told about it in an UPDATE. -/
example :
    let pre : List Config.Op := [.start (Props.Config.demoStart .ok)]
    let wops : List Config.Op := [.update [(0, SvcTable.svcA)] 5 .ok, .reset .ok]
    let t := demoTable pre
    let u := demoTable firstRun
    let ops := demoOps u 1 ++ [.tick (envOf u (10 * sec))]
    ∃ c, (demoWorld pre).proc = some c ∧
    (∀ op ∈ pre ++ wops, Spec.Config.Sane op) ∧ (∀ op ∈ wops, NoStart op) ∧
    (∀ e ∈ envOf t 0 :: envs ops, ReadsIn (DuringOf demoEnv demoSetup (demoWorld pre) wops c.cell) e) ∧
    (∃ x ∈ (hist demoCfg (envOf t 0) ops).2, Tells x 1 SvcTable.svcA) ∧
    (∃ y ∈ (hist demoCfg (envOf t 0) ops).2, Opens y 1 .http (SvcTable.demoMac 1) SvcTable.demoAddr) := by
  intro pre wops t u ops
  have hp : (demoWorld pre).proc.map (·.cell) = some 0 := by decide +kernel
  have hp' : (demoWorld firstRun).proc.map (·.cell) = some 0 := by decide +kernel
  obtain ⟨c, hc, hcc⟩ := Option.map_eq_some_iff.mp hp
  obtain ⟨c', hc', hcc'⟩ := Option.map_eq_some_iff.mp hp'
  have hs : ∀ op ∈ pre ++ wops, Spec.Config.Sane op := by
    intro op ho
    rcases ho with _ | ⟨_, _ | ⟨_, _ | ⟨_, h⟩⟩⟩
    · exact demo_constructible.1
    · exact demo_constructible.2
    · trivial
    · cases h
  have hcell : ∀ {l : List Config.Op} {c : Config.Cfg}, (demoWorld l).proc = some c →
      (demoWorld l).heap[c.cell]? = Spec.Config.table (demoWorld l) := by
    intro l c h; unfold Spec.Config.table; rw [h]; rfl
  have ht : (demoWorld pre).heap[c.cell]? = some t := (hcell hc).trans (demo_table (by decide +kernel))
  have hu : (demoWorld firstRun).heap[c.cell]? = some u := by
    rw [hcc, ← hcc', hcell hc']; exact demo_table (by decide +kernel)
  have d1 : DuringOf demoEnv demoSetup (demoWorld pre) wops c.cell t :=
    ⟨[], _, _, c, t, rfl, hc, ht, .inl rfl⟩
  have d2 : DuringOf demoEnv demoSetup (demoWorld pre) wops c.cell u :=
    ⟨[.update [(0, SvcTable.svcA)] 5 .ok], _, _, c', u, rfl, hc', hu, .inl rfl⟩
  have i1 : SvcTable.Inv t := demo_inv (ops := pre ++ wops) pre (.update [(0, SvcTable.svcA)] 5 .ok) [.reset .ok] rfl hs (by decide +kernel)
  have i2 : SvcTable.Inv u := demo_inv (ops := pre ++ wops) firstRun (.reset .ok) [] rfl hs (by decide +kernel)
  refine ⟨c, hc, hs, ?_, ?_, ⟨.ev (.queued (10 * sec) (mkUpdate 1
      (SimpleTable.ofServices u.visible))), ?_, ?_⟩,
    ⟨.ev (.mgr (.opened 7 1 .http (SvcTable.demoMac 1) SvcTable.demoAddr)), ?_, ⟨7, rfl⟩⟩⟩
  · intro op ho
    rcases (show op ∈ [.update [(0, SvcTable.svcA)] 5 .ok, .reset .ok] from ho) with _ | ⟨_, _ | ⟨_, h⟩⟩ <;>
      first | trivial | cases h
  · intro e he
    have h : envOf t 0 :: envs ops = [envOf t 0, envOf u 1, envOf u 2, envOf u (10 * sec)] := rfl
    rw [h] at he
    rcases he with _ | ⟨_, _ | ⟨_, _ | ⟨_, _ | ⟨_, h⟩⟩⟩⟩
    · exact reads_envOf d1 i1 _
    · exact reads_envOf d2 i2 _
    · exact reads_envOf d2 i2 _
    · exact reads_envOf d2 i2 _
    · cases h
  · decide +kernel
  · exact ⟨_, _, _, rfl, by decide +kernel, .inr (.inl rfl)⟩
  · decide +kernel

/-- Non-vacuity of C104, for the life of a device: the device has told the server that the service found in
its first run has the id 1; after a restart, the server asks for this service, and a connection to
it is opened. -/
example :
    let t := demoTable firstRun
    let u := demoTable secondRun
    Steady demoEnv demoSetup Props.Config.emptyWorld demoLife ∧
    (∀ e ∈ envOf t 0 :: envs (demoOps t 0xffff), ReadsIn (During demoEnv demoSetup Props.Config.emptyWorld demoLife) e) ∧
    (∀ e ∈ envOf u 0 :: envs (demoOps u 1), ReadsIn (During demoEnv demoSetup Props.Config.emptyWorld demoLife) e) ∧
    (∃ x ∈ (hist demoCfg (envOf t 0) (demoOps t 0xffff)).2, Tells x 1 SvcTable.svcA) ∧
    (∃ y ∈ (hist demoCfg (envOf u 0) (demoOps u 1)).2,
      Opens y 1 .http (SvcTable.demoMac 1) SvcTable.demoAddr) := by
  refine ⟨demo_steady, ?_, ?_, ⟨.ev (.queued 0 (register demoCfg (envOf (demoTable firstRun) 0))), ?_, ?_⟩, 
    ⟨.ev (.mgr (.opened 7 1 .http (SvcTable.demoMac 1) SvcTable.demoAddr)), ?_, ⟨7, rfl⟩⟩⟩
  · exact demo_reads firstRun .stop _ rfl demo_steady.sane (by decide +kernel) _
  · exact demo_reads secondRun .stop [] demoLife_eq demo_steady.sane
      (by decide +kernel) _
  · decide +kernel
  · exact ⟨0, _, _, rfl, by decide +kernel, .inl ⟨_, _, _, _, _, _, rfl⟩⟩
  · decide +kernel

/-! ### What is not true -/

/-- The client finds a service, is told to forget its services, and finds another one. -/
def resetLife : List Config.Op :=
  [.start { Props.Config.demoStart .ok with services := [] }, .update [(0, SvcTable.svcA)] 5 .ok, .reset .ok,
    .update [(0, SvcTable.svcB)] 5 .ok, .stop]

theorem reset_sane : ∀ op ∈ resetLife, Spec.Config.Sane op := by
  intro op ho
  rcases ho with _ | ⟨_, _ | ⟨_, _ | ⟨_, _ | ⟨_, _ | ⟨_, h⟩⟩⟩⟩⟩
  · nofun
  · exact demo_constructible.2
  · trivial
  · refine ⟨by decide, ?_⟩
    intro s h
    rw [List.mem_singleton.mp h]
    exact ⟨.rtsp .., fun h => absurd h.2 (by decide)⟩
  · trivial
  · cases h

/-- C104 is false across a reset, also if nothing else goes wrong: the ids are given again. The server was
told on one connection that the id 0xffff is an HTTP service on one device; on a later connection of the same
process, this id leads to an RTSP service on another device. -/
theorem C104_false_after_reset :
    ∃ (E : Config.Env) (S : Config.Setup) (w0 : Config.World) (wops : List Config.Op) (cfg : Cfg)
      (env env' : Env) (ops ops' : List COp) (x y : NEv) (s : Service) (ty : ServiceType) (mac : MacAddr)
      (a : SocketAddr),
      Spec.Config.Faithful E ∧ Spec.Config.Fresh E w0 ∧ (∀ op ∈ wops, Spec.Config.Sane op) ∧
      (∀ op ∈ wops, Spec.Config.SavesWork op) ∧ (∀ op ∈ wops, ConfigReadable op) ∧
      (∀ e ∈ env :: envs ops, ReadsIn (During E S w0 wops) e) ∧
      (∀ e ∈ env' :: envs ops', ReadsIn (During E S w0 wops) e) ∧
      x ∈ (hist cfg env ops).2 ∧ y ∈ (hist cfg env' ops').2 ∧
      Tells x 0xffff s ∧ Opens y 0xffff ty mac a ∧ s.svcType ≠ ty ∧ s.mac ≠ some mac := by
  refine ⟨demoEnv, demoSetup, Props.Config.emptyWorld, resetLife, demoCfg,
    envOf (demoTable (resetLife.take 2)) 0, envOf (demoTable (resetLife.take 4)) 0,
    demoOps (demoTable (resetLife.take 2)) 0xffff, demoOps (demoTable (resetLife.take 4)) 0xffff,
    .ev (.queued 0 (register demoCfg (envOf (demoTable (resetLife.take 2)) 0))),
    .ev (.mgr (.opened 7 0xffff .rtsp (SvcTable.demoMac 2) SvcTable.demoAddr)), SvcTable.svcA,
    .rtsp, SvcTable.demoMac 2, SvcTable.demoAddr, demo_faithful, demo_fresh, reset_sane, ?_, ?_, ?_, ?_, ?_, ?_, ?_,
    ⟨7, rfl⟩, by decide, by decide⟩
  · intro op ho
    rcases ho with _ | ⟨_, _ | ⟨_, _ | ⟨_, _ | ⟨_, _ | ⟨_, h⟩⟩⟩⟩⟩ <;> first | rfl | trivial | cases h
  · intro op ho
    rcases ho with _ | ⟨_, _ | ⟨_, _ | ⟨_, _ | ⟨_, _ | ⟨_, h⟩⟩⟩⟩⟩ <;> first | rfl | trivial | cases h
  · exact demo_reads (resetLife.take 2) (.reset .ok) _ rfl reset_sane (by decide +kernel) _
  · exact demo_reads (resetLife.take 4) .stop [] rfl reset_sane (by decide +kernel) _
  · decide +kernel
  · decide +kernel
  · exact ⟨0, _, _, rfl, by decide +kernel, .inl ⟨_, _, _, _, _, _, rfl⟩⟩

end Verif.Props.Naming
