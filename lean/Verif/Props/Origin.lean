import Verif.Lemmas.Origin
import Verif.Props.Naming
/-!
# Where the client connects to: C120
-/
namespace Verif.Props.Origin
open Verif Verif.Control Verif.SvcTable Verif.Client Verif.Spec.Client Verif.Spec.Naming Verif.Spec.Origin Verif.Naming
open Verif.Origin
open Verif.Props.Client (hist)
open Verif.Props.Naming (demoEnv demoSetup demoCfg demoOps demoTable demoWorld firstRun secondRun demoLife demoLife_eq
  envOf reads_envOf demo_table demo_during demo_inv demo_steady envs_demoOps)

/-- C120, connections. Whatever the server sends (`ops`, on any connection of any run of the client, with
whichever states of the service tables it meets): every connection the client opens for the server goes to
the address of a service that somebody else gave the client: whoever started or configured it, the files it
was installed with, or a scan. The service is of the type and at the device the session is for. -/
theorem C120_connects_only_to_given (E : Config.Env) (hE : Spec.Config.Faithful E) (S : Config.Setup)
    (w0 : Config.World) (h0 : Spec.Config.Fresh E w0) (hh : w0.heap = []) (wops : List Config.Op)
    (hs : ∀ op ∈ wops, Spec.Config.Sane op) (cfg : Cfg) (env : Env) (ops : List COp)
    (hr : ∀ e ∈ env :: envs ops, ReadsIn (Ever E S w0 wops) e) (x : NEv) (hx : x ∈ (hist cfg env ops).2)
    (i : UInt16) (ty : ServiceType) (mac : MacAddr) (a : SocketAddr) (ho : Opens x i ty mac a) :
    ∃ s, Given E w0 wops s ∧ s.svcType = ty ∧ s.mac.getD .zero = mac ∧ s.address = some a := by
  obtain ⟨e, s, he, ht, h1, h2, h3⟩ := (src_hist cfg env ops x hx).2 i ty mac a ho
  obtain ⟨t, hT, hg⟩ := (hr e he).table i
  rw [ht] at hg
  rcases only_get (ever_given hE S h0 hh hs hT).1 hg.symm with rfl | hG
  · cases h3
  · exact ⟨s, hG, h1, h2, h3⟩

/-- C120, announcements. Everything the client lists for the server, except for the control service, has the
identity (type, device, port and path) of a service somebody gave the client. -/
theorem C120_tells_only_given (E : Config.Env) (hE : Spec.Config.Faithful E) (S : Config.Setup)
    (w0 : Config.World) (h0 : Spec.Config.Fresh E w0) (hh : w0.heap = []) (wops : List Config.Op)
    (hs : ∀ op ∈ wops, Spec.Config.Sane op) (cfg : Cfg) (env : Env) (ops : List COp)
    (hr : ∀ e ∈ env :: envs ops, ReadsIn (Ever E S w0 wops) e) (x : NEv) (hx : x ∈ (hist cfg env ops).2)
    (i : UInt16) (s : Service) (ht : Tells x i s) :
    s.toIdentifier = Service.control.toIdentifier ∨
    ∃ s', Given E w0 wops s' ∧ s'.toIdentifier = s.toIdentifier := by
  obtain ⟨t, hT, hn⟩ := tells_named (fun t ht => (ever_given hE S h0 hh hs ht).2) hr (src_hist cfg env ops x hx) ht
  obtain ⟨e, he, hk⟩ := hn.elem
  rcases (ever_given hE S h0 hh hs hT).1 i e.service (by rw [Spec.SvcTable.known, he]; rfl) with h | h
  · exact .inl (by rw [← hk, h])
  · exact .inr ⟨_, h, hk⟩

/-- Non-vacuity: the server asks for a service that was found by a scan in the first run of the client, and
was read from the configuration file after a restart; the client connects to it. -/
example :
    let u := demoTable secondRun
    (∀ op ∈ demoLife, Spec.Config.Sane op) ∧ Props.Config.emptyWorld.heap = [] ∧
    (∀ e ∈ envOf u 0 :: envs (demoOps u 1), ReadsIn (Ever demoEnv demoSetup Props.Config.emptyWorld demoLife) e) ∧
    (∃ x ∈ (hist demoCfg (envOf u 0) (demoOps u 1)).2, Tells x 1 SvcTable.svcA) ∧
    (∃ y ∈ (hist demoCfg (envOf u 0) (demoOps u 1)).2,
      Opens y 1 .http (SvcTable.demoMac 1) SvcTable.demoAddr) ∧
    Given demoEnv Props.Config.emptyWorld demoLife SvcTable.svcA ∧
    SvcTable.svcA.address = some SvcTable.demoAddr := by
  refine ⟨demo_steady.sane, rfl, ?_, ⟨.ev (.queued 0 (register demoCfg (envOf (demoTable secondRun) 0))), ?_, ?_⟩,
    ⟨.ev (.mgr (.opened 7 1 .http (SvcTable.demoMac 1) SvcTable.demoAddr)), ?_, ⟨7, rfl⟩⟩, ?_, rfl⟩
  · intro e he
    obtain ⟨n, rfl⟩ := envs_demoOps he
    refine reads_envOf ?_ (demo_inv secondRun .stop [] demoLife_eq demo_steady.sane (by decide +kernel)) n
    have ht := demo_table (ops := secondRun) (by decide +kernel)
    unfold Spec.Config.table demoWorld at ht
    obtain ⟨c, hc, ht⟩ := Option.bind_eq_some_iff.mp ht
    exact ⟨c.cell, secondRun, .stop, [], c, _, demoLife_eq, hc, ht, .inl rfl⟩
  · decide +kernel
  · have key : ∀ t : Table, ∃ uuid key mac w f info, (register demoCfg (envOf t 0)).body =
        .register uuid key mac w f info (SimpleTable.ofServices t.visible) := fun t => ⟨_, _, _, _, _, _, rfl⟩
    exact ⟨0, _, SimpleTable.ofServices (demoTable secondRun).visible, rfl, by decide +kernel, .inl (key _)⟩
  · decide +kernel
  · exact .inl ⟨.update [(0, SvcTable.svcA)] 5 .ok, by simp [demoLife, firstRun], 0, by simp⟩

end Verif.Props.Origin
