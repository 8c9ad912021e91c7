import Verif.Lemmas.ScanFilter
/-!
# Properties of scan results (C56, C57)
-/
namespace Verif.Scan
open Verif Control Spec.Scan

/-- Every way to build a scan result with the public operations. -/
inductive Built where
  | new
  | addHost (b : Built) (mac : MacAddr) (ip : IpAddr) (flags : UInt8)
  | addPort (b : Built) (mac : MacAddr) (ip : IpAddr) (port : UInt16)
  | addService (b : Built) (s : Service)
  | merge (b o : Built)

/-- The result that is built. -/
def Built.result : Built → ScanResult
  | .new => .new
  | .addHost b m i f => b.result.addHost m i f
  | .addPort b m i p => b.result.addPort m i p
  | .addService b s => b.result.addService s
  | .merge b o => b.result.merge o.result

/-- The facts that were reported, in the order of the calls. -/
def Built.facts : Built → List Fact
  | .new => []
  | .addHost b m i f => b.facts ++ [.host m i f]
  | .addPort b m i p => b.facts ++ [.port m i p]
  | .addService b s => b.facts ++ [.service s]
  | .merge b o => b.facts ++ o.facts

theorem Built.ok (b : Built) : Ok b.facts b.result := by
  induction b with
  | new => exact ok_new
  | addHost b m i f ih => exact ok_addHost ih m i f
  | addPort b m i p ih => exact ok_addPort ih m i p
  | addService b s ih => exact ok_addService ih s
  | merge b o ihb iho => exact ok_merge ihb iho

/-! ## C57 -/

/-- C57: however a scan result is built, it holds one record for every host something was reported about, and no
other; the flags of the record are the union of the flags reported, the ports are the ports reported, each once. -/
theorem C57_hosts (b : Built) :
    (b.result.hostRecords.map (fun h => (h.mac, h.ip))).Nodup
    ∧ (∀ mac ip, (∃ h ∈ b.result.hostRecords, h.mac = mac ∧ h.ip = ip) ↔ Seen b.facts mac ip)
    ∧ ∀ h ∈ b.result.hostRecords,
        (∀ i, h.flags.toNat.testBit i = true ↔ FlagBit b.facts h.mac h.ip i)
        ∧ h.ports.Nodup
        ∧ ∀ p, p ∈ h.ports ↔ PortOpen b.facts h.mac h.ip p := by
  have ok := b.ok
  refine ⟨ok.hostRecords_nodup, ?_, ?_⟩
  · intro mac ip
    rw [← ok.seen (mac, ip), Option.isSome_iff_exists]
    constructor
    · rintro ⟨h, hm, rfl, rfl⟩
      exact ⟨h, (ok.mem_hostRecords h).1 hm⟩
    · rintro ⟨h, hg⟩
      have hk := ok.host _ h hg
      refine ⟨h, (ok.mem_hostRecords h).2 ?_, hk.mac, hk.ip⟩
      rw [hk.mac, hk.ip]
      exact hg
  · intro h hm
    have hk := ok.host _ h ((ok.mem_hostRecords h).1 hm)
    exact ⟨hk.flags, hk.nodup, hk.ports⟩

/-- C57: the services are those reported, one for each identifier; of two with the same identifier the one reported
later is kept. -/
theorem C57_services (b : Built) :
    (b.result.serviceList.map (·.toIdentifier)).Nodup
    ∧ (∀ s, s ∈ b.result.serviceList ↔ LastService b.facts s)
    ∧ ∀ s, Fact.service s ∈ b.facts → ∃ s' ∈ b.result.serviceList, s'.toIdentifier = s.toIdentifier := by
  have ok := b.ok
  refine ⟨ok.services_nodup, ok.mem_services, ?_⟩
  suffices h : ∀ (fs : List Fact) (s : Service), Fact.service s ∈ fs →
      ∃ s', LastService fs s' ∧ s'.toIdentifier = s.toIdentifier by
    intro s hs
    obtain ⟨s', h1, h2⟩ := h b.facts s hs
    exact ⟨s', (ok.mem_services s').2 h1, h2⟩
  intro fs s hs
  obtain ⟨a, c, rfl⟩ := List.append_of_mem hs
  by_cases hb : ∃ s', LastService c s' ∧ s'.toIdentifier = s.toIdentifier
  · obtain ⟨s', ⟨x, y, he, hy⟩, hi⟩ := hb
    exact ⟨s', ⟨a ++ Fact.service s :: x, y, by rw [he]; simp, hy⟩, hi⟩
  · refine ⟨s, ?_, rfl⟩
    have : a ++ Fact.service s :: c = (a ++ [Fact.service s]) ++ c := by simp
    rw [this, lastService_append]
    refine Or.inr ⟨⟨a, [], rfl, fun s' h => absurd h List.not_mem_nil⟩, fun s' h1 h2 => hb ⟨s', h1, h2⟩⟩

/-- C57: the addresses to be examined are the open ports of all hosts, each once. -/
theorem C57_socket_addrs (b : Built) :
    b.result.socketAddrs.Nodup
    ∧ ∀ mac a, (mac, a) ∈ b.result.socketAddrs ↔ PortOpen b.facts mac a.ip a.port :=
  ⟨b.ok.socketAddrs_nodup, b.ok.mem_socketAddrs⟩

/-- Two results say the same about all hosts. -/
def SameHosts (r r' : ScanResult) : Prop :=
  ∀ mac ip, ((∃ h ∈ r.hostRecords, h.mac = mac ∧ h.ip = ip) ↔ ∃ h ∈ r'.hostRecords, h.mac = mac ∧ h.ip = ip)
    ∧ ∀ h ∈ r.hostRecords, ∀ h' ∈ r'.hostRecords, h.mac = mac ∧ h.ip = ip → h'.mac = mac ∧ h'.ip = ip →
        h.flags = h'.flags ∧ ∀ p, p ∈ h.ports ↔ p ∈ h'.ports

/-- C57: what a result says about hosts depends only on the set of the facts: not on their order, not on repetitions,
not on how they were spread over merged results. -/
theorem C57_order_and_repetition (b b' : Built)
    (h : ∀ f, (∀ s, f ≠ Fact.service s) → (f ∈ b.facts ↔ f ∈ b'.facts)) : SameHosts b.result b'.result := by
  intro mac ip
  obtain ⟨_, s1, f1⟩ := C57_hosts b
  obtain ⟨_, s2, f2⟩ := C57_hosts b'
  have hh : ∀ m i fl, Fact.host m i fl ∈ b.facts ↔ Fact.host m i fl ∈ b'.facts := fun m i fl => h _ nofun
  have hp : ∀ m i p, Fact.port m i p ∈ b.facts ↔ Fact.port m i p ∈ b'.facts := fun m i p => h _ nofun
  refine ⟨?_, ?_⟩
  · rw [s1, s2]
    simp only [Seen, hh, hp]
  · rintro x hx x' hx' ⟨rfl, rfl⟩ ⟨e1, e2⟩
    obtain ⟨g1, _, p1⟩ := f1 x hx
    obtain ⟨g2, _, p2⟩ := f2 x' hx'
    constructor
    · apply UInt8.toNat_inj.1
      apply Nat.eq_of_testBit_eq
      intro i
      rw [Bool.eq_iff_iff, g1, g2, e1, e2]
      simp only [FlagBit, hh]
    · intro p
      rw [p1, p2, e1, e2]
      exact hp _ _ _

/-- C57: merging is the union: commutative, associative and idempotent in what it says about hosts. -/
theorem C57_merge (a b c : Built) :
    SameHosts (a.merge b).result (b.merge a).result
    ∧ SameHosts ((a.merge b).merge c).result (a.merge (b.merge c)).result
    ∧ SameHosts (a.merge a).result a.result := by
  refine ⟨C57_order_and_repetition _ _ ?_, C57_order_and_repetition _ _ ?_, C57_order_and_repetition _ _ ?_⟩
  · intro f _; simp only [Built.facts, List.mem_append]; exact or_comm
  · intro f _; simp only [Built.facts, List.mem_append]; exact or_assoc
  · intro f _; simp only [Built.facts, List.mem_append]; exact or_self_iff

/-- C57: no service is lost by merging: every service of one of them is in the result, unless the second has one with
the same identifier, which replaces it. -/
theorem C57_merge_services (a b : Built) (s : Service) :
    s ∈ (a.merge b).result.serviceList ↔
      s ∈ b.result.serviceList
        ∨ (s ∈ a.result.serviceList ∧ ∀ s' ∈ b.result.serviceList, s'.toIdentifier ≠ s.toIdentifier) := by
  rw [(C57_services (a.merge b)).2.1, (C57_services a).2.1, (C57_services b).2.1]
  have := (C57_services b).2.1
  show LastService (a.facts ++ b.facts) s ↔ _
  rw [lastService_append]
  simp only [this]

/-! Merging is not commutative for services: the identifier does not contain the IP address, so the same device seen
with two addresses has one service, and which address it has depends on the order. -/

def mac1 : MacAddr := ⟨2, 0, 0, 0, 0, 1⟩
def svcA : Service := .tcp mac1 ⟨.v4 10 0 0 1, 554⟩
def svcB : Service := .tcp mac1 ⟨.v4 192 168 0 1, 554⟩

/-- C57: the order of merging matters for services. -/
theorem C57_services_order_matters :
    ∃ a b : Built, (∃ s ∈ (a.merge b).result.serviceList, s ∉ (b.merge a).result.serviceList) :=
  ⟨.addService .new svcA, .addService .new svcB, svcB, by decide, by decide⟩

/-- A report that is built from two networks. -/
def example1 : Built :=
  .merge
    (.addPort (.addHost (.addHost .new mac1 (.v4 10 0 0 1) 1) mac1 (.v4 10 0 0 1) 2) mac1 (.v4 10 0 0 1) 554)
    (.addService (.addPort (.addPort (.addHost .new mac1 (.v4 10 0 0 1) 1) mac1 (.v4 10 0 0 1) 80)
      mac1 (.v4 10 0 0 1) 554) svcA)

example : example1.result.hostRecords = [⟨3, mac1, .v4 10 0 0 1, [554, 80]⟩] := by decide
example : Seen example1.facts mac1 (.v4 10 0 0 1) := Or.inl ⟨1, by decide +kernel⟩
example : LastService example1.facts svcA := ⟨example1.facts.take 6, [], by decide +kernel, fun _ h => absurd h List.not_mem_nil⟩

/-! ## C56 -/

/-- C56: of the services of one IP address exactly one is kept: the one with the most preferred port, and of these the
first one. Nothing else is in the result. -/
theorem C56_filter (l : List (MacAddr × SocketAddr)) (ports : List UInt16) (hp : ports.Nodup) :
    ((filterDuplicit l (getPortPriorities ports)).map (·.2.ip)).Nodup
    ∧ (∀ x ∈ l, ∃ y ∈ filterDuplicit l (getPortPriorities ports), y.2.ip = x.2.ip)
    ∧ ∀ y ∈ filterDuplicit l (getPortPriorities ports), ∃ a b, l = a ++ y :: b
        ∧ (∀ x ∈ a, x.2.ip = y.2.ip → Preferred ports y.2.port x.2.port)
        ∧ (∀ x ∈ b, x.2.ip = y.2.ip → ¬ Preferred ports x.2.port y.2.port) := by
  have ok := filterOk (getPortPriorities ports) l
  unfold filterDuplicit
  refine ⟨?_, ?_, ?_⟩
  · rw [List.map_map]
    exact ok.keys
  · intro x hx
    obtain ⟨v, hv⟩ := Option.isSome_iff_exists.1 (ok.every x hx)
    exact ⟨_, List.mem_map.2 ⟨(x.2.ip, v), AMap.get_mem hv, rfl⟩, rfl⟩
  · intro y hy
    obtain ⟨⟨ip, v⟩, he, rfl⟩ := List.mem_map.1 hy
    obtain ⟨a, b, h, ha, hb⟩ := ok.best ip v (AMap.get_of_mem ok.keys he)
    refine ⟨a, b, h, fun x hx hxi => ?_, fun x hx hxi => ?_⟩
    · exact (prioOf_lt_iff ports hp _ _).1 (ha x hx hxi)
    · rw [← prioOf_lt_iff ports hp]
      exact Nat.not_lt.2 (hb x hx hxi)

/-- C56: hosts with one service keep it. -/
theorem C56_single (l : List (MacAddr × SocketAddr)) (ports : List UInt16) (hp : ports.Nodup)
    (y : MacAddr × SocketAddr) (hy : y ∈ l) (h1 : ∀ x ∈ l, x.2.ip = y.2.ip → x = y) :
    y ∈ filterDuplicit l (getPortPriorities ports) := by
  obtain ⟨_, h2, h3⟩ := C56_filter l ports hp
  obtain ⟨z, hz, hi⟩ := h2 y hy
  obtain ⟨a, b, he, _⟩ := h3 z hz
  have : z ∈ l := by rw [he]; simp
  rw [← h1 z this hi]
  exact hz

/-- C56: the filter goes by the IP address alone: of two devices that share an address one is dropped, even if its MAC
address is different. -/
theorem C56_two_devices_one_address :
    ∃ (l : List (MacAddr × SocketAddr)) (x y : MacAddr × SocketAddr), x ∈ l ∧ y ∈ l ∧ x.1 ≠ y.1
      ∧ ∀ ports : List UInt16, ports.Nodup → ∀ z ∈ filterDuplicit l (getPortPriorities ports), z.1 = x.1 := by
  refine ⟨[(mac1, ⟨.v4 10 0 0 1, 554⟩), (⟨2, 0, 0, 0, 0, 2⟩, ⟨.v4 10 0 0 1, 554⟩)], _, _,
    List.mem_cons_self, List.mem_cons_of_mem _ List.mem_cons_self, by decide, ?_⟩
  intro ports hp z hz
  obtain ⟨_, _, h3⟩ := C56_filter _ ports hp
  obtain ⟨a, b, he, ha, _⟩ := h3 z hz
  cases a with
  | nil =>
    simp only [List.nil_append, List.cons.injEq] at he
    rw [← he.1]
  | cons w a =>
    simp only [List.cons_append, List.cons.injEq] at he
    have h554 : z.2 = ⟨.v4 10 0 0 1, 554⟩ := by
      cases a with
      | nil =>
        simp only [List.nil_append, List.cons.injEq] at he
        rw [← he.2.1]
      | cons v a => simp at he
    have := ha w (by simp) (by rw [← he.1, h554])
    rw [← he.1, h554] at this
    obtain ⟨p, q, _, _, hne⟩ := this
    exact absurd rfl hne

example : filterDuplicit [(mac1, ⟨.v4 10 0 0 1, 80⟩), (mac1, ⟨.v4 10 0 0 1, 554⟩), (mac1, ⟨.v4 10 0 0 2, 80⟩)]
    (getPortPriorities [554, 80]) = [(mac1, ⟨.v4 10 0 0 1, 554⟩), (mac1, ⟨.v4 10 0 0 2, 80⟩)] := by decide +kernel
example : ([554, 80] : List UInt16).Nodup := by decide
example : Preferred [554, 80] 554 80 := ⟨[], [80], rfl, by decide, by decide⟩

end Verif.Scan
