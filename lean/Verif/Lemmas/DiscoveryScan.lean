import Verif.Lemmas.DiscoveryStream
/-! # The open ports and the whole scan -/
namespace Verif.Discovery
open Verif Spec.Discovery Spec.Http Spec.Sdp Scan Spec.Scan

/-! ## Open ports -/

theorem ok_foldl {α : Type} (f : ScanResult → α → ScanResult) (g : α → Fact)
    (hf : ∀ fs r x, Scan.Ok fs r → Scan.Ok (fs ++ [g x]) (f r x)) (l : List α) :
    ∀ fs r, Scan.Ok fs r → Scan.Ok (fs ++ l.map g) (l.foldl f r) := by
  induction l with
  | nil => intro fs r h; rw [List.map_nil, List.append_nil]; exact h
  | cons x l ih =>
    intro fs r h
    have := ih _ _ (hf fs r x h)
    rw [List.append_assoc] at this
    exact this

/-- What the scanners of a device report. -/
def runFacts (r : Run) : List Fact :=
  r.arp.map (fun x => Fact.host x.1 x.2.toIp 1) ++ r.icmp.map (fun x => Fact.host x.1 x.2.toIp 2)
    ++ r.open_.map (fun x => Fact.port x.1 x.2.1.toIp x.2.2)

/-- What the scanners of all devices report. -/
def factsOf (runs : List (Option Run)) : List Fact :=
  runs.flatMap (fun r => match r with | none => [] | some r => runFacts r)

theorem mem_portSet (l : List UInt16) : (portSet l).Nodup ∧ ∀ p, p ∈ portSet l ↔ p ∈ l := by
  have : ∀ (l s : List UInt16), s.Nodup → (l.foldl (fun s p => if p ∈ s then s else s ++ [p]) s).Nodup ∧
      ∀ p, p ∈ l.foldl (fun s p => if p ∈ s then s else s ++ [p]) s ↔ p ∈ s ∨ p ∈ l := by
    intro l
    induction l with
    | nil => intro s hs; exact ⟨hs, fun p => by simp⟩
    | cons x l ih =>
      intro s hs
      rw [List.foldl_cons]
      by_cases hx : x ∈ s
      · rw [if_pos hx]
        refine ⟨(ih s hs).1, fun p => ?_⟩
        rw [(ih s hs).2, List.mem_cons]
        constructor
        · rintro (h | h)
          · exact .inl h
          · exact .inr (.inr h)
        · rintro (h | rfl | h)
          · exact .inl h
          · exact .inl hx
          · exact .inr h
      · rw [if_neg hx]
        have hn : (s ++ [x]).Nodup := by
          rw [List.nodup_append]
          refine ⟨hs, by simp, ?_⟩
          intro a ha b hb hab
          rw [List.mem_singleton] at hb
          subst hb; subst hab
          exact hx ha
        refine ⟨(ih _ hn).1, fun p => ?_⟩
        rw [(ih _ hn).2, List.mem_append, List.mem_singleton, List.mem_cons, or_assoc]
  obtain ⟨h1, h2⟩ := this l [] List.nodup_nil
  exact ⟨h1, fun p => (h2 p).trans (by simp)⟩

theorem mem_ipv4Hosts (l : List (MacAddr × IpAddr)) (mac : MacAddr) (x : Ip4) :
    (mac, x) ∈ ipv4Hosts l ↔ (mac, x.toIp) ∈ l := by
  unfold ipv4Hosts
  rw [List.mem_filterMap]
  constructor
  · rintro ⟨⟨m, ip⟩, h1, h2⟩
    cases ip with
    | v4 a b c d =>
      simp only [Option.some.injEq, Prod.mk.injEq] at h2
      obtain ⟨rfl, rfl⟩ := h2
      exact h1
    | v6 _ _ _ _ _ _ _ _ => cases h2
  · intro h
    exact ⟨_, h, rfl⟩

theorem nodup_ipv4Hosts (l : List (MacAddr × IpAddr)) (h : l.Nodup) : (ipv4Hosts l).Nodup := by
  induction l with
  | nil => exact List.nodup_nil
  | cons x l ih =>
    obtain ⟨h1, h2⟩ := List.nodup_cons.1 h
    obtain ⟨m, ip⟩ := x
    cases ip with
    | v4 a b c d =>
      show ((m, (⟨a, b, c, d⟩ : Ip4)) :: ipv4Hosts l).Nodup
      rw [List.nodup_cons, mem_ipv4Hosts]
      exact ⟨h1, ih h2⟩
    | v6 _ _ _ _ _ _ _ _ => exact ih h2

theorem Scan.Ok.mem_pairs {fs : List Fact} {r : ScanResult} (h : Scan.Ok fs r) (mac : MacAddr) (ip : IpAddr) :
    (mac, ip) ∈ r.hostRecords.map (fun h => (h.mac, h.ip)) ↔ Seen fs mac ip := by
  rw [List.mem_map, ← h.seen (mac, ip), Option.isSome_iff_exists]
  constructor
  · rintro ⟨x, hx, e⟩
    injection e with e1 e2
    subst e1; subst e2
    exact ⟨x, (h.mem_hostRecords x).1 hx⟩
  · rintro ⟨x, hg⟩
    have hk := h.host _ x hg
    refine ⟨x, (h.mem_hostRecords x).2 ?_, ?_⟩
    · rw [hk.mac, hk.ip]; exact hg
    · rw [hk.mac, hk.ip]

theorem toIp_inj {x y : Ip4} (h : x.toIp = y.toIp) : x = y := by
  cases x; cases y
  unfold Ip4.toIp at h
  injection h with h1 h2 h3 h4
  subst h1; subst h2; subst h3; subst h4
  rfl

theorem seen_hosts (arp icmp : List (MacAddr × Ip4)) (mac : MacAddr) (x : Ip4) :
    Seen (arp.map (fun x => Fact.host x.1 x.2.toIp 1) ++ icmp.map (fun x => Fact.host x.1 x.2.toIp 2)) mac x.toIp ↔
      (mac, x) ∈ arp ∨ (mac, x) ∈ icmp := by
  unfold Seen
  simp only [List.mem_append, List.mem_map]
  constructor
  · rintro (⟨fl, ⟨y, h, e⟩ | ⟨y, h, e⟩⟩ | ⟨p, ⟨y, h, e⟩ | ⟨y, h, e⟩⟩)
    · injection e with e1 e2
      have := toIp_inj e2
      subst e1; subst this
      exact .inl h
    · injection e with e1 e2
      have := toIp_inj e2
      subst e1; subst this
      exact .inr h
    · cases e
    · cases e
  · rintro (h | h)
    · exact .inl ⟨_, .inl ⟨_, h, rfl⟩⟩
    · exact .inl ⟨_, .inr ⟨_, h, rfl⟩⟩

theorem network_run (dev : Device) :
    (∃ r res, IsRun dev (some r) ∧ findOpenPortsInNetwork dev = some res ∧ Scan.Ok (runFacts r) res)
    ∨ (IsRun dev none ∧ findOpenPortsInNetwork dev = none) := by
  unfold findOpenPortsInNetwork
  cases ha : dev.arp with
  | none => exact .inr ⟨.arp ha, rfl⟩
  | some arp =>
    dsimp only
    cases hi : dev.icmp with
    | none => exact .inr ⟨.icmp hi, rfl⟩
    | some icmp =>
      dsimp only
      have h1 := ok_foldl (fun r (x : MacAddr × Ip4) => r.addHost x.1 x.2.toIp 1) (fun x => .host x.1 x.2.toIp 1)
        (fun fs r x h => ok_addHost h _ _ _) arp [] _ ok_new
      have h2 := ok_foldl (fun r (x : MacAddr × Ip4) => r.addHost x.1 x.2.toIp 2) (fun x => .host x.1 x.2.toIp 2)
        (fun fs r x h => ok_addHost h _ _ _) icmp _ _ h1
      rw [List.nil_append] at h2
      have ht : Targets arp icmp (ipv4Hosts ((icmp.foldl (fun r x => r.addHost x.1 x.2.toIp 2)
          (arp.foldl (fun r x => r.addHost x.1 x.2.toIp 1) ScanResult.new)).hostRecords.map (fun h => (h.mac, h.ip))))
          portCandidates := by
        refine ⟨nodup_ipv4Hosts _ h2.hostRecords_nodup, ?_, (mem_portSet _).1, ?_⟩
        · rintro ⟨mac, x⟩
          rw [mem_ipv4Hosts, Scan.Ok.mem_pairs h2, seen_hosts]
        · intro p
          unfold portCandidates
          rw [(mem_portSet _).2, List.mem_append]
          exact Iff.rfl
      unfold findOpenPortsOnHosts
      cases htcp : dev.tcp (ipv4Hosts ((icmp.foldl (fun r x => r.addHost x.1 x.2.toIp 2)
          (arp.foldl (fun r x => r.addHost x.1 x.2.toIp 1) ScanResult.new)).hostRecords.map (fun h => (h.mac, h.ip))))
          portCandidates with
      | none => exact .inr ⟨.tcp ha hi ht htcp, rfl⟩
      | some l =>
        refine .inl ⟨⟨arp, icmp, l⟩, _, .ok ha hi ht htcp, rfl, ?_⟩
        have := ok_foldl (fun r (x : MacAddr × SocketAddr) => r.addPort x.1 x.2.ip x.2.port)
          (fun x => .port x.1 x.2.ip x.2.port) (fun fs r x h => ok_addPort h _ _ _)
          (l.map (fun x => (x.1, (⟨x.2.1.toIp, x.2.2⟩ : SocketAddr)))) _ _ h2
        rw [List.map_map] at this
        exact this

theorem devices_run (whitelist : List Bytes) (devices : List Device) : ∀ fs r, Scan.Ok fs r →
    ∃ runs, Each IsRun (devices.filter (fun d => whitelist = [] ∨ d.name ∈ whitelist)) runs
      ∧ Scan.Ok (fs ++ factsOf runs) (devices.foldl (addDevice whitelist) r) := by
  induction devices with
  | nil => intro fs r h; exact ⟨[], .nil, by rw [factsOf, List.flatMap_nil, List.append_nil]; exact h⟩
  | cons d ds ih =>
    intro fs r h
    rw [List.foldl_cons]
    by_cases hw : whitelist = [] ∨ d.name ∈ whitelist
    · rw [List.filter_cons_of_pos (by simpa using hw)]
      unfold addDevice
      rw [if_pos hw]
      rcases network_run d with ⟨run, res, h1, h2, h3⟩ | ⟨h1, h2⟩
      · rw [h2]
        obtain ⟨runs, g1, g2⟩ := ih _ _ (ok_merge h h3)
        refine ⟨some run :: runs, .cons h1 g1, ?_⟩
        rw [List.append_assoc] at g2
        exact g2
      · rw [h2]
        obtain ⟨runs, g1, g2⟩ := ih _ _ h
        exact ⟨none :: runs, .cons h1 g1, g2⟩
    · rw [List.filter_cons_of_neg (by simpa using hw)]
      unfold addDevice
      rw [if_neg hw]
      exact ih _ _ h

theorem mem_factsOf {runs : List (Option Run)} {f : Fact} : f ∈ factsOf runs ↔ ∃ r, some r ∈ runs ∧ f ∈ runFacts r := by
  unfold factsOf
  rw [List.mem_flatMap]
  constructor
  · rintro ⟨o, h1, h2⟩
    cases o with
    | none => cases h2
    | some r => exact ⟨r, h1, h2⟩
  · rintro ⟨r, h1, h2⟩
    exact ⟨_, h1, h2⟩

theorem port_runFacts {r : Run} {mac : MacAddr} {ip : IpAddr} {p : UInt16} :
    Fact.port mac ip p ∈ runFacts r ↔ ∃ x, (mac, x, p) ∈ r.open_ ∧ x.toIp = ip := by
  unfold runFacts
  simp only [List.mem_append, List.mem_map]
  constructor
  · rintro ((⟨y, _, e⟩ | ⟨y, _, e⟩) | ⟨⟨m, x, q⟩, h, e⟩)
    · cases e
    · cases e
    · injection e with e1 e2 e3
      simp only at e1 e3
      subst e1; subst e3
      exact ⟨x, h, e2⟩
  · rintro ⟨x, h, rfl⟩
    exact .inr ⟨_, h, rfl⟩

theorem host_runFacts {r : Run} {mac : MacAddr} {ip : IpAddr} {fl : UInt8} :
    Fact.host mac ip fl ∈ runFacts r ↔
      (fl = 1 ∧ ∃ x, (mac, x) ∈ r.arp ∧ x.toIp = ip) ∨ (fl = 2 ∧ ∃ x, (mac, x) ∈ r.icmp ∧ x.toIp = ip) := by
  unfold runFacts
  simp only [List.mem_append, List.mem_map]
  constructor
  · rintro ((⟨⟨m, x⟩, h, e⟩ | ⟨⟨m, x⟩, h, e⟩) | ⟨y, _, e⟩)
    · injection e with e1 e2 e3
      simp only at e1 e3
      subst e1; subst e3
      exact .inl ⟨rfl, x, h, e2⟩
    · injection e with e1 e2 e3
      simp only at e1 e3
      subst e1; subst e3
      exact .inr ⟨rfl, x, h, e2⟩
    · cases e
  · rintro (⟨rfl, x, h, rfl⟩ | ⟨rfl, x, h, rfl⟩)
    · exact .inl (.inl ⟨_, h, rfl⟩)
    · exact .inl (.inr ⟨_, h, rfl⟩)

theorem open_iff {runs : List (Option Run)} {mac : MacAddr} {addr : SocketAddr} :
    PortOpen (factsOf runs) mac addr.ip addr.port ↔ Open runs mac addr := by
  unfold PortOpen Open
  rw [mem_factsOf]
  constructor
  · rintro ⟨r, h1, h2⟩
    obtain ⟨x, h3, h4⟩ := port_runFacts.1 h2
    exact ⟨r, h1, x, h3, h4⟩
  · rintro ⟨r, h1, x, h3, h4⟩
    exact ⟨r, h1, port_runFacts.2 ⟨x, h3, h4⟩⟩

theorem host_factsOf {runs : List (Option Run)} {mac : MacAddr} {ip : IpAddr} {fl : UInt8} :
    Fact.host mac ip fl ∈ factsOf runs ↔ (fl = 1 ∧ ByArp runs mac ip) ∨ (fl = 2 ∧ ByIcmp runs mac ip) := by
  rw [mem_factsOf]
  unfold ByArp ByIcmp
  constructor
  · rintro ⟨r, h1, h2⟩
    rcases host_runFacts.1 h2 with ⟨h, x, h3⟩ | ⟨h, x, h3⟩
    · exact .inl ⟨h, r, h1, x, h3⟩
    · exact .inr ⟨h, r, h1, x, h3⟩
  · rintro (⟨h, r, h1, x, h3⟩ | ⟨h, r, h1, x, h3⟩)
    · exact ⟨r, h1, host_runFacts.2 (.inl ⟨h, x, h3⟩)⟩
    · exact ⟨r, h1, host_runFacts.2 (.inr ⟨h, x, h3⟩)⟩

theorem flag_iff {runs : List (Option Run)} {mac : MacAddr} {ip : IpAddr} (i : Nat) :
    FlagBit (factsOf runs) mac ip i ↔ (i = 0 ∧ ByArp runs mac ip) ∨ (i = 1 ∧ ByIcmp runs mac ip) := by
  unfold FlagBit
  have h1 : ∀ i, (1 : UInt8).toNat.testBit i = true ↔ i = 0 := by
    intro i
    show (1 : Nat).testBit i = true ↔ i = 0
    rw [Nat.testBit_one_eq_true_iff_self_eq_zero]
  have h2 : ∀ i, (2 : UInt8).toNat.testBit i = true ↔ i = 1 := by
    intro i
    show (2 : Nat).testBit i = true ↔ i = 1
    have := Nat.testBit_two_pow (n := 1) (m := i)
    rw [show (2 : Nat) = 2 ^ 1 from rfl, this, decide_eq_true_iff]
    exact eq_comm
  constructor
  · rintro ⟨fl, h, ht⟩
    rcases host_factsOf.1 h with ⟨rfl, h'⟩ | ⟨rfl, h'⟩
    · exact .inl ⟨(h1 i).1 ht, h'⟩
    · exact .inr ⟨(h2 i).1 ht, h'⟩
  · rintro (⟨rfl, h⟩ | ⟨rfl, h⟩)
    · exact ⟨1, host_factsOf.2 (.inl ⟨rfl, h⟩), by decide⟩
    · exact ⟨2, host_factsOf.2 (.inr ⟨rfl, h⟩), by decide⟩

theorem seen_iff {runs : List (Option Run)} {mac : MacAddr} {ip : IpAddr} :
    Seen (factsOf runs) mac ip ↔ ByArp runs mac ip ∨ ByIcmp runs mac ip ∨ ∃ p, Open runs mac ⟨ip, p⟩ := by
  unfold Seen
  constructor
  · rintro (⟨fl, h⟩ | ⟨p, h⟩)
    · rcases host_factsOf.1 h with ⟨_, h⟩ | ⟨_, h⟩
      · exact .inl h
      · exact .inr (.inl h)
    · exact .inr (.inr ⟨p, open_iff.1 h⟩)
  · rintro (h | h | ⟨p, h⟩)
    · exact .inl ⟨1, host_factsOf.2 (.inl ⟨rfl, h⟩)⟩
    · exact .inl ⟨2, host_factsOf.2 (.inr ⟨rfl, h⟩)⟩
    · exact .inr ⟨p, open_iff.2 h⟩

/-! ## Services -/

theorem joinAll_ok {α β : Type} (f : α → Wire.Res β) (g : α → β) (l : List α) (h : ∀ x ∈ l, f x = .ok (g x)) :
    joinAll f l = .ok (l.map g) := by
  induction l with
  | nil => rfl
  | cons a l ih =>
    rw [joinAll, h a List.mem_cons_self, ih (fun x hx => h x (List.mem_cons_of_mem _ hx))]
    rfl

theorem joinAll_cases {α β : Type} (f : α → Wire.Res β) (l : List α) (h : ∀ x ∈ l, f x ≠ .err) :
    joinAll f l ≠ .err ∧ (joinAll f l = .panic ↔ ∃ x ∈ l, f x = .panic)
    ∧ ∀ r, joinAll f l = .ok r → (∀ y ∈ r, ∃ x ∈ l, f x = .ok y) ∧ ∀ x ∈ l, ∃ y ∈ r, f x = .ok y := by
  induction l with
  | nil =>
    refine ⟨nofun, ⟨nofun, fun ⟨x, h, _⟩ => absurd h List.not_mem_nil⟩, ?_⟩
    intro r hr
    cases hr
    exact ⟨fun y h => absurd h List.not_mem_nil, fun y h => absurd h List.not_mem_nil⟩
  | cons a l ih =>
    obtain ⟨h1, h2, h3⟩ := ih (fun x hx => h x (List.mem_cons_of_mem _ hx))
    rw [joinAll]
    cases ha : f a with
    | err => exact absurd ha (h a List.mem_cons_self)
    | panic => exact ⟨nofun, ⟨fun _ => ⟨a, List.mem_cons_self, ha⟩, fun _ => rfl⟩, nofun⟩
    | ok b =>
      dsimp only
      cases hj : joinAll f l with
      | err => exact absurd hj h1
      | panic =>
        refine ⟨nofun, ⟨fun _ => ?_, fun _ => rfl⟩, nofun⟩
        obtain ⟨x, hx, hp⟩ := h2.1 hj
        exact ⟨x, List.mem_cons_of_mem _ hx, hp⟩
      | ok bs =>
        refine ⟨nofun, ⟨nofun, ?_⟩, ?_⟩
        · rintro ⟨x, hx, hp⟩
          rcases List.mem_cons.1 hx with rfl | hx
          · rw [ha] at hp; cases hp
          · have := h2.2 ⟨x, hx, hp⟩
            rw [hj] at this
            cases this
        · intro r hr
          cases hr
          obtain ⟨g1, g2⟩ := h3 bs hj
          constructor
          · intro y hy
            rcases List.mem_cons.1 hy with rfl | hy
            · exact ⟨a, List.mem_cons_self, ha⟩
            · obtain ⟨x, hx, hp⟩ := g1 y hy
              exact ⟨x, List.mem_cons_of_mem _ hx, hp⟩
          · intro x hx
            rcases List.mem_cons.1 hx with rfl | hx
            · exact ⟨b, List.mem_cons_self, ha⟩
            · obtain ⟨y, hy, hp⟩ := g2 x hx
              exact ⟨y, List.mem_cons_of_mem _ hy, hp⟩

theorem filterServices_ok (predicate : MacAddr → SocketAddr → Wire.Res Bool) (P : MacAddr → SocketAddr → Prop)
    (h : ∀ m a, (predicate m a = .ok true ∧ P m a) ∨ (predicate m a = .ok false ∧ ¬P m a))
    (l : List (MacAddr × SocketAddr)) :
    ∃ r, filterServices predicate l = .ok r ∧ ∀ x, x ∈ r ↔ x ∈ l ∧ P x.1 x.2 := by
  let g : MacAddr × SocketAddr → MacAddr × SocketAddr × Bool := fun x =>
    (x.1, x.2, match predicate x.1 x.2 with | .ok b => b | _ => false)
  unfold filterServices
  rw [joinAll_ok _ g l (by
      intro x _
      rcases h x.1 x.2 with ⟨e, _⟩ | ⟨e, _⟩
      · dsimp only [g]; rw [e]
      · dsimp only [g]; rw [e])]
  refine ⟨_, rfl, ?_⟩
  intro x
  rw [List.mem_filterMap]
  constructor
  · rintro ⟨y, hy, e⟩
    obtain ⟨z, hz, rfl⟩ := List.mem_map.1 hy
    rcases h z.1 z.2 with ⟨e', hp⟩ | ⟨e', hp⟩
    · have hg : (g z).2.2 = true := by dsimp only [g]; rw [e']
      rw [if_pos hg] at e
      cases e
      exact ⟨hz, hp⟩
    · have hg : ¬(g z).2.2 = true := by dsimp only [g]; rw [e']; nofun
      rw [if_neg hg] at e
      cases e
  · rintro ⟨hx, hp⟩
    refine ⟨g x, List.mem_map.2 ⟨x, hx, rfl⟩, ?_⟩
    rcases h x.1 x.2 with ⟨e', _⟩ | ⟨_, hn⟩
    · have hg : (g x).2.2 = true := by dsimp only [g]; rw [e']
      rw [if_pos hg]
    · exact absurd hp hn

/-- An answer to the OPTIONS request. -/
def RtspHere (E : Env) (N : Net) (mac : MacAddr) (addr : SocketAddr) : Prop :=
  RtspUrl E (describeUrl E addr (asc "/"))
    ∧ ∃ pieces h body, N.answer (.options mac addr) = some pieces ∧ Reply E.T.lower .rtsp true pieces h body
/-- An answer to the request for the root. -/
def HttpHere (E : Env) (N : Net) (mac : MacAddr) (addr : SocketAddr) : Prop :=
  HttpUrl E (httpUrl E addr (asc "/"))
    ∧ ∃ pieces h body, N.answer (.root mac addr) = some pieces ∧ Reply E.T.lower .http true pieces h body

theorem isRtsp_iff {E : Env} (hE : ∀ a, Utf8.valid (E.format a) = true) (N : Net) (mac : MacAddr) (addr : SocketAddr) :
    (isRtspService E N mac addr = .ok true ∧ RtspHere E N mac addr)
    ∨ (isRtspService E N mac addr = .ok false ∧ ¬RtspHere E N mac addr) := by
  unfold isRtspService RtspHere
  have hv := valid_describe hE addr (path := asc "/") (by decide +kernel)
  unfold describeUrl at hv ⊢
  rcases exchange_options E N (.options mac addr) _ hv with ⟨hu, he⟩ | ⟨hu, he⟩
  · rw [he]
    unfold sent
    cases ha : N.answer (.options mac addr) with
    | none =>
      refine .inr ⟨rfl, ?_⟩
      rintro ⟨_, p, h, b, hp, _⟩
      cases hp
    | some pieces =>
      dsimp only
      cases hr : Http.response E.T.lower .rtsp true pieces with
      | panic => exact absurd hr (Props.Http.C87_ignored _)
      | err =>
        refine .inr ⟨rfl, ?_⟩
        rintro ⟨_, p, h, b, hp, hrep⟩
        cases hp
        obtain ⟨r, hr'⟩ := reply_response hrep
        rw [hr] at hr'
        cases hr'
      | ok r =>
        obtain ⟨⟨h, b, hrep, _⟩, _⟩ := reply_ok hr
        exact .inl ⟨rfl, hu, pieces, h, b, rfl, hrep⟩
  · rw [he]
    exact .inr ⟨rfl, fun h => hu h.1⟩

theorem isHttp_iff {E : Env} (hE : ∀ a, Utf8.valid (E.format a) = true) (N : Net) (mac : MacAddr) (addr : SocketAddr) :
    (isHttpService E N mac addr = .ok true ∧ HttpHere E N mac addr)
    ∨ (isHttpService E N mac addr = .ok false ∧ ¬HttpHere E N mac addr) := by
  unfold isHttpService HttpHere
  have hv := valid_http hE addr (path := asc "/") (by decide +kernel)
  rcases http_answer E N (.root mac addr) addr (asc "/") hv with ⟨r, h, he, ⟨hu, p, b, ha, hrep⟩, _⟩ | ⟨he, hno⟩
  · rw [he]
    exact .inl ⟨rfl, hu, p, h, b, ha, hrep⟩
  · rw [he]
    refine .inr ⟨rfl, ?_⟩
    rintro ⟨hu, p, h, b, ha, hrep⟩
    exact hno ⟨h, hu, p, b, ha, hrep⟩

theorem findRtsp_ok {E : Env} (hE : ∀ a, Utf8.valid (E.format a) = true) (N : Net) (l : List (MacAddr × SocketAddr)) :
    ∃ r, findRtspServices E N l = .ok r ∧ ∀ x, x ∈ r ↔ x ∈ l ∧ x.2.port ∈ rtspPorts ∧ RtspHere E N x.1 x.2 := by
  apply filterServices_ok _ (fun m a => a.port ∈ rtspPorts ∧ RtspHere E N m a)
  intro m a
  by_cases hp : a.port ∈ rtspPorts
  · rw [if_pos hp]
    rcases isRtsp_iff hE N m a with ⟨h1, h2⟩ | ⟨h1, h2⟩
    · exact .inl ⟨h1, hp, h2⟩
    · exact .inr ⟨h1, fun h => h2 h.2⟩
  · rw [if_neg hp]
    exact .inr ⟨rfl, fun h => hp h.1⟩

theorem findHttp_ok {E : Env} (hE : ∀ a, Utf8.valid (E.format a) = true) (N : Net) (l : List (MacAddr × SocketAddr)) :
    ∃ r, findHttpServices E N l = .ok r ∧ ∀ x, x ∈ r ↔ x ∈ l ∧ x.2.port ∈ httpPorts ∧ HttpHere E N x.1 x.2 := by
  apply filterServices_ok _ (fun m a => a.port ∈ httpPorts ∧ HttpHere E N m a)
  intro m a
  by_cases hp : a.port ∈ httpPorts
  · rw [if_pos hp]
    rcases isHttp_iff hE N m a with ⟨h1, h2⟩ | ⟨h1, h2⟩
    · exact .inl ⟨h1, hp, h2⟩
    · exact .inr ⟨h1, fun h => h2 h.2⟩
  · rw [if_neg hp]
    exact .inr ⟨rfl, fun h => hp h.1⟩

theorem not_preferred_of_preferred {ports : List UInt16} {p q : UInt16} (hn : ports.Nodup) (h : Preferred ports p q) :
    ¬Preferred ports q p := by
  obtain ⟨a, b, h1, h2, h3⟩ := h
  rintro ⟨c, d, g1, g2, g3⟩
  rw [h1] at g1
  rcases List.append_eq_append_iff.1 g1 with ⟨z, e1, e2⟩ | ⟨z, e1, e2⟩
  · cases z with
    | nil => simp only [List.nil_append, List.cons.injEq] at e2; exact h3 e2.1.symm
    | cons w z =>
      simp only [List.cons_append, List.cons.injEq] at e2
      apply g2
      rw [e1, e2.1]
      simp
  · cases z with
    | nil => simp only [List.nil_append, List.cons.injEq] at e2; exact g3 e2.1.symm
    | cons w z =>
      simp only [List.cons_append, List.cons.injEq] at e2
      apply h2
      rw [e1, ← e2.1]
      simp

theorem selected (ports : List UInt16) (hp : ports.Nodup) (S : MacAddr → SocketAddr → Prop)
    (l : List (MacAddr × SocketAddr)) (hl : ∀ x, x ∈ l ↔ S x.1 x.2) (l' : List (MacAddr × SocketAddr))
    (h' : l'.Perm (filterDuplicit l (getPortPriorities ports))) : Selected ports S l' := by
  obtain ⟨h1, h2, h3⟩ := C56_filter l ports hp
  refine ⟨(h'.map _).nodup_iff.2 h1, ?_, ?_, ?_⟩
  · intro x hx
    obtain ⟨a, b, he, _⟩ := h3 x (h'.mem_iff.1 hx)
    exact (hl x).1 (by rw [he]; simp)
  · intro mac addr hs
    obtain ⟨y, hy, he⟩ := h2 (mac, addr) ((hl (mac, addr)).2 hs)
    exact ⟨y, h'.mem_iff.2 hy, he⟩
  · intro x hx mac addr hs hi
    obtain ⟨a, b, he, g1, g2⟩ := h3 x (h'.mem_iff.1 hx)
    have hm := (hl (mac, addr)).2 hs
    rw [he] at hm
    rcases List.mem_append.1 hm with hm | hm
    · exact not_preferred_of_preferred hp (g1 _ hm hi)
    · rcases List.mem_cons.1 hm with e | hm
      · rw [← e]
        rintro ⟨_, _, _, _, h⟩
        exact h rfl
      · exact g2 _ hm hi

end Verif.Discovery
