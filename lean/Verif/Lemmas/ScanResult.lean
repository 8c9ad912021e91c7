import Verif.Model.ScanResult
import Verif.Spec.ScanResult
import Verif.Lemmas.Map
/-! # Lemmas about scan results and the duplicate filter -/
namespace Verif.Scan
open Verif Control Spec.Scan

/-! ## Folding a map into another -/

theorem get_foldl {κ β : Type} [DecidableEq κ] (f : AMap κ β → κ × β → AMap κ β) (c : Option β → β → β)
    (hf : ∀ m e k, AMap.get (f m e) k = if k = e.1 then some (c (AMap.get m e.1) e.2) else AMap.get m k)
    (o : AMap κ β) (hn : o.keys.Nodup) : ∀ (m : AMap κ β) (k : κ),
      AMap.get (o.foldl f m) k
        = match AMap.get o k with
          | some v => some (c (AMap.get m k) v)
          | none => AMap.get m k := by
  induction o with
  | nil => intro m k; rfl
  | cons e o ih =>
    intro m k
    have hn' : e.1 ∉ AMap.keys o ∧ (AMap.keys o).Nodup := by
      simpa [AMap.keys] using hn
    rw [List.foldl_cons, ih hn'.2, AMap.get_cons]
    by_cases hk : e.1 = k
    · subst hk
      have h0 : AMap.get o e.1 = none := (AMap.get_none_iff o e.1).2 hn'.1
      simp only [h0, if_true, hf]
    · have hk' : ¬ k = e.1 := fun h => hk h.symm
      simp only [hk, if_false, hf, hk']

theorem nodup_foldl {κ β : Type} [DecidableEq κ] (f : AMap κ β → κ × β → AMap κ β)
    (hf : ∀ m e, m.keys.Nodup → (f m e).keys.Nodup) (o : AMap κ β) :
    ∀ m : AMap κ β, m.keys.Nodup → (AMap.keys (o.foldl f m)).Nodup := by
  induction o with
  | nil => intro m h; exact h
  | cons e o ih => intro m h; exact ih _ (hf _ _ h)

/-! ## Host records -/

theorem hostAddPort_eq (h : HostRecord) (p : UInt16) :
    (hostAddPort h p).flags = h.flags ∧ (hostAddPort h p).mac = h.mac ∧ (hostAddPort h p).ip = h.ip
      ∧ (h.ports.Nodup → (hostAddPort h p).ports.Nodup)
      ∧ ∀ q, q ∈ (hostAddPort h p).ports ↔ q ∈ h.ports ∨ q = p := by
  unfold hostAddPort
  by_cases hp : p ∈ h.ports
  · simp only [hp, if_true, true_and]
    refine ⟨id, fun q => ⟨Or.inl, ?_⟩⟩
    rintro (h | rfl)
    · exact h
    · exact hp
  · simp only [hp, if_false, true_and]
    refine ⟨?_, fun q => by simp⟩
    intro hn
    rw [List.nodup_append]
    refine ⟨hn, by simp, ?_⟩
    intro a ha b hb hab
    simp only [List.mem_singleton] at hb
    subst hb; subst hab
    exact hp ha

theorem hostAddPorts_eq (ps : List UInt16) : ∀ (h : HostRecord),
    (hostAddPorts h ps).flags = h.flags ∧ (hostAddPorts h ps).mac = h.mac ∧ (hostAddPorts h ps).ip = h.ip
      ∧ (h.ports.Nodup → (hostAddPorts h ps).ports.Nodup)
      ∧ ∀ q, q ∈ (hostAddPorts h ps).ports ↔ q ∈ h.ports ∨ q ∈ ps := by
  induction ps with
  | nil => intro h; exact ⟨rfl, rfl, rfl, id, fun q => by simp [hostAddPorts]⟩
  | cons p ps ih =>
    intro h
    obtain ⟨a1, a2, a3, a4, a5⟩ := hostAddPort_eq h p
    obtain ⟨b1, b2, b3, b4, b5⟩ := ih (hostAddPort h p)
    refine ⟨b1.trans a1, b2.trans a2, b3.trans a3, fun hn => b4 (a4 hn), fun q => ?_⟩
    have := b5 q
    rw [a5] at this
    simp only [List.mem_cons]
    exact this.trans or_assoc

/-! ## The invariant -/

/-- The host record says about the host what the facts say. -/
structure HostOk (fs : List Fact) (k : MacAddr × IpAddr) (h : HostRecord) : Prop where
  mac : h.mac = k.1
  ip : h.ip = k.2
  nodup : h.ports.Nodup
  flags : ∀ i, h.flags.toNat.testBit i = true ↔ FlagBit fs k.1 k.2 i
  ports : ∀ p, p ∈ h.ports ↔ PortOpen fs k.1 k.2 p

/-- The result holds exactly the facts. -/
structure Ok (fs : List Fact) (r : ScanResult) : Prop where
  hostKeys : r.hosts.keys.Nodup
  host : ∀ k h, AMap.get r.hosts k = some h → HostOk fs k h
  seen : ∀ k, (AMap.get r.hosts k).isSome = true ↔ Seen fs k.1 k.2
  svcKeys : r.services.keys.Nodup
  svc : ∀ i s, AMap.get r.services i = some s ↔ s.toIdentifier = i ∧ LastService fs s

/-- A record for a host nobody has reported. -/
theorem hostOk_of_unseen {fs : List Fact} {r : ScanResult} (h : Ok fs r) {k : MacAddr × IpAddr}
    (hk : AMap.get r.hosts k = none) (i : Nat) (p : UInt16) :
    ¬ FlagBit fs k.1 k.2 i ∧ ¬ PortOpen fs k.1 k.2 p := by
  have hs : ¬ Seen fs k.1 k.2 := by
    intro hs
    have := (h.seen k).2 hs
    rw [hk] at this
    cases this
  exact ⟨fun ⟨fl, hm, _⟩ => hs (Or.inl ⟨fl, hm⟩), fun hm => hs (Or.inr ⟨p, hm⟩)⟩

theorem flagBit_append (a b : List Fact) (m : MacAddr) (ip : IpAddr) (i : Nat) :
    FlagBit (a ++ b) m ip i ↔ FlagBit a m ip i ∨ FlagBit b m ip i := by
  unfold FlagBit
  constructor
  · rintro ⟨fl, hm, ht⟩
    rcases List.mem_append.1 hm with hm | hm
    · exact Or.inl ⟨fl, hm, ht⟩
    · exact Or.inr ⟨fl, hm, ht⟩
  · rintro (⟨fl, hm, ht⟩ | ⟨fl, hm, ht⟩)
    · exact ⟨fl, List.mem_append_left _ hm, ht⟩
    · exact ⟨fl, List.mem_append_right _ hm, ht⟩

theorem portOpen_append (a b : List Fact) (m : MacAddr) (ip : IpAddr) (p : UInt16) :
    PortOpen (a ++ b) m ip p ↔ PortOpen a m ip p ∨ PortOpen b m ip p := List.mem_append

theorem seen_append (a b : List Fact) (m : MacAddr) (ip : IpAddr) :
    Seen (a ++ b) m ip ↔ Seen a m ip ∨ Seen b m ip := by
  simp only [Seen, List.mem_append, exists_or]
  constructor
  · rintro ((h | h) | h | h) <;> simp [h]
  · rintro ((h | h) | h | h) <;> simp [h]

theorem lastService_append (a b : List Fact) (s : Service) :
    LastService (a ++ b) s ↔
      LastService b s
        ∨ (LastService a s ∧ ∀ s', LastService b s' → s'.toIdentifier ≠ s.toIdentifier) := by
  -- the last fact of an identifier exists as soon as there is one
  have last : ∀ (b : List Fact) (i : ServiceIdentifier), (∃ s', Fact.service s' ∈ b ∧ s'.toIdentifier = i) →
      ∃ s', LastService b s' ∧ s'.toIdentifier = i := by
    intro b i
    induction b with
    | nil => rintro ⟨s', h, _⟩; cases h
    | cons f b ih =>
      rintro ⟨s', hm, hi⟩
      by_cases hb : ∃ s'', Fact.service s'' ∈ b ∧ s''.toIdentifier = i
      · obtain ⟨s'', ⟨x, y, he, hy⟩, hi''⟩ := ih hb
        exact ⟨s'', ⟨f :: x, y, by rw [he]; rfl, hy⟩, hi''⟩
      · rcases List.mem_cons.1 hm with he | hm
        · refine ⟨s', ⟨[], b, by rw [he]; rfl, ?_⟩, hi⟩
          intro s'' h'' heq
          exact hb ⟨s'', h'', heq.trans hi⟩
        · exact absurd ⟨s', hm, hi⟩ hb
  constructor
  · rintro ⟨x, y, he, hy⟩
    rcases List.append_eq_append_iff.1 he with ⟨z, hx, hb⟩ | ⟨z, ha, hy'⟩
    · exact Or.inl ⟨z, y, hb, hy⟩
    · cases z with
      | nil =>
        simp only [List.nil_append] at hy'
        exact Or.inl ⟨[], y, hy'.symm, hy⟩
      | cons f z =>
        rw [List.cons_append, List.cons.injEq] at hy'
        obtain ⟨rfl, rfl⟩ := hy'
        refine Or.inr ⟨⟨x, z, ha, fun s' h' => hy s' (List.mem_append_left _ h')⟩, ?_⟩
        rintro s' ⟨p, q, hp, _⟩
        exact hy s' (List.mem_append_right _ (by rw [hp]; simp))
  · rintro (⟨x, y, he, hy⟩ | ⟨⟨x, y, he, hy⟩, hno⟩)
    · exact ⟨a ++ x, y, by rw [he, List.append_assoc], hy⟩
    · refine ⟨x, y ++ b, by rw [he, List.append_assoc, List.cons_append], ?_⟩
      intro s' hm heq
      rcases List.mem_append.1 hm with hm | hm
      · exact hy s' hm heq
      · obtain ⟨s'', h1, h2⟩ := last b _ ⟨s', hm, heq⟩
        exact hno s'' h1 h2

theorem ok_new : Ok [] ScanResult.new where
  hostKeys := List.nodup_nil
  host := by intro k h hg; cases hg
  seen := by
    intro k
    simp [ScanResult.new, Seen]
  svcKeys := List.nodup_nil
  svc := by
    intro i s
    constructor
    · intro h; cases h
    · rintro ⟨_, a, b, h, _⟩
      simp at h

/-- How the hosts of a merged result are found. -/
def mergeRec (h : Option HostRecord) (o : HostRecord) : HostRecord :=
  match h with
  | some h => { hostAddPorts h o.ports with flags := (hostAddPorts h o.ports).flags ||| o.flags }
  | none => o

theorem get_mergeHost (m : AMap (MacAddr × IpAddr) HostRecord) (e : (MacAddr × IpAddr) × HostRecord)
    (k : MacAddr × IpAddr) :
    AMap.get (mergeHost m e) k = if k = e.1 then some (mergeRec (AMap.get m e.1) e.2) else AMap.get m k := by
  unfold mergeHost
  cases hg : AMap.get m e.1 with
  | none => rw [AMap.get_insert]; rfl
  | some h => rw [AMap.get_insert]; rfl

theorem nodup_mergeHost (m : AMap (MacAddr × IpAddr) HostRecord) (e : (MacAddr × IpAddr) × HostRecord)
    (h : m.keys.Nodup) : (mergeHost m e).keys.Nodup := by
  unfold mergeHost
  split <;> exact AMap.nodup_insert h _ _

theorem ok_merge {a b : List Fact} {r o : ScanResult} (hr : Ok a r) (ho : Ok b o) : Ok (a ++ b) (r.merge o) := by
  have gh : ∀ k, AMap.get (r.merge o).hosts k = match AMap.get o.hosts k with
      | some v => some (mergeRec (AMap.get r.hosts k) v)
      | none => AMap.get r.hosts k := by
    intro k
    refine (get_foldl mergeHost mergeRec get_mergeHost o.hosts ho.hostKeys r.hosts k).trans ?_
    cases AMap.get o.hosts k <;> rfl
  have gs : ∀ i, AMap.get (r.merge o).services i = match AMap.get o.services i with
      | some v => some v
      | none => AMap.get r.services i := by
    intro i
    refine (get_foldl (fun m e => AMap.insert m e.1 e.2) (fun _ v => v) (fun m e k => AMap.get_insert m e.1 k e.2)
      o.services ho.svcKeys r.services i).trans ?_
    cases AMap.get o.services i <;> rfl
  constructor
  · exact nodup_foldl mergeHost nodup_mergeHost o.hosts r.hosts hr.hostKeys
  · intro k h hg
    rw [gh] at hg
    cases hgo : AMap.get o.hosts k with
    | none =>
      simp only [hgo] at hg
      have h1 := hr.host k h hg
      have h2 := fun i p => hostOk_of_unseen ho hgo i p
      exact ⟨h1.mac, h1.ip, h1.nodup,
        fun i => by rw [h1.flags, flagBit_append]; simp [(h2 i 0).1],
        fun p => by rw [h1.ports, portOpen_append]; simp [(h2 0 p).2]⟩
    | some v =>
      simp only [hgo, Option.some.injEq] at hg
      have h2 := ho.host k v hgo
      cases hgr : AMap.get r.hosts k with
      | none =>
        rw [hgr] at hg
        have hv : v = h := hg
        subst hv
        have h1 := fun i p => hostOk_of_unseen hr hgr i p
        exact ⟨h2.mac, h2.ip, h2.nodup,
          fun i => by rw [h2.flags, flagBit_append]; simp [(h1 i 0).1],
          fun p => by rw [h2.ports, portOpen_append]; simp [(h1 0 p).2]⟩
      | some u =>
        rw [hgr] at hg
        have h1 := hr.host k u hgr
        obtain ⟨e1, e2, e3, e4, e5⟩ := hostAddPorts_eq v.ports u
        subst hg
        refine ⟨e2.trans h1.mac, e3.trans h1.ip, e4 h1.nodup, fun i => ?_, fun p => ?_⟩
        · show ((hostAddPorts u v.ports).flags ||| v.flags).toNat.testBit i = true ↔ _
          rw [e1, UInt8.toNat_or, Nat.testBit_or, Bool.or_eq_true, h1.flags, h2.flags, flagBit_append]
        · show p ∈ (hostAddPorts u v.ports).ports ↔ _
          rw [e5, h1.ports, h2.ports, portOpen_append]
  · intro k
    rw [gh, seen_append, ← hr.seen k, ← ho.seen k]
    cases hgo : AMap.get o.hosts k with
    | none => simp
    | some v => simp
  · exact nodup_foldl _ (fun m e h => AMap.nodup_insert h _ _) o.services r.services hr.svcKeys
  · intro i s
    rw [gs, lastService_append]
    cases hgo : AMap.get o.services i with
    | some v =>
      have hv := (ho.svc i v).1 hgo
      simp only [Option.some.injEq]
      constructor
      · rintro rfl; exact ⟨hv.1, Or.inl hv.2⟩
      · rintro ⟨hi, hl | ⟨_, hno⟩⟩
        · have := (ho.svc i s).2 ⟨hi, hl⟩
          rw [hgo] at this
          exact Option.some.inj this
        · exact absurd (hv.1.trans hi.symm) (hno v hv.2)
    | none =>
      simp only
      rw [hr.svc]
      constructor
      · rintro ⟨hi, hl⟩
        refine ⟨hi, Or.inr ⟨hl, fun s' h' he => ?_⟩⟩
        have := (ho.svc i s').2 ⟨he.trans hi, h'⟩
        rw [hgo] at this
        cases this
      · rintro ⟨hi, hl | ⟨hl, _⟩⟩
        · have := (ho.svc i s).2 ⟨hi, hl⟩
          rw [hgo] at this
          cases this
        · exact ⟨hi, hl⟩

/-! Adding one fact is merging with a result that holds only this fact. -/

theorem ok_addHost {fs : List Fact} {r : ScanResult} (hr : Ok fs r) (mac : MacAddr) (ip : IpAddr) (fl : UInt8) :
    Ok (fs ++ [.host mac ip fl]) (r.addHost mac ip fl) := by
  have gh : ∀ k, AMap.get (r.addHost mac ip fl).hosts k =
      if k = (mac, ip) then
        some (match AMap.get r.hosts (mac, ip) with
          | some h => { h with flags := h.flags ||| fl }
          | none => newHost mac ip fl)
      else AMap.get r.hosts k := by
    intro k
    unfold ScanResult.addHost
    cases AMap.get r.hosts (mac, ip) <;> exact AMap.get_insert _ _ _ _
  have hsv : (r.addHost mac ip fl).services = r.services := by
    unfold ScanResult.addHost
    cases AMap.get r.hosts (mac, ip) <;> rfl
  have hfb : ∀ k : MacAddr × IpAddr, ∀ i, FlagBit [.host mac ip fl] k.1 k.2 i ↔
      k = (mac, ip) ∧ fl.toNat.testBit i = true := by
    rintro ⟨m, p⟩ i
    simp only [FlagBit, List.mem_singleton, Fact.host.injEq, Prod.mk.injEq]
    constructor
    · rintro ⟨fl', ⟨rfl, rfl, rfl⟩, ht⟩; exact ⟨⟨rfl, rfl⟩, ht⟩
    · rintro ⟨⟨rfl, rfl⟩, ht⟩; exact ⟨fl, ⟨rfl, rfl, rfl⟩, ht⟩
  have hpo : ∀ k : MacAddr × IpAddr, ∀ p, ¬ PortOpen [.host mac ip fl] k.1 k.2 p := by
    intro k p h
    simp [PortOpen] at h
  constructor
  · unfold ScanResult.addHost
    cases AMap.get r.hosts (mac, ip) <;> exact AMap.nodup_insert hr.hostKeys _ _
  · intro k h hg
    rw [gh] at hg
    by_cases hk : k = (mac, ip)
    · subst hk
      rw [if_pos rfl] at hg
      cases hgr : AMap.get r.hosts (mac, ip) with
      | none =>
        rw [hgr] at hg
        have hh := Option.some.inj hg
        subst hh
        have h1 := fun i p => hostOk_of_unseen hr hgr i p
        refine ⟨rfl, rfl, List.nodup_nil, fun i => ?_, fun p => ?_⟩
        · rw [flagBit_append, hfb]; simp [newHost]; exact fun h => absurd h (h1 i 0).1
        · rw [portOpen_append]; simp [newHost]; exact ⟨(h1 0 p).2, hpo (mac, ip) p⟩
      | some u =>
        rw [hgr] at hg
        have hh := Option.some.inj hg
        subst hh
        have h1 := hr.host _ u hgr
        refine ⟨h1.mac, h1.ip, h1.nodup, fun i => ?_, fun p => ?_⟩
        · show (u.flags ||| fl).toNat.testBit i = true ↔ _
          rw [UInt8.toNat_or, Nat.testBit_or, Bool.or_eq_true, h1.flags, flagBit_append, hfb]; simp
        · show p ∈ u.ports ↔ _
          rw [h1.ports, portOpen_append]; exact ⟨Or.inl, fun h => h.resolve_right (hpo _ p)⟩
    · rw [if_neg hk] at hg
      have h1 := hr.host k h hg
      refine ⟨h1.mac, h1.ip, h1.nodup, fun i => ?_, fun p => ?_⟩
      · rw [h1.flags, flagBit_append, hfb]; simp [hk]
      · rw [h1.ports, portOpen_append]; exact ⟨Or.inl, fun h => h.resolve_right (hpo _ p)⟩
  · intro k
    rw [gh, seen_append, ← hr.seen k]
    have : Seen [.host mac ip fl] k.1 k.2 ↔ k = (mac, ip) := by
      obtain ⟨m, p⟩ := k
      simp only [Seen, List.mem_singleton, Fact.host.injEq, Prod.mk.injEq, reduceCtorEq, exists_false, or_false]
      constructor
      · rintro ⟨_, rfl, rfl, _⟩; exact ⟨rfl, rfl⟩
      · rintro ⟨rfl, rfl⟩; exact ⟨fl, rfl, rfl, rfl⟩
    rw [this]
    by_cases hk : k = (mac, ip) <;> simp [hk]
  · rw [hsv]; exact hr.svcKeys
  · intro i s
    rw [hsv, hr.svc, lastService_append]
    have : ∀ s, ¬ LastService [.host mac ip fl] s := by
      rintro s ⟨a, b, h, _⟩
      cases a with
      | nil => cases h
      | cons x a => cases a <;> cases h
    constructor
    · rintro ⟨h1, h2⟩; exact ⟨h1, Or.inr ⟨h2, fun s' h' => absurd h' (this s')⟩⟩
    · rintro ⟨h1, h2 | ⟨h2, _⟩⟩
      · exact absurd h2 (this s)
      · exact ⟨h1, h2⟩

theorem ok_addPort {fs : List Fact} {r : ScanResult} (hr : Ok fs r) (mac : MacAddr) (ip : IpAddr) (p : UInt16) :
    Ok (fs ++ [.port mac ip p]) (r.addPort mac ip p) := by
  have gh : ∀ k, AMap.get (r.addPort mac ip p).hosts k =
      if k = (mac, ip) then some (hostAddPort ((AMap.get r.hosts (mac, ip)).getD (newHost mac ip 0)) p)
      else AMap.get r.hosts k := by
    intro k
    unfold ScanResult.addPort
    cases hg : AMap.get r.hosts (mac, ip) with
    | none =>
      simp only [AMap.get_insert_self]
      rw [AMap.get_insert, AMap.get_insert]
      by_cases hk : k = (mac, ip) <;> simp [hk]
    | some h =>
      simp only [hg]
      rw [AMap.get_insert]
      rfl
  have hsv : (r.addPort mac ip p).services = r.services := by
    unfold ScanResult.addPort
    cases hg : AMap.get r.hosts (mac, ip) with
    | none => simp only [AMap.get_insert_self]
    | some h => simp only [hg]
  have hfb : ∀ k : MacAddr × IpAddr, ∀ i, ¬ FlagBit [.port mac ip p] k.1 k.2 i := by
    rintro k i ⟨fl, h, _⟩
    simp at h
  have hpo : ∀ k : MacAddr × IpAddr, ∀ q, PortOpen [.port mac ip p] k.1 k.2 q ↔ k = (mac, ip) ∧ q = p := by
    rintro ⟨m, i⟩ q
    simp [PortOpen, and_assoc]
  constructor
  · unfold ScanResult.addPort
    cases hg : AMap.get r.hosts (mac, ip) with
    | none =>
      simp only [AMap.get_insert_self]
      exact AMap.nodup_insert (AMap.nodup_insert hr.hostKeys _ _) _ _
    | some h => simp only [hg]; exact AMap.nodup_insert hr.hostKeys _ _
  · intro k h hg
    rw [gh] at hg
    by_cases hk : k = (mac, ip)
    · subst hk
      rw [if_pos rfl] at hg
      have hh := Option.some.inj hg
      obtain ⟨e1, e2, e3, e4, e5⟩ := hostAddPort_eq ((AMap.get r.hosts (mac, ip)).getD (newHost mac ip 0)) p
      rw [hh] at e1 e2 e3 e4 e5
      cases hgr : AMap.get r.hosts (mac, ip) with
      | none =>
        rw [hgr] at e1 e2 e3 e4 e5
        have h1 := fun i p => hostOk_of_unseen hr hgr i p
        refine ⟨e2, e3, e4 List.nodup_nil, fun i => ?_, fun q => ?_⟩
        · rw [e1, flagBit_append]
          constructor
          · intro h0
            simp [newHost] at h0
          · rintro (h0 | h0)
            · exact absurd h0 (h1 i 0).1
            · exact absurd h0 (hfb _ i)
        · rw [e5, portOpen_append, hpo]
          constructor
          · rintro (h0 | rfl)
            · cases h0
            · exact Or.inr ⟨rfl, rfl⟩
          · rintro (h0 | ⟨_, rfl⟩)
            · exact absurd h0 (h1 0 q).2
            · exact Or.inr rfl
      | some u =>
        rw [hgr] at e1 e2 e3 e4 e5
        have h1 := hr.host _ u hgr
        refine ⟨e2.trans h1.mac, e3.trans h1.ip, e4 h1.nodup, fun i => ?_, fun q => ?_⟩
        · rw [e1]
          show u.flags.toNat.testBit i = true ↔ _
          rw [h1.flags, flagBit_append]; exact ⟨Or.inl, fun h => h.resolve_right (hfb _ i)⟩
        · rw [e5]
          show q ∈ u.ports ∨ q = p ↔ _
          rw [h1.ports, portOpen_append, hpo]; simp
    · rw [if_neg hk] at hg
      have h1 := hr.host k h hg
      refine ⟨h1.mac, h1.ip, h1.nodup, fun i => ?_, fun q => ?_⟩
      · rw [h1.flags, flagBit_append]; exact ⟨Or.inl, fun h => h.resolve_right (hfb _ i)⟩
      · rw [h1.ports, portOpen_append, hpo]; simp [hk]
  · intro k
    rw [gh, seen_append, ← hr.seen k]
    have : Seen [.port mac ip p] k.1 k.2 ↔ k = (mac, ip) := by
      obtain ⟨m, i⟩ := k
      simp only [Seen, List.mem_singleton, Fact.port.injEq, Prod.mk.injEq, reduceCtorEq, exists_false, false_or]
      constructor
      · rintro ⟨_, rfl, rfl, _⟩; exact ⟨rfl, rfl⟩
      · rintro ⟨rfl, rfl⟩; exact ⟨p, rfl, rfl, rfl⟩
    rw [this]
    by_cases hk : k = (mac, ip) <;> simp [hk]
  · rw [hsv]; exact hr.svcKeys
  · intro i s
    rw [hsv, hr.svc, lastService_append]
    have : ∀ s, ¬ LastService [.port mac ip p] s := by
      rintro s ⟨a, b, h, _⟩
      cases a with
      | nil => cases h
      | cons x a => cases a <;> cases h
    constructor
    · rintro ⟨h1, h2⟩; exact ⟨h1, Or.inr ⟨h2, fun s' h' => absurd h' (this s')⟩⟩
    · rintro ⟨h1, h2 | ⟨h2, _⟩⟩
      · exact absurd h2 (this s)
      · exact ⟨h1, h2⟩

theorem lastService_single (s t : Service) : LastService [.service t] s ↔ s = t := by
  constructor
  · rintro ⟨a, b, h, _⟩
    cases a with
    | nil => cases h; rfl
    | cons x a => cases a <;> cases h
  · rintro rfl; exact ⟨[], [], rfl, fun s' h => absurd h List.not_mem_nil⟩

theorem ok_addService {fs : List Fact} {r : ScanResult} (hr : Ok fs r) (t : Service) :
    Ok (fs ++ [.service t]) (r.addService t) := by
  have hfb : ∀ k : MacAddr × IpAddr, ∀ i, ¬ FlagBit [.service t] k.1 k.2 i := by
    rintro k i ⟨fl, h, _⟩
    simp at h
  have hpo : ∀ k : MacAddr × IpAddr, ∀ p, ¬ PortOpen [.service t] k.1 k.2 p := by
    intro k p h
    simp [PortOpen] at h
  constructor
  · exact hr.hostKeys
  · intro k h hg
    have h1 := hr.host k h hg
    refine ⟨h1.mac, h1.ip, h1.nodup, fun i => ?_, fun q => ?_⟩
    · rw [h1.flags, flagBit_append]; exact ⟨Or.inl, fun h => h.resolve_right (hfb _ i)⟩
    · rw [h1.ports, portOpen_append]; exact ⟨Or.inl, fun h => h.resolve_right (hpo _ q)⟩
  · intro k
    rw [seen_append]
    refine (hr.seen k).trans ⟨Or.inl, fun h => h.resolve_right ?_⟩
    rintro (⟨_, h⟩ | ⟨_, h⟩) <;> simp at h
  · exact AMap.nodup_insert hr.svcKeys _ _
  · intro i s
    rw [lastService_append, lastService_single]
    show AMap.get (AMap.insert r.services t.toIdentifier t) i = some s ↔ _
    rw [AMap.get_insert]
    by_cases hi : i = t.toIdentifier
    · rw [if_pos hi, Option.some.injEq]
      constructor
      · rintro rfl; exact ⟨hi.symm, Or.inl rfl⟩
      · rintro ⟨h1, h2 | ⟨_, h2⟩⟩
        · exact h2.symm
        · exact absurd (hi.symm.trans h1.symm) (h2 t ((lastService_single t t).2 rfl))
    · rw [if_neg hi, hr.svc]
      constructor
      · rintro ⟨h1, h2⟩
        refine ⟨h1, Or.inr ⟨h2, ?_⟩⟩
        intro s' h' he
        rw [lastService_single] at h'
        subst h'
        exact hi (h1.symm.trans he.symm)
      · rintro ⟨h1, rfl | ⟨h2, _⟩⟩
        · exact absurd h1.symm hi
        · exact ⟨h1, h2⟩

/-! ## The iterators -/

theorem Ok.hostRecords_nodup {fs : List Fact} {r : ScanResult} (h : Ok fs r) :
    (r.hostRecords.map (fun x => (x.mac, x.ip))).Nodup := by
  have : r.hostRecords.map (fun x => (x.mac, x.ip)) = r.hosts.keys := by
    unfold ScanResult.hostRecords AMap.keys
    rw [List.map_map]
    apply List.map_congr_left
    intro e he
    have := h.host e.1 e.2 (AMap.get_of_mem h.hostKeys he)
    exact Prod.ext this.mac this.ip
  rw [this]
  exact h.hostKeys

theorem Ok.mem_hostRecords {fs : List Fact} {r : ScanResult} (h : Ok fs r) (x : HostRecord) :
    x ∈ r.hostRecords ↔ AMap.get r.hosts (x.mac, x.ip) = some x := by
  unfold ScanResult.hostRecords
  rw [List.mem_map]
  constructor
  · rintro ⟨e, he, rfl⟩
    have hg := AMap.get_of_mem h.hostKeys he
    have := h.host e.1 e.2 hg
    rw [this.mac, this.ip]
    exact hg
  · intro hg
    exact ⟨((x.mac, x.ip), x), AMap.get_mem hg, rfl⟩

theorem Ok.mem_services {fs : List Fact} {r : ScanResult} (h : Ok fs r) (s : Service) :
    s ∈ r.serviceList ↔ LastService fs s := by
  unfold ScanResult.serviceList
  rw [List.mem_map]
  constructor
  · rintro ⟨e, he, rfl⟩
    exact ((h.svc _ _).1 (AMap.get_of_mem h.svcKeys he)).2
  · intro hl
    exact ⟨(s.toIdentifier, s), AMap.get_mem ((h.svc _ _).2 ⟨rfl, hl⟩), rfl⟩

theorem Ok.services_nodup {fs : List Fact} {r : ScanResult} (h : Ok fs r) :
    (r.serviceList.map (·.toIdentifier)).Nodup := by
  have : r.serviceList.map (·.toIdentifier) = r.services.keys := by
    unfold ScanResult.serviceList AMap.keys
    rw [List.map_map]
    apply List.map_congr_left
    intro e he
    exact ((h.svc e.1 e.2).1 (AMap.get_of_mem h.svcKeys he)).1
  rw [this]
  exact h.svcKeys

theorem Ok.mem_socketAddrs {fs : List Fact} {r : ScanResult} (h : Ok fs r) (m : MacAddr) (a : SocketAddr) :
    (m, a) ∈ r.socketAddrs ↔ PortOpen fs m a.ip a.port := by
  unfold ScanResult.socketAddrs
  rw [List.mem_flatMap]
  constructor
  · rintro ⟨x, hx, hm⟩
    rw [hostSocketAddrs, List.mem_map] at hm
    obtain ⟨p, hp, he⟩ := hm
    rw [Prod.mk.injEq] at he
    obtain ⟨rfl, rfl⟩ := he
    exact ((h.host _ x ((h.mem_hostRecords x).1 hx)).ports p).1 hp
  · intro hp
    have hs : Seen fs m a.ip := Or.inr ⟨a.port, hp⟩
    have := (h.seen (m, a.ip)).2 hs
    obtain ⟨x, hx⟩ := Option.isSome_iff_exists.1 this
    have hk := h.host _ x hx
    refine ⟨x, List.mem_map.2 ⟨((m, a.ip), x), AMap.get_mem hx, rfl⟩, ?_⟩
    rw [hostSocketAddrs, List.mem_map]
    refine ⟨a.port, (hk.ports a.port).2 hp, ?_⟩
    rw [hk.mac, hk.ip]

theorem nodup_flatMap_of {α β γ : Type} (f : α → List β) (g : β → γ) (kf : α → γ) (l : List α)
    (hg : ∀ x ∈ l, ∀ y ∈ f x, g y = kf x) (hf : ∀ x ∈ l, (f x).Nodup) (hl : (l.map kf).Nodup) :
    (l.flatMap f).Nodup := by
  induction l with
  | nil => exact List.nodup_nil
  | cons x l ih =>
    rw [List.map_cons, List.nodup_cons] at hl
    rw [List.flatMap_cons, List.nodup_append]
    refine ⟨hf x (by simp), ih (fun y hy => hg y (by simp [hy])) (fun y hy => hf y (by simp [hy])) hl.2, ?_⟩
    intro a ha b hb hab
    subst hab
    obtain ⟨y, hy, hay⟩ := List.mem_flatMap.1 hb
    apply hl.1
    rw [← hg x (by simp) a ha, hg y (by simp [hy]) a hay]
    exact List.mem_map.2 ⟨y, hy, rfl⟩

theorem Ok.socketAddrs_nodup {fs : List Fact} {r : ScanResult} (h : Ok fs r) : r.socketAddrs.Nodup := by
  apply nodup_flatMap_of hostSocketAddrs (fun y => (y.1, y.2.ip)) (fun x => (x.mac, x.ip))
  · intro x _ y hy
    rw [hostSocketAddrs, List.mem_map] at hy
    obtain ⟨p, _, rfl⟩ := hy
    rfl
  · intro x hx
    have := (h.host _ x ((h.mem_hostRecords x).1 hx)).nodup
    unfold hostSocketAddrs
    rw [List.nodup_iff_pairwise_ne] at this ⊢
    rw [List.pairwise_map]
    refine this.imp ?_
    intro a b hab heq
    rw [Prod.mk.injEq, SocketAddr.mk.injEq] at heq
    exact hab heq.2.2
  · exact h.hostRecords_nodup

end Verif.Scan
