import Verif.Spec.Exports
import Verif.Props.SvcTable
/-!
# C94: the service table in the C interface
-/
namespace Verif.Props.Exports
open Verif Verif.Exports Verif.Spec.Exports Verif.SvcTable Verif.Spec.SvcTable

theorem cRead_cstring {p : Bytes} (h : 0 ∉ p) : cRead (p ++ [0]) = p := by
  unfold cRead
  rw [List.takeWhile_append_of_pos]
  · simp
  · intro a ha
    simp only [ne_eq, decide_not, Bool.not_eq_true', decide_eq_false_iff_not]
    rintro rfl
    exact h ha

theorem new_tells {id : UInt16} {s : Service} (hc : s.Constructible) (hn : s.isControl = false) (hp : ¬ NulPath s)
    (buffer : Bytes) : ∃ n, NativeService.new id s = some n ∧ Tells (view n buffer) id s := by
  have hpath : ∃ q, nativePath s.path = some q ∧ q.map cRead = s.path := by
    cases hq : s.path with
    | none => exact ⟨none, rfl, rfl⟩
    | some p =>
      have h0 : 0 ∉ p := fun h => hp ⟨p, hq, h⟩
      refine ⟨some (p ++ [0]), ?_, ?_⟩
      · unfold nativePath
        dsimp only
        unfold cstring
        rw [if_neg h0]
        rfl
      · exact congrArg some (cRead_cstring h0)
  obtain ⟨q, hq1, hq2⟩ := hpath
  have hma : ∃ m a, s.mac = some m ∧ s.address = some a := by
    cases hc with
    | control => cases hn
    | _ => exact ⟨_, _, rfl, rfl⟩
  obtain ⟨m, a, hm, ha⟩ := hma
  refine ⟨⟨id, s.svcType.code, m, a.ip, a.port, q⟩, ?_, ?_⟩
  · unfold NativeService.new
    rw [hq1, hm, ha]
  · refine ⟨rfl, ?_, ⟨m, hm, rfl⟩, ⟨a, ha, rfl, ?_⟩, hq2⟩
    · show some s.svcType.code = _
      have : s.svcType ≠ .controlProtocol := by
        simpa [Service.isControl] using hn
      cases h : s.svcType with
      | controlProtocol => exact absurd h this
      | _ => rfl
    · cases hi : a.ip with
      | v4 b0 b1 b2 b3 =>
        refine .inl ⟨b0, b1, b2, b3, rfl, ?_, ?_⟩
        · rfl
        · rfl
      | v6 s0 s1 s2 s3 s4 s5 s6 s7 =>
        refine .inr ⟨s0, s1, s2, s3, s4, s5, s6, s7, rfl, ?_, ?_⟩
        · rfl
        · rfl

theorem nativeTable_tells {l : List (UInt16 × Service)}
    (h : ∀ x ∈ l, x.2.Constructible ∧ x.2.isControl = false ∧ ¬ NulPath x.2) (buffer : Bytes) :
    ∃ ns, nativeTable l = some ns ∧ ns.length = l.length
      ∧ ∀ (i : Nat) (x : UInt16 × Service), l[i]? = some x → ∃ n, ns[i]? = some n ∧ Tells (view n buffer) x.1 x.2 := by
  induction l with
  | nil => exact ⟨[], rfl, rfl, fun i x hx => by simp at hx⟩
  | cons y l ih =>
    obtain ⟨id, s⟩ := y
    obtain ⟨ns, h1, h2, h3⟩ := ih fun x hx => h x (List.mem_cons_of_mem _ hx)
    obtain ⟨hc, hn, hp⟩ := h (id, s) List.mem_cons_self
    obtain ⟨n, hn1, hn2⟩ := new_tells (id := id) hc hn hp buffer
    refine ⟨n :: ns, ?_, congrArg (· + 1) h2, ?_⟩
    · unfold nativeTable
      rw [if_neg (by rw [show s.isControl = false from hn]; exact Bool.false_ne_true), show NativeService.new id s = some n from hn1, h1]
    · intro i x hx
      cases i with
      | zero =>
        rw [List.getElem?_cons_zero] at hx
        injection hx with hx
        subst hx
        exact ⟨n, rfl, hn2⟩
      | succ i =>
        rw [List.getElem?_cons_succ] at hx ⊢
        exact h3 i x hx

theorem nativeTable_nul {l : List (UInt16 × Service)} {x : UInt16 × Service} (hx : x ∈ l) (hn : x.2.isControl = false)
    (hp : NulPath x.2) : nativeTable l = none := by
  induction l with
  | nil => cases hx
  | cons y l ih =>
    obtain ⟨id, s⟩ := y
    unfold nativeTable
    cases hx with
    | head =>
      rw [if_neg (by rw [hn]; exact Bool.false_ne_true)]
      obtain ⟨p, h1, h2⟩ := hp
      have : NativeService.new id s = none := by
        unfold NativeService.new
        rw [show s.path = some p from h1]
        unfold nativePath
        dsimp only
        unfold cstring
        rw [if_pos h2]
        rfl
      rw [this]
    | tail _ hx =>
      rw [ih hx]
      split
      · rfl
      · split <;> rfl

theorem mem_clientTable {t : Table} (hc : Consistent t) : clientTable t = t.visible := by
  unfold clientTable
  rw [List.filter_eq_self]
  rintro ⟨i, s⟩ hx
  rw [((hc.listed i s).1 hx).2]
  rfl

theorem visible_constructible {t : Table} (hi : Inv t) {x : UInt16 × Service} (hx : x ∈ t.visible) : x.2.Constructible := by
  have hg := ((consistent_of_inv hi).listed x.1 x.2).1 hx
  have hg := hg.1
  unfold Table.get at hg
  cases he : t.svcMap.get x.1 with
  | none => rw [he] at hg; cases hg
  | some e =>
    rw [he] at hg
    dsimp only at hg
    split at hg
    · injection hg with hg
      rw [← hg]
      exact hi.cons _ e he
    · cases hg

/-- For every table that can arise, unless a path of a visible service contains a NUL: a C program that asks for the service
table gets one entry for every visible service and no other, in the order of the table; each tells the id, the type code of
the header file, the MAC address, the IP address, the port and the path of its service. The buffers may contain anything. -/
theorem C94_table (farm : Bytes → UInt64) (A : AddrText) (t : Table) (h : Reachable farm A t)
    (hp : ∀ x ∈ t.visible, ¬ NulPath x.2) (buffer : Bytes) :
    ∃ ns, getServiceTable t = some ns
    ∧ serviceCount ns = t.visible.length
    ∧ (∀ i, (getService ns i).isSome = true ↔ i < serviceCount ns)
    ∧ ∀ (i : Nat) (x : UInt16 × Service), t.visible[i]? = some x → ∃ n, getService ns i = some n ∧ Tells (view n buffer) x.1 x.2 := by
  have hc := consistent_of_inv (reachable_inv h)
  unfold getServiceTable
  rw [mem_clientTable hc]
  obtain ⟨ns, h1, h2, h3⟩ := nativeTable_tells (l := t.visible) (fun x hx =>
    ⟨visible_constructible (reachable_inv h) hx, ((hc.listed x.1 x.2).1 hx).2, hp x hx⟩) buffer
  refine ⟨ns, h1, h2, fun i => ?_, h3⟩
  unfold getService serviceCount
  simp

/-- The table of the examples: two services, one of them visible. -/
example : (∀ x ∈ Props.SvcTable.demoTable.visible, ¬ NulPath x.2) ∧ Props.SvcTable.demoTable.visible ≠ [] := by
  have : Props.SvcTable.demoTable.visible = [(1, Props.SvcTable.svcB)] := by decide +kernel
  rw [this]
  refine ⟨fun x hx => ?_, by simp⟩
  rw [List.mem_singleton] at hx
  subst hx
  rintro ⟨p, hp, h0⟩
  cases hp
  revert h0
  decide

example : (getServiceTable Props.SvcTable.demoTable).map (fun ns => ns.map (view · [9, 9, 9]))
    = some [⟨1, 1, [0, 0, 0, 0, 0, 2], 4, [10, 0, 0, 1], 80, some [47]⟩] := by decide +kernel

theorem be16_inj {a b : UInt16} (h : be16 a = be16 b) : a = b := by
  have h1 : a.toNat = b.toNat := by rw [← natBE_be16 a, ← natBE_be16 b, h]
  exact UInt16.toNat_inj.1 h1

/-- What a C program learns determines the id and the service: nothing is lost. -/
theorem C94_faithful (v : View) (id id' : UInt16) (s s' : Service) (h : Tells v id s) (h' : Tells v id' s') :
    id = id' ∧ s = s' := by
  refine ⟨h.id.symm.trans h'.id, ?_⟩
  obtain ⟨m, hm, hvm⟩ := h.mac
  obtain ⟨m', hm', hvm'⟩ := h'.mac
  obtain ⟨a, ha, hva, hip⟩ := h.address
  obtain ⟨a', ha', hva', hip'⟩ := h'.address
  have hmm : m = m' := by
    have := hvm.symm.trans hvm'
    injection this with h0 this
    injection this with h1 this
    injection this with h2 this
    injection this with h3 this
    injection this with h4 this
    injection this with h5 this
    obtain ⟨⟩ := m
    obtain ⟨⟩ := m'
    simp_all
  have hcode : s.svcType = s'.svcType := by
    have := h.code.symm.trans h'.code
    revert this
    generalize s.svcType = x
    generalize s'.svcType = y
    cases x <;> cases y <;> decide
  have haa : a = a' := by
    have hport : a.port = a'.port := hva.symm.trans hva'
    have hips : a.ip = a'.ip := by
      rcases hip with ⟨b0, b1, b2, b3, e, ev, ei⟩ | ⟨s0, s1, s2, s3, s4, s5, s6, s7, e, ev, ei⟩
      · rcases hip' with ⟨c0, c1, c2, c3, e', ev', ei'⟩ | ⟨t0, t1, t2, t3, t4, t5, t6, t7, e', ev', ei'⟩
        · rw [ei] at ei'
          rw [e, e']
          injection ei' with h0 ei'
          injection ei' with h1 ei'
          injection ei' with h2 ei'
          injection ei' with h3 ei'
          rw [h0, h1, h2, h3]
        · rw [ev] at ev'; cases ev'
      · rcases hip' with ⟨c0, c1, c2, c3, e', ev', ei'⟩ | ⟨t0, t1, t2, t3, t4, t5, t6, t7, e', ev', ei'⟩
        · rw [ev] at ev'; cases ev'
        · rw [ei] at ei'
          rw [e, e']
          simp only [List.append_assoc] at ei'
          obtain ⟨h0, ei'⟩ := List.append_inj ei' rfl
          obtain ⟨h1, ei'⟩ := List.append_inj ei' rfl
          obtain ⟨h2, ei'⟩ := List.append_inj ei' rfl
          obtain ⟨h3, ei'⟩ := List.append_inj ei' rfl
          obtain ⟨h4, ei'⟩ := List.append_inj ei' rfl
          obtain ⟨h5, ei'⟩ := List.append_inj ei' rfl
          obtain ⟨h6, h7⟩ := List.append_inj ei' rfl
          rw [be16_inj h0, be16_inj h1, be16_inj h2, be16_inj h3, be16_inj h4, be16_inj h5, be16_inj h6, be16_inj h7]
    obtain ⟨⟩ := a
    obtain ⟨⟩ := a'
    simp_all
  have hpp : s.path = s'.path := h.path.symm.trans h'.path
  obtain ⟨⟩ := s
  obtain ⟨⟩ := s'
  simp_all

/-- **Finding.** A NUL in the path of a visible service aborts the process of every C program that asks for the table. Such a
path comes from a configuration file or from a file with paths. -/
theorem C94_nul_aborts (farm : Bytes → UInt64) (A : AddrText) (t : Table) (h : Reachable farm A t) :
    getServiceTable t = none ↔ ∃ x ∈ t.visible, NulPath x.2 := by
  have hc := consistent_of_inv (reachable_inv h)
  constructor
  · intro hn
    apply Classical.byContradiction
    intro hne
    obtain ⟨ns, h1, -⟩ := C94_table farm A t h (fun x hx hp => hne ⟨x, hx, hp⟩) []
    rw [hn] at h1
    cases h1
  · rintro ⟨x, hx, hp⟩
    unfold getServiceTable
    rw [mem_clientTable hc]
    exact nativeTable_nul hx ((hc.listed x.1 x.2).1 hx).2 hp

/-- such a table -/
example : ((Table.new 0).add Props.SvcTable.demoFarm 0 (.rtsp (Props.SvcTable.demoMac 1) Props.SvcTable.demoAddr [47, 0])).map
    (fun r => (getServiceTable r.1).isNone) = some true := by decide +kernel

/-- Only the bytes of the address are written: the buffer is as long as before if it was long enough, and what follows is
untouched. -/
theorem C94_buffers (n : NativeService) (buffer : Bytes) :
    (6 ≤ buffer.length → (getMacAddress n buffer).length = buffer.length ∧ (getMacAddress n buffer).drop 6 = buffer.drop 6)
    ∧ (let k := if getIpVersion n = 4 then 4 else 16
       k ≤ buffer.length → (getIpAddress n buffer).1.length = buffer.length ∧ (getIpAddress n buffer).1.drop k = buffer.drop k)
    ∧ (getIpVersion n = 4 ∨ getIpVersion n = 6) ∧ (getIpAddress n buffer).2 = getIpVersion n := by
  have hcopy : ∀ data : Bytes, data.length ≤ buffer.length →
      (copyTo buffer data).length = buffer.length ∧ (copyTo buffer data).drop data.length = buffer.drop data.length := by
    intro data hd
    unfold copyTo
    constructor
    · rw [List.length_append, List.length_drop]; omega
    · exact List.drop_left
  refine ⟨fun h => hcopy n.macAddress.octets h, ?_, ?_, rfl⟩
  · intro k hk
    have hlen : (ipOctets n.ipAddress).length = k := by
      show _ = if n.ipAddress.version = 4 then 4 else 16
      cases n.ipAddress <;> rfl
    rw [← hlen] at hk ⊢
    exact hcopy _ hk
  · unfold getIpVersion
    cases n.ipAddress with
    | v4 => exact .inl rfl
    | v6 => exact .inr rfl

end Verif.Props.Exports
