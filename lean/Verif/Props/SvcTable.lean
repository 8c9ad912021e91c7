import Verif.Spec.SvcTable
import Verif.Lemmas.SvcTable
import Verif.Lemmas.Bytes
/-!
# Properties of the service table: C37-C44, C79
-/
namespace Verif.Props.SvcTable
open Verif Verif.SvcTable Verif.Spec.SvcTable

/-! ### A concrete table, for the examples beside the theorems

The hash function is constant, so that every id collides. -/

def demoFarm : Bytes → UInt64 := fun _ => 0xffff

def demoAddr : SocketAddr := ⟨.v4 10 0 0 1, 80⟩

/-- An address format good enough for the examples: one byte. -/
def demoText : AddrText := { format := fun _ => [1], parse := fun _ => some demoAddr }

def demoMac (n : UInt8) : MacAddr := ⟨0, 0, 0, 0, 0, n⟩

def svcA : Service := .http (demoMac 1) demoAddr
/-- The same service as `svcA` with another IP address. -/
def svcA' : Service := .http (demoMac 1) ⟨.v4 10 0 0 2, 80⟩
def svcB : Service := .rtsp (demoMac 2) demoAddr [47]

def demoOps : List TOp :=
  [.add 0 svcA, .addStatic 10 svcB, .add 20 .control, .updateActive 1201, .add 1300 svcA']

def demoTable : Table := ((Table.new 0).run demoFarm demoOps).getD (Table.new 0)

theorem demo_services : Services demoOps := by
  intro op hop a ha
  simp only [demoOps, List.mem_cons, List.not_mem_nil, or_false] at hop
  rcases hop with rfl | rfl | rfl | rfl | rfl
  · injection ha with ha; subst ha; exact .http _ _
  · injection ha with ha; subst ha; exact .rtsp _ _ _
  · injection ha with ha; subst ha; exact .control
  · cases ha
  · injection ha with ha; subst ha; exact .http _ _

theorem demo_run : (Table.new 0).run demoFarm demoOps = some demoTable := by
  have : ((Table.new 0).run demoFarm demoOps).isSome = true := by decide +kernel
  unfold demoTable
  cases h : (Table.new 0).run demoFarm demoOps with
  | none => rw [h] at this; cases this
  | some t => rfl

theorem demo_reachable : Reachable demoFarm demoText demoTable :=
  ⟨_, _, .new 0, demo_services, demo_run⟩

/-! ### C37 -/

/-- C37: ids and services correspond to each other in every table that can arise. -/
theorem C37_consistent (farm : Bytes → UInt64) (A : AddrText) (t : Table) (h : Reachable farm A t) :
    Consistent t := consistent_of_inv (reachable_inv h)

example : demoTable.visible = [(1, svcB)] ∧ demoTable.getId svcB.toIdentifier = some (some 1) ∧
    demoTable.getId svcA.toIdentifier = some none ∧ known demoTable 0xffff = some svcA' := by
  decide +kernel

/-! ### C38 -/

/-- C38: the id that adding a service returned is the one that is found for it ever after: by looking it
up, by adding it again in whatever form, and in the list of visible services. -/
theorem C38_stable (farm : Bytes → UInt64) (A : AddrText) (t t1 t2 : Table) (static : Bool) (now : Int64)
    (s : Service) (i : UInt16) (ops : List TOp) (h : Reachable farm A t) (hs : s.Constructible)
    (ha : addAs farm t static now s = some (t1, i)) (hops : Services ops)
    (h2 : t1.run farm ops = some t2) :
    (∀ j, t2.getId s.toIdentifier = some (some j) → j = i) ∧
    (∀ j s', (j, s') ∈ t2.visible → (s'.toIdentifier = s.toIdentifier ↔ j = i)) ∧
    (∀ static' now' s' t3 j, s'.toIdentifier = s.toIdentifier →
      addAs farm t2 static' now' s' = some (t3, j) → j = i) := by
  rw [addAs_eq] at ha
  have hu := update_updated ha
  have I1 := inv_update (reachable_inv h) hs hu
  have I2 := inv_run I1 hops h2
  have hi := run_idMap h2 _ _ (updated_idMap hu).1
  have hget : ∀ j, t2.getId s.toIdentifier = some (some j) → j = i := by
    intro j hj
    obtain ⟨s', g1, g2⟩ := get_of_getId I2 hj
    unfold Table.getId at hj
    rw [hi] at hj
    dsimp only at hj
    split at hj
    · injection hj with hj
      split at hj
      · injection hj with hj; exact hj.symm
      · cases hj
    · cases hj
  refine ⟨hget, ?_, ?_⟩
  · intro j s' hv
    have hg := ((consistent_of_inv I2).listed j s').mp hv
    have hid := getId_of_get I2 hg.1
    constructor
    · intro he
      exact hget j (by rw [← he]; exact hid)
    · rintro rfl
      obtain ⟨e, e1, e2⟩ := I2.back _ _ hi
      have h3 := hg.1
      unfold Table.get at h3
      rw [e1] at h3
      dsimp only at h3
      split at h3
      · injection h3 with h3
        rw [← h3, e2]
      · cases h3
  · intro static' now' s' t3 j he ha'
    rw [addAs_eq] at ha'
    have h3 := (updated_idMap (update_updated ha')).1
    have h4 := (updated_idMap (update_updated ha')).2 _ _ hi
    rw [he, h4] at h3
    injection h3 with h3
    exact h3.symm

example : (addAs demoFarm (Table.new 0) false 0 svcA).map (·.2) = some 0xffff ∧
    (addAs demoFarm demoTable true 7 svcA').map (·.2) = some 0xffff ∧
    svcA ≠ svcA' ∧ svcA.toIdentifier = svcA'.toIdentifier := by decide +kernel

/-! ### C39 -/

/-- C39: starting with an empty table, no history panics in which at most 65535 different services are
added besides the control service, whatever the hash function. -/
theorem C39_never_panics (farm : Bytes → UInt64) (now : Int64) (ops : List TOp)
    (ks : List ServiceIdentifier) (hs : Services ops) (hl : ks.length ≤ 65535)
    (hk : ∀ op ∈ ops, ∀ a, added op = some a → a.2.2.isControl = true ∨ a.2.2.toIdentifier ∈ ks) :
    (Table.new now).run farm ops ≠ none := by
  have key : ∀ (l : List TOp) (t : Table), (∀ op ∈ l, op ∈ ops) → Inv t →
      (∀ k, t.idMap.get k ≠ none → k ∈ Service.control.toIdentifier :: ks) → t.run farm l ≠ none := by
    intro l
    induction l with
    | nil => intro t _ _ _ h; cases h
    | cons op l ih =>
      intro t hm I hid h
      have hop := hm op List.mem_cons_self
      have hsop : Services [op] := by
        intro o ho
        rw [List.mem_singleton.mp ho]
        exact hs op hop
      have hadd : ∀ a, added op = some a → a.2.2.toIdentifier ∈ Service.control.toIdentifier :: ks := by
        intro a ha
        rcases hk op hop a ha with hc | hc
        · rw [constructible_control (hs op hop a ha) hc]
          exact List.mem_cons_self
        · exact List.mem_cons_of_mem _ hc
      have hlen : (Service.control.toIdentifier :: ks).length ≤ 65536 := by
        simp only [List.length_cons]; omega
      cases hstep : t.step farm op with
      | none =>
        cases op with
        | add now s =>
          simp only [Table.step, Table.add, Option.map_eq_none_iff] at hstep
          exact no_panic_of_room hlen I hid (hadd _ rfl) hstep
        | addStatic now s =>
          simp only [Table.step, Table.addStatic, Option.map_eq_none_iff] at hstep
          exact no_panic_of_room hlen I hid (hadd _ rfl) hstep
        | updateActive now => cases hstep
      | some t' =>
        simp only [Table.run, hstep] at h
        refine ih t' (fun o ho => hm o (List.mem_cons_of_mem _ ho)) (inv_step I hsop hstep) ?_ h
        refine run_identities (ops := [op]) ?_ hid (farm := farm) (t' := t') (by simp only [Table.run, hstep])
        intro o ho
        rw [List.mem_singleton.mp ho]
        exact hadd
  refine key ops _ (fun _ h => h) (inv_new now) ?_
  intro k hk'
  change AMap.get (AMap.insert [] Service.control.toIdentifier (0 : UInt16)) k ≠ none at hk'
  rw [AMap.get_insert] at hk'
  split at hk'
  · rename_i h; rw [h]; exact List.mem_cons_self
  · exact absurd rfl hk'

/-- C39: adding a service to any table that can arise and has room gives an id. The id of a service that
was not known is not 0 and was not in use. -/
theorem C39_free_id (farm : Bytes → UInt64) (A : AddrText) (t : Table) (static : Bool) (now : Int64)
    (s : Service) (h : Reachable farm A t) (hroom : ∃ i, known t i = none) :
    ∃ t' i, addAs farm t static now s = some (t', i) ∧ known t' i = some s ∧
      ((∀ j s', known t j = some s' → s'.toIdentifier ≠ s.toIdentifier) → i ≠ 0 ∧ known t i = none) := by
  have I := reachable_inv h
  rw [addAs_eq]
  cases hu : t.update farm now s static true with
  | none =>
    obtain ⟨i, hi⟩ := hroom
    have := (update_none I hu).2 i
    simp only [known, Option.map_eq_none_iff] at hi
    rw [hi] at this
    cases this
  | some r =>
    obtain ⟨t', i⟩ := r
    obtain ⟨e', e1, e2, _, _, e5⟩ := updated_at I (update_updated hu)
    refine ⟨t', i, rfl, by simp only [known, e1, Option.map_some, e2], ?_⟩
    intro hne
    have hnone : t.svcMap.get i = none := by
      cases hg : t.svcMap.get i with
      | none => rfl
      | some e =>
        rw [hg] at e5
        exact absurd e5.1 (hne i e.service (by simp only [known, hg, Option.map_some]))
    refine ⟨?_, by simp only [known, hnone, Option.map_none]⟩
    rintro rfl
    obtain ⟨e0, h0, _⟩ := I.ctrl
    rw [hnone] at h0
    cases h0

/-- C39: only a full table panics, and only when a new service is added. -/
theorem C39_panic_iff (farm : Bytes → UInt64) (A : AddrText) (t : Table) (static : Bool) (now : Int64)
    (s : Service) (h : Reachable farm A t) :
    addAs farm t static now s = none ↔
      (∀ i, known t i ≠ none) ∧ ∀ i s', known t i = some s' → s'.toIdentifier ≠ s.toIdentifier := by
  have I := reachable_inv h
  rw [addAs_eq]
  constructor
  · intro hn
    obtain ⟨h1, h2⟩ := update_none I hn
    constructor
    · intro i hi
      have := h2 i
      simp only [known, Option.map_eq_none_iff] at hi
      rw [hi] at this
      cases this
    · intro i s' hk he
      simp only [known, Option.map_eq_some_iff] at hk
      obtain ⟨e, g1, rfl⟩ := hk
      have := (I.elem i e g1).2
      rw [he, h1] at this
      cases this
  · rintro ⟨h1, h2⟩
    cases hu : t.update farm now s static true with
    | none => rfl
    | some r =>
      obtain ⟨t', i⟩ := r
      obtain ⟨e', _, _, _, _, e5⟩ := updated_at I (update_updated hu)
      cases hg : t.svcMap.get i with
      | none => exact absurd (by simp only [known, hg, Option.map_none]) (h1 i)
      | some e =>
        rw [hg] at e5
        exact absurd e5.1 (h2 i e.service (by simp only [known, hg, Option.map_some]))

/-- C39: the bound is sharp: adding 65536 different services panics. -/
theorem C39_too_many (farm : Bytes → UInt64) (now : Int64) (l : List (Bool × Int64 × Service))
    (hc : ∀ a ∈ l, a.2.2.isControl = false)
    (hd : l.Pairwise (fun a b => a.2.2.toIdentifier ≠ b.2.2.toIdentifier)) (hl : 65536 ≤ l.length)
    (hs : ∀ a ∈ l, a.2.2.Constructible) :
    (Table.new now).run farm (l.map (fun a => if a.1 then .addStatic a.2.1 a.2.2 else .add a.2.1 a.2.2)) =
      none := by
  cases h : (Table.new now).run farm
      (l.map (fun a => if a.1 then .addStatic a.2.1 a.2.2 else .add a.2.1 a.2.2)) with
  | none => rfl
  | some t' =>
    exfalso
    have hlen := run_length hd (t := Table.new now) (by
      intro a ha
      change AMap.get (AMap.insert [] Service.control.toIdentifier (0 : UInt16)) _ = none
      rw [AMap.get_insert, if_neg]
      · rfl
      · intro he
        have := control_identifier he
        rw [hc a ha] at this
        cases this) h
    have I : Inv t' := inv_run (inv_new now) (by
      intro op hop a ha
      obtain ⟨x, hx, rfl⟩ := List.mem_map.mp hop
      have : a = x := by
        cases hb : x.1 <;> rw [hb] at ha <;> injection ha with ha <;> rw [← ha] <;>
          obtain ⟨x1, x2, x3⟩ := x <;> simp_all
      rw [this]
      exact hs x hx) h
    have h1 := ids_le I.ids
    simp only [AMap.keys, List.length_map] at h1
    have h2 : (Table.new now).svcMap.length = 1 := rfl
    omega

/-- 65536 different services. -/
def manyServices : List (Bool × Int64 × Service) :=
  (List.range 65536).map (fun n => (false, 0, .http .zero ⟨.v4 127 0 0 1, UInt16.ofNat n⟩))

example : (Table.new 0).run demoFarm
    (manyServices.map (fun a => if a.1 then .addStatic a.2.1 a.2.2 else .add a.2.1 a.2.2)) = none := by
  apply C39_too_many
  · intro a ha
    obtain ⟨n, _, rfl⟩ := List.mem_map.mp ha
    rfl
  · unfold manyServices
    rw [List.pairwise_map]
    apply List.Pairwise.imp_of_mem _ (List.nodup_iff_pairwise_ne.mp List.nodup_range)
    intro a b ha hb hab he
    rw [List.mem_range] at ha hb
    have : UInt16.ofNat a = UInt16.ofNat b := by
      have := congrArg (·.port) he
      exact Option.some.inj this
    have := congrArg UInt16.toNat this
    rw [UInt16.toNat_ofNat', UInt16.toNat_ofNat', Nat.mod_eq_of_lt (by omega), Nat.mod_eq_of_lt (by omega)]
      at this
    exact hab this
  · simp [manyServices]
  · intro a ha
    obtain ⟨n, _, rfl⟩ := List.mem_map.mp ha
    exact .http _ _

example : ∃ i, known demoTable i = none := ⟨5, by decide +kernel⟩

/-! ### C40 -/

/-- C40: id 0 denotes the control service and only that, it is not listed, and adding it changes nothing
but the time it was last seen. -/
theorem C40_control (farm : Bytes → UInt64) (A : AddrText) (t : Table) (h : Reachable farm A t) :
    t.get 0 = some .control ∧
    t.getId Service.control.toIdentifier = some (some 0) ∧
    (∀ i s, known t i = some s → s.isControl = true → i = 0) ∧
    (∀ i s, (i, s) ∈ t.visible → i ≠ 0 ∧ s.isControl = false) ∧
    (∀ static now, ∃ t', addAs farm t static now .control = some (t', 0) ∧
      (∀ i, known t' i = known t i) ∧ SameVisible t t' ∧ t'.version = t.version ∧
      t'.visVersion = t.visVersion) := by
  have I := reachable_inv h
  obtain ⟨e0, c1, c2, c3, c4⟩ := I.ctrl
  have hv0 : e0.visible = true := by simp only [Elem.visible, c3, c4, if_true]
  have hget : t.get 0 = some .control := by
    simp only [Table.get, c1, hv0, Bool.true_or, if_true, c2]
  have hid : t.idMap.get Service.control.toIdentifier = some 0 := by
    rw [← c2]; exact (I.elem 0 e0 c1).2
  refine ⟨hget, getId_of_get I hget, ?_, ?_, ?_⟩
  · intro i s hk hc
    simp only [known, Option.map_eq_some_iff] at hk
    obtain ⟨e, g1, rfl⟩ := hk
    exact I.control_id g1 hc
  · intro i s hm
    have := ((consistent_of_inv I).listed i s).mp hm
    refine ⟨?_, this.2⟩
    rintro rfl
    rw [hget] at this
    injection this.1 with h1
    rw [← h1] at this
    cases this.2
  · intro static now
    have hupd : addAs farm t static now .control = t.updateElement now 0 .control true := by
      rw [addAs_eq]
      simp only [Table.update, hid]
    rw [updateElement_eq c1] at hupd
    refine ⟨_, hupd, ?_, ?_, ?_, ?_⟩
    · intro i
      simp only [known, AMap.get_insert]
      split
      · rename_i hi
        subst hi
        rw [c1, ← c2]
        rfl
      · rfl
    · have I' : SvcTable.Inv _ := inv_update I .control (update_updated ((addAs_eq ..).symm.trans hupd))
      rw [sameVisible_iff I I']
      intro i
      simp only [vis, AMap.get_insert]
      split
      · rename_i hi
        subst hi
        rw [c1]
        have h1 : (e0.update now .control true).service.isControl = true := rfl
        have h2 : e0.service.isControl = true := by rw [c2]; rfl
        simp only [Option.bind_some, h1, h2, Bool.not_true, Bool.and_false]
        rfl
      · rfl
    · simp only [c2, ne_eq, not_true_eq_false, if_false]
    · have h1 : (e0.update now .control true).visible = true := by
        rw [update_visible, c3]; rfl
      simp only [c2, h1, hv0, ne_eq, not_true_eq_false, and_false, or_false, if_false]

example : known demoTable 0 = some .control ∧ demoTable.visible ≠ [] := by decide +kernel

/-! ### C41 -/

/-- C41: if the version of the visible services is the same at two moments, then the visible services are
the same, and were the same all the time in between, unless 2^32 changes fit in between. -/
theorem C41_no_change_missed (farm : Bytes → UInt64) (A : AddrText) (t t1 t2 : Table) (a b : List TOp)
    (h : Reachable farm A t) (ha : Services a) (hb : Services b) (h1 : t.run farm a = some t1)
    (h2 : t1.run farm b = some t2) (hcost : costs (a ++ b) < 4294967296)
    (hv : t2.visVersion = t.visVersion) : SameVisible t t2 ∧ SameVisible t t1 := by
  have I := reachable_inv h
  have I1 := inv_run I ha h1
  obtain ⟨n, n1, n2, n3⟩ := run_version I ha h1
  obtain ⟨m, m1, m2, m3⟩ := run_version I1 hb h2
  have hc : costs (a ++ b) = costs a + costs b := by
    simp only [costs, List.map_append, List.sum_append_nat]
  have hz : n + m = 0 := by
    rw [m2, n2, UInt32.add_assoc, ← UInt32.ofNat_add] at hv
    have := congrArg UInt32.toNat hv
    rw [UInt32.toNat_add, UInt32.toNat_ofNat_of_lt' (by simp only [UInt32.size]; omega)] at this
    have := t.visVersion.toNat_lt
    omega
  have g1 := n3 (by omega)
  have g2 := m3 (by omega)
  exact ⟨fun p => (g1 p).trans (g2 p), g1⟩

/-- C41: an operation changes the version if and only if it changes the visible services. -/
theorem C41_no_needless_change (farm : Bytes → UInt64) (A : AddrText) (t t' : Table) (op : TOp)
    (h : Reachable farm A t) (hs : Services [op]) (ht : t.step farm op = some t') :
    t'.visVersion = t.visVersion ↔ SameVisible t t' := by
  obtain ⟨n, n1, n2, n3⟩ := step_version (reachable_inv h) hs ht
  rw [← n3, n2]
  constructor
  · intro hv
    have := congrArg UInt32.toNat hv
    have hn : n < 4294967296 := by
      have : cost op ≤ 65536 := by cases op <;> simp [cost]
      omega
    rw [UInt32.toNat_add, UInt32.toNat_ofNat_of_lt' (by simp only [UInt32.size]; omega)] at this
    have := t.visVersion.toNat_lt
    omega
  · rintro rfl
    exact UInt32.add_zero _

/-- C41, for the version of the whole table and all services, visible or not. -/
theorem C41_table_version (farm : Bytes → UInt64) (A : AddrText) (t t' : Table) (ops : List TOp)
    (_ : Reachable farm A t) (ht : t.run farm ops = some t') :
    (ops.length < 4294967296 → t'.version = t.version → ∀ i, known t i = known t' i) ∧
    (∀ op, ops = [op] → (∀ i, known t i = known t' i) → t'.version = t.version) := by
  constructor
  · intro hl hv
    obtain ⟨n, n1, n2, n3⟩ := run_known ht
    apply n3
    rw [n2] at hv
    have := congrArg UInt32.toNat hv
    rw [UInt32.toNat_add, UInt32.toNat_ofNat_of_lt' (by simp only [UInt32.size]; omega)] at this
    have := t.version.toNat_lt
    omega
  · rintro op rfl hk
    simp only [Table.run] at ht
    split at ht
    · rename_i t1 hs
      injection ht with ht
      subst ht
      obtain ⟨n, n1, n2, n3⟩ := step_known hs
      rw [n2, n3.mpr hk]
      exact UInt32.add_zero _
    · cases ht

example : demoTable.visVersion = 3 ∧ demoTable.version = 3 ∧ costs demoOps = 65540 ∧
    ((demoTable.step demoFarm (.updateActive 1301)).map (·.visVersion)) = some 4 ∧
    ((demoTable.step demoFarm (.updateActive 1301)).map (·.visible)) = some [(1, svcB), (0xffff, svcA')] ∧
    ((demoTable.step demoFarm (.updateActive 9999)).map (·.visVersion)) = some 3 := by decide +kernel

/-! ### C42 -/

/-- C42: after the expiry of services at the time `now`, a service is visible exactly if it is the last
form in which a service other than the control service was added, and either the first addition was
static or the last is at most 1200 seconds ago. -/
theorem C42_visible_after_expiry (farm : Bytes → UInt64) (start now : Int64) (ops : List TOp) (t : Table)
    (hs : Services ops) (h : (Table.new start).run farm ops = some t) (s : Service)
    (hclock : ∀ a ∈ adds s.toIdentifier ops, a.2.1.toInt + 1200 < 9223372036854775808) :
    (∃ i, (i, s) ∈ (t.updateActive now).visible) ↔
      s.isControl = false ∧ ∃ first last, (adds s.toIdentifier ops).head? = some first ∧
        (adds s.toIdentifier ops).getLast? = some last ∧ last.2.2 = s ∧
        (first.1 = true ∨ now.toInt ≤ last.2.1.toInt + 1200) := by
  have I := inv_run (inv_new start) hs h
  rw [visible_find (inv_updateActive I now)]
  apply and_congr_right
  intro hc
  have hnew : (Table.new start).find s.toIdentifier = none := by
    have : (Table.new start).idMap.get s.toIdentifier = none := by
      change AMap.get (AMap.insert [] Service.control.toIdentifier (0 : UInt16)) _ = none
      rw [AMap.get_insert, if_neg]
      · rfl
      · intro he
        have := control_identifier he
        rw [hc] at this
        cases this
    simp only [Table.find, this]
  have hf := run_find (inv_new start) hs h s.toIdentifier
  rw [hnew] at hf
  simp only [updateActive_find]
  cases hl : adds s.toIdentifier ops with
  | nil =>
    rw [hl] at hf
    simp only [List.foldl_nil, Option.map_none, Option.map_eq_none_iff] at hf
    rw [hf]
    constructor
    · rintro ⟨e, he, _⟩; cases he
    · rintro ⟨f, l, he, _⟩; cases he
  | cons a l =>
    rw [hl, show Option.map recOf none = none from rfl, foldl_evolve_none] at hf
    rw [hl] at hclock
    have hlast : (a :: l).getLast? = some ((a :: l).getLast nofun) := List.getLast?_eq_some_getLast _
    have hlm : (a :: l).getLast nofun ∈ a :: l := List.getLast_mem _
    rw [hlast]
    generalize (a :: l).getLast nofun = z at hf hlm
    rw [Option.map_eq_some_iff] at hf
    obtain ⟨e, e1, e2⟩ := hf
    simp only [recOf, Prod.mk.injEq] at e2
    obtain ⟨r1, r2, r3, r4⟩ := e2
    rw [e1]
    simp only [Option.map_some, List.head?_cons]
    have hact := active_iff e now (by rw [r3]; exact hclock z hlm)
    have hvis : (e.updateActive now).visible = true ↔ (a.1 = true ∨ now.toInt ≤ z.2.1.toInt + 1200) := by
      unfold Elem.visible
      rw [ua_static, ua_enabled, r1, r2, ← r3]
      cases a.1
      · simpa using hact
      · simp
    constructor
    · rintro ⟨e', h1, h2, h3⟩
      injection h1 with h1
      subst h1
      rw [ua_service, r4] at h2
      exact ⟨a, z, rfl, rfl, h2, hvis.mp h3⟩
    · rintro ⟨f, l', h1, h2, h3, h4⟩
      injection h1 with h1
      injection h2 with h2
      subst h1 h2
      exact ⟨_, rfl, by rw [ua_service, r4]; exact h3, hvis.mpr h4⟩

/-- C42: adding a service affects no other service. A new service is visible at once. A known one keeps
its static and active flags, and is visible afterwards exactly if it is static or still active. -/
theorem C42_visible_after_add (farm : Bytes → UInt64) (A : AddrText) (t t' : Table) (static : Bool)
    (now : Int64) (s : Service) (i : UInt16) (h : Reachable farm A t) (hs : s.Constructible)
    (hc : s.isControl = false) (ha : addAs farm t static now s = some (t', i)) :
    (∀ j s', j ≠ i → ((j, s') ∈ t'.visible ↔ (j, s') ∈ t.visible)) ∧
    (saved t i = none → (i, s) ∈ t'.visible ∧ saved t' i = some (s, static, now, true)) ∧
    (∀ s0 st seen act, saved t i = some (s0, st, seen, act) →
      saved t' i = some (s, st, now, act) ∧ ((i, s) ∈ t'.visible ↔ st = true ∨ act = true)) := by
  have I := reachable_inv h
  rw [addAs_eq] at ha
  have hu := update_updated ha
  have I' := inv_update I hs hu
  obtain ⟨e', e1, e2, e3, e4, e5⟩ := updated_at I hu
  have hvis : (i, s) ∈ t'.visible ↔ e'.visible = true := by
    rw [mem_visible I', vis, e1, Option.bind_some, e2, hc]
    cases e'.visible <;> simp
  refine ⟨?_, ?_, ?_⟩
  · intro j s' hj
    rw [mem_visible I, mem_visible I', vis, vis, updated_get hu j hj]
  · intro hn
    simp only [saved, Option.map_eq_none_iff] at hn
    rw [hn] at e5
    refine ⟨hvis.mpr ?_, by simp only [saved, e1, Option.map_some, e2, e4, e5.2.1, e5.2.2]⟩
    simp only [Elem.visible, e3, e5.2.2, ite_self]
  · intro s0 st seen act hk
    simp only [saved, Option.map_eq_some_iff] at hk
    obtain ⟨e, g1, g2⟩ := hk
    simp only [Prod.mk.injEq] at g2
    obtain ⟨_, g3, _, g4⟩ := g2
    rw [g1] at e5
    refine ⟨by simp only [saved, e1, Option.map_some, e2, e4, e5.2.1, e5.2.2, g3, g4], ?_⟩
    rw [hvis, Elem.visible, e3, e5.2.1, e5.2.2, g3, g4]
    cases st <;> simp

example : ∃ i, (i, svcA') ∈ (demoTable.updateActive 2500).visible := by
  rw [C42_visible_after_expiry demoFarm 0 2500 demoOps demoTable demo_services demo_run svcA']
  · refine ⟨rfl, (false, 0, svcA), (false, 1300, svcA'), by decide +kernel, by decide +kernel, rfl, .inr (by decide)⟩
  · intro a ha
    have : adds svcA'.toIdentifier demoOps = [(false, 0, svcA), (false, 1300, svcA')] := by decide +kernel
    rw [this] at ha
    simp only [List.mem_cons, List.not_mem_nil, or_false] at ha
    rcases ha with rfl | rfl <;> decide

/-- Expired services that are found again stay invisible until the next expiry. -/
example : demoTable.visible = [(1, svcB)] ∧
    ((addAs demoFarm demoTable false 1310 svcA).map (·.1.visible)) = some [(1, svcB)] ∧
    ((addAs demoFarm demoTable true 1310 svcA).map (·.1.visible)) = some [(1, svcB)] := by decide +kernel

/-! ### C43 -/

/-- C43: saving a table and loading it at any later time succeeds and gives the same ids, services,
static flags, times and active flags. Static services are disabled until they are added again. The result
is again a table that can arise. -/
theorem C43_save_load (farm : Bytes → UInt64) (A : AddrText) (hA : AddrText.Faithful A) (t : Table)
    (now : Int64) (h : Reachable farm A t) (hp : ∀ i s, known t i = some s → ¬ EmptyLockedPath s) :
    ∃ t', Table.fromJson A now (t.toJson A) = .ok t' ∧ Reachable farm A t' ∧
      (∀ i, i ≠ 0 → saved t' i = saved t i) ∧ (∀ i, known t' i = known t i) ∧
      (∀ i s, (i, s) ∈ t'.visible ↔
        s.isControl = false ∧ ∃ seen, saved t i = some (s, false, seen, true)) := by
  have I := reachable_inv h
  obtain ⟨t', k1, k2, k3, k4⟩ := roundtrip hA now I hp
  have I' := start_inv k4
  have hsaved : ∀ i, i ≠ 0 → saved t' i = saved t i := by
    intro i hi
    simp only [saved, k2 i hi]
    cases t.svcMap.get i <;> rfl
  obtain ⟨e0, c1, c2, _⟩ := I.ctrl
  obtain ⟨e0', c1', c2', _⟩ := I'.ctrl
  refine ⟨t', k1, ⟨t', [], k4, nofun, rfl⟩, hsaved, ?_, ?_⟩
  · intro i
    by_cases hi : i = 0
    · subst hi
      simp only [known, c1, c1', Option.map_some, c2, c2']
    · simp only [known, k2 i hi]
      cases t.svcMap.get i <;> rfl
  · intro i s
    rw [mem_visible I', vis]
    by_cases hi : i = 0
    · subst hi
      rw [c1']
      constructor
      · intro hx
        exfalso
        rw [Option.bind_some, c2', show Service.control.isControl = true from rfl, Bool.not_true,
          Bool.and_false] at hx
        cases hx
      · rintro ⟨hc, seen, hx⟩
        simp only [saved, c1, Option.map_some, Option.some.injEq, Prod.mk.injEq] at hx
        rw [← hx.1, c2] at hc
        cases hc
    · rw [k2 i hi]
      cases hg : t.svcMap.get i with
      | none => simp [saved, hg]
      | some e =>
        simp only [saved, hg, Option.map_some, Option.bind_some]
        unfold Elem.visible
        dsimp only
        cases hst : e.static <;> cases hac : e.active <;> cases hct : e.service.isControl <;>
          simp <;> first | done | (intro hx; subst hx; exact hct) | (intro hy hx; subst hx; rw [hct] at hy; cases hy)

/-- Why the path must not be empty: a locked service with an empty path is loaded as one without a path,
which is another service. -/
theorem C43_false_empty_path : ∃ t, Reachable demoFarm demoText t ∧ known t 0xffff =
      some (.lockedRtsp (demoMac 1) demoAddr (some [])) ∧
    ∃ t', Table.fromJson demoText 0 (t.toJson demoText) = .ok t' ∧
      known t' 0xffff = some (.lockedRtsp (demoMac 1) demoAddr none) ∧
      (Service.lockedRtsp (demoMac 1) demoAddr none).toIdentifier ≠
        (Service.lockedRtsp (demoMac 1) demoAddr (some [])).toIdentifier := by
  have h1 : (((Table.new 0).run demoFarm [.add 0 (.lockedRtsp (demoMac 1) demoAddr (some []))]).map
      (fun t => known t 0xffff)) = some (some (.lockedRtsp (demoMac 1) demoAddr (some []))) := by
    decide +kernel
  have h2 : (((Table.new 0).run demoFarm [.add 0 (.lockedRtsp (demoMac 1) demoAddr (some []))]).map
      (fun t => match Table.fromJson demoText 0 (t.toJson demoText) with
        | .ok t' => known t' 0xffff
        | _ => none)) = some (some (.lockedRtsp (demoMac 1) demoAddr none)) := by
    decide +kernel
  cases hr : (Table.new 0).run demoFarm [.add 0 (.lockedRtsp (demoMac 1) demoAddr (some []))] with
  | none => rw [hr] at h1; cases h1
  | some t =>
    rw [hr] at h1 h2
    simp only [Option.map_some, Option.some.injEq] at h1 h2
    refine ⟨t, ⟨_, _, .new 0, ?_, hr⟩, h1, ?_⟩
    · intro op hop a ha
      rw [List.mem_singleton.mp hop] at ha
      injection ha with ha
      subst ha
      exact .lockedRtsp _ _ _
    · split at h2
      · rename_i t' ht'
        exact ⟨t', ht', h2, by decide +kernel⟩
      · cases h2

/-- A format that is faithful: the numbers in binary. -/
def plainText : AddrText where
  format a := match a.ip with
    | .v4 x y z w => [x, y, z, w] ++ be16 a.port
    | .v6 a0 a1 a2 a3 a4 a5 a6 a7 => be16 a0 ++ be16 a1 ++ be16 a2 ++ be16 a3 ++ be16 a4 ++ be16 a5 ++
        be16 a6 ++ be16 a7 ++ be16 a.port
  parse b := match b with
    | [x, y, z, w, p, q] => some ⟨.v4 x y z w, rd16 p q⟩
    | [x0, y0, x1, y1, x2, y2, x3, y3, x4, y4, x5, y5, x6, y6, x7, y7, p, q] =>
      some ⟨.v6 (rd16 x0 y0) (rd16 x1 y1) (rd16 x2 y2) (rd16 x3 y3) (rd16 x4 y4) (rd16 x5 y5) (rd16 x6 y6)
        (rd16 x7 y7), rd16 p q⟩
    | _ => none

example : AddrText.Faithful plainText := by
  rintro ⟨ip, port⟩
  cases ip <;> simp [plainText, be16, rd16_be16]

example : ∀ i s, known demoTable i = some s → ¬ EmptyLockedPath s := by
  intro i s hk hp
  simp only [known, Option.map_eq_some_iff] at hk
  obtain ⟨e, he, rfl⟩ := hk
  have hall : ∀ p ∈ demoTable.svcMap, p.2.service.path ≠ some [] := by decide +kernel
  exact hall _ (AMap.get_mem he) hp.2

/-! ### C44 -/

/-- A saved HTTP service. -/
def demoEntry (ty : Int) (id : Int) : Json :=
  .obj [(asc "id", .num id), (asc "svc_type", .num ty), (asc "mac", .str (demoMac 1).format),
    (asc "address", .str []), (asc "path", .str [])]

def demoSaved (l : List Json) : Json := .obj [(asc "services", .arr l)]

/-- C44 is false: a file that contains a service twice gives a table with two ids for one service. -/
theorem C44_false_duplicate : ∃ t, Table.fromJson demoText 0 (demoSaved [demoEntry 5 1, demoEntry 5 2]) =
    .ok t ∧ t.visible = [(1, svcA), (2, svcA)] ∧ ¬ Consistent t := by
  have h : (match Table.fromJson demoText 0 (demoSaved [demoEntry 5 1, demoEntry 5 2]) with
      | .ok t => decide (t.visible = [(1, svcA), (2, svcA)] ∧ t.get 1 = some svcA ∧ t.get 2 = some svcA)
      | _ => false) = true := by decide +kernel
  split at h
  · rename_i t ht
    obtain ⟨h1, h2, h3⟩ := of_decide_eq_true h
    exact ⟨t, ht, h1, fun C => absurd (C.identity 1 2 svcA svcA h2 h3 rfl) (by decide)⟩
  · cases h

/-- C44 is false: a file that contains an entry of control type moves the control service to another id. -/
theorem C44_false_control : ∃ t, Table.fromJson demoText 0 (demoSaved [demoEntry 0 7]) = .ok t ∧
    t.get 0 = some .control ∧ t.get 7 = some .control ∧
    t.getId Service.control.toIdentifier = some (some 7) ∧ ¬ Consistent t := by
  have h : (match Table.fromJson demoText 0 (demoSaved [demoEntry 0 7]) with
      | .ok t => decide (t.get 0 = some .control ∧ t.get 7 = some .control ∧
          t.getId Service.control.toIdentifier = some (some 7))
      | _ => false) = true := by decide +kernel
  split at h
  · rename_i t ht
    obtain ⟨h1, h2, h3⟩ := of_decide_eq_true h
    exact ⟨t, ht, h1, h2, h3, fun C => absurd (C.identity 0 7 _ _ h1 h2 rfl) (by decide)⟩
  · cases h

/-- C44, for files that contain no service twice and not the control service: the loaded table is
consistent, and stays so. (For other files the property is false, see the two theorems above.) -/
theorem C44_load_consistent_partial (A : AddrText) (farm : Bytes → UInt64) (now : Int64) (j : Json)
    (t t' : Table) (ops : List TOp) (hd : Distinct A j) (h : Table.fromJson A now j = .ok t)
    (hs : Services ops) (hr : t.run farm ops = some t') : Consistent t' :=
  C37_consistent farm A t' ⟨t, ops, .loaded j now t hd h, hs, hr⟩

/-- C44: loading a file with at most 65535 entries does not panic, whatever they are. -/
theorem C44_load_never_panics (A : AddrText) (now : Int64) (j : Json) (hl : (entries j).length ≤ 65535) :
    Table.fromJson A now j ≠ .panic := by
  intro h
  unfold Table.fromJson at h
  split at h
  · rename_i l
    split at h
    · rename_i svcs hf
      have := loadLoop_panic (t := Table.new now) (inv_new now).ids h
      have he : entries (.obj l) = svcs := by simp only [entries, hf]
      rw [he] at hl
      have h1 : (Table.new now).svcMap.length = 1 := rfl
      omega
    · cases h
  · cases h

/-- C44: loading a file with more entries, all of them valid, panics: the client does not start. -/
theorem C44_load_panics (A : AddrText) (now : Int64) (l : List Json) (hl : 65536 ≤ l.length)
    (hv : ∀ j ∈ l, serviceOf A j ≠ none) : Table.fromJson A now (demoSaved l) = .panic := by
  have h1 : (Table.new now).svcMap.length = 1 := rfl
  have hf : Json.field [(asc "services", .arr l)] (asc "services") = some (.arr l) := by
    rw [field_cons, if_pos rfl]
  unfold demoSaved Table.fromJson
  simp only [hf]
  exact loadLoop_too_many (inv_new now).ids hv (by omega)

example : Distinct demoText (demoSaved [demoEntry 5 1, demoEntry 6 1]) ∧
    (match Table.fromJson demoText 0 (demoSaved [demoEntry 5 1, demoEntry 6 1]) with
      | .ok t => decide (t.visible.length = 2)
      | _ => false) = true := by
  refine ⟨⟨?_, ?_⟩, ?_⟩ <;> decide +kernel

example : ∀ j ∈ List.replicate 65536 (demoEntry 5 1), serviceOf demoText j ≠ none := by
  intro j hj
  rw [List.eq_of_mem_replicate hj]
  decide +kernel

/-! ### C79 -/

/-- C79: different service identities are hashed from different bytes, so ids collide only if the hash
function does. -/
theorem C79_hash_input (k k' : ServiceIdentifier) (h : hashInput k = hashInput k') : k = k' :=
  hashInput_inj h

/-- C79: the bytes that are hashed are exactly those of the stable format, so a service keeps its preferred id in every
version of the program that keeps to the format. -/
theorem C79_hash_format (k : ServiceIdentifier) : hashInput k = identityBytes k := by
  obtain ⟨ty, mac, port, path⟩ := k
  have h1 : le32 (discriminant ty) = fourBytes (typeOrder.idxOf ty) := by cases ty <;> decide +kernel
  have h2 : le32 1 = fourBytes 1 := by decide
  have h3 : le32 0 = fourBytes 0 := by decide
  have h4 : le32 6 = fourBytes 6 := by decide
  have h5 : ∀ p : UInt16, le16 p = [UInt8.ofNat (p.toNat % 256), UInt8.ofNat (p.toNat / 256)] := by
    intro p
    simp [le16, be16]
  unfold hashInput identityBytes
  rw [h1]
  cases mac <;> cases port <;> cases path <;>
    simp [hashOption, hashMac, hashString, h2, h3, h4, h5, MacAddr.octets]

example : identityBytes svcB.toIdentifier = [1, 0, 0, 0, 1, 0, 0, 0, 6, 0, 0, 0] ++ (demoMac 2).octets ++
    [1, 0, 0, 0, 80, 0, 1, 0, 0, 0, 47, 255] := by decide +kernel

/-- C79: a service that is added and not known yet gets the first id no service has, counting from the low 16 bits of the
hash of its identity bytes; so its id depends on other services only if they took that one. -/
theorem C79_preferred_id (farm : Bytes → UInt64) (A : AddrText) (t t' : Table) (hr : Reachable farm A t)
    (static : Bool) (now : Int64) (s : Service) (id : UInt16)
    (hnew : ∀ i s', known t i = some s' → s'.toIdentifier ≠ s.toIdentifier) (h : addAs farm t static now s = some (t', id)) :
    FirstFree t ((farm (identityBytes s.toIdentifier)).toNat % 65536) id ∧
    (taken t (UInt16.ofNat ((farm (identityBytes s.toIdentifier)).toNat % 65536)) = false →
      id.toNat = (farm (identityBytes s.toIdentifier)).toNat % 65536) := by
  have hnew : t.idMap.get s.toIdentifier = none := by
    cases hg : t.idMap.get s.toIdentifier with
    | none => rfl
    | some i =>
      obtain ⟨e, h1, h2⟩ := (reachable_inv hr).back _ i hg
      exact absurd h2 (hnew i e.service (by simp [known, h1]))
  have ht : ∀ i, taken t i = (t.svcMap.get i).isSome := by intro i; simp [taken, known]
  have h1 : probe t.svcMap (hash16 farm s.toIdentifier) 65536 (hash16 farm s.toIdentifier) = some id := by
    have key : ∀ b : Bool, t.update farm now s b true = some (t', id) →
        probe t.svcMap (hash16 farm s.toIdentifier) 65536 (hash16 farm s.toIdentifier) = some id := by
      intro b h
      simp only [Table.update, hnew, Table.addService, Option.isSome_none, Bool.false_eq_true, if_false] at h
      have e : ∀ (v : UInt32) (c : Bool) (x : Elem),
          ({ (if c then { t with visVersion := t.visVersion + 1 } else t) with version := v } : Table).addElement x =
            some (t', id) → probe t.svcMap x.id 65536 x.id = some id := by
        intro v c x hx
        have hm : ({ (if c then { t with visVersion := t.visVersion + 1 } else t) with version := v } : Table).svcMap =
            t.svcMap := by cases c <;> rfl
        unfold Table.addElement at hx
        rw [hm] at hx
        split at hx
        · cases hx
        · rename_i id' hp
          rw [hp]
          simp only [Option.some.injEq, Prod.mk.injEq] at hx
          rw [hx.2]
      exact e _ _ (Elem.new now (hash16 farm s.toIdentifier) s b true) h
    unfold addAs at h
    split at h
    · exact key true h
    · exact key false h
  have h2 : hash16 farm s.toIdentifier =
      UInt16.ofNat ((farm (identityBytes s.toIdentifier)).toNat % 65536 + 0) := by
    rw [hash16, C79_hash_format]
    apply UInt16.toNat.inj
    simp
  have h3 := probe_first (Nat.le_refl 65536) h2 (fun d' h => absurd h (Nat.not_lt_zero _)) h1
  simp only [← ht] at h3
  refine ⟨h3, ?_⟩
  intro hf
  obtain ⟨d, hd, h4, h5, h6⟩ := h3
  have : d = 0 := by
    rcases Nat.eq_zero_or_pos d with h | h
    · exact h
    · have := h6 0 h
      rw [Nat.add_zero, hf] at this
      cases this
  rw [h4, this, Nat.add_zero, UInt16.toNat_ofNat', Nat.mod_mod]

/-- Non-vacuity of C79_preferred_id: 0xffff is preferred by every service here; it is taken, and so is 0. -/
example : (addAs (fun _ => 0x1ffff) demoTable false 7 (.http (demoMac 9) demoAddr)).map (·.2) = some 2 ∧
    taken demoTable 0xffff = true ∧ taken demoTable 0 = true ∧ taken demoTable 1 = true ∧
    (addAs (fun _ => 0x1fff0) demoTable false 7 (.http (demoMac 9) demoAddr)).map (·.2) = some 0xfff0 := by
  decide +kernel

/-- Without the byte 0xff at the end of a path, or the tags of options, this would not be clear. -/
example : hashInput svcA.toIdentifier ≠ hashInput svcB.toIdentifier ∧
    (hashInput svcB.toIdentifier).length = 30 := by decide +kernel

end Verif.Props.SvcTable
