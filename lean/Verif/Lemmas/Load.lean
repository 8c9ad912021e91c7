import Verif.Lemmas.SvcTable
import Verif.Props.Mac
import Verif.Spec.Load
/-!
# Lemmas about what a stored configuration says
-/
namespace Verif.Load
open Verif Verif.SvcTable Verif.Spec.Load Verif.Spec.SvcTable

theorem says_iff (l : List (Bytes × Json)) (k : Bytes) (v : Json) : Says l k v ↔ Json.field l k = some v := by
  induction l with
  | nil =>
    constructor
    · rintro ⟨a, b, h, -⟩
      cases a <;> cases h
    · intro h
      cases h
  | cons x l ih =>
    obtain ⟨k', v'⟩ := x
    rw [field_cons]
    constructor
    · rintro ⟨a, b, h, hn⟩
      cases a with
      | nil =>
        injection h with h1 h2
        injection h1 with h1 h3
        rw [if_pos h1, h3]
      | cons y a =>
        injection h with h1 h2
        subst h1
        rw [if_neg (hn (k', v') List.mem_cons_self)]
        exact ih.mp ⟨a, b, h2, fun x hx => hn x (List.mem_cons_of_mem _ hx)⟩
    · intro h
      by_cases hk : k' = k
      · rw [if_pos hk] at h
        injection h with h
        subst hk h
        exact ⟨[], l, rfl, nofun⟩
      · rw [if_neg hk] at h
        obtain ⟨a, b, rfl, hn⟩ := ih.mpr h
        refine ⟨(k', v') :: a, b, rfl, ?_⟩
        intro x hx
        rcases List.mem_cons.mp hx with rfl | hx
        · exact hk
        · exact hn x hx

theorem macText_iff (t : Bytes) (m : MacAddr) : MacText t m ↔ MacAddr.parse t = some m := (MacText.C71_parse t m).symm

theorem asStr_iff (v : Json) (s : Bytes) : Json.asStr v = some s ↔ v = .str s := by
  cases v <;> simp [Json.asStr]

theorem asBool_iff (v : Json) (b : Bool) : Json.asBool v = some b ↔ v = .bool b := by
  cases v <;> simp [Json.asBool]

theorem asU16_iff (v : Json) (x : UInt16) : Json.asU16 v = some x ↔ v = .num x.toNat := by
  cases v with
  | num n =>
    simp only [Json.asU16, Json.num.injEq]
    have hx := x.toNat_lt
    constructor
    · intro h
      split at h
      · rename_i hn
        injection h with h
        have := congrArg UInt16.toNat h
        rw [UInt16.toNat_ofNat'] at this
        omega
      · cases h
    · rintro rfl
      rw [if_pos (by omega)]
      simp
  | _ => simp [Json.asU16]

theorem asI64_iff (v : Json) (x : Int64) : Json.asI64 v = some x ↔ v = .num x.toInt := by
  cases v with
  | num n =>
    simp only [Json.asI64, Json.num.injEq]
    have h1 := x.le_toInt
    have h2 := x.toInt_lt
    constructor
    · intro h
      split at h
      · rename_i hn
        injection h with h
        rw [← h, Int64.toInt_ofInt_of_le (by omega) (by omega)]
      · cases h
    · rintro rfl
      rw [if_pos (by omega)]
      simp
  | _ => simp [Json.asI64]

theorem bind_iff {α : Type} (l : List (Bytes × Json)) (k : Bytes) (f : Json → Option α) (g : α → Json)
    (hf : ∀ v x, f v = some x ↔ v = g x) (x : α) : (Json.field l k).bind f = some x ↔ Says l k (g x) := by
  rw [says_iff]
  constructor
  · intro h
    obtain ⟨v, h1, h2⟩ := Option.bind_eq_some_iff.mp h
    rw [h1, (hf v x).mp h2]
  · intro h
    rw [h]
    exact (hf _ _).mpr rfl

theorem str_iff (l : List (Bytes × Json)) (k s : Bytes) :
    (Json.field l k).bind Json.asStr = some s ↔ Says l k (.str s) := bind_iff l k _ _ asStr_iff s

theorem u16_iff (l : List (Bytes × Json)) (k : Bytes) (x : UInt16) :
    (Json.field l k).bind Json.asU16 = some x ↔ Says l k (.num x.toNat) := bind_iff l k _ (fun x => .num x.toNat) asU16_iff x

/-- A value with a default. -/
theorem getD_iff {α : Type} (l : List (Bytes × Json)) (k : Bytes) (f : Json → Option α) (g : α → Json)
    (hf : ∀ v x, f v = some x ↔ v = g x) (d x : α) :
    (((Json.field l k).bind f).getD d = x) ↔ Says l k (g x) ∨ ((¬∃ y, Says l k (g y)) ∧ x = d) := by
  cases h : (Json.field l k).bind f with
  | some y =>
    have hy := (bind_iff l k f g hf y).mp h
    constructor
    · rintro rfl
      exact .inl hy
    · rintro (h' | ⟨h', -⟩)
      · have := (bind_iff l k f g hf x).mpr h'
        rw [h] at this
        injection this
      · exact absurd ⟨y, hy⟩ h'
  | none =>
    have hn : ¬∃ y, Says l k (g y) := by
      rintro ⟨y, hy⟩
      rw [(bind_iff l k f g hf y).mpr hy] at h
      cases h
    constructor
    · rintro rfl
      exact .inr ⟨hn, rfl⟩
    · rintro (h' | ⟨-, rfl⟩)
      · exact absurd ⟨x, h'⟩ hn
      · rfl

theorem flag_iff (l : List (Bytes × Json)) (k : Bytes) (d b : Bool) :
    ((Json.field l k).bind Json.asBool).getD d = b ↔ Flag l k d b := getD_iff l k _ _ asBool_iff d b

theorem seen_iff (l : List (Bytes × Json)) (now t : Int64) :
    ((Json.field l (asc "last_seen")).bind Json.asI64).getD now = t ↔ Seen l now t :=
  getD_iff l _ _ (fun x => .num x.toInt) asI64_iff now t

theorem describes_iff (A : AddrText) (l : List (Bytes × Json)) (s : Service) :
    Describes A.parse l s ↔ serviceFromJson A l = some s := by
  constructor
  · intro h
    cases h with
    | control h1 h2 h3 h4 =>
      have h1 := (u16_iff l _ 0).mpr h1
      unfold serviceFromJson
      rw [h1, (str_iff _ _ _).mpr h2, (str_iff _ _ _).mpr h3, (str_iff _ _ _).mpr h4]
      rfl
    | network hk h1 h2 h3 h4 h5 h6 h7 =>
      rename_i m a p n ty k mac addr path
      rw [macText_iff] at h3
      have hx : ∃ x : UInt16, n = x.toNat := by
        simp only [kinds, List.mem_cons, Prod.mk.injEq, List.not_mem_nil, or_false] at hk
        rcases hk with h | h | h | h | h | h | h | h <;> rw [h.1]
        · exact ⟨1, rfl⟩
        · exact ⟨2, rfl⟩
        · exact ⟨3, rfl⟩
        · exact ⟨4, rfl⟩
        · exact ⟨5, rfl⟩
        · exact ⟨6, rfl⟩
        · exact ⟨7, rfl⟩
        · exact ⟨65535, rfl⟩
      obtain ⟨x, rfl⟩ := hx
      unfold serviceFromJson
      rw [(u16_iff _ _ _).mpr h1, (str_iff _ _ _).mpr h2, (str_iff _ _ _).mpr h4, (str_iff _ _ _).mpr h6]
      simp only [bind, Option.bind_some, h3, h5]
      have key : ∀ y : UInt16, (x.toNat : Int) = y.toNat → x = y := fun y h => UInt16.toNat.inj (by omega)
      simp only [kinds, List.mem_cons, Prod.mk.injEq, List.not_mem_nil, or_false] at hk
      rcases hk with ⟨e, rfl, rfl⟩ | ⟨e, rfl, rfl⟩ | ⟨e, rfl, rfl⟩ | ⟨e, rfl, rfl⟩ | ⟨e, rfl, rfl⟩ | ⟨e, rfl, rfl⟩ |
        ⟨e, rfl, rfl⟩ | ⟨e, rfl, rfl⟩
      · rw [key 1 e]
        cases h7
        cases p <;> rfl
      · rw [key 2 e]
        rcases h7 with ⟨rfl, rfl⟩ | ⟨h7, rfl⟩
        · rfl
        · cases p
          · exact absurd rfl h7
          · rfl
      · rw [key 3 e]
        cases h7
        rfl
      · rw [key 4 e]
        cases h7
        cases p <;> rfl
      · rw [key 5 e]
        cases h7
        rfl
      · rw [key 6 e]
        cases h7
        cases p <;> rfl
      · rw [key 7 e]
        rcases h7 with ⟨rfl, rfl⟩ | ⟨h7, rfl⟩
        · rfl
        · cases p
          · exact absurd rfl h7
          · rfl
      · rw [key 65535 e]
        cases h7
        rfl
  · intro h
    unfold serviceFromJson at h
    simp only [bind, Option.bind_eq_some_iff] at h
    obtain ⟨ty, h1, m, h2, a, h3, p, h4, h⟩ := h
    have h1 := (u16_iff l _ ty).mp (by simpa [Option.bind_eq_some_iff] using h1)
    have h2 := (str_iff l _ m).mp (by simpa [Option.bind_eq_some_iff] using h2)
    have h3 := (str_iff l _ a).mp (by simpa [Option.bind_eq_some_iff] using h3)
    have h4 := (str_iff l _ p).mp (by simpa [Option.bind_eq_some_iff] using h4)
    by_cases e0 : ty = 0
    · rw [if_pos e0] at h
      injection h with h
      subst e0 h
      exact .control h1 h2 h3 h4
    rw [if_neg e0] at h
    by_cases e1 : ty = 1
    · rw [if_pos e1] at h
      subst e1
      simp only [Option.bind_eq_some_iff] at h
      obtain ⟨mac, hm, addr, ha, h⟩ := h
      injection h with h
      subst h
      refine .network (k := .always) (n := 1) (by simp [kinds]) h1 h2 ((macText_iff _ _).mpr hm) h3 ha h4 ?_
      cases p <;> rfl
    rw [if_neg e1] at h
    by_cases e2 : ty = 2
    · rw [if_pos e2] at h
      subst e2
      simp only [Option.bind_eq_some_iff] at h
      obtain ⟨mac, hm, addr, ha, h⟩ := h
      injection h with h
      subst h
      refine .network (k := .nonempty) (n := 2) (by simp [kinds]) h1 h2 ((macText_iff _ _).mpr hm) h3 ha h4 ?_
      cases p
      · exact .inl ⟨rfl, rfl⟩
      · exact .inr ⟨nofun, rfl⟩
    rw [if_neg e2] at h
    by_cases e3 : ty = 3
    · rw [if_pos e3] at h
      subst e3
      simp only [Option.bind_eq_some_iff] at h
      obtain ⟨mac, hm, addr, ha, h⟩ := h
      injection h with h
      subst h
      exact .network (k := .never) (n := 3) (by simp [kinds]) h1 h2 ((macText_iff _ _).mpr hm) h3 ha h4 rfl
    rw [if_neg e3] at h
    by_cases e4 : ty = 4
    · rw [if_pos e4] at h
      subst e4
      simp only [Option.bind_eq_some_iff] at h
      obtain ⟨mac, hm, addr, ha, h⟩ := h
      injection h with h
      subst h
      refine .network (k := .always) (n := 4) (by simp [kinds]) h1 h2 ((macText_iff _ _).mpr hm) h3 ha h4 ?_
      cases p <;> rfl
    rw [if_neg e4] at h
    by_cases e5 : ty = 5
    · rw [if_pos e5] at h
      subst e5
      simp only [Option.bind_eq_some_iff] at h
      obtain ⟨mac, hm, addr, ha, h⟩ := h
      injection h with h
      subst h
      exact .network (k := .never) (n := 5) (by simp [kinds]) h1 h2 ((macText_iff _ _).mpr hm) h3 ha h4 rfl
    rw [if_neg e5] at h
    by_cases e6 : ty = 6
    · rw [if_pos e6] at h
      subst e6
      simp only [Option.bind_eq_some_iff] at h
      obtain ⟨mac, hm, addr, ha, h⟩ := h
      injection h with h
      subst h
      refine .network (k := .always) (n := 6) (by simp [kinds]) h1 h2 ((macText_iff _ _).mpr hm) h3 ha h4 ?_
      cases p <;> rfl
    rw [if_neg e6] at h
    by_cases e7 : ty = 7
    · rw [if_pos e7] at h
      subst e7
      simp only [Option.bind_eq_some_iff] at h
      obtain ⟨mac, hm, addr, ha, h⟩ := h
      injection h with h
      subst h
      refine .network (k := .nonempty) (n := 7) (by simp [kinds]) h1 h2 ((macText_iff _ _).mpr hm) h3 ha h4 ?_
      cases p
      · exact .inl ⟨rfl, rfl⟩
      · exact .inr ⟨nofun, rfl⟩
    rw [if_neg e7] at h
    by_cases e8 : ty = 0xffff
    · rw [if_pos e8] at h
      subst e8
      simp only [Option.bind_eq_some_iff] at h
      obtain ⟨mac, hm, addr, ha, h⟩ := h
      injection h with h
      subst h
      exact .network (k := .never) (n := 65535) (by simp [kinds]) h1 h2 ((macText_iff _ _).mpr hm) h3 ha h4 rfl
    rw [if_neg e8] at h
    cases h

/-- The entry with index `i`, as the loop takes it. -/
def entry (A : AddrText) (now : Int64) (i : Nat) (j : Json) : Option Elem :=
  (Elem.fromJson A now j).map (fun e => if j.hasKey (asc "id") then e else { e with id := UInt16.ofNat (i + 1) })

/-- The element of an entry. -/
def elemOf (r : Row) : Elem := ⟨r.wants, r.service, r.static, false, r.seen, r.active⟩

theorem wants_iff (l : List (Bytes × Json)) (i : Nat) (id : UInt16) :
    Wants l i id ↔ (if (Json.obj l).hasKey (asc "id") then ((Json.field l (asc "id")).bind Json.asU16).getD 0
      else UInt16.ofNat (i + 1)) = id := by
  unfold Wants
  simp only [says_iff]
  have hk : (Json.obj l).hasKey (asc "id") = (Json.field l (asc "id")).isSome := rfl
  cases h : Json.field l (asc "id") with
  | none =>
    rw [h] at hk
    simp only [hk, reduceCtorEq, false_and, exists_false, not_false_eq_true, true_and, false_or, Option.isSome_none,
      Bool.false_eq_true, if_false]
    constructor
    · intro e
      apply UInt16.toNat.inj
      rw [UInt16.toNat_ofNat', e]
    · rintro rfl
      rw [UInt16.toNat_ofNat']
  | some v =>
    rw [h] at hk
    simp only [hk, Option.some.injEq, Option.isSome_some, if_true, Option.bind_some, exists_eq', not_true_eq_false,
      false_and, or_false]
    cases hv : Json.asU16 v with
    | some x =>
      have hv := (asU16_iff v x).mp hv
      subst hv
      constructor
      · rintro (h' | ⟨⟨v, rfl, h'⟩, -⟩)
        · have : (x.toNat : Int) = id.toNat := Json.num.inj h'
          exact UInt16.toNat.inj (Int.ofNat.inj this)
        · exact absurd ⟨x, rfl⟩ h'
      · rintro rfl
        exact .inl rfl
    | none =>
      have hn : ¬∃ x : UInt16, v = .num x.toNat := by
        rintro ⟨x, hx⟩
        rw [(asU16_iff v x).mpr hx] at hv
        cases hv
      constructor
      · rintro (h' | ⟨-, rfl⟩)
        · exact absurd ⟨id, h'⟩ hn
        · rfl
      · rintro rfl
        exact .inr ⟨⟨v, rfl, hn⟩, rfl⟩

theorem isRow_iff (A : AddrText) (now : Int64) (i : Nat) (j : Json) (r : Row) :
    IsRow A.parse now i j r ↔ entry A now i j = some (elemOf r) := by
  unfold IsRow entry
  constructor
  · rintro ⟨l, rfl, h1, h2, h3, h4, h5⟩
    rw [describes_iff] at h1
    rw [← flag_iff] at h2 h4
    rw [← seen_iff] at h3
    rw [wants_iff] at h5
    simp only [Elem.fromJson, h1, bind, Option.bind_some, Option.map_some, h2, h3, h4]
    unfold elemOf
    rw [← h5]
    by_cases hk : (Json.obj l).hasKey (asc "id") = true
    · simp only [if_pos hk]
    · simp only [if_neg hk]
  · intro h
    obtain ⟨e, h1, h2⟩ := Option.map_eq_some_iff.mp h
    cases j with
    | obj l =>
      simp only [Elem.fromJson, bind, Option.bind_eq_some_iff, Option.some.injEq] at h1
      obtain ⟨s, hs, rfl⟩ := h1
      refine ⟨l, rfl, ?_, ?_, ?_, ?_, ?_⟩
      · rw [describes_iff, hs]
        have := congrArg Elem.service h2
        rw [← show (elemOf r).service = r.service from rfl, ← this]
        split <;> rfl
      · rw [← flag_iff, ← show (elemOf r).static = r.static from rfl, ← congrArg Elem.static h2]
        split <;> rfl
      · rw [← seen_iff, ← show (elemOf r).lastSeen = r.seen from rfl, ← congrArg Elem.lastSeen h2]
        split <;> rfl
      · rw [← flag_iff, ← show (elemOf r).active = r.active from rfl, ← congrArg Elem.active h2]
        split <;> rfl
      · rw [wants_iff, ← show (elemOf r).id = r.wants from rfl, ← congrArg Elem.id h2]
        by_cases hk : (Json.obj l).hasKey (asc "id") = true
        · simp only [if_pos hk]
        · simp only [if_neg hk]
    | _ => cases h1

/-- Every entry that is read is one the specification knows. -/
theorem entry_row {A : AddrText} {now : Int64} {i : Nat} {j : Json} {e : Elem} (h : entry A now i j = some e) :
    e = elemOf ⟨e.id, e.service, e.static, e.lastSeen, e.active⟩ := by
  obtain ⟨e', h1, rfl⟩ := Option.map_eq_some_iff.mp h
  have hen : e'.enabled = false := by
    cases j with
    | obj l =>
      simp only [Elem.fromJson, bind, Option.bind_eq_some_iff, Option.some.injEq] at h1
      obtain ⟨s, hs, rfl⟩ := h1
      rfl
    | _ => cases h1
  unfold elemOf
  split <;> (rw [← hen])

theorem loadLoop_step (A : AddrText) (now : Int64) (j : Json) (js : List Json) (n : Nat) (t : Table) :
    loadLoop A now (j :: js) n t = match entry A now n j with
      | none => .err
      | some e => match t.addElement e with
        | none => .panic
        | some (t, _) => loadLoop A now js (n + 1) t := by
  rw [loadLoop]
  unfold entry
  cases Elem.fromJson A now j <;> rfl

theorem probe_first_aux {m : AMap UInt16 Elem} {start : UInt16} {n : Nat} {cur i : UInt16}
    (h : probe m start n cur = some i) : ∃ k, k < n ∧ i.toNat = (cur.toNat + k) % 65536 ∧
      ∀ q, q < k → ∀ x : UInt16, x.toNat = (cur.toNat + q) % 65536 → (m.get x).isSome := by
  induction n generalizing cur with
  | zero => cases h
  | succ n ih =>
    simp only [probe] at h
    split at h
    · rename_i hc
      split at h
      · cases h
      · obtain ⟨k, h1, h2, h3⟩ := ih h
        have hs : (cur + 1).toNat = (cur.toNat + 1) % 65536 := by rw [UInt16.toNat_add]; rfl
        refine ⟨k + 1, by omega, by omega, ?_⟩
        intro q hq x hx
        cases q with
        | zero =>
          have : x = cur := UInt16.toNat.inj (by have := cur.toNat_lt; omega)
          rw [this]
          exact hc
        | succ q => exact h3 q (by omega) x (by omega)
    · injection h with h
      subst h
      have := cur.toNat_lt
      exact ⟨0, by omega, by omega, fun q hq => absurd hq (Nat.not_lt_zero q)⟩

theorem addElement_first {t t' : Table} {e : Elem} {i : UInt16} (h : t.addElement e = some (t', i)) {used : List UInt16}
    (hu : ∀ x, x ∈ used ↔ (t.svcMap.get x).isSome) : FirstFree (· ∈ used) e.id i := by
  refine ⟨?_, ?_⟩
  · change ¬i ∈ used
    rw [hu, (addElement_eq h).1]
    exact Bool.false_ne_true
  · unfold Table.addElement at h
    split at h
    · cases h
    · rename_i id hp
      injection h with h
      injection h with h1 h2
      subst h2
      obtain ⟨k, h1, h2, h3⟩ := probe_first_aux hp
      exact ⟨k, h1, h2, fun q hq x hx => (hu x).mpr (h3 q hq x hx)⟩

theorem loadLoop_ok {A : AddrText} {now : Int64} {js : List Json} {n : Nat} {t t' : Table} {used : List UInt16}
    (hu : ∀ x, x ∈ used ↔ (t.svcMap.get x).isSome) (hn : t.svcMap.keys.Nodup) (h : loadLoop A now js n t = .ok t') :
    ∃ rows ids, Rows A.parse now n js rows ∧ Placed used rows ids ∧ t'.svcMap.keys.Nodup ∧
      t'.svcMap.length = t.svcMap.length + js.length ∧
      (∀ p ∈ rows.zip ids, t'.svcMap.get p.2 = some { elemOf p.1 with id := p.2 }) ∧
      (∀ id, id ∉ ids → t'.svcMap.get id = t.svcMap.get id) ∧ (∀ id ∈ ids, id ∉ used) := by
  induction js generalizing n t used with
  | nil =>
    injection h with h
    subst h
    exact ⟨[], [], .nil, .nil, hn, rfl, nofun, fun _ _ => rfl, nofun⟩
  | cons j js ih =>
    rw [loadLoop_step] at h
    split at h
    · cases h
    · rename_i e he
      split at h
      · cases h
      · rename_i t1 id ha
        have hf := addElement_first ha hu
        obtain ⟨h1, rfl⟩ := addElement_eq ha
        have hu' : ∀ x, x ∈ id :: used ↔ ((t.svcMap.insert id { e with id := id }).get x).isSome := by
          intro x
          rw [AMap.get_insert, List.mem_cons, hu]
          by_cases hx : x = id
          · simp [hx]
          · simp [hx]
        obtain ⟨rows, ids, k1, k2, k3, k4, k5, k6, k7⟩ := ih (used := id :: used) hu' (AMap.nodup_insert hn _ _) h
        have hrow := entry_row he
        refine ⟨⟨e.id, e.service, e.static, e.lastSeen, e.active⟩ :: rows, id :: ids,
          .cons ((isRow_iff _ _ _ _ _).mpr (by rw [← hrow]; exact he)) k1, .cons hf k2, k3, ?_, ?_, ?_, ?_⟩
        · rw [k4]
          simp only [AMap.length_insert_new h1, List.length_cons]
          omega
        · intro p hp
          rw [List.zip_cons_cons, List.mem_cons] at hp
          rcases hp with rfl | hp
          · dsimp only
            rw [k6 id (fun hid => k7 id hid List.mem_cons_self)]
            dsimp only
            rw [AMap.get_insert, if_pos rfl, ← hrow]
          · exact k5 p hp
        · intro x hx
          rw [List.mem_cons, not_or] at hx
          rw [k6 x hx.2]
          dsimp only
          rw [AMap.get_insert, if_neg hx.1]
        · intro x hx
          rcases List.mem_cons.mp hx with rfl | hx
          · exact hf.1
          · exact fun hxu => k7 x hx (List.mem_cons_of_mem _ hxu)

theorem rows_entry {A : AddrText} {now : Int64} {n : Nat} {j : Json} {js : List Json} {rows : List Row}
    (h : Rows A.parse now n (j :: js) rows) : ∃ e rs, entry A now n j = some e ∧ Rows A.parse now (n + 1) js rs := by
  cases h with
  | cons h1 h2 => exact ⟨_, _, (isRow_iff _ _ _ _ _).mp h1, h2⟩

theorem loadLoop_rows {A : AddrText} {now : Int64} {js : List Json} {n : Nat} {t : Table} {rows : List Row}
    (h : Rows A.parse now n js rows) : loadLoop A now js n t ≠ .err := by
  induction js generalizing n t rows with
  | nil => exact nofun
  | cons j js ih =>
    obtain ⟨e, rs, h1, h2⟩ := rows_entry h
    rw [loadLoop_step, h1]
    dsimp only
    split
    · exact nofun
    · exact ih h2

theorem loadLoop_panic_iff {A : AddrText} {now : Int64} {js : List Json} {n : Nat} {t : Table}
    (hn : t.svcMap.keys.Nodup) : loadLoop A now js n t = .panic ↔
      65536 < t.svcMap.length + js.length ∧ ∃ rows, Rows A.parse now n (js.take (65537 - t.svcMap.length)) rows := by
  have hlen : ∀ {t : Table}, t.svcMap.keys.Nodup → t.svcMap.length ≤ 65536 := by
    intro t hn
    have := ids_le hn
    simpa only [AMap.keys, List.length_map] using this
  induction js generalizing n t with
  | nil =>
    constructor
    · intro h
      cases h
    · rintro ⟨h, -⟩
      have := hlen hn
      simp only [List.length_nil] at h
      omega
  | cons j js ih =>
    have hl := hlen hn
    have hk : 65537 - t.svcMap.length = (65536 - t.svcMap.length) + 1 := by omega
    rw [loadLoop_step, hk, List.take_succ_cons]
    split
    · rename_i he
      constructor
      · intro h
        cases h
      · rintro ⟨-, rows, h⟩
        obtain ⟨e, rs, h1, -⟩ := rows_entry h
        rw [he] at h1
        cases h1
    · rename_i e he
      have hrow := (isRow_iff A now n j ⟨e.id, e.service, e.static, e.lastSeen, e.active⟩).mpr
        (by rw [← entry_row he]; exact he)
      split
      · rename_i ha
        have := ids_all (l := t.svcMap.keys) (fun i => (AMap.get_isSome_iff _ _).mp (addElement_none ha i))
        simp only [AMap.keys, List.length_map] at this
        have e0 : t.svcMap.length = 65536 := by omega
        refine iff_of_true rfl ⟨by simp only [List.length_cons]; omega, ?_⟩
        rw [e0]
        exact ⟨_, .cons hrow .nil⟩
      · rename_i t1 i ha
        obtain ⟨h1, rfl⟩ := addElement_eq ha
        have hnew := AMap.length_insert_new (v := { e with id := i }) h1
        have hnod := AMap.nodup_insert hn i { e with id := i }
        have hl' := hlen (t := { t with svcMap := t.svcMap.insert i { e with id := i } }) hnod
        dsimp only at hl'
        refine Iff.trans (ih (n := n + 1) (t := { t with
          idMap := t.idMap.insert e.service.toIdentifier i, svcMap := t.svcMap.insert i { e with id := i } }) hnod) ?_
        dsimp only
        rw [hnew] at hl' ⊢
        have e1 : 65537 - (t.svcMap.length + 1) = 65536 - t.svcMap.length := by omega
        rw [e1, List.length_cons]
        constructor
        · rintro ⟨h2, rows, h3⟩
          exact ⟨by omega, _, .cons hrow h3⟩
        · rintro ⟨h2, rows, h3⟩
          obtain ⟨_, rs, -, h4⟩ := rows_entry h3
          exact ⟨by omega, rs, h4⟩

end Verif.Load
