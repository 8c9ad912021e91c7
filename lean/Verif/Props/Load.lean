import Verif.Lemmas.Load
import Verif.Props.Config
/-!
# C118: a stored configuration means what it says

The specification is in `Verif/Spec/Load.lean`. It is about every JSON document, not only about those that the program
has written.
-/
namespace Verif.Props.Load
open Verif Verif.SvcTable Verif.Config Verif.Spec.Load Verif.Spec.SvcTable Verif.Spec.Config Verif.Load

theorem fromJson_listed {A : AddrText} {now : Int64} {j : Json} {entries : List Json} (h : Listed j entries) :
    Table.fromJson A now j = loadLoop A now entries 0 (Table.new now) := by
  obtain ⟨l, rfl, h⟩ := h
  rw [says_iff] at h
  simp only [Table.fromJson, h]

theorem not_listed {A : AddrText} {now : Int64} {j : Json} (h : ¬∃ entries, Listed j entries) :
    Table.fromJson A now j = .err := by
  cases j with
  | obj l =>
    unfold Table.fromJson
    dsimp only
    split
    · rename_i svcs hf
      exact absurd ⟨svcs, l, rfl, (says_iff _ _ _).mpr hf⟩ h
    · rfl
  | _ => rfl

theorem new_get (now : Int64) (x : UInt16) : x ∈ [(0 : UInt16)] ↔ ((Table.new now).svcMap.get x).isSome := by
  have : (Table.new now).svcMap.get x = if x = 0 then some (Elem.new now 0 .control true true) else none := by
    change AMap.get (AMap.insert [] 0 _) x = _
    rw [AMap.get_insert]
    rfl
  rw [this, List.mem_singleton]
  by_cases h : x = 0
  · simp [h]
  · simp [h]

theorem new_saved (now : Int64) (x : UInt16) : (Table.new now).svcMap.get x =
    if x = 0 then some ⟨0, .control, true, true, now, true⟩ else none := by
  change AMap.get (AMap.insert [] 0 _) x = _
  rw [AMap.get_insert]
  rfl

theorem row_visible (r : Row) (id : UInt16) :
    ({ elemOf r with id := id } : Elem).visible = true ↔ r.static = false ∧ r.active = true := by
  have h : ({ elemOf r with id := id } : Elem).visible = if r.static then false else r.active := rfl
  rw [h]
  cases r.static <;> simp

theorem control_iff (s : Service) : (!s.isControl) = true ↔ s.svcType ≠ .controlProtocol := by
  unfold Service.isControl
  rw [Bool.not_eq_true', decide_eq_false_iff_not]

/-- C118: a table that was loaded from a document has the services that the document lists, each with the id it asks
for or the next one that is free, with the flags and the time the document gives for it; it has the control service;
and it has nothing else. The services that can be used are the listed ones that are active and not static. -/
theorem C118_table (A : AddrText) (now : Int64) (j : Json) (t : Table) (h : Table.fromJson A now j = .ok t) :
    ∃ entries rows ids, Listed j entries ∧ Rows A.parse now 0 entries rows ∧ Placed [0] rows ids ∧
      (∀ id v, saved t id = some v ↔ (id = 0 ∧ v = (⟨.controlProtocol, none, none, none⟩, true, now, true)) ∨
        ∃ r, (r, id) ∈ rows.zip ids ∧ v = (r.service, r.static, r.seen, r.active)) ∧
      (∀ id s, (id, s) ∈ t.visible ↔ ∃ r, (r, id) ∈ rows.zip ids ∧ r.service = s ∧ s.svcType ≠ .controlProtocol ∧
        r.static = false ∧ r.active = true) := by
  by_cases hl : ∃ entries, Listed j entries
  · obtain ⟨entries, hl⟩ := hl
    rw [fromJson_listed hl] at h
    obtain ⟨rows, ids, h1, h2, h3, -, h5, h6, h7⟩ := loadLoop_ok (used := [0]) (new_get now) (inv_new now).ids h
    have hlen : ids.length = rows.length := by
      clear h1 h5 h6 h7
      generalize [(0 : UInt16)] = used at h2
      induction h2 with
      | nil => rfl
      | cons _ _ ih => simp [ih]
    have hmem : ∀ id, id ∈ ids → ∃ r, (r, id) ∈ rows.zip ids := by
      intro id hid
      obtain ⟨n, hn, rfl⟩ := List.mem_iff_getElem.mp hid
      refine ⟨rows[n], ?_⟩
      rw [List.mem_iff_getElem]
      exact ⟨n, by rw [List.length_zip]; omega, by rw [List.getElem_zip]⟩
    have hget : ∀ id e, t.svcMap.get id = some e ↔ (id = 0 ∧ e = ⟨0, .control, true, true, now, true⟩) ∨
        ∃ r, (r, id) ∈ rows.zip ids ∧ e = { elemOf r with id := id } := by
      intro id e
      by_cases hid : id ∈ ids
      · obtain ⟨r, hr⟩ := hmem id hid
        have h0 : id ≠ 0 := fun e => h7 id hid (by rw [e]; exact List.mem_cons_self)
        constructor
        · intro hg
          have := h5 _ hr
          rw [hg] at this
          injection this with this
          exact .inr ⟨r, hr, this⟩
        · rintro (⟨h, -⟩ | ⟨r', hr', rfl⟩)
          · exact absurd h h0
          · exact h5 _ hr'
      · rw [h6 id hid, new_saved]
        constructor
        · intro hg
          split at hg
          · rename_i h0
            injection hg with hg
            exact .inl ⟨h0, hg.symm⟩
          · cases hg
        · rintro (⟨rfl, rfl⟩ | ⟨r', hr', -⟩)
          · rfl
          · exact absurd (List.of_mem_zip hr').2 hid
    refine ⟨entries, rows, ids, hl, h1, h2, ?_, ?_⟩
    · intro id v
      unfold saved
      rw [Option.map_eq_some_iff]
      constructor
      · rintro ⟨e, he, rfl⟩
        rcases (hget id e).mp he with ⟨h0, rfl⟩ | ⟨r, hr, rfl⟩
        · exact .inl ⟨h0, rfl⟩
        · exact .inr ⟨r, hr, rfl⟩
      · rintro (⟨h0, rfl⟩ | ⟨r, hr, rfl⟩)
        · exact ⟨_, (hget id _).mpr (.inl ⟨h0, rfl⟩), rfl⟩
        · exact ⟨_, (hget id _).mpr (.inr ⟨r, hr, rfl⟩), rfl⟩
    · intro id s
      simp only [Table.visible, List.mem_map, List.mem_filter, Prod.mk.injEq, Bool.and_eq_true]
      constructor
      · rintro ⟨e, ⟨⟨p, hp, rfl⟩, hv, hc⟩, e1, e2⟩
        rcases (hget _ _).mp (AMap.get_of_mem (k := p.1) (v := p.2) h3 hp) with ⟨-, h0⟩ | ⟨r, hr, h0⟩
        · rw [h0] at hc
          cases hc
        · rw [h0] at hv hc e1 e2
          dsimp only at e1
          subst e1
          subst e2
          exact ⟨r, hr, rfl, (control_iff _).mp hc, (row_visible r p.1).mp hv⟩
      · rintro ⟨r, hr, rfl, h8, h9, h10⟩
        have hg := (hget id _).mpr (.inr ⟨r, hr, rfl⟩)
        exact ⟨_, ⟨⟨_, AMap.get_mem hg, rfl⟩, (row_visible r id).mpr ⟨h9, h10⟩, (control_iff _).mpr h8⟩, rfl, rfl⟩
  · rw [not_listed hl] at h
    cases h

/-- C118: a document is accepted exactly if it is an object with a list of at most 65535 services, all of which can be
read. -/
theorem C118_accepted (A : AddrText) (now : Int64) (j : Json) : (∃ t, Table.fromJson A now j = .ok t) ↔
    ∃ entries rows, Listed j entries ∧ Rows A.parse now 0 entries rows ∧ entries.length ≤ 65535 := by
  have hlen : (Table.new now).svcMap.length = 1 := rfl
  constructor
  · rintro ⟨t, h⟩
    by_cases hl : ∃ entries, Listed j entries
    · obtain ⟨entries, hl⟩ := hl
      rw [fromJson_listed hl] at h
      obtain ⟨rows, ids, h1, h2, h3, h4, -⟩ := loadLoop_ok (used := [0]) (new_get now) (inv_new now).ids h
      have := ids_le h3
      simp only [AMap.keys, List.length_map] at this
      exact ⟨entries, rows, hl, h1, by omega⟩
    · rw [not_listed hl] at h
      cases h
  · rintro ⟨entries, rows, hl, h1, h2⟩
    rw [fromJson_listed hl]
    cases h : loadLoop A now entries 0 (Table.new now) with
    | ok t => exact ⟨t, rfl⟩
    | err => exact absurd h (loadLoop_rows h1)
    | panic =>
      have := (loadLoop_panic_iff (inv_new now).ids).mp h
      omega

/-- C118: loading fails with a panic exactly if there are more services than ids; whether the last ones can be read
does not matter then. All other documents are refused with an error. -/
theorem C118_panics (A : AddrText) (now : Int64) (j : Json) : Table.fromJson A now j = .panic ↔
    ∃ entries rows, Listed j entries ∧ Rows A.parse now 0 (entries.take 65536) rows ∧ 65536 ≤ entries.length := by
  have hlen : (Table.new now).svcMap.length = 1 := rfl
  constructor
  · intro h
    by_cases hl : ∃ entries, Listed j entries
    · obtain ⟨entries, hl⟩ := hl
      rw [fromJson_listed hl] at h
      obtain ⟨h1, rows, h2⟩ := (loadLoop_panic_iff (inv_new now).ids).mp h
      rw [hlen] at h1 h2
      exact ⟨entries, rows, hl, h2, by omega⟩
    · rw [not_listed hl] at h
      cases h
  · rintro ⟨entries, rows, hl, h1, h2⟩
    rw [fromJson_listed hl]
    refine (loadLoop_panic_iff (inv_new now).ids).mpr ⟨by omega, rows, ?_⟩
    rw [hlen]
    exact h1

theorem asUsize_iff (v : Json) (x : UInt64) : asUsize v = some x ↔ v = .num x.toNat := by
  cases v with
  | num n =>
    simp only [asUsize, Json.num.injEq]
    have hx := x.toNat_lt
    constructor
    · intro h
      split at h
      · rename_i hn
        injection h with h
        have := congrArg UInt64.toNat h
        rw [UInt64.toNat_ofNat'] at this
        omega
      · cases h
    · rintro rfl
      rw [if_pos (by omega)]
      simp
  | _ => simp [asUsize]

/-- C118: a configuration is accepted exactly if it is an object with a table that is accepted, the texts of two UUIDs,
and a version of 64 bits; they are what is loaded. -/
theorem C118_config (E : Env) (now : Int64) (j : Json) (c : PConfig) : PConfig.fromJson E now j = .ok c ↔
    ∃ l tj u p, j = .obj l ∧ Says l (asc "svc_table") tj ∧ Table.fromJson E.addr now tj = .ok c.table ∧
      Says l (asc "uuid") (.str u) ∧ E.parseUuid u = some c.uuid ∧
      Says l (asc "passwd") (.str p) ∧ E.parseUuid p = some c.passwd ∧
      Says l (asc "version") (.num c.version.toNat) := by
  constructor
  · intro h
    cases j with
    | obj l =>
      unfold PConfig.fromJson at h
      dsimp only at h
      split at h
      · cases h
      · rename_i tj htj
        split at h
        · cases h
        · cases h
        · rename_i t ht
          split at h
          · rename_i u p v hu hp hv
            split at h
            · rename_i u' p' hu' hp'
              injection h with h
              subst h
              exact ⟨l, tj, u, p, rfl, (says_iff _ _ _).mpr htj, ht, (str_iff _ _ _).mp hu, hu', (str_iff _ _ _).mp hp,
                hp', (bind_iff l _ _ (fun x => .num x.toNat) asUsize_iff v).mp hv⟩
            · cases h
          · cases h
    | _ => cases h
  · rintro ⟨l, tj, u, p, rfl, h1, h2, h3, h4, h5, h6, h7⟩
    unfold PConfig.fromJson
    dsimp only
    rw [(says_iff _ _ _).mp h1]
    dsimp only
    rw [h2]
    dsimp only
    rw [(str_iff _ _ _).mpr h3, (str_iff _ _ _).mpr h5,
      (bind_iff l _ _ (fun x => .num x.toNat) asUsize_iff c.version).mpr h7]
    dsimp only
    rw [h4, h6]

/-- C118: only the table can make loading a configuration panic. -/
theorem C118_config_panics (E : Env) (now : Int64) (j : Json) : PConfig.fromJson E now j = .panic ↔
    ∃ l tj, j = .obj l ∧ Says l (asc "svc_table") tj ∧ Table.fromJson E.addr now tj = .panic := by
  constructor
  · intro h
    cases j with
    | obj l =>
      unfold PConfig.fromJson at h
      dsimp only at h
      split at h
      · cases h
      · rename_i tj htj
        split at h
        · rename_i ht
          exact ⟨l, tj, rfl, (says_iff _ _ _).mpr htj, ht⟩
        · cases h
        · split at h
          · split at h <;> cases h
          · cases h
    | _ => cases h
  · rintro ⟨l, tj, rfl, h1, h2⟩
    unfold PConfig.fromJson
    dsimp only
    rw [(says_iff _ _ _).mp h1]
    dsimp only
    rw [h2]

/-- C118: a client whose configuration file can be read starts with the identity and the table of that file, whatever
the skeleton file says, and with the static services it was given added to the table. -/
theorem C118_started (E : Env) (S : Setup) (w : World) (a : StartUp) (data : Bytes) (j : Json) (p : PConfig) (t : Table)
    (hw : w.proc = none) (hf : w.fs.config = some data) (hr : a.readConfig = true) (hj : E.parse data = some j)
    (hp : PConfig.fromJson E a.now j = .ok p)
    (hskel : S.skeleton = true → loadFile E a.now w.fs.skeleton a.readSkeleton ≠ .panic)
    (ht : p.table.run E.farm (a.services.map (.addStatic a.now)) = some t)
    (h1 : a.outSkeleton = .ok) (h2 : a.outIdentity = .ok) (h3 : a.outConfig = .ok) :
    identity (w.step E S (.start a)).1 = some (p.uuid, p.passwd) ∧ table (w.step E S (.start a)).1 = some t := by
  have hc : loadFile E a.now w.fs.config a.readConfig = .ok (some p) := by
    rw [hf, hr]
    unfold loadFile
    rw [if_pos rfl]
    dsimp only
    rw [hj]
    dsimp only
    rw [hp]
  obtain ⟨skel, hs⟩ : ∃ skel, (if S.skeleton then loadFile E a.now w.fs.skeleton a.readSkeleton else .ok none) = .ok skel := by
    by_cases hS : S.skeleton = true
    · rw [if_pos hS]
      have := hskel hS
      cases hx : loadFile E a.now w.fs.skeleton a.readSkeleton with
      | ok s => exact ⟨s, rfl⟩
      | panic => exact absurd hx this
      | err =>
        unfold loadFile at hx
        split at hx
        · split at hx
          · cases hx
          · split at hx
            · cases hx
            · split at hx <;> cases hx
        · cases hx
    · rw [if_neg hS]
      exact ⟨none, rfl⟩
  have hl : (loadConfiguration E S w.fs a).2 = some p := Config.load_live hs hc h1 h2
  refine ⟨Config.start_live hw hl ht h3, ?_⟩
  simp only [World.step, hw]
  unfold World.start
  generalize loadConfiguration E S w.fs a = r at hl
  obtain ⟨fs, o⟩ := r
  dsimp only at hl
  subst hl
  dsimp only
  rw [ht]
  dsimp only
  rw [if_pos h3, h3]
  simp [table, World.save, writeFile]

/-! ### Examples -/

/-- A document that was written by hand: an entry without an id, flags and time; one whose id is taken; a static one;
one that is not active; one whose id is no number, and whose time is too large. -/
def byHand : Json := .obj [(asc "services", .arr [
  .obj [(asc "svc_type", .num 1), (asc "mac", .str (asc "1:2:3:4:5:6")), (asc "address", .str []), (asc "path", .str [])],
  .obj [(asc "id", .num 1), (asc "svc_type", .num 7), (asc "mac", .str (asc "+0:0:0:0:0:aB")), (asc "address", .str []),
    (asc "path", .str (asc "/x"))],
  .obj [(asc "svc_type", .num 65535), (asc "mac", .str (asc "0:0:0:0:0:1")), (asc "address", .str []),
    (asc "path", .str (asc "/x")), (asc "static_svc", .bool true), (asc "last_seen", .num 7)],
  .obj [(asc "svc_type", .num 3), (asc "mac", .str (asc "0:0:0:0:0:1")), (asc "address", .str []),
    (asc "path", .str (asc "/x")), (asc "active", .bool false)],
  .obj [(asc "id", .str (asc "9")), (asc "svc_type", .num 5), (asc "mac", .str (asc "0:0:0:0:0:1")),
    (asc "address", .str []), (asc "path", .str (asc "/x")), (asc "last_seen", .num 9223372036854775808)]])]

/-- What is loaded from it. -/
example : (match Table.fromJson Props.SvcTable.demoText 5 byHand with
    | .ok t => decide (saved t 1 = some (.rtsp ⟨1, 2, 3, 4, 5, 6⟩ Props.SvcTable.demoAddr [], false, 5, true)) &&
        decide (saved t 2 = some (.lockedMjpeg ⟨0, 0, 0, 0, 0, 0xab⟩ Props.SvcTable.demoAddr (some (asc "/x")), false, 5, true)) &&
        decide (saved t 3 = some (.tcp ⟨0, 0, 0, 0, 0, 1⟩ Props.SvcTable.demoAddr, true, 7, true)) &&
        decide (saved t 4 = some (.unknownRtsp ⟨0, 0, 0, 0, 0, 1⟩ Props.SvcTable.demoAddr, false, 5, false)) &&
        decide (saved t 5 = some (.http ⟨0, 0, 0, 0, 0, 1⟩ Props.SvcTable.demoAddr, false, 5, true)) &&
        decide (t.visible.map (·.1) = [1, 2, 5])
    | _ => false) = true := by decide +kernel

/-- One bad entry, and nothing is loaded: a type that does not exist. -/
example : Table.fromJson Props.SvcTable.demoText 0
    (Props.SvcTable.demoSaved [Props.SvcTable.demoEntry 5 1, Props.SvcTable.demoEntry 8 2]) = .err := by decide +kernel

/-- The control service with a bad address is accepted. -/
example : ∃ t, Table.fromJson { format := fun _ => [], parse := fun _ => none } 0
    (Props.SvcTable.demoSaved [Props.SvcTable.demoEntry 0 7]) = .ok t :=
  (C118_accepted _ 0 _).mpr ⟨_, [⟨7, ⟨.controlProtocol, none, none, none⟩, false, 0, true⟩],
    ⟨_, rfl, [], [], rfl, nofun⟩, .cons ((isRow_iff _ _ _ _ _).mpr (by decide +kernel)) .nil, by decide⟩

/-- A configuration that was written by hand is what the client starts with. -/
noncomputable def handWritten : Json := .obj [(asc "svc_table", Props.SvcTable.demoSaved []),
  (asc "uuid", .str [7]), (asc "passwd", .str [8]), (asc "version", .num 3)]

example : identity ((World.step Config.demoEnv Config.demoSetup
    ⟨⟨some (Config.demoEnv.render handWritten), none, none⟩, [], none⟩ (.start (Config.demoStart .ok))).1) = some ([7], [8]) := by
  have hp : PConfig.fromJson Config.demoEnv 0 handWritten = .ok ⟨[7], [8], 3, Table.new 0⟩ :=
    (C118_config _ _ _ _).mpr ⟨_, _, [7], [8], rfl, ⟨[], _, rfl, nofun⟩, by decide +kernel,
      ⟨[_], _, rfl, by decide +kernel⟩, rfl, ⟨[_, _], _, rfl, by decide +kernel⟩, rfl,
      ⟨[_, _, _], _, rfl, by decide +kernel⟩⟩
  cases ht : (Table.new 0).run Config.demoEnv.farm ((Config.demoStart .ok).services.map (.addStatic 0)) with
  | none => exact absurd ht (by decide +kernel)
  | some t =>
    exact (C118_started Config.demoEnv Config.demoSetup _ (Config.demoStart .ok) _ handWritten ⟨[7], [8], 3, Table.new 0⟩ t
      rfl rfl rfl (Config.demo_faithful.json _) hp (fun _ h => by cases h) ht rfl rfl rfl).1

end Verif.Props.Load
