import Verif.Lemmas.CustomStorage
import Verif.Props.Config
/-!
# C96: the custom storage of the C interface
-/
namespace Verif.Props.CustomStorage
open Verif Verif.CustomStorage Verif.Spec.CustomStorage Verif.Spec.Config Verif.SvcTable Verif.Spec.SvcTable
open Verif.Config (Env PConfig loadFile)

/-- Paths: if the function gives strings in blocks of their own, the client gets them in order (an error if one of them is
not UTF-8), and in both cases every block is freed, once, and no other. An error of the function is an error and frees
nothing. Without a function there are no paths. -/
theorem C96_paths (h : Heap) (a : PathsAnswer) :
    loadPaths h none = (h, .ok [])
    ∧ (a.code ≠ 0 → loadPaths h (some a) = (h, .err))
    ∧ ∀ arr ps ss, GivesPaths h a arr ps ss →
        loadPaths h (some a) = (without h (arr :: ps), if ∀ s ∈ ss, Utf8.valid s = true then .ok ss else .err) := by
  refine ⟨rfl, fun hc => ?_, fun arr ps ss hg => loadPaths_at hg⟩
  unfold loadPaths
  dsimp only
  rw [if_pos hc]

/-- A heap with two paths. -/
def demoHeap : Heap := fun q =>
  if q = 1 then some (.ptrs [some 2, some 3]) else if q = 2 then some (.text [47, 97, 0]) else if q = 3 then some (.text [0, 1]) else none

example : GivesPaths demoHeap ⟨0, some 1, 2⟩ 1 [2, 3] [[47, 97], []] := by
  refine ⟨rfl, rfl, by decide, rfl, ?_⟩
  intro i p s hp hs
  match i with
  | 0 => cases hp; cases hs; exact ⟨by decide, [], rfl⟩
  | 1 => cases hp; cases hs; exact ⟨by decide, [1], rfl⟩
  | i + 2 => cases hp

/-- **Finding.** A function that succeeds without any paths and leaves the array NULL and its length 0 causes undefined
behaviour: the NULL pointer is freed. -/
theorem C96_null_paths (h : Heap) (len : Nat) : (loadPaths h (some ⟨0, none, len⟩)).2 = .ub := rfl

/-- The configuration: without a function, or if it fails, an error; NULL gives a new configuration; a text gives the
configuration it describes, or an error, and its block is freed in both cases. -/
theorem C96_load (E : Env) (now : Int64) (fresh : PConfig) (h : Heap) (a : LoadAnswer) :
    loadConfiguration E now fresh h none = (h, .err)
    ∧ (a.code ≠ 0 → loadConfiguration E now fresh h (some a) = (h, .err))
    ∧ (a.code = 0 → a.ptr = none → loadConfiguration E now fresh h (some a) = (h, .ok fresh))
    ∧ ∀ p s, GivesText h a p s →
      (¬ Utf8.valid s = true → loadConfiguration E now fresh h (some a) = (without h [p], .err))
      ∧ (Unusable E (some s) → loadConfiguration E now fresh h (some a) = (without h [p], .err))
      ∧ (∀ c, Utf8.valid s = true → loadFile E now (some s) true = .ok (some c) →
          loadConfiguration E now fresh h (some a) = (without h [p], .ok c)) := by
  refine ⟨rfl, fun hc => ?_, fun hc hp => ?_, fun p s hg => ?_⟩
  · unfold loadConfiguration
    dsimp only
    rw [if_pos hc]
  · unfold loadConfiguration
    dsimp only
    rw [if_neg (fun h => h hc), hp]
  · have key : ∀ o, parseConfig E now s = o → o ≠ .panic →
        loadConfiguration E now fresh h (some a) = (without h [p], o) := by
      intro o ho hn
      rw [loadConfiguration_at hg (by rw [ho]; exact hn), ho]
    refine ⟨fun hv => key _ ?_ (fun h => by cases h), fun hu => key _ ?_ (fun h => by cases h),
      fun c hv hl => key _ ?_ (fun h => by cases h)⟩
    · unfold parseConfig
      rw [if_neg hv]
    · unfold parseConfig
      split
      · cases hj : E.parse s with
        | none => rfl
        | some j =>
          dsimp only
          rw [hu s rfl j hj now]
      · rfl
    · unfold parseConfig
      rw [if_pos hv]
      unfold loadFile at hl
      rw [if_pos rfl] at hl
      dsimp only at hl
      cases hj : E.parse s with
      | none => rw [hj] at hl; cases hl
      | some j =>
        rw [hj] at hl
        dsimp only at hl ⊢
        cases hf : PConfig.fromJson E now j with
        | ok c' =>
          rw [hf] at hl
          injection hl with hl
          injection hl with hl
          rw [hl]
        | err => rw [hf] at hl; cases hl
        | panic => rw [hf] at hl; cases hl

/-! ### A text without NUL -/

/-- Two letters per byte. -/
def letters : Bytes → Bytes
  | [] => []
  | b :: l => (65 + b / 16) :: (65 + b % 16) :: letters l

theorem byte_letters (a b : UInt8) (h1 : 65 + a / 16 = 65 + b / 16) (h2 : 65 + a % 16 = 65 + b % 16) : a = b := by
  have h1 := (UInt8.add_right_inj 65).1 h1
  have h2 := (UInt8.add_right_inj 65).1 h2
  have e1 := congrArg UInt8.toNat h1
  have e2 := congrArg UInt8.toNat h2
  simp only [UInt8.toNat_div, UInt8.toNat_mod, UInt8.reduceToNat] at e1 e2
  apply UInt8.toNat_inj.1
  omega

theorem letters_prefix : ∀ (x y r : Bytes), letters x ++ r = letters y → ∃ z, y = x ++ z ∧ r = letters z
  | [], y, r, h => ⟨y, rfl, h⟩
  | a :: x, [], r, h => by cases h
  | a :: x, b :: y, r, h => by
    simp only [letters, List.cons_append, List.cons.injEq] at h
    obtain ⟨h1, h2, h3⟩ := h
    obtain ⟨z, hz, hr⟩ := letters_prefix x y r h3
    exact ⟨z, by rw [byte_letters a b h1 h2, hz]; rfl, hr⟩

theorem letters_ascii : ∀ (x : Bytes), ∀ b ∈ letters x, 0 < b.toNat ∧ b.toNat < 128
  | [], b, hb => absurd hb List.not_mem_nil
  | a :: x, b, hb => by
    have ha := a.toNat_lt
    simp only [letters, List.mem_cons] at hb
    rcases hb with rfl | rfl | hb
    · simp only [UInt8.toNat_add, UInt8.toNat_div, UInt8.reduceToNat]; omega
    · simp only [UInt8.toNat_add, UInt8.toNat_mod, UInt8.reduceToNat]; omega
    · exact letters_ascii x b hb

open Classical in
/-- The value a text stands for. -/
noncomputable def ofLetters (b : Bytes) : Option Json := if h : ∃ j, letters (JsonCode.enc j) = b then some h.choose else none

/-- External functions whose JSON text is ASCII. -/
noncomputable def textEnv : Env :=
  { Props.Config.demoEnv with
    render := fun j => letters (JsonCode.enc j)
    parse := ofLetters }

theorem text_faithful : Faithful textEnv where
  addr := Props.Config.demo_faithful.addr
  uuid := fun _ => rfl
  json := by
    intro j
    have h : ∃ k, letters (JsonCode.enc k) = letters (JsonCode.enc j) := ⟨j, rfl⟩
    show ofLetters (letters (JsonCode.enc j)) = _
    unfold ofLetters
    rw [dif_pos h]
    obtain ⟨z, hz, hn⟩ := letters_prefix (JsonCode.enc h.choose) (JsonCode.enc j) [] (by rw [List.append_nil]; exact h.choose_spec)
    cases z with
    | nil => exact congrArg some (JsonCode.enc_inj h.choose j [] [] (hz.symm.trans (List.append_nil (JsonCode.enc j)).symm)).1
    | cons a z => cases hn
  cut := by
    intro l n hn
    show ofLetters ((letters (JsonCode.enc (.obj l))).take n) = _
    unfold ofLetters
    rw [dif_neg]
    rintro ⟨k, hk⟩
    obtain ⟨z, hz, hr⟩ := letters_prefix (JsonCode.enc k) (JsonCode.enc (.obj l)) ((letters (JsonCode.enc (.obj l))).drop n)
      (by rw [hk]; exact List.take_append_drop n _)
    have := (JsonCode.enc_inj k (.obj l) z [] (by rw [← hz, List.append_nil])).2
    rw [this] at hr
    have hl := congrArg List.length hr
    rw [List.length_drop] at hl
    have : n < (letters (JsonCode.enc (.obj l))).length := hn
    have : (letters []).length = 0 := rfl
    omega

theorem letters_valid : ∀ (x : Bytes), Utf8.valid (letters x) = true
  | [] => rfl
  | a :: x => by
    have h := letters_ascii (a :: x)
    rw [letters, Utf8.valid.eq_def]
    dsimp only
    rw [if_pos (h _ List.mem_cons_self).2, Utf8.valid.eq_def]
    dsimp only
    rw [if_pos (h _ (List.mem_cons_of_mem _ List.mem_cons_self)).2]
    exact letters_valid x

theorem letters_no_nul (x : Bytes) : 0 ∉ letters x := fun h => absurd (letters_ascii x 0 h).1 (by decide)

/-! ### Starting a client -/

theorem saveConfiguration_saves (E : Env) (c : PConfig) (f : Option (Bytes → Int)) :
    ∀ m ∈ (saveConfiguration E c f).1, m = E.render (c.toJson E) ++ [0] := by
  intro m hm
  unfold saveConfiguration Exports.cstring at hm
  cases f with
  | none => exact absurd hm List.not_mem_nil
  | some f =>
    dsimp only at hm
    split at hm
    · exact absurd hm List.not_mem_nil
    · rename_i d hd
      split at hd
      · cases hd
      · cases hd
        exact List.mem_singleton.1 hm

/-- Whatever the functions answer: the only text that is ever saved at a start is that of the configuration that was loaded
or made. In particular nothing is overwritten if the configuration cannot be loaded; then there is no client. -/
theorem C96_saves (E : Env) (now : Int64) (fresh : PConfig) (h : Heap) (f : Funcs) :
    let r := newClient E now fresh h f
    let l := (loadConfiguration E now fresh h f.load).2
    (∀ m, .save m ∈ r.2.2 → ∃ c, l = .ok c ∧ m = E.render (c.toJson E) ++ [0])
    ∧ (l = .err → r.2.1 = .err ∧ ∀ c ∈ r.2.2, isSave c = false) := by
  intro r l
  have h1 : ∀ c ∈ (if f.load.isSome then [Call.load] else []), isSave c = false := by
    intro c hc
    split at hc
    · rw [List.mem_singleton.1 hc]; rfl
    · exact absurd hc List.not_mem_nil
  have h2 : ∀ c ∈ (if f.rtsp.isSome then [Call.rtsp] else []), isSave c = false := by
    intro c hc
    split at hc
    · rw [List.mem_singleton.1 hc]; rfl
    · exact absurd hc List.not_mem_nil
  have h3 : ∀ c ∈ (if f.mjpeg.isSome then [Call.mjpeg] else []), isSave c = false := by
    intro c hc
    split at hc
    · rw [List.mem_singleton.1 hc]; rfl
    · exact absurd hc List.not_mem_nil
  have no : ∀ (cs : List Call) (m : Bytes), (∀ c ∈ cs, isSave c = false) → Call.save m ∈ cs → False := by
    intro cs m hcs hm
    exact absurd (hcs _ hm) (fun h => by cases h)
  have h12 : ∀ c ∈ (if f.load.isSome then [Call.load] else []) ++ (if f.rtsp.isSome then [Call.rtsp] else []), isSave c = false :=
    fun c hc => (List.mem_append.1 hc).elim (h1 c) (h2 c)
  have h123 : ∀ c ∈ (if f.load.isSome then [Call.load] else []) ++ (if f.rtsp.isSome then [Call.rtsp] else [])
      ++ (if f.mjpeg.isSome then [Call.mjpeg] else []), isSave c = false :=
    fun c hc => (List.mem_append.1 hc).elim (h12 c) (h3 c)
  have hl : loadConfiguration E now fresh h f.load = ((loadConfiguration E now fresh h f.load).1, l) := rfl
  generalize (loadConfiguration E now fresh h f.load).1 = h' at hl
  clear_value l
  have hr : r = newClient E now fresh h f := rfl
  clear_value r
  subst hr
  unfold newClient
  dsimp only
  rw [hl]
  cases l with
  | err => exact ⟨fun m hm => (no _ m h1 hm).elim, fun _ => ⟨rfl, h1⟩⟩
  | panic => exact ⟨fun m hm => (no _ m h1 hm).elim, fun h => by cases h⟩
  | ub => exact ⟨fun m hm => (no _ m h1 hm).elim, fun h => by cases h⟩
  | ok c =>
    refine ⟨fun m hm => ⟨c, rfl, ?_⟩, fun h => by cases h⟩
    dsimp only at hm
    cases hp : pathsOf (loadPaths h' f.rtsp).2 with
    | none => rw [hp] at hm; exact (no _ m h12 hm).elim
    | some x =>
      rw [hp] at hm
      dsimp only at hm
      cases hq : pathsOf (loadPaths (loadPaths h' f.rtsp).1 f.mjpeg).2 with
      | none => rw [hq] at hm; exact (no _ m h123 hm).elim
      | some y =>
        rw [hq] at hm
        dsimp only at hm
        have key := saveConfiguration_saves E c f.save
        have fin : Call.save m ∈ (if f.load.isSome then [Call.load] else []) ++ (if f.rtsp.isSome then [Call.rtsp] else [])
            ++ (if f.mjpeg.isSome then [Call.mjpeg] else []) ++ (saveConfiguration E c f.save).1.map .save := by
          split at hm <;> rename_i he <;> rw [he] <;> exact hm
        rcases List.mem_append.1 fin with hx | hx
        · exact (no _ m h123 hx).elim
        · obtain ⟨n, hn, he⟩ := List.mem_map.1 hx
          cases he
          exact key m hn

/-- Functions that behave: they answer with strings in blocks of their own, the text of a configuration among them. Then the
client is made with this configuration and the paths (those of a list with a path that is not UTF-8 are left out, with a
warning), each function is called once, the configuration is saved, and every block is freed. If saving fails there is no
client. -/
theorem C96_start (E : Env) (now : Int64) (fresh c : PConfig) (h : Heap) (al : LoadAnswer) (ar am : PathsAnswer) (func : Bytes → Int)
    (p arr₁ arr₂ : Nat) (s : Bytes) (ps₁ ps₂ : List Nat) (ss₁ ss₂ : List Bytes)
    (hl : GivesText h al p s) (hr : GivesPaths h ar arr₁ ps₁ ss₁) (hm : GivesPaths h am arr₂ ps₂ ss₂)
    (hd : (p :: (arr₁ :: ps₁) ++ (arr₂ :: ps₂)).Nodup)
    (hv : Utf8.valid s = true) (hc : loadFile E now (some s) true = .ok (some c)) (h0 : 0 ∉ E.render (c.toJson E)) :
    let text := E.render (c.toJson E) ++ [0]
    newClient E now fresh h ⟨some al, some ar, some am, some func⟩ =
      (without h (p :: (arr₁ :: ps₁) ++ (arr₂ :: ps₂)),
       if func text = 0 then .ok ⟨c, (usable ss₁).1, (usable ss₂).1, ((usable ss₁).2, (usable ss₂).2)⟩ else .err,
       [.load, .rtsp, .mjpeg, .save text]) := by
  intro text
  have h1 := ((C96_load E now fresh h al).2.2.2 p s hl).2.2 c hv hc
  obtain ⟨hd1, hd2, hd3⟩ := List.nodup_append.1 hd
  have hr' := givesPaths_without (qs := [p]) hr (fun q hq => by
    rw [List.mem_singleton.1 hq]; exact (List.nodup_cons.1 hd1).1)
  have hm' := givesPaths_without (qs := [p] ++ (arr₁ :: ps₁)) hm (fun q hq hq' => hd3 q hq q hq' rfl)
  have hw : ∀ A B, without (without (without h [p]) A) B = without h (p :: A ++ B) := by
    intro A B
    rw [without_without, without_without]
    rfl
  unfold newClient saveConfiguration Exports.cstring
  dsimp only [Option.isSome]
  rw [h1]
  dsimp only
  rw [loadPaths_at hr']
  dsimp only
  rw [pathsOf_usable]
  dsimp only
  rw [without_without, loadPaths_at hm']
  dsimp only
  rw [pathsOf_usable, if_neg h0]
  dsimp only
  rw [without_without]
  by_cases hf : func text = 0
  · rw [if_pos hf, if_neg (fun h => h hf)]
    rfl
  · rw [if_neg hf, if_pos hf]
    rfl

/-- What was saved is what the next start gets: the same identity, version and services under the same ids. -/
theorem C96_persist (E : Env) (hE : Faithful E) (now : Int64) (fresh c : PConfig) (h : Heap) (p : Nat) (m rest : Bytes)
    (ht : Reachable E.farm E.addr c.table) (hp : ∀ i s, known c.table i = some s → ¬ EmptyLockedPath s)
    (hsaved : (saveConfiguration E c (some fun _ => 0)).1 = [m]) (hv : Utf8.valid (E.render (c.toJson E)) = true)
    (hh : h p = some (.text (m ++ rest))) :
    ∃ t', loadConfiguration E now fresh h (some ⟨0, some p⟩) = (without h [p], .ok ⟨c.uuid, c.passwd, c.version, t'⟩)
      ∧ (∀ i, known t' i = known c.table i) ∧ ∀ i, i ≠ 0 → saved t' i = saved c.table i := by
  have h0 : 0 ∉ E.render (c.toJson E) := by
    intro h0
    unfold saveConfiguration Exports.cstring at hsaved
    rw [if_pos h0] at hsaved
    cases hsaved
  have hm : m = E.render (c.toJson E) ++ [0] :=
    saveConfiguration_saves E c (some fun _ => 0) m (by rw [hsaved]; exact List.mem_cons_self)
  obtain ⟨t', h1, h2, h3⟩ := Verif.Config.loadFile_render hE (c := c) ⟨ht, hp⟩ now
  refine ⟨t', ((C96_load E now fresh h ⟨0, some p⟩).2.2.2 p _ ⟨rfl, h0, rest, ?_⟩).2.2 _ hv h1, ?_⟩
  · rw [hh, hm]; simp
  · obtain ⟨e0, c1, c2, _⟩ := (reachable_inv ht).ctrl
    obtain ⟨e0', c1', c2', _⟩ := (start_inv h3).ctrl
    refine ⟨fun i => ?_, fun i hi => ?_⟩
    · by_cases hi : i = 0
      · subst hi
        simp only [known, c1, c1', Option.map_some, c2, c2']
      · simp only [known, h2 i hi]
        cases c.table.svcMap.get i <;> rfl
    · simp only [saved, h2 i hi]
      cases c.table.svcMap.get i <;> rfl

theorem demo_good : Verif.Config.Good textEnv Props.SvcTable.demoTable := by
  refine ⟨⟨Table.new 0, Props.SvcTable.demoOps, .new 0, Props.SvcTable.demo_services, Props.SvcTable.demo_run⟩, ?_⟩
  intro i s hk hp
  simp only [known, Option.map_eq_some_iff] at hk
  obtain ⟨e, he, rfl⟩ := hk
  have hall : ∀ p ∈ Props.SvcTable.demoTable.svcMap, p.2.service.path ≠ some [] := by decide +kernel
  exact hall _ (AMap.get_mem he) hp.2

/-- A configuration with the identity `([1], [2])`. -/
def demoConfig : PConfig := ⟨[1], [2], 7, Props.SvcTable.demoTable⟩

/-- The text of `demoConfig` is without NUL and UTF-8, so it can be saved and loaded. -/
example : (saveConfiguration textEnv demoConfig (some fun _ => 0)).1 = [textEnv.render (demoConfig.toJson textEnv) ++ [0]]
    ∧ Utf8.valid (textEnv.render (demoConfig.toJson textEnv)) = true := by
  refine ⟨?_, letters_valid _⟩
  unfold saveConfiguration Exports.cstring
  rw [if_neg (show 0 ∉ textEnv.render (demoConfig.toJson textEnv) from letters_no_nul _)]

/-- The heap at a start: the text of the configuration and two lists of paths. -/
noncomputable def startHeap : Heap := fun q =>
  if q = 4 then some (.ptrs []) else if q = 9 then some (.text (textEnv.render (demoConfig.toJson textEnv) ++ [0])) else demoHeap q

/-- The hypotheses of `C96_start` are met. -/
example : ∃ c, loadFile textEnv 0 (some (textEnv.render (demoConfig.toJson textEnv))) true = .ok (some c)
    ∧ c.uuid = [1] ∧ 0 ∉ textEnv.render (c.toJson textEnv)
    ∧ GivesText startHeap ⟨0, some 9⟩ 9 (textEnv.render (demoConfig.toJson textEnv))
    ∧ GivesPaths startHeap ⟨0, some 1, 2⟩ 1 [2, 3] [[47, 97], []]
    ∧ GivesPaths startHeap ⟨0, some 4, 0⟩ 4 [] []
    ∧ (9 :: (1 :: [2, 3]) ++ (4 :: [])).Nodup := by
  obtain ⟨t', h1, -⟩ := Verif.Config.loadFile_render text_faithful (c := demoConfig)
    demo_good 0
  refine ⟨_, h1, rfl, letters_no_nul _, ⟨rfl, letters_no_nul _, [], rfl⟩, ⟨rfl, rfl, by decide, rfl, ?_⟩,
    ⟨rfl, rfl, by decide, rfl, fun i p s hp => by cases i <;> cases hp⟩, by decide⟩
  intro i p s hp hs
  match i with
  | 0 => cases hp; cases hs; exact ⟨by decide, [], rfl⟩
  | 1 => cases hp; cases hs; exact ⟨by decide, [1], rfl⟩
  | i + 2 => cases hp

/-- A damaged text: no client, nothing saved. -/
example : Unusable textEnv (some [0x7b]) := by
  intro d hd j hj
  cases hd
  have hj : ofLetters [0x7b] = some j := hj
  unfold ofLetters at hj
  split at hj
  · rename_i h
    obtain ⟨k, hk⟩ := h
    cases hx : JsonCode.enc k with
    | nil => rw [hx] at hk; cases hk
    | cons a l =>
      rw [hx] at hk
      have := congrArg List.length hk
      rw [letters] at this
      cases this
  · cases hj

end Verif.Props.CustomStorage
