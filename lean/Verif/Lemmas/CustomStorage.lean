import Verif.Spec.CustomStorage
/-!
# Lemmas about the custom storage
-/
namespace Verif.CustomStorage
open Verif Verif.Config Verif.Spec.CustomStorage

theorem cstr_at {h : Heap} {p : Nat} {s : Bytes} (hs : StringAt h p s) : cstr h (some p) = some s := by
  obtain ⟨h0, rest, hp⟩ := hs
  unfold cstr
  dsimp only
  rw [hp]
  dsimp only
  rw [if_pos (by simp)]
  congr 1
  rw [List.takeWhile_append_of_pos]
  · simp
  · intro a ha
    simp only [ne_eq, decide_not, Bool.not_eq_true', decide_eq_false_iff_not]
    rintro rfl
    exact h0 ha

theorem free_at {h : Heap} {p : Nat} {b : Block} (hp : h p = some b) : free h (some p) = some (without h [p]) := by
  unfold free
  dsimp only
  rw [if_pos (by rw [hp]; rfl)]
  congr 1
  funext q
  unfold without
  simp only [List.mem_singleton]

theorem without_of_not {h : Heap} {ps : List Nat} {q : Nat} (hq : q ∉ ps) : without h ps q = h q := if_neg hq

theorem without_without (h : Heap) (a b : List Nat) : without (without h a) b = without h (a ++ b) := by
  funext q
  unfold without
  by_cases hb : q ∈ b
  · rw [if_pos hb, if_pos (List.mem_append_right _ hb)]
  · rw [if_neg hb]
    by_cases ha : q ∈ a
    · rw [if_pos ha, if_pos (List.mem_append_left _ ha)]
    · rw [if_neg ha, if_neg (fun h => (List.mem_append.1 h).elim ha hb)]

theorem without_congr {h : Heap} {a b : List Nat} (hab : ∀ q, q ∈ a ↔ q ∈ b) : without h a = without h b := by
  funext q
  unfold without
  by_cases ha : q ∈ a
  · rw [if_pos ha, if_pos ((hab q).1 ha)]
  · rw [if_neg ha, if_neg (fun h => ha ((hab q).2 h))]

theorem stringAt_without {h : Heap} {p : Nat} {s : Bytes} {qs : List Nat} (hs : StringAt h p s) (hq : p ∉ qs) :
    StringAt (without h qs) p s := ⟨hs.1, by rw [without_of_not hq]; exact hs.2⟩

/-- A path that is UTF-8, or nothing. -/
def checkPath (s : Bytes) : Option Bytes := if Utf8.valid s then some s else none

theorem readPaths_at {h : Heap} {ps : List Nat} {ss : List Bytes} (hn : ps.Nodup) (hs : StringsAt h ps ss) :
    readPaths h (ps.map some) = some (without h ps, ss.map checkPath) := by
  induction ps generalizing h ss with
  | nil =>
    obtain ⟨hl, -⟩ := hs
    cases ss with
    | nil =>
      unfold readPaths
      refine congrArg some (Prod.ext ?_ rfl)
      funext q
      exact (without_of_not List.not_mem_nil).symm
    | cons s ss => cases hl
  | cons p ps ih =>
    obtain ⟨hl, hall⟩ := hs
    cases ss with
    | nil => cases hl
    | cons s ss =>
      have hp : StringAt h p s := hall 0 p s rfl rfl
      obtain ⟨hpn, hn⟩ := List.nodup_cons.1 hn
      have hrest : StringsAt (without h [p]) ps ss := by
        refine ⟨Nat.succ.inj hl, fun i q t hq ht => ?_⟩
        refine stringAt_without (hall (i + 1) q t hq ht) ?_
        rw [List.mem_singleton]
        rintro rfl
        exact hpn (List.mem_of_getElem? hq)
      obtain ⟨rest, hb⟩ := hp.2
      rw [List.map_cons]
      unfold readPaths
      rw [cstr_at hp]
      dsimp only
      rw [free_at hb]
      dsimp only
      rw [ih hn hrest]
      dsimp only
      rw [without_without]
      rfl

theorem collect_map (ss : List Bytes) :
    collect (ss.map checkPath) = if ∀ s ∈ ss, Utf8.valid s = true then some ss else none := by
  induction ss with
  | nil => rw [if_pos (fun s h => absurd h List.not_mem_nil)]; rfl
  | cons s ss ih =>
    rw [List.map_cons]
    by_cases hv : Utf8.valid s = true
    · rw [show checkPath s = some s from if_pos hv]
      unfold collect
      rw [ih]
      by_cases ha : ∀ t ∈ ss, Utf8.valid t = true
      · rw [if_pos ha, if_pos (fun t ht => by
          cases ht with
          | head => exact hv
          | tail _ ht => exact ha t ht)]
        rfl
      · rw [if_neg ha, if_neg (fun h => ha fun t ht => h t (List.mem_cons_of_mem _ ht))]
        rfl
    · rw [show checkPath s = none from if_neg hv]
      unfold collect
      rw [if_neg (fun h => hv (h s List.mem_cons_self))]

theorem loadPaths_at {h : Heap} {a : PathsAnswer} {arr : Nat} {ps : List Nat} {ss : List Bytes} (hg : GivesPaths h a arr ps ss) :
    loadPaths h (some a)
      = (without h (arr :: ps), if ∀ s ∈ ss, Utf8.valid s = true then .ok ss else .err) := by
  obtain ⟨rfl, harr, hn, hs⟩ := hg
  obtain ⟨hna, hn⟩ := List.nodup_cons.1 hn
  unfold loadPaths
  dsimp only
  rw [if_neg (by decide), harr]
  dsimp only
  rw [if_pos (by rw [List.length_map]; exact Nat.le_refl _), List.take_of_length_le (by rw [List.length_map]; exact Nat.le_refl _),
    readPaths_at hn hs]
  dsimp only
  rw [free_at (h := without h ps) ((without_of_not hna).trans harr), collect_map]
  dsimp only
  have hw : without (without h ps) [arr] = without h (arr :: ps) := by
    rw [without_without]
    exact without_congr fun q => by simp [or_comm]
  rw [hw]
  by_cases ha : ∀ s ∈ ss, Utf8.valid s = true
  · rw [if_pos ha, if_pos ha]
  · rw [if_neg ha, if_neg ha]

theorem givesPaths_without {h : Heap} {a : PathsAnswer} {arr : Nat} {ps : List Nat} {ss : List Bytes} {qs : List Nat}
    (hg : GivesPaths h a arr ps ss) (hd : ∀ q ∈ qs, q ∉ arr :: ps) : GivesPaths (without h qs) a arr ps ss := by
  obtain ⟨ha, harr, hn, hl, hs⟩ := hg
  refine ⟨ha, ?_, hn, hl, fun i p s hp ht => ?_⟩
  · rw [without_of_not (fun h => hd arr h List.mem_cons_self)]; exact harr
  · refine stringAt_without (hs i p s hp ht) fun h => ?_
    exact hd p h (List.mem_cons_of_mem _ (List.mem_of_getElem? hp))

theorem pathsOf_usable (ss : List Bytes) :
    pathsOf (if ∀ s ∈ ss, Utf8.valid s = true then .ok ss else .err) = some (usable ss) := by
  unfold usable
  by_cases ha : ∀ s ∈ ss, Utf8.valid s = true
  · rw [if_pos ha, if_pos ha]; rfl
  · rw [if_neg ha, if_neg ha]; rfl

theorem parseConfig_ub (E : Env) (now : Int64) (s : Bytes) : parseConfig E now s ≠ .ub := by
  unfold parseConfig
  split
  · split
    · exact fun h => by cases h
    · split <;> exact fun h => by cases h
  · exact fun h => by cases h

theorem loadConfiguration_at {E : Env} {now : Int64} {fresh : PConfig} {h : Heap} {a : LoadAnswer} {p : Nat} {s : Bytes}
    (hg : GivesText h a p s) (hp : parseConfig E now s ≠ .panic) :
    loadConfiguration E now fresh h (some a) = (without h [p], parseConfig E now s) := by
  obtain ⟨rfl, hs⟩ := hg
  obtain ⟨rest, hb⟩ := hs.2
  unfold loadConfiguration
  dsimp only
  rw [if_neg (by decide), cstr_at hs]
  dsimp only
  rw [free_at hb]
  cases hc : parseConfig E now s with
  | ok c => rfl
  | err => rfl
  | panic => exact absurd hc hp
  | ub => exact absurd hc (parseConfig_ub E now s)

end Verif.CustomStorage
