import Verif.Spec.Shared
import Verif.Props.SvcTable
/-!
# C133: the table of services can be shared between threads
-/
namespace Verif.Props.Shared

open Verif Verif.Shared Verif.SvcTable Verif.Spec.Shared Verif.Spec.SvcTable

section
variable {C D L R : Type} (impl : C → Body D L R) (prog : Nat → List R → Option C) (d0 : D)

theorem after_append (d : D) (a b : List (Ret C R)) : after impl d (a ++ b) = after impl (after impl d a) b := by
  induction a generalizing d with
  | nil => rfl
  | cons x a ih => exact ih _

theorem snoc_split {α : Type} {l a b : List α} {x y : α} (h : l ++ [x] = a ++ y :: b) :
    (a = l ∧ y = x ∧ b = []) ∨ ∃ b', b = b' ++ [x] ∧ l = a ++ y :: b' := by
  rcases List.eq_nil_or_concat b with rfl | ⟨b', z, rfl⟩
  · have := List.append_inj' h rfl
    injection this.2 with h1
    exact .inl ⟨this.1.symm, h1.symm, rfl⟩
  · right
    rw [List.concat_eq_append] at h ⊢
    have h' : l ++ [x] = (a ++ y :: b') ++ [z] := by rw [h]; simp
    have := List.append_inj' h' rfl
    injection this.2 with h1
    exact ⟨b', by rw [h1], this.1⟩

theorem repliesTo_snoc (i : Nat) (l : List (Ret C R)) (x : Ret C R) :
    repliesTo i (l ++ [x]) = repliesTo i l ++ if x.thread = i then [x.reply] else [] := by
  unfold repliesTo
  rw [List.filter_append, List.map_append]
  by_cases h : x.thread = i <;> simp [h]

/-- The invariant. -/
structure Inv (s : Sys C D L R) : Prop where
  one : OneByOne impl d0 s.log
  fol : Follows prog s.log
  got : ∀ (i : Nat) (t : Thread C D L R), s.threads[i]? = some t → t.got = repliesTo i s.log
  own : ∀ (i : Nat) (t : Thread C D L R) c fs l, s.threads[i]? = some t → t.inside = some (c, fs, l) →
    s.owner = some i ∧ prog i t.got = some c ∧
    ((fs.foldl (fun x f => f x) (s.data, l)).1, (impl c).reply (fs.foldl (fun x f => f x) (s.data, l)).2) =
      whole (impl c) (after impl d0 s.log)
  held : ∀ i, s.owner = some i → ∃ t x, s.threads[i]? = some t ∧ t.inside = some x
  free : s.owner = none → s.data = after impl d0 s.log

theorem inv_start (n : Nat) : Inv impl prog d0 (start d0 n) where
  one := by intro a x b h; cases a <;> cases h
  fol := by intro a x b h; cases a <;> cases h
  got := by
    intro i t h
    have := List.mem_of_getElem? h
    rw [List.eq_of_mem_replicate this]
    rfl
  own := by
    intro i t c fs l h h2
    have := List.mem_of_getElem? h
    rw [List.eq_of_mem_replicate this] at h2
    cases h2
  held := by intro i h; cases h
  free := fun _ => rfl

variable {impl prog d0}

theorem get_set {α : Type} {l : List α} {i j : Nat} {t u v : α} (_ : l[i]? = some t) (h : (l.set i u)[j]? = some v) :
    (j = i ∧ v = u) ∨ (j ≠ i ∧ l[j]? = some v) := by
  rw [List.getElem?_set] at h
  by_cases e : i = j
  · rw [if_pos e] at h
    split at h
    · exact .inl ⟨e.symm, (Option.some.inj h).symm⟩
    · cases h
  · rw [if_neg e] at h
    exact .inr ⟨fun h => e h.symm, h⟩

theorem get_set_self {α : Type} {l : List α} {i : Nat} {t : α} (u : α) (hi : l[i]? = some t) :
    (l.set i u)[i]? = some u := by
  have := (List.getElem?_eq_some_iff.1 hi).1
  simp [this]

theorem inv_step {s s' : Sys C D L R} {i : Nat} (I : Inv impl prog d0 s) (h : step impl prog s i = some s') :
    Inv impl prog d0 s' ∧ s.log <+: s'.log := by
  unfold step at h
  cases ht : s.threads[i]? with
  | none => rw [ht] at h; cases h
  | some t =>
    rw [ht] at h
    obtain ⟨got, inside⟩ := t
    cases inside with
    | none =>
      replace h : (match prog i got with
        | none => none
        | some c => if s.owner.isNone then
            some { s with
              owner := some i
              threads := s.threads.set i ⟨got, some (c, (impl c).steps, (impl c).init)⟩ }
          else none) = some s' := h
      cases hp : prog i got with
      | none => rw [hp] at h; cases h
      | some c =>
        rw [hp] at h
        cases ho : s.owner with
        | some j => simp [ho] at h
        | none =>
          simp only [ho, Option.isNone_none, if_true, Option.some.injEq] at h
          subst h
          refine ⟨⟨I.one, I.fol, ?_, ?_, ?_, ?_⟩, List.prefix_refl _⟩
          · intro j u hu
            rcases get_set ht hu with ⟨rfl, rfl⟩ | ⟨_, hu⟩
            · exact I.got j ⟨got, none⟩ ht
            · exact I.got j u hu
          · intro j u c' fs l hu hin
            rcases get_set ht hu with ⟨rfl, rfl⟩ | ⟨_, hu⟩
            · cases hin
              refine ⟨rfl, hp, ?_⟩
              rw [I.free ho]
              rfl
            · have := (I.own j u c' fs l hu hin).1
              rw [ho] at this; cases this
          · intro j hj
            cases hj
            exact ⟨_, _, get_set_self _ ht, rfl⟩
          · intro hn; cases hn
    | some x =>
      obtain ⟨c, fs, l⟩ := x
      obtain ⟨o1, o2, o3⟩ := I.own i _ c fs l ht rfl
      have only : ∀ (j : Nat) (u : Thread C D L R) x, j ≠ i → s.threads[j]? = some u → u.inside = some x → False := by
        intro j u x hj hu hx
        obtain ⟨c', fs', l'⟩ := x
        have := (I.own j u c' fs' l' hu hx).1
        rw [o1] at this
        exact hj (Option.some.inj this).symm
      cases fs with
      | cons f fs =>
        replace h := (Option.some.inj h).symm
        subst h
        refine ⟨⟨I.one, I.fol, ?_, ?_, ?_, ?_⟩, List.prefix_refl _⟩
        · intro j u hu
          rcases get_set ht hu with ⟨rfl, rfl⟩ | ⟨_, hu⟩
          · exact I.got j ⟨got, some (c, f :: fs, l)⟩ ht
          · exact I.got j u hu
        · intro j u c' fs' l' hu hin
          rcases get_set ht hu with ⟨rfl, rfl⟩ | ⟨hj, hu⟩
          · cases hin
            exact ⟨o1, o2, o3⟩
          · exact (only j u _ hj hu hin).elim
        · intro j hj
          have : j = i := Option.some.inj (hj.symm.trans o1)
          subst this
          exact ⟨_, _, get_set_self _ ht, rfl⟩
        · intro hn
          exact absurd (o1.symm.trans hn) nofun
      | nil =>
        replace h := (Option.some.inj h).symm
        subst h
        have e1 : s.data = (whole (impl c) (after impl d0 s.log)).1 := congrArg Prod.fst o3
        have e2 : (impl c).reply l = (whole (impl c) (after impl d0 s.log)).2 := congrArg Prod.snd o3
        have hgot := I.got i _ ht
        refine ⟨⟨?_, ?_, ?_, ?_, ?_, ?_⟩, List.prefix_append _ _⟩
        · intro a x b hab
          rcases snoc_split hab with ⟨rfl, rfl, rfl⟩ | ⟨b', rfl, hl⟩
          · exact e2
          · exact I.one a x b' hl
        · intro a x b hab
          rcases snoc_split hab with ⟨rfl, rfl, rfl⟩ | ⟨b', rfl, hl⟩
          · show prog i (repliesTo i s.log) = some c
            rw [← hgot]
            exact o2
          · exact I.fol a x b' hl
        · intro j u hu
          show u.got = repliesTo j (s.log ++ [_])
          rw [repliesTo_snoc]
          rcases get_set ht hu with ⟨rfl, rfl⟩ | ⟨hj, hu⟩
          · show got ++ [_] = _
            rw [if_pos rfl, ← hgot]
          · rw [if_neg (fun h => hj h.symm), List.append_nil]
            exact I.got j u hu
        · intro j u c' fs' l' hu hin
          rcases get_set ht hu with ⟨rfl, rfl⟩ | ⟨hj, hu⟩
          · cases hin
          · exact (only j u _ hj hu hin).elim
        · intro j hj; cases hj
        · intro _
          show s.data = after impl d0 (s.log ++ [_])
          rw [after_append]
          exact e1

theorem inv_run {is : List Nat} : ∀ {s s' : Sys C D L R}, Inv impl prog d0 s → run impl prog s is = some s' →
    Inv impl prog d0 s' ∧ s.log <+: s'.log := by
  induction is with
  | nil => intro s s' I h; cases h; exact ⟨I, List.prefix_refl _⟩
  | cons i is ih =>
    intro s s' I h
    unfold run at h
    cases hs : step impl prog s i with
    | none => rw [hs] at h; cases h
    | some s1 =>
      rw [hs] at h
      obtain ⟨I1, h1⟩ := inv_step I hs
      obtain ⟨I2, h2⟩ := ih I1 h
      exact ⟨I2, h1.trans h2⟩

theorem run_append (a b : List Nat) (s : Sys C D L R) :
    run impl prog s (a ++ b) = (run impl prog s a).bind fun s => run impl prog s b := by
  induction a generalizing s with
  | nil => rfl
  | cons i a ih =>
    show (match step impl prog s i with | none => none | some s => run impl prog s (a ++ b)) =
      (match step impl prog s i with | none => none | some s => run impl prog s a).bind _
    cases step impl prog s i with
    | none => rfl
    | some s1 => exact ih s1

end

/-- **C133.** Whatever the threads do with an object behind a mutex, and however the steps of its functions interleave: the calls
that returned, in the order in which they returned, give the same replies when they are made one after another; each thread
got its replies and went on as its program says; and when no thread is inside, the data are those after these calls. -/
theorem C133_atomic {C D L R : Type} (impl : C → Body D L R) (prog : Nat → List R → Option C) (d : D) (n : Nat)
    (is : List Nat) (s : Sys C D L R) (h : run impl prog (start d n) is = some s) :
    OneByOne impl d s.log ∧ Follows prog s.log ∧ (∀ i t, s.threads[i]? = some t → t.got = repliesTo i s.log) ∧
      ((∀ t ∈ s.threads, t.inside = none) → s.data = after impl d s.log) := by
  obtain ⟨I, _⟩ := inv_run (inv_start impl prog d n) h
  refine ⟨I.one, I.fol, I.got, fun hq => I.free ?_⟩
  cases ho : s.owner with
  | none => rfl
  | some i =>
    obtain ⟨t, x, h1, h2⟩ := I.held i ho
    rw [hq t (List.mem_of_getElem? h1)] at h2
    cases h2

/-- **C133.** This order is that of real time: the calls that returned up to some moment come before those that return later. -/
theorem C133_order {C D L R : Type} (impl : C → Body D L R) (prog : Nat → List R → Option C) (d : D) (n : Nat)
    (is js : List Nat) (s s' : Sys C D L R) (h : run impl prog (start d n) is = some s)
    (h' : run impl prog (start d n) (is ++ js) = some s') : s.log <+: s'.log := by
  rw [run_append, h] at h'
  exact (inv_run (inv_run (inv_start impl prog d n) h).1 h').2

/-! ### The table -/

/-- The services of a list of calls can be made. -/
def Made (l : List (Ret Call Reply)) : Prop := ∀ x ∈ l, ∀ s, addedBy x.call = some s → s.Constructible

theorem changes_append (a b : List (Ret Call Reply)) : changes (a ++ b) = changes a ++ changes b := by
  induction a with
  | nil => rfl
  | cons x a ih =>
    obtain ⟨i, c, r⟩ := x
    cases c <;> simp [changes, ih]

theorem services_changes {l : List (Ret Call Reply)} (h : Made l) : Services (changes l) := by
  induction l with
  | nil => intro op ho; cases ho
  | cons x l ih =>
    have ih := ih fun y hy => h y (List.mem_cons_of_mem _ hy)
    have hx := h x List.mem_cons_self
    obtain ⟨i, c, r⟩ := x
    cases c <;> first | exact ih | skip
    all_goals
      intro op ho a ha
      rcases List.mem_cons.1 ho with rfl | ho
      · first
          | (cases ha; done)
          | (injection ha with ha; subst ha; exact hx _ rfl)
      · exact ih op ho a ha

theorem alone_add (farm : Bytes → UInt64) (t : Table) (now : Int64) (s : Service) :
    alone farm (.add now s) (some t) =
      match t.add farm now s with
      | none => (none, .panic)
      | some p => (some p.1, .id p.2) := by
  show (match (t.add farm now s).map fun r => (r.1, Reply.id r.2) with
    | none => (none, Reply.panic)
    | some r => (some r.1, r.2)) = _
  cases t.add farm now s <;> rfl

theorem alone_addStatic (farm : Bytes → UInt64) (t : Table) (now : Int64) (s : Service) :
    alone farm (.addStatic now s) (some t) =
      match t.addStatic farm now s with
      | none => (none, .panic)
      | some p => (some p.1, .id p.2) := by
  show (match (t.addStatic farm now s).map fun r => (r.1, Reply.id r.2) with
    | none => (none, Reply.panic)
    | some r => (some r.1, r.2)) = _
  cases t.addStatic farm now s <;> rfl

theorem alone_getId (farm : Bytes → UInt64) (t : Table) (k : ServiceIdentifier) :
    alone farm (.getId k) (some t) =
      match t.getId k with
      | none => (none, .panic)
      | some r => (some t, .found r) := by
  show (match (t.getId k).map fun r => (t, Reply.found r) with
    | none => (none, Reply.panic)
    | some r => (some r.1, r.2)) = _
  cases t.getId k <;> rfl

theorem run_add (farm : Bytes → UInt64) (t : Table) (now : Int64) (s : Service) (l : List TOp) :
    t.run farm (.add now s :: l) = (t.add farm now s).bind fun p => p.1.run farm l := by
  show (match (t.add farm now s).map (·.1) with
    | some t => t.run farm l
    | none => none) = _
  cases t.add farm now s <;> rfl

theorem run_addStatic (farm : Bytes → UInt64) (t : Table) (now : Int64) (s : Service) (l : List TOp) :
    t.run farm (.addStatic now s :: l) = (t.addStatic farm now s).bind fun p => p.1.run farm l := by
  show (match (t.addStatic farm now s).map (·.1) with
    | some t => t.run farm l
    | none => none) = _
  cases t.addStatic farm now s <;> rfl

theorem after_table {farm : Bytes → UInt64} {L : Type} {impl : Call → Body (Option Table) L Reply}
    (hi : Implements farm impl) (l : List (Ret Call Reply)) : ∀ (t : Table), SvcTable.Inv t → Made l →
    after impl (some t) l = t.run farm (changes l) := by
  have dead : ∀ l : List (Ret Call Reply), after impl none l = none := by
    intro l
    induction l with
    | nil => rfl
    | cons x l ih =>
      show after impl (whole (impl x.call) none).1 l = none
      rw [hi]
      exact ih
  induction l with
  | nil => intro t _ _; rfl
  | cons x l ih =>
    intro t I hm
    have hx := hm x List.mem_cons_self
    have hm' : Made l := fun y hy => hm y (List.mem_cons_of_mem _ hy)
    obtain ⟨i, c, r⟩ := x
    show after impl (whole (impl c) (some t)).1 l = _
    rw [hi]
    cases c with
    | add now s =>
      show after impl (alone farm (.add now s) (some t)).1 l = t.run farm (.add now s :: changes l)
      rw [alone_add, run_add]
      cases ha : t.add farm now s with
      | none => exact dead l
      | some p =>
        refine ih p.1 (SvcTable.inv_step (op := .add now s) (farm := farm) I ?_
          (by show (t.add farm now s).map (·.1) = _; rw [ha]; rfl)) hm'
        intro op ho a h1
        rw [List.mem_singleton] at ho
        subst ho
        injection h1 with h1; subst h1; exact hx _ rfl
    | addStatic now s =>
      show after impl (alone farm (.addStatic now s) (some t)).1 l = t.run farm (.addStatic now s :: changes l)
      rw [alone_addStatic, run_addStatic]
      cases ha : t.addStatic farm now s with
      | none => exact dead l
      | some p =>
        refine ih p.1 (SvcTable.inv_step (op := .addStatic now s) (farm := farm) I ?_
          (by show (t.addStatic farm now s).map (·.1) = _; rw [ha]; rfl)) hm'
        intro op ho a h1
        rw [List.mem_singleton] at ho
        subst ho
        injection h1 with h1; subst h1; exact hx _ rfl
    | updateActive now => exact ih _ (inv_updateActive I now) hm'
    | version => exact ih t I hm'
    | visVersion => exact ih t I hm'
    | visible => exact ih t I hm'
    | get id => exact ih t I hm'
    | getId k =>
      show after impl (alone farm (.getId k) (some t)).1 l = t.run farm (changes l)
      rw [alone_getId]
      cases hg : t.getId k with
      | none => exact absurd hg (getId_ne_none I k)
      | some r => exact ih t I hm'

/-- **C133.** A table shared by any threads is at any quiet moment the table after the calls that returned, one after another,
and each reply is the one this table gives at its place. -/
theorem C133_table (farm : Bytes → UInt64) {L : Type} (impl : Call → Body (Option Table) L Reply)
    (hi : Implements farm impl) (prog : Nat → List Reply → Option Call) (now : Int64) (n : Nat) (is : List Nat)
    (s : Sys Call (Option Table) L Reply) (h : run impl prog (start (some (Table.new now)) n) is = some s)
    (hm : Made s.log) :
    (∀ a x b, s.log = a ++ x :: b → x.reply = (alone farm x.call ((Table.new now).run farm (changes a))).2) ∧
      ((∀ t ∈ s.threads, t.inside = none) → s.data = (Table.new now).run farm (changes s.log)) := by
  obtain ⟨h1, _, _, h4⟩ := C133_atomic impl prog _ n is s h
  constructor
  · intro a x b hab
    have := h1 a x b hab
    rw [hi, after_table hi a _ (inv_new now) fun y hy => hm y (by rw [hab]; exact List.mem_append_left _ hy)] at this
    exact this
  · intro hq
    rw [h4 hq, after_table hi _ _ (inv_new now) hm]

/-- **C133.** A call that reads is answered from the table after all calls that returned before. -/
theorem C133_reads (farm : Bytes → UInt64) {L : Type} (impl : Call → Body (Option Table) L Reply)
    (hi : Implements farm impl) (prog : Nat → List Reply → Option Call) (now : Int64) (n : Nat) (is : List Nat)
    (s : Sys Call (Option Table) L Reply) (h : run impl prog (start (some (Table.new now)) n) is = some s)
    (hm : Made s.log) (a b : List (Ret Call Reply)) (x : Ret Call Reply) (hx : s.log = a ++ x :: b) (t : Table)
    (ht : (Table.new now).run farm (changes a) = some t) (r : Reply) (hr : says t x.call = some r) : x.reply = r := by
  have h1 := (C133_table farm impl hi prog now n is s h hm).1 a x b hx
  rw [ht] at h1
  obtain ⟨i, c, r'⟩ := x
  replace h1 : r' = (alone farm c (some t)).2 := h1
  replace hr : says t c = some r := hr
  show r' = r
  cases c <;> first | (cases hr; done) | (cases hr; exact h1) | skip
  rename_i k
  rw [alone_getId] at h1
  replace hr : (t.getId k).map Reply.found = some r := hr
  cases hg : t.getId k with
  | none => rw [hg] at hr; cases hr
  | some o =>
    rw [hg] at h1 hr
    cases hr
    exact h1

/-- What an addition that did not panic did. -/
theorem add_reply {farm : Bytes → UInt64} {c : Call} {s : Service} {d : Option Table} {i : UInt16}
    (ha : addedBy c = some s) (hr : (alone farm c d).2 = .id i) :
    ∃ t t' static now, d = some t ∧ addAs farm t static now s = some (t', i) ∧
      (∀ th r, t.run farm (changes [⟨th, c, r⟩]) = some t') := by
  cases d with
  | none => cases hr
  | some t =>
    cases c <;> first | (cases ha; done) | skip
    · rename_i now s'
      cases ha
      rw [alone_add] at hr
      cases hx : t.add farm now s with
      | none => rw [hx] at hr; cases hr
      | some p =>
        rw [hx] at hr
        injection hr with hr
        refine ⟨t, p.1, false, now, rfl, ?_, ?_⟩
        · show t.add farm now s = _
          rw [hx, ← hr]
        · intro th r
          simp [changes, Table.run, Table.step, hx]
    · rename_i now s'
      cases ha
      rw [alone_addStatic] at hr
      cases hx : t.addStatic farm now s with
      | none => rw [hx] at hr; cases hr
      | some p =>
        rw [hx] at hr
        injection hr with hr
        refine ⟨t, p.1, true, now, rfl, ?_, ?_⟩
        · show t.addStatic farm now s = _
          rw [hx, ← hr]
        · intro th r
          simp [changes, Table.run, Table.step, hx]

theorem ids_ordered (farm : Bytes → UInt64) (now : Int64) (a b c : List (Ret Call Reply)) (x y : Ret Call Reply)
    (hm : Made (a ++ x :: (b ++ y :: c))) (sx sy : Service) (i j : UInt16)
    (hx : addedBy x.call = some sx) (hy : addedBy y.call = some sy)
    (rx : (alone farm x.call ((Table.new now).run farm (changes a))).2 = .id i)
    (ry : (alone farm y.call ((Table.new now).run farm (changes (a ++ x :: b)))).2 = .id j) :
    i = j ↔ sx.toIdentifier = sy.toIdentifier := by
  obtain ⟨t, t1, st, nw, h1, h2, h3⟩ := add_reply hx rx
  obtain ⟨t2, t3, st', nw', g1, g2, _⟩ := add_reply hy ry
  have ma : Made a := fun z hz => hm z (by simp [hz])
  have mb : Made b := fun z hz => hm z (by simp [hz])
  have hsx : sx.Constructible := hm x (by simp) sx hx
  have hsy : sy.Constructible := hm y (by simp) sy hy
  have e : changes (a ++ x :: b) = changes a ++ (changes [x] ++ changes b) := by
    rw [show a ++ x :: b = a ++ ([x] ++ b) from rfl, changes_append, changes_append]
  have hb : t1.run farm (changes b) = some t2 := by
    rw [e, SvcTable.run_append, h1] at g1
    replace g1 : t.run farm (changes [x] ++ changes b) = some t2 := g1
    rw [SvcTable.run_append, h3 x.thread x.reply] at g1
    exact g1
  have I := SvcTable.inv_run (inv_new now) (services_changes ma) h1
  rw [addAs_eq] at h2 g2
  have U1 := update_updated h2
  have I1 := inv_update I hsx U1
  have I2 := SvcTable.inv_run I1 (services_changes mb) hb
  have U2 := update_updated g2
  have I3 := inv_update I2 hsy U2
  have k1 := (updated_idMap U2).2 _ _ (run_idMap hb _ _ (updated_idMap U1).1)
  have k2 := (updated_idMap U2).1
  constructor
  · rintro rfl
    obtain ⟨e1, e2, e3⟩ := I3.back _ _ k1
    obtain ⟨f1, f2, f3⟩ := I3.back _ _ k2
    rw [e2] at f2
    cases f2
    rw [← e3, f3]
  · intro he
    rw [he, k2] at k1
    exact (Option.some.inj k1).symm

/-- **C133.** Of any two additions, by whatever threads and at whatever time, the ids returned are the same exactly if the services
have the same identity. -/
theorem C133_ids (farm : Bytes → UInt64) {L : Type} (impl : Call → Body (Option Table) L Reply)
    (hi : Implements farm impl) (prog : Nat → List Reply → Option Call) (now : Int64) (n : Nat) (is : List Nat)
    (s : Sys Call (Option Table) L Reply) (h : run impl prog (start (some (Table.new now)) n) is = some s)
    (hm : Made s.log) (x y : Ret Call Reply) (hx : x ∈ s.log) (hy : y ∈ s.log) (sx sy : Service) (i j : UInt16)
    (ax : addedBy x.call = some sx) (ay : addedBy y.call = some sy) (rx : x.reply = .id i) (ry : y.reply = .id j) :
    i = j ↔ sx.toIdentifier = sy.toIdentifier := by
  obtain ⟨hr, _⟩ := C133_table farm impl hi prog now n is s h hm
  obtain ⟨p, q, hpq⟩ := List.append_of_mem hx
  have hxr := hr p x q hpq
  rw [hpq] at hy
  rcases List.mem_append.1 hy with hy | hy
  · obtain ⟨a, b, hab⟩ := List.append_of_mem hy
    have hl : s.log = a ++ y :: (b ++ x :: q) := by rw [hpq, hab]; simp
    have hyr := hr a y _ hl
    rw [hl] at hm
    rw [hab] at hxr
    have := ids_ordered farm now a b q y x hm sy sx j i ay ax (hyr ▸ ry) (hxr ▸ rx)
    exact ⟨fun h => (this.1 h.symm).symm, fun h => (this.2 h.symm).symm⟩
  · rcases List.mem_cons.1 hy with rfl | hy
    · rw [ax] at ay
      rw [rx] at ry
      cases ay; cases ry
      simp
    · obtain ⟨b, c, hbc⟩ := List.append_of_mem hy
      have hl : s.log = (p ++ x :: b) ++ y :: c := by rw [hpq, hbc]; simp
      have hyr := hr _ y c hl
      rw [hpq, hbc] at hm
      exact ids_ordered farm now p b c x y hm sx sy i j ax ay (hxr ▸ rx) (hyr ▸ ry)

theorem twoSteps_implements (farm : Bytes → UInt64) : Implements farm (twoSteps farm) := fun _ _ => rfl

/-! ### An example: a scan reports two services while the connection reads the table -/

open Verif.Props.SvcTable (svcA svcA' svcB demoFarm)

/-- The scanner adds two services and updates the active ones (config.rs:1085-1097); the connection reads the list; another
thread adds the first service again, with another address, and looks it up. -/
def demoProg : Nat → List Reply → Option Call
  | 0, got => [.add 5 svcA, .add 5 svcB, .updateActive 5][got.length]?
  | 1, [] => some .visible
  | 2, [] => some (.add 6 svcA')
  | 2, [.id i] => some (.get i)
  | _, _ => none

/-- All threads ask for the mutex and make their steps in turn; those that have to wait are left out. -/
def demoTurns : List Nat := [0, 0, 0, 0, 1, 1, 1, 1, 2, 2, 2, 2, 0, 0, 0, 0, 2, 2, 2, 2, 0, 0, 0, 0]

def demoEnd : Option (Sys Call (Option Table) (Option Table × Reply) Reply) :=
  run (twoSteps demoFarm) demoProg (start (some (Table.new 0)) 3) demoTurns

example : demoEnd.map (fun s => (s.log.map fun x => (x.thread, x.reply), s.threads.all (·.inside.isNone))) =
    some ([(0, .id 0xffff), (1, .list [(0xffff, svcA)]), (2, .id 0xffff), (0, .id 1),
      (2, .svc (some svcA')), (0, .unit)], true) := by decide +kernel

/-- The calls of this program can be made, as `C133_table` and `C133_ids` ask for. -/
theorem demo_made (is : List Nat) (s : Sys Call (Option Table) (Option Table × Reply) Reply)
    (h : run (twoSteps demoFarm) demoProg (start (some (Table.new 0)) 3) is = some s) : Made s.log := by
  obtain ⟨_, hf, _⟩ := C133_atomic (twoSteps demoFarm) demoProg _ 3 is s h
  intro x hx sv hs
  obtain ⟨a, b, hab⟩ := List.append_of_mem hx
  have hp := hf a x b hab
  generalize repliesTo x.thread a = got at hp
  obtain ⟨i, c, r⟩ := x
  replace hp : demoProg i got = some c := hp
  replace hs : addedBy c = some sv := hs
  unfold demoProg at hp
  split at hp
  · have := List.mem_of_getElem? hp
    simp only [List.mem_cons, List.not_mem_nil, or_false] at this
    rcases this with rfl | rfl | rfl
    · cases hs; exact .http _ _
    · cases hs; exact .rtsp _ _ _
    · cases hs
  · cases hp; cases hs
  · cases hp; cases hs; exact .http _ _
  · cases hp; cases hs
  · cases hp

/-- While one thread is inside, another one has to wait. -/
example : (run (twoSteps demoFarm) demoProg (start (some (Table.new 0)) 3) [0, 0]).isSome = true ∧
    (run (twoSteps demoFarm) demoProg (start (some (Table.new 0)) 3) [0, 0, 2]).isNone = true := by decide +kernel

/-- **C133.** Only single functions act as a whole: the report of a scan is several of them (config.rs:1085-1097), and a
connection that reads the table meanwhile can see a part of the services found. -/
theorem C133_half_report_seen : ∃ (prog : Nat → List Reply → Option Call) (is : List Nat)
    (s : Sys Call (Option Table) (Option Table × Reply) Reply) (a b : Service),
    (∀ got : List Reply, prog 0 got = [.add 5 a, .add 5 b, .updateActive 5][got.length]?) ∧
    run (twoSteps demoFarm) prog (start (some (Table.new 0)) 3) is = some s ∧
    (s.threads.all fun t => t.inside.isNone) = true ∧
    (∃ i, Reply.list [(i, a)] ∈ repliesTo 1 s.log) ∧
    ∃ i j t, s.data = some t ∧ (i, a) ∈ t.visible ∧ (j, b) ∈ t.visible := by
  have key : (run (twoSteps demoFarm) demoProg (start (some (Table.new 0)) 3)
      [0, 0, 0, 0, 1, 1, 1, 1, 0, 0, 0, 0, 0, 0, 0, 0]).map (fun s =>
        ((s.threads.all fun t => t.inside.isNone), repliesTo 1 s.log, s.data.map (·.visible))) =
      some (true, [.list [(0xffff, svcA)]], some [(0xffff, svcA), (1, svcB)]) := by decide +kernel
  cases hs : run (twoSteps demoFarm) demoProg (start (some (Table.new 0)) 3)
      [0, 0, 0, 0, 1, 1, 1, 1, 0, 0, 0, 0, 0, 0, 0, 0] with
  | none => rw [hs] at key; cases key
  | some s =>
    rw [hs] at key
    simp only [Option.map_some, Option.some.injEq, Prod.mk.injEq] at key
    obtain ⟨k1, k2, k3⟩ := key
    refine ⟨demoProg, _, s, svcA, svcB, fun _ => rfl, hs, k1, ⟨0xffff, by rw [k2]; exact List.mem_singleton.2 rfl⟩, ?_⟩
    cases hd : s.data with
    | none => rw [hd] at k3; cases k3
    | some t =>
      rw [hd] at k3
      replace k3 : t.visible = _ := Option.some.inj k3
      exact ⟨0xffff, 1, t, rfl, by rw [k3]; simp, by rw [k3]; simp⟩

end Verif.Props.Shared
