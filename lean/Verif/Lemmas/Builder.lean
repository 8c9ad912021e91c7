import Verif.Spec.Builder
/-!
# Lemmas about the builder of the configuration
-/
namespace Verif.Builder
open Verif Verif.SvcTable Verif.Spec.Builder
open Verif.Config (Env PConfig)

theorem setAll_last {α : Type} (g : Bld → α) (f : Setting → Option α)
    (h : ∀ x s, g (Bld.set x s) = (f s).getD (g x)) (l : List Setting) (x : Bld) :
    g (x.setAll l) = Spec.Builder.last f (g x) l := by
  induction l generalizing x with
  | nil => rfl
  | cons s l ih =>
    change g ((x.set s).setAll l) = _
    rw [ih, h]
    unfold Spec.Builder.last
    cases hs : f s with
    | none => rw [List.filterMap_cons_none hs]; rfl
    | some a =>
      rw [List.filterMap_cons_some hs, List.getLast?_cons]
      rfl

theorem setAll_append (x : Bld) (a b : List Setting) : x.setAll (a ++ b) = (x.setAll a).setAll b :=
  List.foldl_append ..

theorem setAll_added (l : List Setting) (h : ∀ x ∈ l, ¬setsServices x) (x : Bld) :
    (x.setAll l).b.services = x.b.services ++ added l := by
  induction l generalizing x with
  | nil => exact (List.append_nil _).symm
  | cons s l ih =>
    change ((x.set s).setAll l).b.services = _
    rw [ih (fun y hy => h y (List.mem_cons_of_mem _ hy))]
    have hs := h s List.mem_cons_self
    cases s with
    | services => exact absurd trivial hs
    | addService s =>
      change (x.b.services ++ [s]) ++ added l = x.b.services ++ s :: added l
      rw [List.append_assoc]; rfl
    | _ => rfl

theorem split_services (l : List Setting) :
    (∃ before xs after, l = before ++ .services xs :: after ∧ ∀ x ∈ after, ¬setsServices x) ∨
    ∀ x ∈ l, ¬setsServices x := by
  induction l with
  | nil => exact .inr nofun
  | cons s l ih =>
    rcases ih with ⟨b, xs, a, h1, h2⟩ | h
    · exact .inl ⟨s :: b, xs, a, by rw [h1]; rfl, h2⟩
    · cases s with
      | services xs => exact .inl ⟨[], xs, l, rfl, h⟩
      | _ =>
        refine .inr fun x hx => ?_
        cases hx with
        | head => exact id
        | tail _ hx => exact h x hx

theorem setAll_static (l : List Setting) : Static l (Bld.new.setAll l).b.services := by
  rcases split_services l with ⟨b, xs, a, h1, h2⟩ | h
  · refine .inl ⟨b, xs, a, h1, h2, ?_⟩
    rw [h1, setAll_append]
    exact setAll_added a h2 _
  · exact .inr ⟨h, setAll_added l h _⟩

theorem static_eq {l : List Setting} {ss : List Service} (h : Static l ss) :
    (Bld.new.setAll l).b.services = ss := by
  rcases h with ⟨b, xs, a, h1, h2, h3⟩ | ⟨h1, h2⟩
  · rw [h1, setAll_append, h3]
    exact setAll_added a h2 _
  · rw [h2]
    exact setAll_added l h1 _

theorem mac_eq (l : List Setting) : (Bld.new.setAll l).b.mac = macSet l :=
  setAll_last (·.b.mac) _ (fun _ s => by cases s <;> rfl) l Bld.new

theorem logger_eq (l : List Setting) : (Bld.new.setAll l).logger = loggerSet l :=
  setAll_last (·.logger) _ (fun _ s => by cases s <;> rfl) l Bld.new

theorem verbose_eq (l : List Setting) :
    (Bld.new.setAll l).b.verbose = Spec.Builder.last (fun | .verbose b => some b | _ => none) false l :=
  setAll_last (·.b.verbose) _ (fun _ s => by cases s <;> rfl) l Bld.new

/-- The events before the table is filled. -/
def before (x : Bld) (w : World) : List Ev :=
  .load :: (findMac x w).1 ++ (loadPaths x .rtsp w.rtsp).1 ++ (loadPaths x .mjpeg w.mjpeg).1 ++
    if x.b.verbose then [.debug x.logger] else []

/-- The configuration that is built. -/
def made (x : Bld) (w : World) (address : Bytes) (p : PConfig) (mac : MacAddr) (t : Table) : Conf :=
  { version := p.version, uuid := p.uuid, passwd := p.passwd, mac := mac, address := address,
    diagnostic := x.b.diagnostic, gateway := x.b.gateway, discovery := x.b.discovery,
    whitelist := x.b.whitelist, rtspPaths := (loadPaths x .rtsp w.rtsp).2,
    mjpegPaths := (loadPaths x .mjpeg w.mjpeg).2, default := t, table := t,
    logger := x.logger, flashFriendly := x.b.flashFriendly, category := x.b.category, type := x.b.type,
    vendor := x.b.vendor }

/-- The ways `build` can go. -/
inductive Went (E : Env) (x : Bld) (w : World) (address : Bytes) : List Ev → Wire.Res Conf → Prop
  | unloaded (h : w.config = none) : Went E x w address [.load] .err
  | noMac (p : PConfig) (h : w.config = some p) (h1 : x.b.mac = none) (h2 : w.interfaces = []) :
    Went E x w address [.load, .interfaces] .err
  | full (p : PConfig) (mac : MacAddr) (h : w.config = some p) (h1 : (findMac x w).2 = some mac)
    (h2 : tableOf E w p x.b.services = none) : Went E x w address (before x w) .panic
  | made (p : PConfig) (mac : MacAddr) (t : Table) (h : w.config = some p) (h1 : (findMac x w).2 = some mac)
    (h2 : tableOf E w p x.b.services = some t) :
    Went E x w address (before x w ++ [.save ⟨p.uuid, p.passwd, p.version, t⟩])
      (if w.saved then .ok (made x w address p mac t) else .err)

theorem went (E : Env) (x : Bld) (w : World) (address : Bytes) :
    Went E x w address (x.build E w address).1 (x.build E w address).2 := by
  unfold Bld.build
  cases hc : w.config with
  | none => exact .unloaded hc
  | some p =>
    dsimp only
    cases hf : findMac x w with
    | mk e o =>
      cases o with
      | none =>
        have hm : x.b.mac = none ∧ w.interfaces = [] ∧ e = [.interfaces] := by
          unfold findMac at hf
          cases hm : x.b.mac with
          | some m => rw [hm] at hf; injection hf with _ hf; cases hf
          | none =>
            rw [hm] at hf
            injection hf with he hf
            refine ⟨rfl, ?_, he.symm⟩
            cases hi : w.interfaces with
            | nil => rfl
            | cons i is => rw [hi] at hf; cases hf
        obtain ⟨h1, h2, h3⟩ := hm
        rw [h3]
        exact .noMac p hc h1 h2
      | some mac =>
        dsimp only
        have hm : (findMac x w).2 = some mac := by rw [hf]
        have he : (findMac x w).1 = e := by rw [hf]
        have hb : before x w = .load :: e ++ (loadPaths x .rtsp w.rtsp).1 ++ (loadPaths x .mjpeg w.mjpeg).1 ++
            if x.b.verbose then [.debug x.logger] else [] := by rw [← he]; rfl
        cases ht : p.table.run E.farm (x.b.services.map (.addStatic w.now)) with
        | none =>
          have := Went.full (address := address) p mac hc hm ht
          rw [hb] at this
          exact this
        | some t =>
          have := Went.made (address := address) p mac t hc hm ht
          rw [hb] at this
          exact this

theorem findMac_some {x : Bld} {w : World} {mac : MacAddr} (h : (findMac x w).2 = some mac) :
    x.b.mac = some mac ∨ x.b.mac = none ∧ ∃ name rest, w.interfaces = (name, mac) :: rest := by
  unfold findMac at h
  cases hm : x.b.mac with
  | some m => rw [hm] at h; exact .inl h
  | none =>
    rw [hm] at h
    refine .inr ⟨rfl, ?_⟩
    cases hi : w.interfaces with
    | nil => rw [hi] at h; cases h
    | cons i is =>
      rw [hi] at h
      injection h with h
      exact ⟨i.1, is, by rw [← h]⟩

theorem findMac_ok {x : Bld} {w : World} (h : ¬(x.b.mac = none ∧ w.interfaces = [])) :
    ∃ mac, (findMac x w).2 = some mac := by
  unfold findMac
  cases hm : x.b.mac with
  | some m => exact ⟨m, rfl⟩
  | none =>
    cases hi : w.interfaces with
    | nil => exact absurd ⟨hm, hi⟩ h
    | cons i is => exact ⟨i.2, rfl⟩

theorem paths_eq (x : Bld) (p : Paths) (o : Option (List Bytes)) : (loadPaths x p o).2 = o.getD [] := by
  cases o <;> rfl

end Verif.Builder
