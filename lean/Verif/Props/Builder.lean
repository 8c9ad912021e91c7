import Verif.Lemmas.Builder
import Verif.Props.Args
import Verif.Props.Reconnect
/-!
# Properties of the builder of the configuration and of the start of the program: C116, C117
-/
namespace Verif.Props.Builder
open Verif Verif.SvcTable Verif.Builder Verif.Spec.Builder
open Verif.Config (Env PConfig)

/-! ### C116 -/

/-- C116: whatever the setters were called with, and in whatever order, the configuration has the last value of each
setting, or its default; the identity and the services that were loaded, with the static services added; the MAC
address that was set, or that of the first network interface; and the paths that could be loaded. -/
theorem C116_settings (E : Env) (l : List Setting) (w : World) (address : Bytes) (c : Conf)
    (h : ((Bld.new.setAll l).build E w address).2 = .ok c) : Configured E l w address c := by
  have hw := went E (Bld.new.setAll l) w address
  rw [h] at hw
  generalize ((Bld.new.setAll l).build E w address).1 = e at hw
  generalize hr : (Wire.Res.ok c : Wire.Res Conf) = r at hw
  cases hw with
  | unloaded | noMac | full => cases hr
  | made p mac t h0 h1 h2 =>
    cases hs : w.saved with
    | false => rw [hs] at hr; cases hr
    | true =>
      rw [hs] at hr
      injection hr with hr
      subst hr
      exact
        { loaded := ⟨p, _, h0, rfl, rfl, rfl, setAll_static l, h2, rfl⟩
          mac := by rw [← mac_eq]; exact findMac_some h1
          address := rfl
          diagnostic := setAll_last (·.b.diagnostic) _ (fun _ s => by cases s <;> rfl) l Bld.new
          gateway := setAll_last (·.b.gateway) _ (fun _ s => by cases s <;> rfl) l Bld.new
          discovery := setAll_last (·.b.discovery) _ (fun _ s => by cases s <;> rfl) l Bld.new
          flashFriendly := setAll_last (·.b.flashFriendly) _ (fun _ s => by cases s <;> rfl) l Bld.new
          whitelist := setAll_last (·.b.whitelist) _ (fun _ s => by cases s <;> rfl) l Bld.new
          rtspPaths := paths_eq ..
          mjpegPaths := paths_eq ..
          logger := logger_eq l
          category := setAll_last (·.b.category) _ (fun _ s => by cases s <;> rfl) l Bld.new
          type := setAll_last (·.b.type) _ (fun _ s => by cases s <;> rfl) l Bld.new
          vendor := setAll_last (·.b.vendor) _ (fun _ s => by cases s <;> rfl) l Bld.new }

theorem not_noMac {l : List Setting} {w : World} {mac : MacAddr}
    (h : (findMac (Bld.new.setAll l) w).2 = some mac) : ¬NoMac l w := by
  rintro ⟨h1, h2⟩
  rcases findMac_some h with h | ⟨-, name, rest, h⟩
  · rw [mac_eq, h1] at h; cases h
  · rw [h2] at h; cases h

/-- C116: building fails exactly if the configuration cannot be loaded, if there is no MAC address, or if the
configuration cannot be saved. Lists of paths that cannot be loaded are no failure. -/
theorem C116_fails (E : Env) (l : List Setting) (w : World) (address : Bytes) (ss : List Service) (hs : Static l ss) :
    ((Bld.new.setAll l).build E w address).2 = .err ↔
      w.config = none ∨ ∃ p, w.config = some p ∧
        (NoMac l w ∨ ¬NoMac l w ∧ (∃ t, tableOf E w p ss = some t) ∧ w.saved = false) := by
  have hw := went E (Bld.new.setAll l) w address
  generalize ((Bld.new.setAll l).build E w address).1 = e at hw
  generalize ((Bld.new.setAll l).build E w address).2 = r at hw
  cases hw with
  | unloaded h => exact ⟨fun _ => .inl h, fun _ => rfl⟩
  | noMac p h h1 h2 => exact ⟨fun _ => .inr ⟨p, h, .inl ⟨(mac_eq l).symm.trans h1, h2⟩⟩, fun _ => rfl⟩
  | full p mac h h1 h2 =>
    rw [static_eq hs] at h2
    refine ⟨nofun, ?_⟩
    rintro (h' | ⟨q, hq, h' | ⟨-, ⟨t, ht⟩, -⟩⟩)
    · rw [h] at h'; cases h'
    · exact absurd h' (not_noMac h1)
    · rw [h] at hq; injection hq with hq; subst hq; rw [h2] at ht; cases ht
  | made p mac t h h1 h2 =>
    rw [static_eq hs] at h2
    cases hv : w.saved with
    | false => exact ⟨fun _ => .inr ⟨p, h, .inr ⟨not_noMac h1, ⟨t, h2⟩, rfl⟩⟩, fun _ => rfl⟩
    | true =>
      refine ⟨nofun, ?_⟩
      rintro (h' | ⟨q, hq, h' | ⟨-, -, h'⟩⟩)
      · rw [h] at h'; cases h'
      · exact absurd h' (not_noMac h1)
      · cases h'

/-- C116: building panics exactly if there is no room in the service table. -/
theorem C116_panics (E : Env) (l : List Setting) (w : World) (address : Bytes) (ss : List Service) (hs : Static l ss) :
    ((Bld.new.setAll l).build E w address).2 = .panic ↔
      ∃ p, w.config = some p ∧ ¬NoMac l w ∧ tableOf E w p ss = none := by
  have hw := went E (Bld.new.setAll l) w address
  generalize ((Bld.new.setAll l).build E w address).1 = e at hw
  generalize ((Bld.new.setAll l).build E w address).2 = r at hw
  cases hw with
  | unloaded h => exact ⟨nofun, fun ⟨p, h', _⟩ => by rw [h] at h'; cases h'⟩
  | noMac p h h1 h2 => exact ⟨nofun, fun ⟨q, _, h', _⟩ => absurd ⟨(mac_eq l).symm.trans h1, h2⟩ h'⟩
  | full p mac h h1 h2 =>
    rw [static_eq hs] at h2
    exact ⟨fun _ => ⟨p, h, not_noMac h1, h2⟩, fun _ => rfl⟩
  | made p mac t h h1 h2 =>
    rw [static_eq hs] at h2
    refine ⟨fun h' => ?_, fun ⟨q, hq, _, h'⟩ => ?_⟩
    · cases hv : w.saved <;> rw [hv] at h' <;> cases h'
    · rw [h] at hq; injection hq with hq; subst hq; rw [h2] at h'; cases h'

theorem saves_append (a b : List Ev) : saves (a ++ b) = saves a ++ saves b := List.filterMap_append ..

theorem warnings_append (a b : List Ev) : warnings (a ++ b) = warnings a ++ warnings b := List.filterMap_append ..

theorem saves_before (x : Bld) (w : World) : saves (before x w) = [] := by
  unfold before findMac loadPaths
  cases x.b.mac <;> cases w.rtsp <;> cases w.mjpeg <;> cases x.b.verbose <;> rfl

/-- C116: the configuration is saved once, as it is returned; nothing is saved if building fails for another reason
than saving. -/
theorem C116_saves (E : Env) (l : List Setting) (w : World) (address : Bytes) :
    (∀ c, ((Bld.new.setAll l).build E w address).2 = .ok c →
      w.saved = true ∧ saves ((Bld.new.setAll l).build E w address).1 = [⟨c.uuid, c.passwd, c.version, c.table⟩]) ∧
    (w.config = none ∨ NoMac l w ∨ ((Bld.new.setAll l).build E w address).2 = .panic →
      saves ((Bld.new.setAll l).build E w address).1 = []) := by
  have hw := went E (Bld.new.setAll l) w address
  generalize ((Bld.new.setAll l).build E w address).1 = e at hw
  generalize ((Bld.new.setAll l).build E w address).2 = r at hw
  cases hw with
  | unloaded h => exact ⟨nofun, fun _ => rfl⟩
  | noMac p h h1 h2 => exact ⟨nofun, fun _ => rfl⟩
  | full p mac h h1 h2 => exact ⟨nofun, fun _ => saves_before ..⟩
  | made p mac t h h1 h2 =>
    rw [saves_append, saves_before]
    refine ⟨fun c hc => ?_, ?_⟩
    · cases hv : w.saved with
      | false => rw [hv] at hc; cases hc
      | true =>
        rw [hv] at hc
        injection hc with hc
        subst hc
        exact ⟨rfl, rfl⟩
    · rintro (h' | h' | h')
      · rw [h] at h'; cases h'
      · exact absurd h' (not_noMac h1)
      · cases hv : w.saved <;> rw [hv] at h' <;> cases h'

/-- C116: a list of paths that cannot be loaded gives one warning, to the logger that was set; there is no other
warning. -/
theorem C116_warnings (E : Env) (l : List Setting) (w : World) (address : Bytes) (c : Conf)
    (h : ((Bld.new.setAll l).build E w address).2 = .ok c) :
    warnings ((Bld.new.setAll l).build E w address).1 =
      (if w.rtsp = none then [(loggerSet l, .rtsp)] else []) ++
      (if w.mjpeg = none then [(loggerSet l, .mjpeg)] else []) := by
  have hw := went E (Bld.new.setAll l) w address
  rw [h] at hw
  generalize ((Bld.new.setAll l).build E w address).1 = e at hw
  generalize hr : (Wire.Res.ok c : Wire.Res Conf) = r at hw
  cases hw with
  | unloaded | noMac | full => cases hr
  | made p mac t h0 h1 h2 =>
    rw [warnings_append, ← logger_eq]
    unfold before findMac loadPaths
    generalize Bld.new.setAll l = x
    cases x.b.mac <;> cases w.rtsp <;> cases w.mjpeg <;> cases x.b.verbose <;> rfl

/-- C116: the network interfaces are looked at only if no MAC address was set, and the level of the logger is raised
only if asked for. -/
theorem C116_asks (E : Env) (l : List Setting) (w : World) (address : Bytes) :
    (listsInterfaces ((Bld.new.setAll l).build E w address).1 ↔ w.config ≠ none ∧ macSet l = none) ∧
    (raisesLevel ((Bld.new.setAll l).build E w address).1 →
      Spec.Builder.last (fun | .verbose b => some b | _ => none) false l = true) ∧
    (∀ c, ((Bld.new.setAll l).build E w address).2 = .ok c →
      Spec.Builder.last (fun | .verbose b => some b | _ => none) false l = true →
      raisesLevel ((Bld.new.setAll l).build E w address).1) := by
  have key : ∀ (x : Bld), (listsInterfaces (before x w) ↔ x.b.mac = none) ∧
      (raisesLevel (before x w) ↔ x.b.verbose = true) := by
    intro x
    unfold before findMac loadPaths listsInterfaces raisesLevel
    cases x.b.mac <;> cases w.rtsp <;> cases w.mjpeg <;> cases x.b.verbose <;> simp
  have hl : ∀ (e : List Ev) c, (listsInterfaces (e ++ [.save c]) ↔ listsInterfaces e) ∧
      (raisesLevel (e ++ [.save c]) ↔ raisesLevel e) := by
    intro e c
    simp [listsInterfaces, raisesLevel]
  have hw := went E (Bld.new.setAll l) w address
  generalize ((Bld.new.setAll l).build E w address).1 = e at hw
  generalize ((Bld.new.setAll l).build E w address).2 = r at hw
  obtain ⟨k1, k2⟩ := key (Bld.new.setAll l)
  rw [mac_eq] at k1
  rw [verbose_eq] at k2
  cases hw with
  | unloaded h => exact ⟨by simp [listsInterfaces, h], by simp [raisesLevel], nofun⟩
  | noMac p h h1 h2 =>
    rw [mac_eq] at h1
    exact ⟨by simp [listsInterfaces, h, h1], by simp [raisesLevel], nofun⟩
  | full p mac h h1 h2 =>
    exact ⟨by rw [k1, h]; simp, k2.mp, nofun⟩
  | made p mac t h h1 h2 =>
    rw [(hl _ _).1, (hl _ _).2, k1, h]
    exact ⟨by simp, k2.mp, fun _ _ hv => k2.mpr hv⟩

theorem last_map {α β : Type} (f : Setting → Option α) (g : CSetting → Option β) (k : β → α) (d : α)
    (h : ∀ x, f (CSetting.setting x) = (g x).map k) (cs : List CSetting) :
    Spec.Builder.last f d (cs.map CSetting.setting) = (((cs.filterMap g).getLast?).map k).getD d := by
  unfold Spec.Builder.last
  have : (cs.map CSetting.setting).filterMap f = (cs.filterMap g).map k := by
    induction cs with
    | nil => rfl
    | cons x cs ih =>
      rw [List.map_cons]
      cases hg : g x with
      | none => rw [List.filterMap_cons_none (by rw [h, hg]; rfl), List.filterMap_cons_none hg, ih]
      | some y => rw [List.filterMap_cons_some (by rw [h, hg]; rfl), List.filterMap_cons_some hg, ih]; rfl
  rw [this, List.getLast?_map]

theorem on_iff (f : CSetting → Option Int32) (cs : List CSetting) :
    (((cs.filterMap f).getLast?).map (fun n => n != 0)).getD false = true ↔ On f cs := by
  unfold On
  cases (cs.filterMap f).getLast? with
  | none => simp
  | some n => simp

theorem last_none {α : Type} (f : Setting → Option α) (d : α) (h : ∀ x, f (CSetting.setting x) = none)
    (cs : List CSetting) : Spec.Builder.last f d (cs.map CSetting.setting) = d := by
  rw [last_map f (fun _ => (none : Option α)) id d h]
  have : cs.filterMap (fun _ => (none : Option α)) = [] := by
    induction cs with
    | nil => rfl
    | cons x cs ih => exact ih
  rw [this]
  rfl

/-- C116: an application that uses the C interface gets a mode if it last asked for it with a number other than zero,
and the MAC address of its last call. It has no static services, and it is always a gateway that may write the
configuration whenever it changes. -/
theorem C116_c_interface (E : Env) (cs : List CSetting) (w : World) (address : Bytes) (c : Conf)
    (h : ((Bld.new.setAll (cs.map CSetting.setting)).build E w address).2 = .ok c) :
    (c.diagnostic = true ↔ On (fun | .diagnostic n => some n | _ => none) cs) ∧
    (c.discovery = true ↔ On (fun | .discovery n => some n | _ => none) cs) ∧
    (raisesLevel ((Bld.new.setAll (cs.map CSetting.setting)).build E w address).1 ↔
      On (fun | .verbose n => some n | _ => none) cs) ∧
    (match (cs.filterMap (fun | .mac m => some m | _ => none)).getLast? with
      | some (some m) => c.mac = m
      | _ => ∃ name rest, w.interfaces = (name, c.mac) :: rest) ∧
    c.logger = (cs.filterMap (fun | .logger n => some n | _ => none)).getLast? ∧
    c.gateway = true ∧ c.flashFriendly = false ∧ c.whitelist = [] ∧
    c.category = none ∧ c.type = none ∧ c.vendor = none ∧ ∃ p, w.config = some p ∧ c.table = p.table := by
  have hc := C116_settings E _ w address c h
  have ha := C116_asks E (cs.map CSetting.setting) w address
  refine ⟨?_, ?_, ?_, ?_, ?_, ?_, ?_, ?_, ?_, ?_, ?_, ?_⟩
  · rw [hc.diagnostic, last_map _ (fun | .diagnostic n => some n | _ => none) (fun n => n != 0) _
      (by rintro (_ | (_ | _) | _ | _ | _) <;> rfl)]
    exact on_iff _ cs
  · rw [hc.discovery, last_map _ (fun | .discovery n => some n | _ => none) (fun n => n != 0) _
      (by rintro (_ | (_ | _) | _ | _ | _) <;> rfl)]
    exact on_iff _ cs
  · have hv : Spec.Builder.last (fun | .verbose b => some b | _ => none) false (cs.map CSetting.setting) = true ↔
        On (fun | .verbose n => some n | _ => none) cs := by
      rw [last_map _ (fun | .verbose n => some n | _ => none) (fun n => n != 0) _
        (by rintro (_ | (_ | _) | _ | _ | _) <;> rfl)]
      exact on_iff _ cs
    rw [← hv]
    exact ⟨ha.2.1, ha.2.2 c h⟩
  · have hm := hc.mac
    have : macSet (cs.map CSetting.setting) = (((cs.filterMap (fun | .mac m => some m | _ => none)).getLast?).map id).getD
        none := last_map _ (fun | .mac m => some m | _ => none) id none
          (by rintro (_ | (_ | _) | _ | _ | _) <;> rfl) cs
    rw [this] at hm
    cases hl : (cs.filterMap (fun | .mac m => some m | _ => none)).getLast? with
    | none =>
      rw [hl] at hm
      rcases hm with hm | hm
      · cases hm
      · exact hm.2
    | some o =>
      rw [hl] at hm
      cases o with
      | none =>
        rcases hm with hm | hm
        · cases hm
        · exact hm.2
      | some m =>
        rcases hm with hm | hm
        · injection hm with hm; exact hm.symm
        · cases hm.1
  · rw [hc.logger]
    have : loggerSet (cs.map CSetting.setting) = (((cs.filterMap (fun | .logger n => some n | _ => none)).getLast?).map
        some).getD none := last_map _ (fun | .logger n => some n | _ => none) some none
          (by rintro (_ | (_ | _) | _ | _ | _) <;> rfl) cs
    rw [this]
    cases (cs.filterMap (fun | .logger n => some n | _ => none)).getLast? <;> rfl
  · rw [hc.gateway]; exact last_none _ _ (by rintro (_ | (_ | _) | _ | _ | _) <;> rfl) cs
  · rw [hc.flashFriendly]; exact last_none _ _ (by rintro (_ | (_ | _) | _ | _ | _) <;> rfl) cs
  · rw [hc.whitelist]; exact last_none _ _ (by rintro (_ | (_ | _) | _ | _ | _) <;> rfl) cs
  · rw [hc.category]; exact last_none _ _ (by rintro (_ | (_ | _) | _ | _ | _) <;> rfl) cs
  · rw [hc.type]; exact last_none _ _ (by rintro (_ | (_ | _) | _ | _ | _) <;> rfl) cs
  · rw [hc.vendor]; exact last_none _ _ (by rintro (_ | (_ | _) | _ | _ | _) <;> rfl) cs
  · obtain ⟨p, ss, h1, -, -, -, h2, h3, -⟩ := hc.loaded
    refine ⟨p, h1, ?_⟩
    have hn : ∀ x ∈ cs.map CSetting.setting, ¬setsServices x ∧ ∀ s, x ≠ .addService s := by
      intro x hx
      obtain ⟨y, -, rfl⟩ := List.mem_map.mp hx
      rcases y with _ | (_ | _) | _ | _ | _ <;> exact ⟨id, nofun⟩
    have hss : ss = [] := by
      rcases h2 with ⟨b, xs, a, h2, -, -⟩ | ⟨-, h2⟩
      · exact absurd trivial (hn (.services xs) (by rw [h2]; exact List.mem_append_right _ List.mem_cons_self)).1
      · rw [h2]
        unfold added
        rw [List.filterMap_eq_nil_iff]
        intro x hx
        have := (hn x hx).2
        cases x with
        | addService s => exact absurd rfl (this s)
        | _ => rfl
    subst hss
    injection h3 with h3
    exact h3.symm

/-! Examples: a configuration without services is loaded; three interfaces. -/

noncomputable def demoEnv : Env := Config.demoEnv

def demoConfig : PConfig := ⟨[1], [2], 7, Table.new 0⟩

def demoWorld : World :=
  ⟨some demoConfig, [(asc "eth0", ⟨0, 1, 2, 3, 4, 5⟩), (asc "eth1", ⟨9, 9, 9, 9, 9, 9⟩)], none, some [asc "/a"], true, 5⟩

def demoSettings : List Setting :=
  [.diagnostic true, .addService (.tcp ⟨1, 1, 1, 1, 1, 1⟩ ⟨.v4 10 0 0 1, 80⟩), .services [], .mac (some ⟨7, 7, 7, 7, 7, 7⟩),
    .addService (.http ⟨2, 2, 2, 2, 2, 2⟩ ⟨.v4 10 0 0 2, 80⟩), .diagnostic false, .logger 3, .mac none, .category (asc "nvr")]

example : ∃ c, ((Bld.new.setAll demoSettings).build demoEnv demoWorld (asc "h:1")).2 = .ok c ∧
    c.mac = ⟨0, 1, 2, 3, 4, 5⟩ ∧ c.diagnostic = false ∧ c.category = some (asc "nvr") ∧ c.gateway = true ∧
    c.mjpegPaths = [asc "/a"] ∧ c.rtspPaths = [] ∧ c.logger = some 3 := by
  refine ⟨_, rfl, ?_, ?_, ?_, ?_, ?_, ?_, ?_⟩ <;> decide +kernel

example : Static demoSettings [.http ⟨2, 2, 2, 2, 2, 2⟩ ⟨.v4 10 0 0 2, 80⟩] :=
  .inl ⟨demoSettings.take 2, [], demoSettings.drop 3, rfl, by
    intro x hx
    simp only [demoSettings, List.drop, List.mem_cons, List.not_mem_nil, or_false] at hx
    rcases hx with rfl | rfl | rfl | rfl | rfl | rfl <;> exact id, rfl⟩

example : warnings ((Bld.new.setAll demoSettings).build demoEnv demoWorld []).1 = [(some 3, .rtsp)] := rfl

example : NoMac demoSettings { demoWorld with interfaces := [] } ∧
    ((Bld.new.setAll demoSettings).build demoEnv { demoWorld with interfaces := [] } []).2 = .err := ⟨⟨rfl, rfl⟩, rfl⟩

example : ∃ c, ((Bld.new.setAll ([CSetting.diagnostic 1, .discovery (-1), .mac (some ⟨7, 7, 7, 7, 7, 7⟩), .diagnostic 0].map
    CSetting.setting)).build demoEnv demoWorld []).2 = .ok c ∧ c.diagnostic = false ∧ c.discovery = true ∧
    c.mac = ⟨7, 7, 7, 7, 7, 7⟩ := ⟨_, rfl, rfl, rfl, rfl⟩

/-! ### C117 -/

open Verif.Spec.Args

/-- The settings that the parser makes. -/
theorem setAll_settings (p : Verif.Args.Parser) (n : Nat) :
    Bld.new.setAll (settings p n) = ⟨p.builder, some n⟩ := by
  unfold settings
  rw [setAll_append, setAll_append, setAll_append]
  unfold Verif.Args.Parser.builder
  cases p.category <;> cases p.type <;> cases p.vendor <;> rfl

/-- C117: the program ends with 1 if its arguments are not accepted, with 0 if `--help` or `--version` is asked for; in
both cases it has not touched anything. -/
theorem C117_arguments (A : Verif.Args.Env) (E : Env) (s : Sys) (a : Bytes) (opts : List Opt) (tail : List Bytes)
    (r : Verif.Args.R Verif.Args.Parser) (hv : ∀ w ∈ opts.flatMap Opt.words ++ tail, Utf8.valid w = true)
    (ha : ∀ o ∈ opts, Accepted A o) (ht : tail ≠ []) (he : Ends A tail r) :
    (r = .exit → main A E s (a :: (opts.flatMap Opt.words ++ tail)) = ([], .exit 0)) ∧
    (r = .err → main A E s (a :: (opts.flatMap Opt.words ++ tail)) = ([], .exit 1)) := by
  have h := Props.Args.C84_ends A a opts tail r hv ha ht he
  unfold main
  rw [h]
  constructor <;> (intro h; rw [h])

/-- C117: without any argument the program ends with 1. -/
theorem C117_no_address (A : Verif.Args.Env) (E : Env) (s : Sys) : main A E s [] = ([], .exit 1) := rfl

/-- The program after arguments that are accepted. -/
theorem main_accepted (A : Verif.Args.Env) (E : Env) (s : Sys) (a : Bytes) (opts : List Opt)
    (hv : ∀ w ∈ opts.flatMap Opt.words, Utf8.valid w = true) (ha : ∀ o ∈ opts, Accepted A o) :
    ∃ p, Verif.Args.parse A (a :: opts.flatMap Opt.words) = .ok p ∧ Effect A opts p ∧
      main A E s (a :: opts.flatMap Opt.words) = match buildParser E s p with
        | (e, .ok c) => (e, .running c)
        | (e, .err) => (e, .exit 1)
        | (e, .panic) => (e, .panic) := by
  obtain ⟨p, h1, h2⟩ := Props.Args.C84_accepts A a opts hv ha
  refine ⟨p, h1, h2, ?_⟩
  unfold main
  rw [h1]
  rfl

/-- C117: if the lock file is locked by another process, the program ends with 1, and trying to take the lock is all
it has done: no log file is opened, no configuration read or written. -/
theorem C117_locked (A : Verif.Args.Env) (E : Env) (s : Sys) (a : Bytes) (opts : List Opt)
    (hv : ∀ w ∈ opts.flatMap Opt.words, Utf8.valid w = true) (ha : ∀ o ∈ opts, Accepted A o) (f : Bytes)
    (hf : lockFile opts = some f) (hl : s.lock f = false) :
    main A E s (a :: opts.flatMap Opt.words) = ([.lock f], .exit 1) := by
  obtain ⟨p, -, h2, h3⟩ := main_accepted A E s a opts hv ha
  rw [h3]
  have : p.lockFile = some f := h2.lockFile.trans hf
  unfold buildParser takeLock
  rw [this]
  dsimp only
  rw [hl]

theorem loggerOf {A : Verif.Args.Env} {opts : List Opt} {p : Verif.Args.Parser} (h : Effect A opts p) {f : Bytes}
    (hf : logFile opts = some f) : p.logger = .file ∧ p.logFile = f := by
  unfold logFile at hf
  split at hf
  · next hl =>
    refine ⟨by rw [h.logger, hl]; rfl, ?_⟩
    have : p.logFile = (Spec.Args.last (fun | .logFile f => some f | _ => none) opts).getD [] := h.logFile
    rw [this]
    exact congrArg (·.getD []) hf
  · cases hf

theorem loggerNotFile {A : Verif.Args.Env} {opts : List Opt} {p : Verif.Args.Parser} (h : Effect A opts p)
    (hf : logFile opts = none) : p.logger ≠ .file := by
  intro hp
  have hl : Spec.Args.last Opt.logger opts = some .file := by
    have hq := h.logger
    rw [hp] at hq
    cases hg : Spec.Args.last Opt.logger opts with
    | none => rw [hg] at hq; cases hq
    | some x => rw [hg] at hq; exact congrArg some hq.symm
  unfold logFile at hf
  rw [if_pos hl] at hf
  obtain ⟨o, ho, hx⟩ := List.mem_filterMap.mp (List.mem_of_getLast? hl)
  have hn := List.getLast?_eq_none_iff.mp hf
  cases o with
  | logFile v =>
    have hm : v ∈ opts.filterMap (fun | .logFile f => some f | _ => none) := List.mem_filterMap.mpr ⟨_, ho, rfl⟩
    have hn : opts.filterMap (fun | .logFile f => some f | _ => none) = [] := hn
    rw [hn] at hm
    cases hm
  | _ => cases hx

/-- C117: if the log file cannot be opened, the program ends with 1 before it reads or writes any configuration. It
has tried to open the file after it has taken the lock. -/
theorem C117_log_file (A : Verif.Args.Env) (E : Env) (s : Sys) (a : Bytes) (opts : List Opt)
    (hv : ∀ w ∈ opts.flatMap Opt.words, Utf8.valid w = true) (ha : ∀ o ∈ opts, Accepted A o)
    (hfree : ∀ f, lockFile opts = some f → s.lock f = true) (f : Bytes)
    (hf : logFile opts = some f) (hl : s.log f = false) :
    main A E s (a :: opts.flatMap Opt.words) = ((lockFile opts).toList.map .lock ++ [.openLog f], .exit 1) := by
  obtain ⟨p, -, h2, h3⟩ := main_accepted A E s a opts hv ha
  obtain ⟨h4, h5⟩ := loggerOf h2 hf
  have h6 : p.lockFile = lockFile opts := h2.lockFile
  rw [h3]
  unfold buildParser createLogger takeLock
  rw [h4, h6]
  dsimp only
  rw [h5, hl]
  cases hk : lockFile opts with
  | none => rfl
  | some l =>
    dsimp only
    rw [hfree l hk]
    rfl

/-- C117: otherwise nothing but the configuration can keep the program from running. It takes the lock, opens the log
file, and then builds the configuration from the options (C116). -/
theorem C117_starts (A : Verif.Args.Env) (E : Env) (s : Sys) (a : Bytes) (opts : List Opt)
    (hv : ∀ w ∈ opts.flatMap Opt.words, Utf8.valid w = true) (ha : ∀ o ∈ opts, Accepted A o)
    (hfree : ∀ f, lockFile opts = some f → s.lock f = true) (hlog : ∀ f, logFile opts = some f → s.log f = true) :
    ∃ p e r, Effect A opts p ∧ (Bld.new.setAll (settings p s.logger)).build E (s.world p) p.address = (e, r) ∧
      main A E s (a :: opts.flatMap Opt.words) =
        ((lockFile opts).toList.map .lock ++ (logFile opts).toList.map .openLog ++ e.map .conf,
          match r with
          | .ok c => .running c
          | .err => .exit 1
          | .panic => .panic) := by
  obtain ⟨p, -, h2, h3⟩ := main_accepted A E s a opts hv ha
  cases hb : (Bld.new.setAll (settings p s.logger)).build E (s.world p) p.address with
  | mk e r =>
  refine ⟨p, e, r, h2, hb, ?_⟩
  have h6 : p.lockFile = lockFile opts := h2.lockFile
  have h7 : takeLock s (lockFile opts) = ((lockFile opts).toList.map .lock, true) := by
    unfold takeLock
    cases hk : lockFile opts with
    | none => rfl
    | some l => dsimp only; rw [hfree l hk]; rfl
  have h8 : createLogger s p = ((logFile opts).toList.map .openLog, true) := by
    unfold createLogger
    cases hk : logFile opts with
    | none =>
      have := loggerNotFile h2 hk
      cases hg : p.logger with
      | file => exact absurd hg this
      | _ => rfl
    | some l =>
      obtain ⟨h4, h5⟩ := loggerOf h2 hk
      rw [h4]
      dsimp only
      rw [h5, hlog l hk]
      rfl
  rw [h3]
  unfold buildParser
  rw [h6, h7]
  dsimp only
  rw [h8]
  dsimp only
  rw [hb]
  cases r <;> rfl

/-- The program that runs has built its configuration. -/
theorem running_built {E : Env} {s : Sys} {p : Verif.Args.Parser} {e : List PEv} {c : Conf}
    (h : buildParser E s p = (e, .ok c)) :
    (∀ f, p.lockFile = some f → s.lock f = true ∧ ∃ t, e = .lock f :: t) ∧
    ((Bld.new.setAll (settings p s.logger)).build E (s.world p) p.address).2 = .ok c := by
  unfold buildParser at h
  cases hl : takeLock s p.lockFile with
  | mk e1 b1 =>
    rw [hl] at h
    cases b1 with
    | false => cases h
    | true =>
      dsimp only at h
      cases hg : createLogger s p with
      | mk e2 b2 =>
        rw [hg] at h
        cases b2 with
        | false => cases h
        | true =>
          dsimp only at h
          injection h with h1 h2
          refine ⟨?_, h2⟩
          intro f hf
          rw [hf] at hl
          unfold takeLock at hl
          injection hl with h3 h4
          exact ⟨h4, _, by rw [← h1, ← h3]; rfl⟩

theorem interface_accepted {A : Verif.Args.Env} {opts : List Opt} (h : ∀ o ∈ opts, Accepted A o) {i : Bytes}
    (hi : interface opts = some i) : ∃ m, A.mac i = some m := by
  have hmem := List.mem_of_getLast? hi
  obtain ⟨o, ho, hoi⟩ := List.mem_filterMap.mp hmem
  cases o with
  | interface v => injection hoi with hoi; subst hoi; exact h _ ho
  | _ => cases hoi

theorem built_same {E : Env} {s : Sys} {p : Verif.Args.Parser} {c : Conf}
    (h : ((Bld.new.setAll (settings p s.logger)).build E (s.world p) p.address).2 = .ok c) :
    c.diagnostic = p.diagnostic ∧ c.address = p.address := by
  have hc := C116_settings E _ _ _ _ h
  refine ⟨?_, hc.address⟩
  rw [hc.diagnostic]
  unfold settings Spec.Builder.last
  cases p.category <;> cases p.type <;> cases p.vendor <;> rfl

theorem address_of {a r : Bytes} (h : (58 ∉ a → r = a ++ asc ":8900") ∧ (∀ x, a = x ++ asc "]" → r = a ++ asc ":8900") ∧
    (58 ∈ a → (∀ x, a ≠ x ++ asc "]") → r = a) ∧ ∃ host port, r = host ++ 58 :: port ∧ 58 ∉ port) : Address a r := by
  obtain ⟨h1, h2, h3, -⟩ := h
  by_cases hx : ∃ x, a = x ++ asc "]"
  · obtain ⟨x, hx⟩ := hx
    exact .inl ⟨.inr ⟨x, hx⟩, h2 x hx⟩
  · have hx' : ∀ x, a ≠ x ++ asc "]" := fun x hh => hx ⟨x, hh⟩
    by_cases hm : 58 ∈ a
    · exact .inr ⟨hm, hx', h3 hm hx'⟩
    · exact .inl ⟨.inl hm, h1 hm⟩

/-- C117: the program runs only with an address and options that are all accepted, and its configuration is what the
command line says. It holds the lock, which it took before anything else. -/
theorem C117_running (A : Verif.Args.Env) (E : Env) (s : Sys) (args : List Bytes)
    (hv : ∀ w ∈ args, Utf8.valid w = true) (e : List PEv) (c : Conf) (h : main A E s args = (e, .running c)) :
    ∃ a opts, args = a :: opts.flatMap Opt.words ∧ (∀ o ∈ opts, Accepted A o) ∧ Runs A E s opts c ∧
      Address a c.address ∧ ∀ f, lockFile opts = some f → s.lock f = true ∧ ∃ t, e = .lock f :: t := by
  cases args with
  | nil => cases h
  | cons a args =>
    have hv' : ∀ w ∈ args, Utf8.valid w = true := fun w hw => hv w (List.mem_cons_of_mem _ hw)
    obtain ⟨opts, tail, h1, h2, h3, -⟩ := Props.Args.C84_outcome A a args hv'
    cases hp : Verif.Args.parse A (a :: args) with
    | ok p =>
      rw [hp] at h3
      cases h3
      rw [List.append_nil] at h1
      obtain ⟨p', h4, h5, h6⟩ := main_accepted A E s a opts (by rw [← h1]; exact hv') h2
      rw [← h1, h] at h6
      refine ⟨a, opts, by rw [h1], h2, ?_⟩
      cases hb : buildParser E s p' with
      | mk e' r =>
        rw [hb] at h6
        cases r with
        | err => cases h6
        | panic => cases h6
        | ok c' =>
          dsimp only at h6
          injection h6 with h7 h8
          injection h8 with h8
          subst h7
          subst h8
          obtain ⟨h9, h10⟩ := running_built hb
          have haddr : Address a c.address := by
            rw [(built_same h10).2]
            exact address_of (Props.Args.C54_service_address A a args p' hv' (by rw [h1]; exact h4))
          refine ⟨?_, haddr, fun f hf => h9 f (h5.lockFile.trans hf)⟩
          have hs := setAll_settings p' s.logger
          have hw := went E (Bld.new.setAll (settings p' s.logger)) (s.world p') p'.address
          rw [h10] at hw
          rw [hs] at hw
          generalize (Bld.build E _ _ _).1 = e0 at hw
          generalize hr : (Wire.Res.ok c : Wire.Res Conf) = r at hw
          cases hw with
          | unloaded | noMac | full => cases hr
          | made q mac t k1 k2 k3 =>
            cases hsv : (s.world p').saved with
            | false => rw [hsv] at hr; cases hr
            | true =>
              rw [hsv] at hr
              injection hr with hr
              subst hr
              obtain ⟨ss, j1, j2, j3⟩ := h5.services
              exact
                { diagnostic := h5.diagnostic
                  gateway := h5.gateway
                  discovery := h5.discovery
                  whitelist := h5.whitelist
                  flashFriendly := rfl
                  category := h5.category
                  type := h5.type
                  vendor := h5.vendor
                  logger := rfl
                  loaded := by
                    refine ⟨p', h5, ?_, paths_eq .., paths_eq .., q, ss, k1, rfl, rfl, rfl, j2, j3, ?_⟩
                    · have hm := findMac_some k2
                      have hm' : Verif.Args.Builder.mac (⟨p'.builder, some s.logger⟩ : Bld).b = p'.mac := rfl
                      have hi' : p'.mac = (interface opts).bind A.mac := h5.mac
                      rw [hm', hi'] at hm
                      cases hi : interface opts with
                      | none =>
                        rw [hi] at hm
                        rcases hm with hm | hm
                        · cases hm
                        · exact hm.2
                      | some i =>
                        obtain ⟨m, hm2⟩ := interface_accepted h2 hi
                        rw [hi] at hm
                        rcases hm with hm | ⟨hm, -⟩
                        · exact hm
                        · rw [Option.bind_some, hm2] at hm; cases hm
                    · rw [← j1]; exact k3 }
    | err => unfold main at h; rw [hp] at h; cases h
    | exit => unfold main at h; rw [hp] at h; cases h
    | panic => unfold main at h; rw [hp] at h; cases h

/-- C117: once it runs, a program that was not started in diagnostic mode never ends by itself, whatever the server and
the network do; in diagnostic mode it makes one attempt and ends, with 0 for a redirect or "unauthorized", else 1. -/
theorem C117_ends (A : Verif.Args.Env) (E : Env) (s : Sys) (a : Bytes) (opts : List Opt)
    (hv : ∀ w ∈ a :: opts.flatMap Opt.words, Utf8.valid w = true) (ha : ∀ o ∈ opts, Accepted A o) (e : List PEv)
    (c : Conf) (h : main A E s (a :: opts.flatMap Opt.words) = (e, .running c)) (now : Nat)
    (r : Reconnect.Round) (rounds : List Reconnect.Round) :
    (Opt.diagnostic ∉ opts → Spec.Reconnect.exits (c.trace now (r :: rounds)) = []) ∧
    (Opt.diagnostic ∈ opts → (Spec.Reconnect.attempts (c.trace now (r :: rounds))).length = 1 ∧
      ((∃ x, r.result = .redirect x) ∨ r.result = .error .unauthorized →
        Spec.Reconnect.exits (c.trace now (r :: rounds)) = [0]) ∧
      (¬((∃ x, r.result = .redirect x) ∨ r.result = .error .unauthorized) →
        Spec.Reconnect.exits (c.trace now (r :: rounds)) = [1])) := by
  obtain ⟨p, -, h2, h3⟩ := main_accepted A E s a opts (fun w hw => hv w (List.mem_cons_of_mem _ hw)) ha
  have hd : c.diagnostic = diagnosticMode opts := by
    cases hb : buildParser E s p with
    | mk e' r =>
      rw [hb, h] at h3
      cases r with
      | err => cases h3
      | panic => cases h3
      | ok c' =>
        injection h3 with _ h3
        injection h3 with h3
        subst h3
        rw [(built_same (running_built hb).2).1]
        exact h2.diagnostic
  have hm : diagnosticMode opts = true ↔ Opt.diagnostic ∈ opts := by
    unfold diagnosticMode
    rw [List.any_eq_true]
    constructor
    · rintro ⟨o, ho, hd⟩
      cases o with
      | diagnostic => exact ho
      | _ => cases hd
    · intro ho
      exact ⟨_, ho, rfl⟩
  have ht : c.trace now (r :: rounds) = Props.Reconnect.trace c.address c.diagnostic now (r :: rounds) := rfl
  rw [ht, hd]
  constructor
  · intro hn
    have : diagnosticMode opts = false := by
      cases hq : diagnosticMode opts with
      | false => rfl
      | true => exact absurd (hm.mp hq) hn
    rw [this]
    exact Props.Reconnect.C47_no_exit ..
  · intro hy
    rw [hm.mpr hy]
    obtain ⟨k1, k2, k3, -⟩ := Props.Reconnect.C47_exit_code c.address now r rounds
    exact ⟨k1, k2, k3⟩

/-! Examples: the program with the options `-v --lock-file=/l --diagnostic-mode`. -/

def demoSys (lock : Bool) : Sys := ⟨fun _ => lock, fun _ => true, 1, fun _ => demoWorld⟩

def demoOpts : List Opt := [.verbose, .lockFile (asc "/l"), .diagnostic]

theorem demo_valid : ∀ w ∈ asc "host" :: demoOpts.flatMap Opt.words, Utf8.valid w = true := by decide +kernel

theorem demo_accepted : ∀ o ∈ demoOpts, Accepted Props.Args.demoEnv o := by
  intro o ho
  simp only [demoOpts, List.mem_cons, List.not_mem_nil, or_false] at ho
  rcases ho with rfl | rfl | rfl <;> trivial

example : main Props.Args.demoEnv demoEnv (demoSys false) (asc "host" :: demoOpts.flatMap Opt.words) =
    ([.lock (asc "/l")], .exit 1) :=
  C117_locked _ _ _ _ _ (fun w hw => demo_valid w (List.mem_cons_of_mem _ hw)) demo_accepted _ (by decide +kernel) rfl

example : ∃ e c, main Props.Args.demoEnv demoEnv (demoSys true) (asc "host" :: demoOpts.flatMap Opt.words) =
    (e, .running c) ∧ c.diagnostic = true ∧ c.address = asc "host:8900" ∧ c.mac = ⟨0, 1, 2, 3, 4, 5⟩ :=
  ⟨_, _, rfl, rfl, by decide +kernel, rfl⟩

example : logFile [.logStderr, .logFile (asc "/x")] = some (asc "/x") ∧ logFile [.logFile (asc "/x"), .logStderr] = none := by
  decide +kernel

/-- A log file that cannot be opened, and one that can. -/
def logOpts : List Opt := [.lockFile (asc "/l"), .logFile (asc "/x")]

def logSys (log : Bool) : Sys := { demoSys true with log := fun _ => log }

theorem log_accepted : ∀ o ∈ logOpts, Accepted Props.Args.demoEnv o := by
  intro o ho
  simp only [logOpts, List.mem_cons, List.not_mem_nil, or_false] at ho
  rcases ho with rfl | rfl <;> trivial

example : main Props.Args.demoEnv demoEnv (logSys false) (asc "host" :: logOpts.flatMap Opt.words) =
    ([.lock (asc "/l"), .openLog (asc "/x")], .exit 1) :=
  C117_log_file _ _ _ _ _ (by decide +kernel) log_accepted (fun _ _ => rfl) _ (by decide +kernel) rfl

example : ∃ p e r, Effect Props.Args.demoEnv logOpts p ∧
    (Bld.new.setAll (settings p (logSys true).logger)).build demoEnv ((logSys true).world p) p.address = (e, r) ∧
    main Props.Args.demoEnv demoEnv (logSys true) (asc "host" :: logOpts.flatMap Opt.words) =
      ([.lock (asc "/l"), .openLog (asc "/x")] ++ e.map .conf,
        match r with
        | .ok c => .running c
        | .err => .exit 1
        | .panic => .panic) :=
  C117_starts _ _ (logSys true) _ _ (by decide +kernel) log_accepted (fun _ _ => rfl) (fun _ _ => rfl)

example (E : Env) (s : Sys) : main Props.Args.demoEnv E s [asc "host", asc "-v", asc "--help"] = ([], .exit 0) :=
  (C117_arguments Props.Args.demoEnv E s (asc "host") [.verbose] [asc "--help"] .exit (by decide +kernel)
    (by intro o ho; simp at ho; subst ho; trivial) nofun (.help _ _ (.inl rfl))).1 rfl

end Verif.Props.Builder
