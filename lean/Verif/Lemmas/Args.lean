import Verif.Spec.Args
import Verif.Lemmas.White
import Verif.Lemmas.Url
/-!
# Lemmas about the command line
-/
namespace Verif.Args
open Verif Verif.Spec.Args Verif.Spec.Text Verif.Spec.Url

/-- One option. -/
def apply (E : Env) (p : Parser) : Opt → R Parser
  | .ca v => .ok { p with caCertificates := p.caCertificates ++ [v] }
  | .discovery => if E.discovery then .ok { p with discovery := true } else .err
  | .whitelist v => if E.discovery then .ok { p with whitelist := p.whitelist ++ [v], discovery := true } else .err
  | .interface v =>
    match E.mac v with
    | some m => .ok { p with mac := some m }
    | none => .err
  | .rtsp v => p.addService (rtspService E v)
  | .mjpeg v => p.addService (mjpegService E v)
  | .http v => p.addService (addrService E .http v)
  | .tcp v => p.addService (addrService E .tcp v)
  | .verbose => .ok { p with verbose := true }
  | .flashFriendly => .ok { p with flashFriendly := true }
  | .diagnostic => .ok { p with diagnostic := true }
  | .noGateway => .ok { p with gateway := false }
  | .logStderr => .ok { p with logger := .stderr }
  | .logStderrPretty => .ok { p with logger := .stderrPretty }
  | .configFile v => .ok { p with configFile := v }
  | .skeletonFile v => .ok { p with skeletonFile := v }
  | .stateFile v => .ok { p with stateFile := v }
  | .identityFile v => .ok { p with identityFile := some v }
  | .rtspPaths v => if E.discovery then .ok { p with rtspPaths := v } else .err
  | .mjpegPaths v => if E.discovery then .ok { p with mjpegPaths := v } else .err
  | .logFile v => .ok { p with logger := .file, logFile := v }
  | .logFileSize v =>
    match parseUsize v with
    | some n => .ok { p with logFileSize := n }
    | none => .err
  | .logFileRotations v =>
    match parseUsize v with
    | some n => .ok { p with logFileRotations := n }
    | none => .err
  | .lockFile v => .ok { p with lockFile := some v }
  | .category v => .ok { p with category := deviceValue v }
  | .type v => .ok { p with type := deviceValue v }
  | .vendor v => .ok { p with vendor := deviceValue v }

/-- Go on after an option. -/
def andThen (r : R Parser) (f : Parser → R Parser) : R Parser :=
  match r with
  | .ok p => f p
  | r => r

theorem loop_flag (E : Env) (p : Parser) (arg : Bytes) (rest : List Bytes) (h : isValued arg = false) :
    p.loop E (arg :: rest) = andThen (p.flag E arg) (fun p => p.loop E rest) := by
  cases rest with
  | nil =>
    simp only [Parser.loop, h, Bool.false_eq_true, if_false]
    cases p.flag E arg <;> rfl
  | cons v rest =>
    simp only [Parser.loop, h, Bool.false_eq_true, if_false]
    cases p.flag E arg <;> rfl

theorem loop_valued (E : Env) (p : Parser) (arg v : Bytes) (rest : List Bytes) (h : isValued arg = true) :
    p.loop E (arg :: v :: rest) = andThen (p.valued E arg v) (fun p => p.loop E rest) := by
  simp only [Parser.loop, h, if_true]
  cases p.valued E arg v <;> rfl

theorem loop_words (E : Env) (p : Parser) (o : Opt) (rest : List Bytes) :
    p.loop E (o.words ++ rest) = andThen (apply E p o) (fun p => p.loop E rest) := by
  cases o <;> simp only [Opt.words, List.cons_append, List.nil_append] <;>
    first
    | (rw [loop_valued _ _ _ _ _ (by rfl)]; rfl)
    | (rw [loop_flag _ _ _ _ (by rfl)]; rfl)

/-! ## Services -/

theorem parsed_port {u : Url.Url} {p : Parts} (h : Reads u p) (d : UInt16) : PortIs d p.port (u.port.getD d) := by
  have := h.port
  cases hp : p.port with
  | none =>
    rw [hp] at this
    dsimp only at this
    rw [this]
    rfl
  | some t =>
    rw [hp] at this
    obtain ⟨n, h1, h2⟩ := this
    rw [h1]
    exact h2

theorem decimal_unique {t : Bytes} {m n : Nat} (h : IsDecimal t m) (h' : IsDecimal t n) : m = n := by
  have h1 := (parseUInt_iff (max m n) t m).mpr ⟨h, Nat.le_max_left _ _⟩
  have h2 := (parseUInt_iff (max m n) t n).mpr ⟨h', Nat.le_max_right _ _⟩
  rw [h1] at h2
  injection h2

theorem port_unique {d : UInt16} {o : Option Bytes} {m n : UInt16} (h : PortIs d o m) (h' : PortIs d o n) : m = n := by
  cases o with
  | none => exact h.trans h'.symm
  | some t => exact UInt16.toNat_inj.mp (decimal_unique h h')

/-- The path of the static service. -/
def pathOf (p : Parts) : Bytes :=
  match p.tail with
  | some (x, query, _) => x ++ opt 63 query
  | none => [47]

theorem urlPath_reads {u : Url.Url} {p : Parts} (h : Reads u p) : urlPath u = some (pathOf p) := by
  unfold urlPath pathOf
  rw [h.path, h.query]
  rcases p.tail with _ | ⟨x, _ | q, f⟩
  · rfl
  · simp [opt]
  · simp [opt]

theorem urlService_cases (E : Env) (scheme : Bytes) (port : UInt16) (a b : ServiceType) (url : Bytes)
    (hv : Utf8.valid url = true) (hs : scheme.map lower = scheme) :
    (∃ s, urlService E scheme port a b url = .ok s ∧
      UrlService E scheme port a b url s) ∨
    (urlService E scheme port a b url = .err ∧
      ∀ s, ¬UrlService E scheme port a b url s) := by
  rcases Url.parse_cases hv with h | ⟨p, hp, rfl⟩
  · right
    refine ⟨by unfold urlService; rw [h], ?_⟩
    rintro s ⟨p, n, addr, hp, rfl, -⟩
    rw [Url.parse_render hp hv] at h
    cases h
  · have hr := Url.reads_urlOf hp hv
    have huniq : ∀ q, Wf q → render q = render p → Reads (Url.urlOf p) q := by
      intro q hq e
      have h1 := Url.parse_render hq (by rw [e]; exact hv)
      rw [e, Url.parse_render hp hv] at h1
      injection h1 with h1
      rw [h1]
      exact Url.reads_urlOf hq (by rw [e]; exact hv)
    unfold urlService
    rw [Url.parse_render hp hv]
    simp only [hr.scheme, hs]
    by_cases hsch : p.scheme.map lower = scheme
    · rw [if_neg (by simpa using hsch)]
      simp only [hr.host]
      cases hres : E.resolveHost p.host ((Url.urlOf p).port.getD port) with
      | none =>
        right
        refine ⟨rfl, ?_⟩
        rintro s ⟨q, n, addr, hq, e, -, h2, h3, -⟩
        have hrq := huniq q hq e
        have e1 : q.host = p.host := by
          have := hrq.host.symm.trans hr.host
          injection this
        rw [e1, port_unique h2 (parsed_port hrq port), hres] at h3
        cases h3
      | some addr =>
        left
        simp only [urlPath_reads hr, hr.username]
        refine ⟨⟨if p.user.isSome then b else a, some (fakeMac 0xffff addr), some addr, some (pathOf p)⟩, ?_, ?_⟩
        · rcases p.user with _ | x <;> rfl
        · exact ⟨p, _, addr, hp, rfl, hsch, parsed_port hr port, hres, rfl⟩
    · rw [if_pos (by simpa using hsch)]
      right
      refine ⟨rfl, ?_⟩
      rintro s ⟨q, n, addr, hq, e, h1, -⟩
      have hrq := huniq q hq e
      have e1 : q.scheme = p.scheme := by
        have := hrq.scheme.symm.trans hr.scheme
        injection this
      exact hsch (e1 ▸ h1)

theorem urlService_of {E : Env} {scheme : Bytes} {port : UInt16} {a b : ServiceType} {url : Bytes} {s : Service}
    (hv : Utf8.valid url = true) (hs : scheme.map lower = scheme)
    (h : UrlService E scheme port a b
      url s) : urlService E scheme port a b url = .ok s := by
  obtain ⟨p, n, addr, hp, rfl, h1, h2, h3, h4⟩ := h
  have hr := Url.reads_urlOf hp hv
  unfold urlService
  rw [Url.parse_render hp hv]
  simp only [hr.scheme, hs]
  rw [if_neg (by simpa using h1)]
  simp only [hr.host]
  rw [port_unique (parsed_port hr port) h2, h3]
  simp only [urlPath_reads hr, hr.username]
  subst h4
  rcases p.user with _ | x <;> rfl

theorem rtspService_cases (E : Env) (url : Bytes) (hv : Utf8.valid url = true) :
    (∃ s, rtspService E url = .ok s ∧ ServiceOf E (.rtsp url) s) ∨
      (rtspService E url = .err ∧ ∀ s, ¬ServiceOf E (.rtsp url) s) :=
  urlService_cases E (asc "rtsp") 554 .rtsp .lockedRtsp url hv (by decide)

theorem mjpegService_cases (E : Env) (url : Bytes) (hv : Utf8.valid url = true) :
    (∃ s, mjpegService E url = .ok s ∧ ServiceOf E (.mjpeg url) s) ∨
      (mjpegService E url = .err ∧ ∀ s, ¬ServiceOf E (.mjpeg url) s) :=
  urlService_cases E (asc "http") 80 .mjpeg .lockedMjpeg url hv (by decide)

theorem httpService_cases (E : Env) (t : Bytes) :
    (∃ s, addrService E .http t = .ok s ∧ ServiceOf E (.http t) s) ∨
      (addrService E .http t = .err ∧ ∀ s, ¬ServiceOf E (.http t) s) := by
  unfold addrService
  cases h : E.resolve t with
  | none => exact Or.inr ⟨rfl, by rintro s ⟨a, ha, -⟩; rw [h] at ha; cases ha⟩
  | some a => exact Or.inl ⟨_, rfl, a, h, rfl⟩

theorem tcpService_cases (E : Env) (t : Bytes) :
    (∃ s, addrService E .tcp t = .ok s ∧ ServiceOf E (.tcp t) s) ∨
      (addrService E .tcp t = .err ∧ ∀ s, ¬ServiceOf E (.tcp t) s) := by
  unfold addrService
  cases h : E.resolve t with
  | none => exact Or.inr ⟨rfl, by rintro s ⟨a, ha, -⟩; rw [h] at ha; cases ha⟩
  | some a => exact Or.inl ⟨_, rfl, a, h, rfl⟩

theorem parseUsize_cases (t : Bytes) :
    (∃ n, parseUsize t = some n ∧ IsDecimal t n.toNat) ∨
      (parseUsize t = none ∧ ¬∃ n, IsDecimal t n ∧ n < 2 ^ 64) := by
  unfold parseUsize
  cases h : parseUInt 10 18446744073709551615 t with
  | some n =>
    obtain ⟨h1, h2⟩ := (parseUInt_iff _ _ _).mp h
    refine Or.inl ⟨UInt64.ofNat n, rfl, ?_⟩
    rw [UInt64.toNat_ofNat_of_lt' (Nat.lt_succ_of_le h2)]
    exact h1
  | none =>
    refine Or.inr ⟨rfl, ?_⟩
    rintro ⟨n, h1, h2⟩
    have := (parseUInt_iff 18446744073709551615 t n).mpr ⟨h1, Nat.le_of_lt_succ h2⟩
    rw [h] at this
    cases this

/-- The URL of an option. -/
def urlText : Opt → Bytes
  | .rtsp u | .mjpeg u => u
  | _ => []

/-! ## The settings -/

theorem last_snoc {α : Type} (f : Opt → Option α) (opts : List Opt) (o : Opt) :
    last f (opts ++ [o]) = (f o).or (last f opts) := by
  unfold last
  rw [List.filterMap_append]
  cases h : f o with
  | none => simp [h]
  | some x => simp [h]

theorem last_nil {α : Type} (f : Opt → Option α) : last f [] = none := rfl

theorem effect_nil (E : Env) (addr : Bytes) : Effect E [] { Parser.new with address := addr } where
  caCertificates := rfl
  whitelist := rfl
  discovery := rfl
  verbose := rfl
  flashFriendly := rfl
  diagnostic := rfl
  gateway := rfl
  mac := rfl
  services := ⟨[], rfl, rfl, fun x hx => absurd hx List.not_mem_nil⟩
  logger := rfl
  logFile := rfl
  logFileSize := by rw [last_nil]; exact (by decide : (10 * 1024 : UInt64) = 10240)
  logFileRotations := by rw [last_nil]; exact Eq.refl (1 : UInt64)
  configFile := by rw [last_nil, Option.getD_none]; unfold Parser.new; exact Eq.refl _
  skeletonFile := by rw [last_nil, Option.getD_none]; unfold Parser.new; exact Eq.refl _
  stateFile := by rw [last_nil, Option.getD_none]; unfold Parser.new; exact Eq.refl _
  rtspPaths := by rw [last_nil, Option.getD_none]; unfold Parser.new; exact Eq.refl _
  mjpegPaths := by rw [last_nil, Option.getD_none]; unfold Parser.new; exact Eq.refl _
  identityFile := rfl
  lockFile := rfl
  category := rfl
  type := rfl
  vendor := rfl

section
variable {α : Type} {opts : List Opt} {o : Opt}

theorem fm_none {f : Opt → Option α} {l : List α} (h : l = opts.filterMap f) (hf : f o = none) :
    l = (opts ++ [o]).filterMap f := by
  rw [List.filterMap_append, ← h]; simp [hf]

theorem fm_some {f : Opt → Option α} {x : α} {l : List α} (h : l = opts.filterMap f) (hf : f o = some x) :
    l ++ [x] = (opts ++ [o]).filterMap f := by
  rw [List.filterMap_append, ← h]; simp [hf]

theorem any_false {f : Opt → Bool} (hf : f o = false) {b : Bool} (h : b = opts.any f) : b = (opts ++ [o]).any f := by
  rw [List.any_append, ← h]; simp [hf]

theorem any_true {f : Opt → Bool} (hf : f o = true) : true = (opts ++ [o]).any f := by
  rw [List.any_append]; simp [hf]

theorem nany_false {f : Opt → Bool} (hf : f o = false) {b : Bool} (h : b = !opts.any f) : b = !(opts ++ [o]).any f := by
  rw [← any_false hf rfl]; exact h

theorem nany_true {f : Opt → Bool} (hf : f o = true) : false = !(opts ++ [o]).any f := by
  rw [← any_true hf]; rfl

theorem last_none {f : Opt → Option α} (hf : f o = none) : last f (opts ++ [o]) = last f opts := by
  rw [last_snoc, hf, Option.none_or]

theorem last_some {f : Opt → Option α} {x : α} (hf : f o = some x) : last f (opts ++ [o]) = some x := by
  rw [last_snoc, hf, Option.some_or]

theorem getD_none {f : Opt → Option α} {x d : α} (hf : f o = none) (h : x = (last f opts).getD d) :
    x = (last f (opts ++ [o])).getD d := by rw [last_none hf]; exact h

theorem getD_some {f : Opt → Option α} {x d : α} (hf : f o = some x) : x = (last f (opts ++ [o])).getD d := by
  rw [last_some hf]; rfl

theorem eq_none {f : Opt → Option α} {x : Option α} (hf : f o = none) (h : x = last f opts) :
    x = last f (opts ++ [o]) := by rw [last_none hf]; exact h

theorem eq_some {f : Opt → Option α} {x : α} (hf : f o = some x) : some x = last f (opts ++ [o]) :=
  (last_some hf).symm

theorem bind_some {β : Type} {f : Opt → Option α} {g : α → Option β} {x : Option β} {a : α} (h : x = g a)
    (hf : f o = some a) : x = (last f (opts ++ [o])).bind g := by rw [last_some hf]; exact h

theorem bind_none {β : Type} {f : Opt → Option α} {g : α → Option β} {x : Option β} (hf : f o = none)
    (h : x = (last f opts).bind g) : x = (last f (opts ++ [o])).bind g := by rw [last_none hf]; exact h

theorem number_none {f : Opt → Option Bytes} {d n : UInt64} (hf : f o = none) (h : Number d (last f opts) n) :
    Number d (last f (opts ++ [o])) n := by rw [last_none hf]; exact h

theorem number_some {f : Opt → Option Bytes} {d n : UInt64} {t : Bytes} (hf : f o = some t) (h : IsDecimal t n.toNat) :
    Number d (last f (opts ++ [o])) n := by rw [last_some hf]; exact h

theorem device_none {f : Opt → Option Bytes} {v : Option Bytes} (hf : f o = none) (h : Device (last f opts) v) :
    Device (last f (opts ++ [o])) v := by rw [last_none hf]; exact h

theorem device_some {f : Opt → Option Bytes} {t : Bytes} (hf : f o = some t) :
    Device (last f (opts ++ [o])) (deviceValue t) := by
  rw [last_some hf]; exact ⟨trim t, trim_spec t, rfl⟩

end

/-- Appending a static service. -/
theorem services_snoc {E : Env} {opts : List Opt} {ss : List Service} {o : Opt} {s : Service}
    (h : ∃ l, ss = l ∧ l.length = (opts.filter Opt.isService).length ∧
      ∀ x ∈ (opts.filter Opt.isService).zip l, ServiceOf E x.1 x.2)
    (ho : o.isService = true) (hs : ServiceOf E o s) :
    ∃ l, ss ++ [s] = l ∧ l.length = ((opts ++ [o]).filter Opt.isService).length ∧
      ∀ x ∈ ((opts ++ [o]).filter Opt.isService).zip l, ServiceOf E x.1 x.2 := by
  obtain ⟨l, rfl, h1, h2⟩ := h
  refine ⟨_, rfl, by simp [List.filter_append, ho, h1], ?_⟩
  rw [List.filter_append, show [o].filter Opt.isService = [o] by simp [ho], List.zip_append h1.symm]
  intro x hx
  rcases List.mem_append.mp hx with hx | hx
  · exact h2 x hx
  · simp at hx
    rw [hx]
    exact hs

theorem services_same {E : Env} {opts : List Opt} {ss : List Service} {o : Opt}
    (h : ∃ l, ss = l ∧ l.length = (opts.filter Opt.isService).length ∧
      ∀ x ∈ (opts.filter Opt.isService).zip l, ServiceOf E x.1 x.2)
    (ho : o.isService = false) :
    ∃ l, ss = l ∧ l.length = ((opts ++ [o]).filter Opt.isService).length ∧
      ∀ x ∈ ((opts ++ [o]).filter Opt.isService).zip l, ServiceOf E x.1 x.2 := by
  rw [List.filter_append, show [o].filter Opt.isService = [] by simp [ho], List.append_nil]
  exact h

/-- Everything but what the option itself sets stays; what it sets is given. -/
theorem apply_effect {E : Env} {opts : List Opt} {p p' : Parser} {o : Opt} (hv : Utf8.valid (urlText o) = true)
    (h : Effect E opts p) (ha : apply E p o = .ok p') : Effect E (opts ++ [o]) p' ∧ p'.address = p.address := by
  obtain ⟨h1, h2, h3, h4, h5, h6, h7, h8, h9, h10, h11, h12, h13, h14, h15, h16, h17, h18, h19, h20, h21, h22,
    h23⟩ := h
  have hsvc0 : ∀ r, p.addService r = .ok p' → ∃ s, r = .ok s ∧ p' = { p with services := p.services ++ [s] } := by
    intro r hr
    cases r with
    | ok s => injection hr with hr; exact ⟨s, rfl, hr.symm⟩
    | err => cases hr
    | exit => cases hr
    | panic => cases hr
  cases o <;> simp only [apply] at ha
  case interface v =>
    split at ha
    · rename_i m hm
      injection ha with ha
      subst ha
      have hmac : some m = (last (fun | .interface v => some v | _ => none) (opts ++ [Opt.interface v])).bind E.mac :=
        bind_some hm.symm rfl
      exact ⟨⟨(by first | exact fm_none h1 rfl | exact fm_some h1 rfl),
        (by first | exact fm_none h2 rfl | exact fm_some h2 rfl),
        (by first | exact any_false rfl h3 | exact any_true rfl),
        (by first | exact any_false rfl h4 | exact any_true rfl),
        (by first | exact any_false rfl h5 | exact any_true rfl),
        (by first | exact any_false rfl h6 | exact any_true rfl),
        (by first | exact nany_false rfl h7 | exact nany_true rfl),
        (by first | exact bind_none rfl h8 | exact hmac),
        (by first | exact services_same h9 rfl | exact services_snoc h9 rfl hsvc),
        (by first | exact getD_none rfl h10 | exact getD_some rfl),
        (by first | exact getD_none rfl h11 | exact getD_some rfl),
        (by first | exact number_none rfl h12 | exact number_some rfl hn),
        (by first | exact number_none rfl h13 | exact number_some rfl hn),
        (by first | exact getD_none rfl h14 | exact getD_some rfl),
        (by first | exact getD_none rfl h15 | exact getD_some rfl),
        (by first | exact getD_none rfl h16 | exact getD_some rfl),
        (by first | exact getD_none rfl h17 | exact getD_some rfl),
        (by first | exact getD_none rfl h18 | exact getD_some rfl),
        (by first | exact eq_none rfl h19 | exact eq_some rfl),
        (by first | exact eq_none rfl h20 | exact eq_some rfl),
        (by first | exact device_none rfl h21 | exact device_some rfl),
        (by first | exact device_none rfl h22 | exact device_some rfl),
        (by first | exact device_none rfl h23 | exact device_some rfl)⟩, rfl⟩
    · cases ha
  case rtsp v =>
    obtain ⟨s, hs, rfl⟩ := hsvc0 _ ha
    have hsvc : ServiceOf E (.rtsp v) s := by
      rcases rtspService_cases E v hv with ⟨s', e, h⟩ | ⟨e, -⟩
      · rw [hs] at e; injection e with e; rw [e]; exact h
      · rw [hs] at e; cases e
    exact ⟨⟨(by first | exact fm_none h1 rfl | exact fm_some h1 rfl),
        (by first | exact fm_none h2 rfl | exact fm_some h2 rfl),
        (by first | exact any_false rfl h3 | exact any_true rfl),
        (by first | exact any_false rfl h4 | exact any_true rfl),
        (by first | exact any_false rfl h5 | exact any_true rfl),
        (by first | exact any_false rfl h6 | exact any_true rfl),
        (by first | exact nany_false rfl h7 | exact nany_true rfl),
        (by first | exact bind_none rfl h8 | exact hmac),
        (by first | exact services_same h9 rfl | exact services_snoc h9 rfl hsvc),
        (by first | exact getD_none rfl h10 | exact getD_some rfl),
        (by first | exact getD_none rfl h11 | exact getD_some rfl),
        (by first | exact number_none rfl h12 | exact number_some rfl hn),
        (by first | exact number_none rfl h13 | exact number_some rfl hn),
        (by first | exact getD_none rfl h14 | exact getD_some rfl),
        (by first | exact getD_none rfl h15 | exact getD_some rfl),
        (by first | exact getD_none rfl h16 | exact getD_some rfl),
        (by first | exact getD_none rfl h17 | exact getD_some rfl),
        (by first | exact getD_none rfl h18 | exact getD_some rfl),
        (by first | exact eq_none rfl h19 | exact eq_some rfl),
        (by first | exact eq_none rfl h20 | exact eq_some rfl),
        (by first | exact device_none rfl h21 | exact device_some rfl),
        (by first | exact device_none rfl h22 | exact device_some rfl),
        (by first | exact device_none rfl h23 | exact device_some rfl)⟩, rfl⟩
  case mjpeg v =>
    obtain ⟨s, hs, rfl⟩ := hsvc0 _ ha
    have hsvc : ServiceOf E (.mjpeg v) s := by
      rcases mjpegService_cases E v hv with ⟨s', e, h⟩ | ⟨e, -⟩
      · rw [hs] at e; injection e with e; rw [e]; exact h
      · rw [hs] at e; cases e
    exact ⟨⟨(by first | exact fm_none h1 rfl | exact fm_some h1 rfl),
        (by first | exact fm_none h2 rfl | exact fm_some h2 rfl),
        (by first | exact any_false rfl h3 | exact any_true rfl),
        (by first | exact any_false rfl h4 | exact any_true rfl),
        (by first | exact any_false rfl h5 | exact any_true rfl),
        (by first | exact any_false rfl h6 | exact any_true rfl),
        (by first | exact nany_false rfl h7 | exact nany_true rfl),
        (by first | exact bind_none rfl h8 | exact hmac),
        (by first | exact services_same h9 rfl | exact services_snoc h9 rfl hsvc),
        (by first | exact getD_none rfl h10 | exact getD_some rfl),
        (by first | exact getD_none rfl h11 | exact getD_some rfl),
        (by first | exact number_none rfl h12 | exact number_some rfl hn),
        (by first | exact number_none rfl h13 | exact number_some rfl hn),
        (by first | exact getD_none rfl h14 | exact getD_some rfl),
        (by first | exact getD_none rfl h15 | exact getD_some rfl),
        (by first | exact getD_none rfl h16 | exact getD_some rfl),
        (by first | exact getD_none rfl h17 | exact getD_some rfl),
        (by first | exact getD_none rfl h18 | exact getD_some rfl),
        (by first | exact eq_none rfl h19 | exact eq_some rfl),
        (by first | exact eq_none rfl h20 | exact eq_some rfl),
        (by first | exact device_none rfl h21 | exact device_some rfl),
        (by first | exact device_none rfl h22 | exact device_some rfl),
        (by first | exact device_none rfl h23 | exact device_some rfl)⟩, rfl⟩
  case http v =>
    obtain ⟨s, hs, rfl⟩ := hsvc0 _ ha
    have hsvc : ServiceOf E (.http v) s := by
      rcases httpService_cases E v with ⟨s', e, h⟩ | ⟨e, -⟩
      · rw [hs] at e; injection e with e; rw [e]; exact h
      · rw [hs] at e; cases e
    exact ⟨⟨(by first | exact fm_none h1 rfl | exact fm_some h1 rfl),
        (by first | exact fm_none h2 rfl | exact fm_some h2 rfl),
        (by first | exact any_false rfl h3 | exact any_true rfl),
        (by first | exact any_false rfl h4 | exact any_true rfl),
        (by first | exact any_false rfl h5 | exact any_true rfl),
        (by first | exact any_false rfl h6 | exact any_true rfl),
        (by first | exact nany_false rfl h7 | exact nany_true rfl),
        (by first | exact bind_none rfl h8 | exact hmac),
        (by first | exact services_same h9 rfl | exact services_snoc h9 rfl hsvc),
        (by first | exact getD_none rfl h10 | exact getD_some rfl),
        (by first | exact getD_none rfl h11 | exact getD_some rfl),
        (by first | exact number_none rfl h12 | exact number_some rfl hn),
        (by first | exact number_none rfl h13 | exact number_some rfl hn),
        (by first | exact getD_none rfl h14 | exact getD_some rfl),
        (by first | exact getD_none rfl h15 | exact getD_some rfl),
        (by first | exact getD_none rfl h16 | exact getD_some rfl),
        (by first | exact getD_none rfl h17 | exact getD_some rfl),
        (by first | exact getD_none rfl h18 | exact getD_some rfl),
        (by first | exact eq_none rfl h19 | exact eq_some rfl),
        (by first | exact eq_none rfl h20 | exact eq_some rfl),
        (by first | exact device_none rfl h21 | exact device_some rfl),
        (by first | exact device_none rfl h22 | exact device_some rfl),
        (by first | exact device_none rfl h23 | exact device_some rfl)⟩, rfl⟩
  case tcp v =>
    obtain ⟨s, hs, rfl⟩ := hsvc0 _ ha
    have hsvc : ServiceOf E (.tcp v) s := by
      rcases tcpService_cases E v with ⟨s', e, h⟩ | ⟨e, -⟩
      · rw [hs] at e; injection e with e; rw [e]; exact h
      · rw [hs] at e; cases e
    exact ⟨⟨(by first | exact fm_none h1 rfl | exact fm_some h1 rfl),
        (by first | exact fm_none h2 rfl | exact fm_some h2 rfl),
        (by first | exact any_false rfl h3 | exact any_true rfl),
        (by first | exact any_false rfl h4 | exact any_true rfl),
        (by first | exact any_false rfl h5 | exact any_true rfl),
        (by first | exact any_false rfl h6 | exact any_true rfl),
        (by first | exact nany_false rfl h7 | exact nany_true rfl),
        (by first | exact bind_none rfl h8 | exact hmac),
        (by first | exact services_same h9 rfl | exact services_snoc h9 rfl hsvc),
        (by first | exact getD_none rfl h10 | exact getD_some rfl),
        (by first | exact getD_none rfl h11 | exact getD_some rfl),
        (by first | exact number_none rfl h12 | exact number_some rfl hn),
        (by first | exact number_none rfl h13 | exact number_some rfl hn),
        (by first | exact getD_none rfl h14 | exact getD_some rfl),
        (by first | exact getD_none rfl h15 | exact getD_some rfl),
        (by first | exact getD_none rfl h16 | exact getD_some rfl),
        (by first | exact getD_none rfl h17 | exact getD_some rfl),
        (by first | exact getD_none rfl h18 | exact getD_some rfl),
        (by first | exact eq_none rfl h19 | exact eq_some rfl),
        (by first | exact eq_none rfl h20 | exact eq_some rfl),
        (by first | exact device_none rfl h21 | exact device_some rfl),
        (by first | exact device_none rfl h22 | exact device_some rfl),
        (by first | exact device_none rfl h23 | exact device_some rfl)⟩, rfl⟩
  case logFileSize v =>
    rcases parseUsize_cases v with ⟨n, e, hn⟩ | ⟨e, -⟩
    · rw [e] at ha
      injection ha with ha
      subst ha
      exact ⟨⟨(by first | exact fm_none h1 rfl | exact fm_some h1 rfl),
        (by first | exact fm_none h2 rfl | exact fm_some h2 rfl),
        (by first | exact any_false rfl h3 | exact any_true rfl),
        (by first | exact any_false rfl h4 | exact any_true rfl),
        (by first | exact any_false rfl h5 | exact any_true rfl),
        (by first | exact any_false rfl h6 | exact any_true rfl),
        (by first | exact nany_false rfl h7 | exact nany_true rfl),
        (by first | exact bind_none rfl h8 | exact hmac),
        (by first | exact services_same h9 rfl | exact services_snoc h9 rfl hsvc),
        (by first | exact getD_none rfl h10 | exact getD_some rfl),
        (by first | exact getD_none rfl h11 | exact getD_some rfl),
        (by first | exact number_none rfl h12 | exact number_some rfl hn),
        (by first | exact number_none rfl h13 | exact number_some rfl hn),
        (by first | exact getD_none rfl h14 | exact getD_some rfl),
        (by first | exact getD_none rfl h15 | exact getD_some rfl),
        (by first | exact getD_none rfl h16 | exact getD_some rfl),
        (by first | exact getD_none rfl h17 | exact getD_some rfl),
        (by first | exact getD_none rfl h18 | exact getD_some rfl),
        (by first | exact eq_none rfl h19 | exact eq_some rfl),
        (by first | exact eq_none rfl h20 | exact eq_some rfl),
        (by first | exact device_none rfl h21 | exact device_some rfl),
        (by first | exact device_none rfl h22 | exact device_some rfl),
        (by first | exact device_none rfl h23 | exact device_some rfl)⟩, rfl⟩
    · rw [e] at ha; cases ha
  case logFileRotations v =>
    rcases parseUsize_cases v with ⟨n, e, hn⟩ | ⟨e, -⟩
    · rw [e] at ha
      injection ha with ha
      subst ha
      exact ⟨⟨(by first | exact fm_none h1 rfl | exact fm_some h1 rfl),
        (by first | exact fm_none h2 rfl | exact fm_some h2 rfl),
        (by first | exact any_false rfl h3 | exact any_true rfl),
        (by first | exact any_false rfl h4 | exact any_true rfl),
        (by first | exact any_false rfl h5 | exact any_true rfl),
        (by first | exact any_false rfl h6 | exact any_true rfl),
        (by first | exact nany_false rfl h7 | exact nany_true rfl),
        (by first | exact bind_none rfl h8 | exact hmac),
        (by first | exact services_same h9 rfl | exact services_snoc h9 rfl hsvc),
        (by first | exact getD_none rfl h10 | exact getD_some rfl),
        (by first | exact getD_none rfl h11 | exact getD_some rfl),
        (by first | exact number_none rfl h12 | exact number_some rfl hn),
        (by first | exact number_none rfl h13 | exact number_some rfl hn),
        (by first | exact getD_none rfl h14 | exact getD_some rfl),
        (by first | exact getD_none rfl h15 | exact getD_some rfl),
        (by first | exact getD_none rfl h16 | exact getD_some rfl),
        (by first | exact getD_none rfl h17 | exact getD_some rfl),
        (by first | exact getD_none rfl h18 | exact getD_some rfl),
        (by first | exact eq_none rfl h19 | exact eq_some rfl),
        (by first | exact eq_none rfl h20 | exact eq_some rfl),
        (by first | exact device_none rfl h21 | exact device_some rfl),
        (by first | exact device_none rfl h22 | exact device_some rfl),
        (by first | exact device_none rfl h23 | exact device_some rfl)⟩, rfl⟩
    · rw [e] at ha; cases ha
  case discovery | whitelist | rtspPaths | mjpegPaths =>
    split at ha
    · injection ha with ha
      subst ha
      exact ⟨⟨(by first | exact fm_none h1 rfl | exact fm_some h1 rfl),
        (by first | exact fm_none h2 rfl | exact fm_some h2 rfl),
        (by first | exact any_false rfl h3 | exact any_true rfl),
        (by first | exact any_false rfl h4 | exact any_true rfl),
        (by first | exact any_false rfl h5 | exact any_true rfl),
        (by first | exact any_false rfl h6 | exact any_true rfl),
        (by first | exact nany_false rfl h7 | exact nany_true rfl),
        (by first | exact bind_none rfl h8 | exact hmac),
        (by first | exact services_same h9 rfl | exact services_snoc h9 rfl hsvc),
        (by first | exact getD_none rfl h10 | exact getD_some rfl),
        (by first | exact getD_none rfl h11 | exact getD_some rfl),
        (by first | exact number_none rfl h12 | exact number_some rfl hn),
        (by first | exact number_none rfl h13 | exact number_some rfl hn),
        (by first | exact getD_none rfl h14 | exact getD_some rfl),
        (by first | exact getD_none rfl h15 | exact getD_some rfl),
        (by first | exact getD_none rfl h16 | exact getD_some rfl),
        (by first | exact getD_none rfl h17 | exact getD_some rfl),
        (by first | exact getD_none rfl h18 | exact getD_some rfl),
        (by first | exact eq_none rfl h19 | exact eq_some rfl),
        (by first | exact eq_none rfl h20 | exact eq_some rfl),
        (by first | exact device_none rfl h21 | exact device_some rfl),
        (by first | exact device_none rfl h22 | exact device_some rfl),
        (by first | exact device_none rfl h23 | exact device_some rfl)⟩, rfl⟩
    · cases ha
  all_goals
    injection ha with ha
    subst ha
    exact ⟨⟨(by first | exact fm_none h1 rfl | exact fm_some h1 rfl),
        (by first | exact fm_none h2 rfl | exact fm_some h2 rfl),
        (by first | exact any_false rfl h3 | exact any_true rfl),
        (by first | exact any_false rfl h4 | exact any_true rfl),
        (by first | exact any_false rfl h5 | exact any_true rfl),
        (by first | exact any_false rfl h6 | exact any_true rfl),
        (by first | exact nany_false rfl h7 | exact nany_true rfl),
        (by first | exact bind_none rfl h8 | exact hmac),
        (by first | exact services_same h9 rfl | exact services_snoc h9 rfl hsvc),
        (by first | exact getD_none rfl h10 | exact getD_some rfl),
        (by first | exact getD_none rfl h11 | exact getD_some rfl),
        (by first | exact number_none rfl h12 | exact number_some rfl hn),
        (by first | exact number_none rfl h13 | exact number_some rfl hn),
        (by first | exact getD_none rfl h14 | exact getD_some rfl),
        (by first | exact getD_none rfl h15 | exact getD_some rfl),
        (by first | exact getD_none rfl h16 | exact getD_some rfl),
        (by first | exact getD_none rfl h17 | exact getD_some rfl),
        (by first | exact getD_none rfl h18 | exact getD_some rfl),
        (by first | exact eq_none rfl h19 | exact eq_some rfl),
        (by first | exact eq_none rfl h20 | exact eq_some rfl),
        (by first | exact device_none rfl h21 | exact device_some rfl),
        (by first | exact device_none rfl h22 | exact device_some rfl),
        (by first | exact device_none rfl h23 | exact device_some rfl)⟩, rfl⟩

/-- An option is applied, or it is an error and its value is not accepted. -/
theorem apply_cases (E : Env) (p : Parser) (o : Opt) (hv : Utf8.valid (urlText o) = true) :
    (Accepted E o ∧ ∃ p', apply E p o = .ok p') ∨ (¬Accepted E o ∧ apply E p o = .err) := by
  have hsv : ∀ (r : R Service) (P : Service → Prop),
      ((∃ s, r = .ok s ∧ P s) ∨ (r = .err ∧ ∀ s, ¬P s)) →
      ((∃ s, P s) ∧ ∃ p', p.addService r = .ok p') ∨ ((¬∃ s, P s) ∧ p.addService r = .err) := by
    rintro r P (⟨s, rfl, hs⟩ | ⟨rfl, hs⟩)
    · exact Or.inl ⟨⟨s, hs⟩, _, rfl⟩
    · exact Or.inr ⟨fun ⟨s, h⟩ => hs s h, rfl⟩
  cases o with
  | discovery | whitelist | rtspPaths | mjpegPaths =>
    by_cases h : E.discovery = true
    · exact Or.inl ⟨h, by simp only [apply, h, if_true]; exact ⟨_, rfl⟩⟩
    · exact Or.inr ⟨h, by simp only [apply, if_neg h]⟩
  | interface v =>
    cases h : E.mac v with
    | none => exact Or.inr ⟨(by rintro ⟨m, hm⟩; rw [h] at hm; cases hm), by simp only [apply, h]⟩
    | some m => exact Or.inl ⟨⟨m, h⟩, by simp only [apply, h]; exact ⟨_, rfl⟩⟩
  | rtsp v => exact hsv _ _ (rtspService_cases E v hv)
  | mjpeg v => exact hsv _ _ (mjpegService_cases E v hv)
  | http v => exact hsv _ _ (httpService_cases E v)
  | tcp v => exact hsv _ _ (tcpService_cases E v)
  | logFileSize v | logFileRotations v =>
    rcases parseUsize_cases v with ⟨n, e, hn⟩ | ⟨e, hn⟩
    · exact Or.inl ⟨⟨n.toNat, hn, n.toNat_lt⟩, by simp only [apply, e]; exact ⟨_, rfl⟩⟩
    · exact Or.inr ⟨hn, by simp only [apply, e]⟩
  | _ => exact Or.inl ⟨trivial, _, rfl⟩

/-! ## Which argument is what -/

theorem arg_cases (arg : Bytes) : arg ∈ needValue ∨ (∃ o : Opt, o.words = [arg]) ∨ arg = asc "--help" ∨
    arg = asc "--version" ∨ Unknown arg := by
  by_cases hk : arg ∈ keywords
  · simp only [keywords, List.mem_cons, List.not_mem_nil, or_false] at hk
    rcases hk with h | h | h | h | h | h | h | h | h | h | h | h | h | h | h | h
    · exact Or.inl (by rw [h]; simp [needValue])
    · exact Or.inr (Or.inl ⟨.discovery, by rw [h]; rfl⟩)
    · exact Or.inl (by rw [h]; simp [needValue])
    · exact Or.inl (by rw [h]; simp [needValue])
    · exact Or.inl (by rw [h]; simp [needValue])
    · exact Or.inl (by rw [h]; simp [needValue])
    · exact Or.inl (by rw [h]; simp [needValue])
    · exact Or.inl (by rw [h]; simp [needValue])
    · exact Or.inr (Or.inl ⟨.verbose, by rw [h]; rfl⟩)
    · exact Or.inr (Or.inl ⟨.flashFriendly, by rw [h]; rfl⟩)
    · exact Or.inr (Or.inl ⟨.diagnostic, by rw [h]; rfl⟩)
    · exact Or.inr (Or.inl ⟨.noGateway, by rw [h]; rfl⟩)
    · exact Or.inr (Or.inl ⟨.logStderr, by rw [h]; rfl⟩)
    · exact Or.inr (Or.inl ⟨.logStderrPretty, by rw [h]; rfl⟩)
    · exact Or.inr (Or.inr (Or.inl h))
    · exact Or.inr (Or.inr (Or.inr (Or.inl h)))
  · by_cases hp : ∃ x ∈ prefixes, ∃ t, arg = x ++ t
    · right; left
      obtain ⟨x, hx, t, rfl⟩ := hp
      simp only [prefixes, List.mem_cons, List.not_mem_nil, or_false] at hx
      rcases hx with h | h | h | h | h | h | h | h | h | h | h | h | h
      · exact ⟨.configFile t, by rw [h]; rfl⟩
      · exact ⟨.skeletonFile t, by rw [h]; rfl⟩
      · exact ⟨.stateFile t, by rw [h]; rfl⟩
      · exact ⟨.identityFile t, by rw [h]; rfl⟩
      · exact ⟨.rtspPaths t, by rw [h]; rfl⟩
      · exact ⟨.mjpegPaths t, by rw [h]; rfl⟩
      · exact ⟨.logFile t, by rw [h]; rfl⟩
      · exact ⟨.logFileSize t, by rw [h]; rfl⟩
      · exact ⟨.logFileRotations t, by rw [h]; rfl⟩
      · exact ⟨.lockFile t, by rw [h]; rfl⟩
      · exact ⟨.category t, by rw [h]; rfl⟩
      · exact ⟨.type t, by rw [h]; rfl⟩
      · exact ⟨.vendor t, by rw [h]; rfl⟩
    · exact Or.inr (Or.inr (Or.inr (Or.inr ⟨hk, fun x hx ht => hp ⟨x, hx, ht⟩⟩)))

theorem needValue_iff (arg : Bytes) : isValued arg = true ↔ arg ∈ needValue := by
  unfold isValued needValue
  simp only [List.mem_cons, List.not_mem_nil, or_false, decide_eq_true_eq]

theorem needValue_opt {arg : Bytes} (h : arg ∈ needValue) (v : Bytes) : ∃ o : Opt, o.words = [arg, v] := by
  simp only [needValue, List.mem_cons, List.not_mem_nil, or_false] at h
  rcases h with h | h | h | h | h | h | h
  · exact ⟨.ca v, by rw [h]; rfl⟩
  · exact ⟨.whitelist v, by rw [h]; rfl⟩
  · exact ⟨.interface v, by rw [h]; rfl⟩
  · exact ⟨.rtsp v, by rw [h]; rfl⟩
  · exact ⟨.mjpeg v, by rw [h]; rfl⟩
  · exact ⟨.http v, by rw [h]; rfl⟩
  · exact ⟨.tcp v, by rw [h]; rfl⟩

theorem loop_needValue (E : Env) (p : Parser) {arg : Bytes} (h : arg ∈ needValue) : p.loop E [arg] = .err := by
  simp only [Parser.loop, (needValue_iff arg).mpr h, if_true]

theorem loop_help (E : Env) (p : Parser) {arg : Bytes} (h : arg = asc "--help" ∨ arg = asc "--version")
    (rest : List Bytes) : p.loop E (arg :: rest) = .exit := by
  rcases h with rfl | rfl
  · rw [loop_flag _ _ _ _ (by rfl)]; rfl
  · rw [loop_flag _ _ _ _ (by rfl)]; rfl

theorem not_prefix {x arg : Bytes} (h : ¬∃ t, arg = x ++ t) : x.isPrefixOf arg = false := by
  rw [Bool.eq_false_iff]
  intro hp
  rw [List.isPrefixOf_iff_prefix] at hp
  obtain ⟨t, ht⟩ := hp
  exact h ⟨t, ht.symm⟩

theorem loop_unknown (E : Env) (p : Parser) {arg : Bytes} (h : Unknown arg) (rest : List Bytes) :
    p.loop E (arg :: rest) = .err := by
  obtain ⟨h1, h2⟩ := h
  have hv : isValued arg = false := by
    rw [Bool.eq_false_iff, Ne, needValue_iff]
    intro hm
    apply h1
    simp only [needValue, keywords, List.mem_cons, List.not_mem_nil, or_false] at hm ⊢
    rcases hm with h | h | h | h | h | h | h <;> simp only [h, true_or, or_true]
  rw [loop_flag _ _ _ _ hv]
  have : p.flag E arg = .err := by
    simp only [keywords, List.mem_cons, List.not_mem_nil, or_false, not_or] at h1
    obtain ⟨-, k2, -, -, -, -, -, -, k9, k10, k11, k12, k13, k14, k15, k16⟩ := h1
    simp only [prefixes, List.forall_mem_cons] at h2
    obtain ⟨p1, p2, p3, p4, p5, p6, p7, p8, p9, p10, p11, p12, p13, -⟩ := h2
    unfold Parser.flag
    rw [if_neg k2, if_neg k9, if_neg k10, if_neg k11, if_neg k12, if_neg k13, if_neg k14, if_neg k15, if_neg k16]
    unfold Parser.assigned
    simp only [not_prefix p1, not_prefix p2, not_prefix p3, not_prefix p4, not_prefix p5, not_prefix p6,
      not_prefix p7, not_prefix p8, not_prefix p9, not_prefix p10, not_prefix p11, not_prefix p12, not_prefix p13,
      Bool.false_eq_true, if_false]
  rw [this]
  rfl

theorem urlText_valid {o : Opt} (h : ∀ w ∈ o.words, Utf8.valid w = true) : Utf8.valid (urlText o) = true := by
  cases o with
  | rtsp u => exact h u (by simp [Opt.words])
  | mjpeg u => exact h u (by simp [Opt.words])
  | _ => rfl

/-- All options accepted. -/
theorem loop_all {E : Env} (opts : List Opt) (hv : ∀ w ∈ opts.flatMap Opt.words, Utf8.valid w = true)
    (ha : ∀ o ∈ opts, Accepted E o) (rest : List Bytes) : ∀ (done : List Opt) (p : Parser), Effect E done p →
    ∃ p', p.loop E (opts.flatMap Opt.words ++ rest) = p'.loop E rest ∧ Effect E (done ++ opts) p' ∧
      p'.address = p.address := by
  induction opts with
  | nil => intro done p he; exact ⟨p, rfl, by simpa using he, rfl⟩
  | cons o opts ih =>
    intro done p he
    have hvo : Utf8.valid (urlText o) = true :=
      urlText_valid (fun w hw => hv w (by rw [List.flatMap_cons]; exact List.mem_append_left _ hw))
    obtain ⟨p1, h1⟩ : ∃ p1, apply E p o = .ok p1 := by
      rcases apply_cases E p o hvo with ⟨-, h⟩ | ⟨h, -⟩
      · exact h
      · exact absurd (ha o List.mem_cons_self) h
    obtain ⟨he1, ha1⟩ := apply_effect hvo he h1
    obtain ⟨p', h2, h3, h4⟩ := ih (fun w hw => hv w (by rw [List.flatMap_cons]; exact List.mem_append_right _ hw))
      (fun o ho => ha o (List.mem_cons_of_mem _ ho)) (done ++ [o]) p1 he1
    refine ⟨p', ?_, by simpa using h3, h4.trans ha1⟩
    rw [List.flatMap_cons, List.append_assoc, loop_words, h1]
    exact h2

theorem loop_ends {E : Env} (n : Nat) : ∀ (args : List Bytes), args.length ≤ n →
    (∀ w ∈ args, Utf8.valid w = true) → ∀ (p : Parser),
    ∃ (opts : List Opt) (tail : List Bytes), args = opts.flatMap Opt.words ++ tail ∧ (∀ o ∈ opts, Accepted E o) ∧ Ends E tail (p.loop E args) := by
  induction n with
  | zero =>
    intro args hl hv p
    have : args = [] := List.length_eq_zero_iff.mp (by omega)
    subst this
    exact ⟨[], [], rfl, (fun o h => absurd h List.not_mem_nil), .ok p⟩
  | succ n ih =>
    intro args hl hv p
    have hopt : ∀ (o : Opt) (rest : List Bytes), args = o.words ++ rest → o.words ≠ [] →
        ∃ (opts : List Opt) (tail : List Bytes), args = opts.flatMap Opt.words ++ tail ∧ (∀ o ∈ opts, Accepted E o) ∧
          Ends E tail (p.loop E args) := by
      intro o rest he hne
      subst he
      have hvo : Utf8.valid (urlText o) = true := urlText_valid (fun w hw => hv w (List.mem_append_left _ hw))
      rw [loop_words]
      rcases apply_cases E p o hvo with ⟨hac, p1, h1⟩ | ⟨hac, h1⟩
      · have hlen : 0 < o.words.length := List.length_pos_iff.mpr hne
        obtain ⟨opts, tail, h2, h3, h4⟩ := ih rest (by simp at hl; omega)
          (fun w hw => hv w (List.mem_append_right _ hw)) p1
        refine ⟨o :: opts, tail, by rw [h2]; simp, ?_, by rw [h1]; exact h4⟩
        intro x hx
        rcases List.mem_cons.mp hx with rfl | hx
        · exact hac
        · exact h3 x hx
      · rw [h1]
        exact ⟨[], o.words ++ rest, rfl, (fun o h => absurd h List.not_mem_nil), .refused o rest hac⟩
    cases args with
    | nil => exact ⟨[], [], rfl, (fun o h => absurd h List.not_mem_nil), .ok p⟩
    | cons arg rest =>
      rcases arg_cases arg with h | ⟨o, h⟩ | h | h | h
      · cases rest with
        | nil =>
          rw [loop_needValue E p h]
          exact ⟨[], [arg], rfl, (fun o h => absurd h List.not_mem_nil), .missing arg h⟩
        | cons v rest =>
          obtain ⟨o, ho⟩ := needValue_opt h v
          exact hopt o rest (by rw [ho]; rfl) (by rw [ho]; nofun)
      · exact hopt o rest (by rw [h]; rfl) (by rw [h]; nofun)
      · rw [loop_help E p (Or.inl h)]
        exact ⟨[], _, rfl, (fun o h => absurd h List.not_mem_nil), .help _ _ (Or.inl h)⟩
      · rw [loop_help E p (Or.inr h)]
        exact ⟨[], _, rfl, (fun o h => absurd h List.not_mem_nil), .help _ _ (Or.inr h)⟩
      · rw [loop_unknown E p h]
        exact ⟨[], _, rfl, (fun o h => absurd h List.not_mem_nil), .unknown _ _ h⟩

end Verif.Args
