import Verif.Lemmas.Args
import Verif.Props.SvcTable
import Verif.Props.Config
/-!
# Properties of the command line: C54, C55, C84, C85
-/
namespace Verif.Props.Args
open Verif Verif.Args Verif.Spec.Args Verif.Spec.Text Verif.Spec.Url

/-! ### C84 -/

/-- Arguments accepted by the program, for the examples: everything resolves to one address. -/
def demoEnv : Env where
  discovery := true
  mac := fun i => if i = asc "eth0" then some ⟨0, 1, 2, 3, 4, 5⟩ else none
  resolve := fun _ => some ⟨.v4 10 0 0 1, 80⟩
  resolveHost := fun h p => if h = asc "cam" then some ⟨.v4 10 0 0 2, p⟩ else none

/-- C84: an address followed by options whose values are acceptable is accepted, and every setting is what its
options say. -/
theorem C84_accepts (E : Env) (a : Bytes) (opts : List Opt)
    (hv : ∀ w ∈ opts.flatMap Opt.words, Utf8.valid w = true) (ha : ∀ o ∈ opts, Accepted E o) :
    ∃ p, parse E (a :: opts.flatMap Opt.words) = .ok p ∧ Effect E opts p := by
  obtain ⟨p, h1, h2, -⟩ := loop_all opts hv ha [] [] _ (effect_nil E (serviceAddress a))
  refine ⟨p, ?_, h2⟩
  rw [List.append_nil] at h1
  exact h1

/-- C84: every list of arguments has one of these ends; nothing panics. What was accepted before the end has its
effect. -/
theorem C84_outcome (E : Env) (a : Bytes) (args : List Bytes) (hv : ∀ w ∈ args, Utf8.valid w = true) :
    ∃ (opts : List Opt) (tail : List Bytes), args = opts.flatMap Opt.words ++ tail ∧ (∀ o ∈ opts, Accepted E o) ∧
      Ends E tail (parse E (a :: args)) ∧ ∀ p, parse E (a :: args) = .ok p → Effect E opts p := by
  obtain ⟨opts, tail, h1, h2, h3⟩ := loop_ends args.length args (Nat.le_refl _) hv
    { Parser.new with address := serviceAddress a }
  refine ⟨opts, tail, h1, h2, h3, ?_⟩
  intro p hp
  have htail : tail = [] := by
    change Ends E tail (parse E (a :: args)) at h3
    rw [hp] at h3
    cases h3
    rfl
  rw [htail, List.append_nil] at h1
  obtain ⟨p', h4, h5⟩ := C84_accepts E a opts (by rw [← h1]; exact hv) h2
  rw [← h1, hp] at h4
  injection h4 with h4
  rw [h4]
  exact h5

/-- C84: after acceptable options, an argument that is unknown, lacks its value or has a bad value is an error, and
`--help` and `--version` end the process; what follows does not matter. -/
theorem C84_ends (E : Env) (a : Bytes) (opts : List Opt) (tail : List Bytes) (r : R Parser)
    (hv : ∀ w ∈ opts.flatMap Opt.words ++ tail, Utf8.valid w = true) (ha : ∀ o ∈ opts, Accepted E o)
    (ht : tail ≠ []) (he : Ends E tail r) : parse E (a :: (opts.flatMap Opt.words ++ tail)) = r := by
  obtain ⟨p, h1, h2, -⟩ := loop_all opts (fun w hw => hv w (List.mem_append_left _ hw)) ha tail [] _
    (effect_nil E (serviceAddress a))
  change Parser.loop E _ _ = r
  rw [h1]
  cases he with
  | ok => exact absurd rfl ht
  | help w rest h => exact loop_help E p h rest
  | refused o rest h =>
    rw [loop_words]
    have hvo : Utf8.valid (urlText o) = true :=
      urlText_valid (fun w hw => hv w (List.mem_append_right _ (List.mem_append_left _ hw)))
    rcases apply_cases E p o hvo with ⟨h', -⟩ | ⟨-, h'⟩
    · exact absurd h' h
    · rw [h']; rfl
  | unknown w rest h => exact loop_unknown E p h rest
  | missing w h => exact loop_needValue E p h

/-- Without any argument there is no address. -/
theorem C84_no_address (E : Env) : parse E [] = .err := rfl

def demoOpts : List Opt :=
  [.logStderr, .rtsp (asc "RTSP://admin@cam/h264?ch=1"), .logFileSize (asc "+0077"), .logFile (asc "/tmp/x"),
    .tcp (asc "a:1"), .whitelist (asc "eth1"), .category (asc " \tnvr\n"), .logFileSize (asc "20")]

/-- The settings after the options `demoOpts`, as far as they differ from the default. -/
example : ∃ p, parse demoEnv (asc "host" :: demoOpts.flatMap Opt.words) = .ok p ∧
    p.services = [.lockedRtsp ⟨255, 255, 10, 0, 0, 2⟩ ⟨.v4 10 0 0 2, 554⟩ (some (asc "/h264?ch=1")),
      .tcp ⟨255, 255, 10, 0, 0, 1⟩ ⟨.v4 10 0 0 1, 80⟩] ∧
    p.logger = .file ∧ p.logFileSize = 20 ∧ p.category = some (asc "nvr") ∧ p.discovery = true ∧
    p.address = asc "host:8900" := by
  refine ⟨_, rfl, ?_, ?_, ?_, ?_, ?_, ?_⟩ <;> decide +kernel

theorem demo_tcp (a : Bytes) : ∃ s, ServiceOf demoEnv (.tcp a) s := ⟨_, _, rfl, rfl⟩

example : ∃ p, parse demoEnv (asc "host" :: [Opt.verbose, .tcp (asc "a:1")].flatMap Opt.words) = .ok p ∧
    Effect demoEnv [.verbose, .tcp (asc "a:1")] p :=
  C84_accepts _ _ _ (by decide +kernel) (by
    intro o ho
    simp only [List.mem_cons, List.not_mem_nil, or_false] at ho
    rcases ho with rfl | rfl
    · trivial
    · exact demo_tcp _)

example : parse demoEnv (asc "host" :: ([Opt.verbose].flatMap Opt.words ++ [asc "--config-files=x"])) = .err :=
  C84_ends _ _ _ _ _ (by decide +kernel) (by intro o ho; simp at ho; subst ho; trivial) nofun
    (.unknown _ _ ⟨by decide +kernel, by
      intro x hx ⟨t, ht⟩
      have : x.isPrefixOf (asc "--config-files=x") = true := by
        rw [List.isPrefixOf_iff_prefix]; exact ⟨t, ht.symm⟩
      revert this
      revert x
      have : ∀ x ∈ prefixes, x.isPrefixOf (asc "--config-files=x") = false := by decide +kernel
      intro x hx _ h
      rw [this x hx] at h
      cases h⟩)

example : parse demoEnv (asc "host" :: ([Opt.verbose].flatMap Opt.words ++ [asc "--help", asc "-r"])) = .exit :=
  C84_ends _ _ _ _ _ (by decide +kernel) (by intro o ho; simp at ho; subst ho; trivial) nofun
    (.help _ _ (Or.inl rfl))

/-- `--help` and `--version` are not recognised as the first argument: it is always the address. -/
theorem C84_help_is_address (E : Env) (w : Bytes) (h : w = asc "--help" ∨ w = asc "--version") :
    ∃ p, parse E [w] = .ok p ∧ p.address = w ++ asc ":8900" := by
  rcases h with rfl | rfl
  · exact ⟨_, rfl, by decide +kernel⟩
  · exact ⟨_, rfl, by decide +kernel⟩

/-- C84: `--flash-friendly` is accepted, but the configuration built never has it; the others arrive. -/
theorem C84_flash_friendly_ignored (E : Env) (args : List Bytes) (p : Parser) (h : parse E args = .ok p) :
    p.builder.flashFriendly = false ∧ (∀ a, (p.startUp a).flashFriendly = false ∧ (p.startUp a).services = p.services) ∧
    p.builder.mac = p.mac ∧ p.builder.services = p.services ∧ p.builder.diagnostic = p.diagnostic ∧
    p.builder.gateway = p.gateway ∧ p.builder.discovery = p.discovery ∧ p.builder.whitelist = p.whitelist ∧
    p.builder.verbose = p.verbose ∧ p.builder.category = p.category ∧ p.builder.type = p.type ∧
    p.builder.vendor = p.vendor := by
  have := h
  exact ⟨rfl, fun _ => ⟨rfl, rfl⟩, rfl, rfl, rfl, rfl, rfl, rfl, rfl, rfl, rfl, rfl⟩

example : ∃ p, parse demoEnv [asc "host", asc "--flash-friendly"] = .ok p ∧ p.flashFriendly = true ∧
    p.builder.flashFriendly = false := ⟨_, rfl, rfl, rfl⟩

/-! ### C54 -/

/-- C54: an address without a colon, or ending with a bracket, gets the port 8900; every other is left alone. In any
case there is a colon in front of a last part without colons. -/
theorem C54_service_address (E : Env) (a : Bytes) (args : List Bytes) (p : Parser)
    (hv : ∀ w ∈ args, Utf8.valid w = true) (h : parse E (a :: args) = .ok p) :
    (58 ∉ a → p.address = a ++ asc ":8900") ∧ (∀ x, a = x ++ asc "]" → p.address = a ++ asc ":8900") ∧
    (58 ∈ a → (∀ x, a ≠ x ++ asc "]") → p.address = a) ∧ ∃ host port, p.address = host ++ 58 :: port ∧ 58 ∉ port := by
  have haddr : p.address = serviceAddress a := by
    obtain ⟨opts, tail, h1, h2, h3⟩ := loop_ends (E := E) args.length args (Nat.le_refl _) hv
      { Parser.new with address := serviceAddress a }
    change Ends E tail (parse E (a :: args)) at h3
    rw [h] at h3
    cases h3
    rw [List.append_nil] at h1
    obtain ⟨p', h4, -, h6⟩ := loop_all opts (by rw [← h1]; exact hv) h2 [] [] _ (effect_nil E (serviceAddress a))
    rw [List.append_nil, ← h1] at h4
    have h7 : R.ok p = R.ok p' := h.symm.trans h4
    injection h7 with h7
    rw [h7]
    exact h6
  have hlast : ∀ x, a = x ++ asc "]" ↔ a.getLast? = some 93 ∧ x = a.dropLast := by
    intro x
    rw [show asc "]" = [93] by decide +kernel]
    constructor
    · rintro rfl; simp
    · rintro ⟨h1, h2⟩
      rw [h2]
      rcases List.eq_nil_or_concat a with rfl | ⟨l, b, rfl⟩
      · cases h1
      · simp at h1 ⊢; exact h1
  have e8900 : asc ":8900" = [58] ++ asc "8900" := by decide +kernel
  rw [haddr, e8900]
  unfold serviceAddress
  refine ⟨?_, ?_, ?_, ?_⟩
  · intro hn; rw [if_pos (Or.inr hn), List.append_assoc]
  · intro x hx; rw [if_pos (Or.inl ((hlast x).mp hx).1), List.append_assoc]
  · intro hm hx
    rw [if_neg]
    rintro (h1 | h1)
    · exact hx _ ((hlast _).mpr ⟨h1, rfl⟩)
    · exact h1 hm
  · split
    · exact ⟨a, asc "8900", by simp, by decide +kernel⟩
    · rename_i hn
      rw [not_or] at hn
      rcases Url.rfind_cases 58 a with h1 | ⟨x, y, h1, h2⟩
      · exact absurd h1 hn.2
      · exact ⟨x, y, h1, h2⟩

example : (parse demoEnv [asc "[::1]"], parse demoEnv [asc "arrow.example"], parse demoEnv [asc "h:1"]) =
    (.ok { Parser.new with address := asc "[::1]:8900" }, .ok { Parser.new with address := asc "arrow.example:8900" },
      .ok { Parser.new with address := asc "h:1" }) := by
  rw [show asc "[::1]:8900" = serviceAddress (asc "[::1]") by decide +kernel,
    show asc "arrow.example:8900" = serviceAddress (asc "arrow.example") by decide +kernel,
    show asc "h:1" = serviceAddress (asc "h:1") by decide +kernel]
  rfl

/-- An IPv6 address without brackets keeps its last group as the port. -/
theorem C54_bare_v6 (E : Env) : ∃ p, parse E [asc "fe80::8900"] = .ok p ∧ p.address = asc "fe80::8900" :=
  ⟨_, rfl, by decide +kernel⟩

/-! ### C55 -/

theorem split16 (s t : UInt16) : ((s >>> 8) &&& 0xff).toUInt8 = ((t >>> 8) &&& 0xff).toUInt8 ∧
    (s &&& 0xff).toUInt8 = (t &&& 0xff).toUInt8 ↔ s = t := by
  constructor
  · rintro ⟨h1, h2⟩
    have h1 := congrArg UInt8.toNat h1
    have h2 := congrArg UInt8.toNat h2
    have e : ∀ x : Nat, x &&& 255 = x % 256 := fun x => Nat.and_two_pow_sub_one_eq_mod x 8
    simp [Nat.shiftRight_eq_div_pow, e] at h1 h2
    apply UInt16.toNat_inj.mp
    have := s.toNat_lt
    have := t.toNat_lt
    omega
  · rintro rfl; exact ⟨rfl, rfl⟩

/-- C55: the invented MAC address is two bytes 0xff followed by the last four bytes of the IP address. -/
theorem C55_bytes (ip : IpAddr) (p : UInt16) : (fakeMac 0xffff ⟨ip, p⟩).octets = [255, 255] ++ match ip with
    | .v4 a b c d => [a, b, c, d]
    | .v6 _ _ _ _ _ _ s6 s7 => be16 s6 ++ be16 s7 := by
  have e : ∀ x : Nat, x &&& 255 = x % 256 := fun x => Nat.and_two_pow_sub_one_eq_mod x 8
  have hb : ∀ t : UInt16, be16 t = [((t >>> 8) &&& 0xff).toUInt8, (t &&& 0xff).toUInt8] := by
    intro t
    unfold be16
    congr 1
    · apply UInt8.toNat_inj.mp
      simp [e, Nat.shiftRight_eq_div_pow]
    · congr 1
      apply UInt8.toNat_inj.mp
      simp [e]
  cases ip with
  | v4 a b c d => rfl
  | v6 s0 s1 s2 s3 s4 s5 s6 s7 =>
    dsimp only
    rw [hb, hb]
    rfl

/-- C55: the invented MAC addresses of two IPv4 services are equal only if the IP addresses are. -/
theorem C55_v4 (pre : UInt16) (a b c d a' b' c' d' : UInt8) (p p' : UInt16) :
    fakeMac pre ⟨.v4 a b c d, p⟩ = fakeMac pre ⟨.v4 a' b' c' d', p'⟩ ↔ IpAddr.v4 a b c d = .v4 a' b' c' d' := by
  simp [fakeMac]

/-- C55: those of two IPv6 services are equal if the last 32 bits of the IP addresses are. -/
theorem C55_v6 (pre : UInt16) (s0 s1 s2 s3 s4 s5 s6 s7 t0 t1 t2 t3 t4 t5 t6 t7 : UInt16) (p p' : UInt16) :
    fakeMac pre ⟨.v6 s0 s1 s2 s3 s4 s5 s6 s7, p⟩ = fakeMac pre ⟨.v6 t0 t1 t2 t3 t4 t5 t6 t7, p'⟩ ↔
      s6 = t6 ∧ s7 = t7 := by
  simp only [fakeMac, MacAddr.mk.injEq, true_and]
  rw [← split16 s6 t6, ← split16 s7 t7, and_assoc]

/-- C55: that of an IPv4 service is equal to that of an IPv6 service if the latter ends with the bytes of the former. -/
theorem C55_v4_v6 (pre : UInt16) (a b c d : UInt8) (t0 t1 t2 t3 t4 t5 t6 t7 : UInt16) (p p' : UInt16) :
    fakeMac pre ⟨.v4 a b c d, p⟩ = fakeMac pre ⟨.v6 t0 t1 t2 t3 t4 t5 t6 t7, p'⟩ ↔
      be16 t6 ++ be16 t7 = [a, b, c, d] := by
  simp only [fakeMac, MacAddr.mk.injEq, true_and]
  have e : ∀ x : Nat, x &&& 255 = x % 256 := fun x => Nat.and_two_pow_sub_one_eq_mod x 8
  have hb : ∀ t : UInt16, be16 t = [((t >>> 8) &&& 0xff).toUInt8, (t &&& 0xff).toUInt8] := by
    intro t
    unfold be16
    congr 1
    · apply UInt8.toNat_inj.mp
      simp [e, Nat.shiftRight_eq_div_pow]
    · congr 1
      apply UInt8.toNat_inj.mp
      simp [e]
  rw [hb, hb]
  simp only [List.cons_append, List.nil_append, List.cons.injEq, and_true]
  exact ⟨fun ⟨h1, h2, h3, h4⟩ => ⟨h1.symm, h2.symm, h3.symm, h4.symm⟩,
    fun ⟨h1, h2, h3, h4⟩ => ⟨h1.symm, h2.symm, h3.symm, h4.symm⟩⟩

/-- C55: what follows for static services. Two plain services given on the command line have the same identity
exactly if their ports and invented MAC addresses are equal... -/
theorem C55_identity (E : Env) (a b : Bytes) (s t : Service) (h : ServiceOf E (.tcp a) s) (h' : ServiceOf E (.tcp b) t) :
    ∃ x y, E.resolve a = some x ∧ E.resolve b = some y ∧
      (s.toIdentifier = t.toIdentifier ↔ x.port = y.port ∧ fakeMac 0xffff x = fakeMac 0xffff y) := by
  obtain ⟨x, hx, rfl⟩ := h
  obtain ⟨y, hy, rfl⟩ := h'
  refine ⟨x, y, hx, hy, ?_⟩
  simp only [Service.toIdentifier, Service.port, Option.map_some, ServiceIdentifier.mk.injEq,
    Option.some.injEq, true_and, and_true]
  exact and_comm

/-- ... and then the table knows only the one added last. -/
theorem C55_shadowed (farm : Bytes → UInt64) (A : SvcTable.AddrText) (t t' : SvcTable.Table) (static : Bool)
    (now : Int64) (s s' : Service) (i : UInt16) (h : Spec.SvcTable.Reachable farm A t) (hs : s.Constructible)
    (ha : Spec.SvcTable.addAs farm t static now s = some (t', i)) (he : s'.toIdentifier = s.toIdentifier)
    (hne : s' ≠ s) : Spec.SvcTable.known t' i = some s ∧ ∀ j, Spec.SvcTable.known t' j ≠ some s' := by
  have I := SvcTable.reachable_inv h
  rw [SvcTable.addAs_eq] at ha
  have hu := SvcTable.update_updated ha
  have I' := SvcTable.inv_update I hs hu
  obtain ⟨e', e1, e2, -⟩ := SvcTable.updated_at I hu
  refine ⟨by simp only [Spec.SvcTable.known, e1, Option.map_some, e2], ?_⟩
  intro j hj
  simp only [Spec.SvcTable.known, Option.map_eq_some_iff] at hj
  obtain ⟨e, g1, g2⟩ := hj
  have h1 := (I'.elem j e g1).2
  have h2 := (I'.elem i e' e1).2
  rw [g2, he] at h1
  rw [e2, h1] at h2
  injection h2 with h2
  subst h2
  rw [e1] at g1
  injection g1 with g1
  rw [← g1, e2] at g2
  exact hne g2.symm

/-- Two cameras of different networks. -/
example : let x : SocketAddr := ⟨.v6 0x2001 0xdb8 1 0 0 0 0 0x10, 554⟩
    let y : SocketAddr := ⟨.v6 0x2001 0xdb8 2 0 0 0 0 0x10, 554⟩
    let s := Service.tcp (fakeMac 0xffff x) x
    let t := Service.tcp (fakeMac 0xffff y) y
    s ≠ t ∧ s.toIdentifier = t.toIdentifier ∧
    (((SvcTable.Table.new 0).run SvcTable.demoFarm [.addStatic 0 s, .addStatic 0 t]).map (·.visible)) =
      some [(0xffff, t)] := by
  decide +kernel

/-! ### C85 -/

/-- C85: a URL is taken as a static RTSP service exactly if it has the scheme `rtsp`, in any case, and its host
resolves; then it is the service described. Otherwise it is refused; nothing panics. -/
theorem C85_rtsp_service (E : Env) (url : Bytes) (hv : Utf8.valid url = true) :
    (∀ s, rtspService E url = .ok s ↔ UrlService E (asc "rtsp") 554 .rtsp .lockedRtsp url s) ∧
    ((∃ s, rtspService E url = .ok s) ∨ rtspService E url = .err) := by
  have hof := fun s => urlService_of (E := E) (port := 554) (a := .rtsp) (b := .lockedRtsp) (s := s)
    (scheme := asc "rtsp") hv (by decide)
  rcases rtspService_cases E url hv with ⟨s, h1, h2⟩ | ⟨h1, h2⟩
  · refine ⟨fun t => ⟨?_, hof t⟩, Or.inl ⟨s, h1⟩⟩
    intro h
    rw [h1] at h
    injection h with h
    exact h ▸ h2
  · refine ⟨fun t => ⟨?_, hof t⟩, Or.inr h1⟩
    intro h
    rw [h1] at h
    cases h

/-- C85: likewise an MJPEG service with the scheme `http`. -/
theorem C85_mjpeg_service (E : Env) (url : Bytes) (hv : Utf8.valid url = true) :
    (∀ s, mjpegService E url = .ok s ↔ UrlService E (asc "http") 80 .mjpeg .lockedMjpeg url s) ∧
    ((∃ s, mjpegService E url = .ok s) ∨ mjpegService E url = .err) := by
  have hof := fun s => urlService_of (E := E) (port := 80) (a := .mjpeg) (b := .lockedMjpeg) (s := s)
    (scheme := asc "http") hv (by decide)
  rcases mjpegService_cases E url hv with ⟨s, h1, h2⟩ | ⟨h1, h2⟩
  · refine ⟨fun t => ⟨?_, hof t⟩, Or.inl ⟨s, h1⟩⟩
    intro h
    rw [h1] at h
    injection h with h
    exact h ▸ h2
  · refine ⟨fun t => ⟨?_, hof t⟩, Or.inr h1⟩
    intro h
    rw [h1] at h
    cases h

example : rtspService demoEnv (asc "rtsp://cam:8554/a?b#c") =
      .ok (.rtsp ⟨255, 255, 10, 0, 0, 2⟩ ⟨.v4 10 0 0 2, 8554⟩ (asc "/a?b")) ∧
    mjpegService demoEnv (asc "HTTP://u:p@cam") =
      .ok (.lockedMjpeg ⟨255, 255, 10, 0, 0, 2⟩ ⟨.v4 10 0 0 2, 80⟩ (some (asc "/"))) ∧
    mjpegService demoEnv (asc "https://cam/") = .err ∧ rtspService demoEnv (asc "rtsp://dog/") = .err := by
  exact ⟨rfl, rfl, rfl, rfl⟩

/-- C85: the password is not kept: two URLs that differ only in the password and in the user name give the same
service. -/
theorem C85_credentials_not_kept (E : Env) (p q : Parts) (s : Service) (hq : Wf q)
    (hv : Utf8.valid (render p) = true) (hv' : Utf8.valid (render q) = true)
    (he : q.scheme = p.scheme ∧ q.host = p.host ∧ q.port = p.port ∧ q.tail = p.tail ∧ q.user.isSome = p.user.isSome)
    (hp : Wf p) (h : rtspService E (render p) = .ok s) : rtspService E (render q) = .ok s := by
  rw [(C85_rtsp_service E _ hv').1]
  rw [(C85_rtsp_service E _ hv).1] at h
  obtain ⟨p', n, addr, hp', e, h1, h2, h3, h4⟩ := h
  have hr' := Url.parse_render hp' (by rw [e]; exact hv)
  rw [e, Url.parse_render hp hv] at hr'
  injection hr' with hr'
  have r := Url.reads_urlOf hp hv
  have r' := Url.reads_urlOf hp' (by rw [e]; exact hv)
  rw [← hr'] at r'
  have e1 : p'.scheme = p.scheme := by simpa using r'.scheme.symm.trans r.scheme
  have e2 : p'.host = p.host := by simpa using r'.host.symm.trans r.host
  have e3 : p'.user.isSome = p.user.isSome := by
    have := r'.username.symm.trans r.username
    injection this with this
    have := congrArg Option.isSome this
    simpa using this
  have e4 : PortIs 554 p.port n := by
    rw [port_unique h2 (parsed_port r' 554)]
    exact parsed_port r 554
  have e5 : pathOf p' = pathOf p := by
    have := (urlPath_reads r').symm.trans (urlPath_reads r)
    injection this
  refine ⟨q, n, addr, hq, rfl, ?_, ?_, ?_, ?_⟩
  · rw [he.1, ← e1]; exact h1
  · rw [he.2.2.1]; exact e4
  · rw [he.2.1, ← e2]; exact h3
  · change s = ⟨if p'.user.isSome then .lockedRtsp else .rtsp, _, _, some (pathOf p')⟩ at h4
    change s = ⟨if q.user.isSome then .lockedRtsp else .rtsp, _, _, some (pathOf q)⟩
    rw [h4, e3, e5, he.2.2.2.2, show pathOf q = pathOf p by unfold pathOf; rw [he.2.2.2.1]]

end Verif.Props.Args
