import Verif.Lemmas.ScanTime
import Verif.Props.Discovery
/-!
# Lemmas: which requests a network scan sends
-/
namespace Verif.ScanTime
open Verif Verif.Discovery Verif.Scan Verif.Spec.ScanTime Verif.Spec.Discovery

theorem asked_append {l l' : List Req} {q : Probe} : Asked (l ++ l') q ↔ Asked l q ∨ Asked l' q := by
  unfold Asked
  constructor
  · rintro ⟨r, hr, e⟩
    exact (List.mem_append.mp hr).imp (fun h => ⟨r, h, e⟩) fun h => ⟨r, h, e⟩
  · rintro (⟨r, hr, e⟩ | ⟨r, hr, e⟩)
    · exact ⟨r, List.mem_append_left _ hr, e⟩
    · exact ⟨r, List.mem_append_right _ hr, e⟩

theorem asked_nil {q : Probe} : ¬Asked [] q := fun ⟨_, h, _⟩ => nomatch h

theorem asked_flatMap {α : Type} {l : List α} {f : α → List Req} {q : Probe} :
    Asked (l.flatMap f) q ↔ ∃ x ∈ l, Asked (f x) q := by
  unfold Asked
  constructor
  · rintro ⟨r, hr, e⟩
    obtain ⟨x, hx, h⟩ := List.mem_flatMap.mp hr
    exact ⟨x, hx, r, h, e⟩
  · rintro ⟨x, hx, r, h, e⟩
    exact ⟨r, List.mem_flatMap.mpr ⟨x, hx, h⟩, e⟩

theorem asked_request {world : Probe → Reply} {t : Nat} {p q : Probe} {r : Wire.Res Http.Client} :
    Asked (request world t p r) q ↔ q = p ∧ ∃ c, r = .ok c := by
  unfold request
  cases r with
  | ok c =>
    constructor
    · rintro ⟨r, hr, e⟩
      rw [List.mem_singleton] at hr
      subst hr
      exact ⟨e.symm, c, rfl⟩
    · rintro ⟨rfl, _⟩
      exact ⟨_, List.mem_singleton.mpr rfl, rfl⟩
  | err => exact ⟨fun h => absurd h asked_nil, fun ⟨_, c, e⟩ => nomatch e⟩
  | panic => exact ⟨fun h => absurd h asked_nil, fun ⟨_, c, e⟩ => nomatch e⟩

theorem options_url {E : Env} {url : Bytes} : (∃ c, Http.options E.T.lower E.version url = .ok c) ↔ RtspUrl E url := by
  unfold Http.options RtspUrl
  rcases newRtsp_cases E.T.lower E.version (asc "OPTIONS") url true with ⟨c, h, _, h3⟩ | h | h
  · exact ⟨fun _ => h3 _ _, fun _ => ⟨c, h⟩⟩
  · exact ⟨fun ⟨c, hc⟩ => (by rw [h] at hc; cases hc), fun ⟨c, hc⟩ => (by rw [h] at hc; cases hc)⟩
  · exact ⟨fun ⟨c, hc⟩ => (by rw [h] at hc; cases hc), fun ⟨c, hc⟩ => (by rw [h] at hc; cases hc)⟩

theorem describe_url {E : Env} {url : Bytes} : (∃ c, Http.describe E.T.lower E.version url = .ok c) ↔ RtspUrl E url := by
  unfold Http.describe RtspUrl
  rcases newRtsp_cases E.T.lower E.version (asc "DESCRIBE") url false with ⟨c, h, _, h3⟩ | h | h
  · exact ⟨fun _ => h3 _ _, fun _ => ⟨_, by rw [h]⟩⟩
  · exact ⟨fun ⟨c, hc⟩ => (by rw [h] at hc; cases hc), fun ⟨c, hc⟩ => (by rw [h] at hc; cases hc)⟩
  · exact ⟨fun ⟨c, hc⟩ => (by rw [h] at hc; cases hc), fun ⟨c, hc⟩ => (by rw [h] at hc; cases hc)⟩

theorem header_url {E : Env} {url : Bytes} : (∃ c, Http.getHeader E.T.lower E.version url = .ok c) ↔ HttpUrl E url := by
  unfold Http.getHeader HttpUrl
  rcases newHttp_cases E.T.lower E.version (asc "GET") url true with ⟨c, h, _, h3⟩ | h | h
  · exact ⟨fun _ => h3 _ _, fun _ => ⟨c, h⟩⟩
  · exact ⟨fun ⟨c, hc⟩ => (by rw [h] at hc; cases hc), fun ⟨c, hc⟩ => (by rw [h] at hc; cases hc)⟩
  · exact ⟨fun ⟨c, hc⟩ => (by rw [h] at hc; cases hc), fun ⟨c, hc⟩ => (by rw [h] at hc; cases hc)⟩

theorem asked_rtspChecks {E : Env} {world : Probe → Reply} {t : Nat} {l : List (MacAddr × SocketAddr)} {q : Probe} :
    Asked (rtspChecks E world t l) q ↔ ∃ x ∈ l, q = .options x.1 x.2 ∧ x.2.port ∈ rtspPorts ∧
      RtspUrl E (describeUrl E x.2 (asc "/")) := by
  unfold rtspChecks
  rw [asked_flatMap]
  refine exists_congr fun x => and_congr_right fun _ => ?_
  by_cases hp : x.2.port ∈ rtspPorts
  · rw [if_pos hp, asked_request, options_url]
    exact ⟨fun h => ⟨h.1, hp, h.2⟩, fun h => ⟨h.1, h.2.2⟩⟩
  · rw [if_neg hp]
    exact ⟨fun h => absurd h asked_nil, fun h => absurd h.2.1 hp⟩

theorem asked_httpChecks {E : Env} {world : Probe → Reply} {t : Nat} {l : List (MacAddr × SocketAddr)} {q : Probe} :
    Asked (httpChecks E world t l) q ↔ ∃ x ∈ l, q = .root x.1 x.2 ∧ x.2.port ∈ httpPorts ∧
      HttpUrl E (httpUrl E x.2 (asc "/")) := by
  unfold httpChecks
  rw [asked_flatMap]
  refine exists_congr fun x => and_congr_right fun _ => ?_
  by_cases hp : x.2.port ∈ httpPorts
  · rw [if_pos hp, asked_request, header_url]
    exact ⟨fun h => ⟨h.1, hp, h.2⟩, fun h => ⟨h.1, h.2.2⟩⟩
  · rw [if_neg hp]
    exact ⟨fun h => absurd h asked_nil, fun h => absurd h.2.1 hp⟩

/-- The search comes to a path, for the verdicts of the code. -/
def reaches (vo : Nat → Bytes → Verdict) (n : Nat) (paths : List Bytes) (i : Nat) (p : Bytes) : Prop :=
  ∃ a b, paths = a ++ p :: b ∧ n + a.length = i ∧ passed vo n a

theorem reaches_cons {vo : Nat → Bytes → Verdict} {n : Nat} {p0 : Bytes} {paths : List Bytes} {i : Nat} {p : Bytes} :
    reaches vo n (p0 :: paths) i p ↔
      (i = n ∧ p = p0) ∨ ((vo n p0 = .nothing ∨ vo n p0 = .unsupported) ∧ reaches vo (n + 1) paths i p) := by
  constructor
  · rintro ⟨a, b, h, hl, hp⟩
    cases a with
    | nil => cases h; exact .inl ⟨hl.symm, rfl⟩
    | cons x a =>
      cases h
      obtain ⟨h1, h2⟩ := passed_cons.mp hp
      refine .inr ⟨h1, a, b, rfl, ?_, h2⟩
      rw [List.length_cons] at hl
      omega
  · rintro (⟨rfl, rfl⟩ | ⟨h1, a, b, rfl, hl, h2⟩)
    · exact ⟨[], paths, rfl, rfl, fun i q h => by simp at h⟩
    · refine ⟨p0 :: a, b, rfl, ?_, passed_cons.mpr ⟨h1, h2⟩⟩
      rw [List.length_cons]
      omega

theorem asked_rtspPaths (E : Env) (N : Net) (world : Probe → Reply) (mac : MacAddr) (addr : SocketAddr) (q : Probe)
    (paths : List Bytes) : ∀ t n, Asked (rtspPathReqs E N world mac addr t n paths) q ↔
      ∃ i p, q = .rtspPath mac addr i ∧ reaches (rvo E N mac addr) n paths i p ∧ RtspUrl E (describeUrl E addr p) := by
  induction paths with
  | nil =>
    intro t n
    refine ⟨fun h => absurd h asked_nil, ?_⟩
    rintro ⟨i, p, _, ⟨a, b, h, _⟩, _⟩
    simp at h
  | cons p0 paths ih =>
    intro t n
    rw [rtspPathReqs, asked_append, asked_request, describe_url]
    have hrest : Asked (match getRtspStream E N mac addr n p0 with
        | .ok none => rtspPathReqs E N world mac addr (finish t (request world t (.rtspPath mac addr n)
            (Http.describe E.T.lower E.version (asc "rtsp://" ++ E.format addr ++ p0)))) (n + 1) paths
        | .ok (some svc) =>
          if svc.svcType = .rtsp ∨ svc.svcType = .lockedRtsp then []
          else rtspPathReqs E N world mac addr (finish t (request world t (.rtspPath mac addr n)
            (Http.describe E.T.lower E.version (asc "rtsp://" ++ E.format addr ++ p0)))) (n + 1) paths
        | _ => []) q ↔ (rvo E N mac addr n p0 = .nothing ∨ rvo E N mac addr n p0 = .unsupported) ∧
          ∃ i p, q = .rtspPath mac addr i ∧ reaches (rvo E N mac addr) (n + 1) paths i p ∧
            RtspUrl E (describeUrl E addr p) := by
      rw [← ih]
      unfold getRtspStream rvo
      cases hg : getRtspStreamType E N mac addr n p0 with
      | panic => exact ⟨fun h => absurd h asked_nil, fun h => h.1.elim nofun nofun⟩
      | err => exact absurd hg (rtsp_err _ _ _ _ _ _)
      | ok s =>
        cases s with
        | supported => exact ⟨fun h => absurd h asked_nil, fun h => h.1.elim nofun nofun⟩
        | locked => exact ⟨fun h => absurd h asked_nil, fun h => h.1.elim nofun nofun⟩
        | unsupported => exact ⟨fun h => ⟨.inr rfl, h⟩, fun h => h.2⟩
        | notFound => exact ⟨fun h => ⟨.inl rfl, h⟩, fun h => h.2⟩
        | error => exact ⟨fun h => ⟨.inl rfl, h⟩, fun h => h.2⟩
    refine (or_congr Iff.rfl hrest).trans ?_
    constructor
    · rintro (⟨rfl, h⟩ | ⟨h1, i, p, e, h2, h3⟩)
      · exact ⟨n, p0, rfl, reaches_cons.mpr (.inl ⟨rfl, rfl⟩), h⟩
      · exact ⟨i, p, e, reaches_cons.mpr (.inr ⟨h1, h2⟩), h3⟩
    · rintro ⟨i, p, e, h2, h3⟩
      rcases reaches_cons.mp h2 with ⟨rfl, rfl⟩ | ⟨h1, h2⟩
      · exact .inl ⟨e, h3⟩
      · exact .inr ⟨h1, i, p, e, h2, h3⟩

theorem asked_mjpegPaths (E : Env) (hE : ∀ a, Utf8.valid (E.format a) = true) (N : Net) (world : Probe → Reply)
    (mac : MacAddr) (addr : SocketAddr) (q : Probe)
    (paths : List Bytes) (hp : ∀ p ∈ paths, Utf8.valid p = true) :
    ∀ t n, Asked (mjpegPathReqs E N world mac addr t n paths) q ↔
      ∃ i p, q = .mjpegPath mac addr i ∧ reaches (mvo E N mac addr) n paths i p ∧ HttpUrl E (httpUrl E addr p) := by
  induction paths with
  | nil =>
    intro t n
    refine ⟨fun h => absurd h asked_nil, ?_⟩
    rintro ⟨i, p, _, ⟨a, b, h, _⟩, _⟩
    simp at h
  | cons p0 paths ih =>
    intro t n
    have ih := ih (fun p h => hp p (List.mem_cons_of_mem _ h))
    rw [mjpegPathReqs, asked_append, asked_request, header_url]
    have hrest : Asked (match getMjpegStream E N mac addr n p0 with
        | .ok none => mjpegPathReqs E N world mac addr (finish t (request world t (.mjpegPath mac addr n)
            (Http.getHeader E.T.lower E.version (asc "http://" ++ E.format addr ++ p0)))) (n + 1) paths
        | _ => []) q ↔ (mvo E N mac addr n p0 = .nothing ∨ mvo E N mac addr n p0 = .unsupported) ∧
          ∃ i p, q = .mjpegPath mac addr i ∧ reaches (mvo E N mac addr) (n + 1) paths i p ∧
            HttpUrl E (httpUrl E addr p) := by
      rw [← ih]
      have hc := mvo_crash (N := N) (mac := mac) (addr := addr) hE n p0 (hp p0 List.mem_cons_self)
      unfold getMjpegStream
      unfold mvo at hc ⊢
      cases hg : getHttpResponse E N (.mjpegPath mac addr n) addr p0 with
      | panic => rw [hg] at hc; exact absurd rfl hc.1
      | err => exact ⟨fun h => ⟨.inl rfl, h⟩, fun h => h.2⟩
      | ok r =>
        unfold mverdictOf
        dsimp only
        cases httpStreamType E r with
        | supported => exact ⟨fun h => absurd h asked_nil, fun h => h.1.elim nofun nofun⟩
        | locked => exact ⟨fun h => absurd h asked_nil, fun h => h.1.elim nofun nofun⟩
        | unsupported => exact ⟨fun h => ⟨.inl rfl, h⟩, fun h => h.2⟩
        | notFound => exact ⟨fun h => ⟨.inl rfl, h⟩, fun h => h.2⟩
        | error => exact ⟨fun h => ⟨.inl rfl, h⟩, fun h => h.2⟩
    refine (or_congr Iff.rfl hrest).trans ?_
    constructor
    · rintro (⟨rfl, h⟩ | ⟨h1, i, p, e, h2, h3⟩)
      · exact ⟨n, p0, rfl, reaches_cons.mpr (.inl ⟨rfl, rfl⟩), h⟩
      · exact ⟨i, p, e, reaches_cons.mpr (.inr ⟨h1, h2⟩), h3⟩
    · rintro ⟨i, p, e, h2, h3⟩
      rcases reaches_cons.mp h2 with ⟨rfl, rfl⟩ | ⟨h1, h2⟩
      · exact .inl ⟨e, h3⟩
      · exact .inr ⟨h1, i, p, e, h2, h3⟩

theorem reaches_iff {V : Nat → Bytes → Verdict → Prop} {vo : Nat → Bytes → Verdict} {paths : List Bytes}
    (h : ∀ i p v, p ∈ paths → (V i p v ↔ vo i p = v)) (i : Nat) (p : Bytes) :
    Reaches V paths i p ↔ reaches vo 0 paths i p := by
  unfold Reaches reaches
  refine exists_congr fun a => exists_congr fun b => and_congr_right fun e => ?_
  rw [Nat.zero_add]
  refine and_congr_right fun _ => passed_iff V vo 0 a fun i p v hp => h i p v ?_
  rw [e]
  exact List.mem_append_left _ hp

/-- All the requests of a scan that comes to its end. -/
theorem requests_asked (E : Env) (hE : E.Ok) (devices : List Device) (world : Probe → Reply)
    (whitelist rtspPaths mjpegPaths : List Bytes) (t : Nat)
    (hr : ∀ p ∈ rtspPaths, Utf8.valid p = true) (hm : ∀ p ∈ mjpegPaths, Utf8.valid p = true)
    (hok : ∃ r, scanNetwork E (net devices world) whitelist rtspPaths mjpegPaths = .ok r) :
    ∃ runs R H, Spec.Sdp.Each IsRun (scanned whitelist (net devices world)) runs
      ∧ Selected rtspCandidates (RtspServer E (net devices world) runs) R
      ∧ Selected httpCandidates (HttpServer E (net devices world) runs) H
      ∧ ∀ q, Asked (requests E devices world whitelist rtspPaths mjpegPaths t) q ↔
          Wanted E (net devices world) runs R H rtspPaths mjpegPaths q := by
  obtain ⟨runs, h1, h2⟩ := devices_run whitelist (net devices world).devices [] _ ok_new
  rw [List.nil_append] at h2
  change Scan.Ok (factsOf runs) (findOpenPorts whitelist (net devices world)) at h2
  have hso : ∀ x : MacAddr × SocketAddr,
      x ∈ E.order (findOpenPorts whitelist (net devices world)).socketAddrs ↔ Open runs x.1 x.2 := by
    intro x
    rw [(hE.order _).mem_iff, h2.mem_socketAddrs, open_iff]
  obtain ⟨lr, e1, m1⟩ := findRtsp_ok hE.format (net devices world)
    (E.order (findOpenPorts whitelist (net devices world)).socketAddrs)
  obtain ⟨lh, e2, m2⟩ := findHttp_ok hE.format (net devices world)
    (E.order (findOpenPorts whitelist (net devices world)).socketAddrs)
  have s1 := selected rtspPorts rtspPorts_nodup (RtspServer E (net devices world) runs) lr
    (fun x => by rw [m1, hso]; exact Iff.rfl) _ (hE.order _)
  have s2 := selected httpPorts httpPorts_nodup (HttpServer E (net devices world) runs) lh
    (fun x => by rw [m2, hso]; exact Iff.rfl) _ (hE.order _)
  refine ⟨runs, _, _, h1, s1, s2, ?_⟩
  intro q
  unfold scanNetwork at hok
  unfold requests
  simp only [e1, e2] at hok ⊢
  generalize E.order (filterDuplicit lr (getPortPriorities rtspPorts)) = R at hok ⊢
  generalize E.order (filterDuplicit lh (getPortPriorities httpPorts)) = H at hok ⊢
  cases hs : findRtspStreams E (net devices world) rtspPaths R with
  | err => rw [hs] at hok; obtain ⟨r, h⟩ := hok; cases h
  | panic => rw [hs] at hok; obtain ⟨r, h⟩ := hok; cases h
  | ok streams =>
    dsimp only
    rw [asked_append, asked_append, asked_append, asked_rtspChecks, asked_httpChecks, asked_flatMap, asked_flatMap]
    simp only [asked_rtspPaths, asked_mjpegPaths E hE.format _ _ _ _ _ _ hm, hso]
    have hV : ∀ mac addr i p, Reaches (rtspVerdict E (net devices world) mac addr) rtspPaths i p ↔
        reaches (rvo E (net devices world) mac addr) 0 rtspPaths i p := fun mac addr i p =>
      reaches_iff (fun i p v h => rtspVerdict_iff E _ mac addr i p (valid_describe hE.format addr (hr p h)) v) i p
    have hW : ∀ mac addr i p, Reaches (mjpegVerdict E (net devices world) mac addr) mjpegPaths i p ↔
        reaches (mvo E (net devices world) mac addr) 0 mjpegPaths i p := fun mac addr i p =>
      reaches_iff (fun i p v h => mjpegVerdict_iff E _ mac addr i p (valid_http hE.format addr (hm p h)) v) i p
    simp only [← hV, ← hW]
    cases q with
    | options mac addr =>
      constructor
      · rintro (⟨x, h, e, h'⟩ | ⟨x, _, i, p, e, _⟩ | ⟨x, _, e, _⟩ | ⟨x, _, i, p, e, _⟩)
        · cases e; exact ⟨h, h'⟩
        · cases e
        · cases e
        · cases e
      · exact fun ⟨h, h'⟩ => .inl ⟨(mac, addr), h, rfl, h'⟩
    | root mac addr =>
      constructor
      · rintro (⟨x, h, e, h'⟩ | ⟨x, _, i, p, e, _⟩ | ⟨x, h, e, h'⟩ | ⟨x, _, i, p, e, _⟩)
        · cases e
        · cases e
        · cases e; exact ⟨h, h'⟩
        · cases e
      · exact fun ⟨h, h'⟩ => .inr (.inr (.inl ⟨(mac, addr), h, rfl, h'⟩))
    | rtspPath mac addr i =>
      constructor
      · rintro (⟨x, h, e, h'⟩ | ⟨x, h, i, p, e, h'⟩ | ⟨x, h, e, h'⟩ | ⟨x, _, i, p, e, _⟩)
        · cases e
        · cases e; exact ⟨h, p, h'⟩
        · cases e
        · cases e
      · exact fun ⟨h, p, h'⟩ => .inr (.inl ⟨(mac, addr), h, i, p, rfl, h'⟩)
    | mjpegPath mac addr i =>
      constructor
      · rintro (⟨x, h, e, h'⟩ | ⟨x, h, i, p, e, h'⟩ | ⟨x, h, e, h'⟩ | ⟨x, h, i, p, e, h'⟩)
        · cases e
        · cases e
        · cases e
        · cases e; exact ⟨h, p, h'⟩
      · exact fun ⟨h, p, h'⟩ => .inr (.inr (.inr ⟨(mac, addr), h, i, p, rfl, h'⟩))

end Verif.ScanTime
