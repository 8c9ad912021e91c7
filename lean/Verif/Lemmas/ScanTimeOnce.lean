import Verif.Lemmas.ScanTimeAsked
/-!
# Lemmas: a network scan sends no request twice
-/
namespace Verif.ScanTime
open Verif Verif.Discovery Verif.Scan Verif.Spec.ScanTime Verif.Spec.Discovery

/-- The requests are different. -/
def Diff (a b : Req) : Prop := a.probe ≠ b.probe

/-- The phase a request belongs to. -/
def kind : Probe → Nat
  | .options _ _ => 0
  | .rtspPath _ _ _ => 1
  | .root _ _ => 2
  | .mjpegPath _ _ _ => 3

/-- The address a request is for. -/
def target : Probe → MacAddr × SocketAddr
  | .options m a => (m, a)
  | .rtspPath m a _ => (m, a)
  | .root m a => (m, a)
  | .mjpegPath m a _ => (m, a)

theorem diff_flatMap {l : List (MacAddr × SocketAddr)} {f : MacAddr × SocketAddr → List Req} (hn : l.Nodup)
    (hk : ∀ x, ∀ r ∈ f x, target r.probe = x) (hs : ∀ x, (f x).Pairwise Diff) : (l.flatMap f).Pairwise Diff := by
  induction l with
  | nil => exact .nil
  | cons x l ih =>
    rw [List.nodup_cons] at hn
    rw [List.flatMap_cons]
    refine List.pairwise_append.mpr ⟨hs x, ih hn.2, ?_⟩
    intro a ha b hb e
    obtain ⟨y, hy, hb⟩ := List.mem_flatMap.mp hb
    have : x = y := by rw [← hk x a ha, ← hk y b hb, e]
    exact hn.1 (this ▸ hy)

theorem diff_phase {k : Nat} {l rest : List Req} (h1 : l.Pairwise Diff) (hk : ∀ r ∈ l, kind r.probe = k)
    (h2 : rest.Pairwise Diff ∧ ∀ r ∈ rest, k < kind r.probe) :
    (l ++ rest).Pairwise Diff ∧ ∀ r ∈ l ++ rest, k ≤ kind r.probe := by
  refine ⟨List.pairwise_append.mpr ⟨h1, h2.1, fun a ha b hb e => ?_⟩, fun r hr => ?_⟩
  · have := h2.2 b hb
    rw [← e, hk a ha] at this
    exact Nat.lt_irrefl _ this
  · rcases List.mem_append.mp hr with h | h
    · exact Nat.le_of_eq (hk r h).symm
    · exact Nat.le_of_lt (h2.2 r h)

theorem mem_request {world : Probe → Reply} {t : Nat} {p : Probe} {c : Wire.Res Http.Client} {r : Req}
    (h : r ∈ request world t p c) : r.probe = p :=
  (asked_request.mp ⟨r, h, rfl⟩).1

theorem diff_request (world : Probe → Reply) (t : Nat) (p : Probe) (c : Wire.Res Http.Client) :
    (request world t p c).Pairwise Diff := by
  unfold request
  cases c with
  | ok c => exact List.pairwise_singleton _ _
  | err => exact .nil
  | panic => exact .nil

theorem rtsp_diff (E : Env) (N : Net) (world : Probe → Reply) (mac : MacAddr) (addr : SocketAddr) (paths : List Bytes) :
    ∀ t n, (rtspPathReqs E N world mac addr t n paths).Pairwise Diff ∧
      ∀ r ∈ rtspPathReqs E N world mac addr t n paths, ∃ j, n ≤ j ∧ r.probe = .rtspPath mac addr j := by
  induction paths with
  | nil => intro t n; exact ⟨.nil, nofun⟩
  | cons p paths ih =>
    intro t n
    rw [rtspPathReqs]
    generalize hq : request world t (.rtspPath mac addr n)
      (Http.describe E.T.lower E.version (asc "rtsp://" ++ E.format addr ++ p)) = q
    have hr : ∀ rest : List Req, rest.Pairwise Diff ∧ (∀ r ∈ rest, ∃ j, n + 1 ≤ j ∧ r.probe = .rtspPath mac addr j) →
        (q ++ rest).Pairwise Diff ∧ ∀ r ∈ q ++ rest, ∃ j, n ≤ j ∧ r.probe = .rtspPath mac addr j := by
      rintro rest ⟨h1, h2⟩
      subst hq
      refine ⟨List.pairwise_append.mpr ⟨diff_request _ _ _ _, h1, fun a ha b hb e => ?_⟩, fun r hr => ?_⟩
      · obtain ⟨j, hj, e'⟩ := h2 b hb
        rw [mem_request ha, e'] at e
        injection e with _ _ e
        omega
      · rcases List.mem_append.mp hr with h | h
        · exact ⟨n, Nat.le_refl _, mem_request h⟩
        · obtain ⟨j, hj, e⟩ := h2 r h
          exact ⟨j, by omega, e⟩
    apply hr
    split
    · exact ih _ _
    · split
      · exact ⟨.nil, nofun⟩
      · exact ih _ _
    · exact ⟨.nil, nofun⟩

theorem mjpeg_diff (E : Env) (N : Net) (world : Probe → Reply) (mac : MacAddr) (addr : SocketAddr) (paths : List Bytes) :
    ∀ t n, (mjpegPathReqs E N world mac addr t n paths).Pairwise Diff ∧
      ∀ r ∈ mjpegPathReqs E N world mac addr t n paths, ∃ j, n ≤ j ∧ r.probe = .mjpegPath mac addr j := by
  induction paths with
  | nil => intro t n; exact ⟨.nil, nofun⟩
  | cons p paths ih =>
    intro t n
    rw [mjpegPathReqs]
    generalize hq : request world t (.mjpegPath mac addr n)
      (Http.getHeader E.T.lower E.version (asc "http://" ++ E.format addr ++ p)) = q
    have hr : ∀ rest : List Req, rest.Pairwise Diff ∧ (∀ r ∈ rest, ∃ j, n + 1 ≤ j ∧ r.probe = .mjpegPath mac addr j) →
        (q ++ rest).Pairwise Diff ∧ ∀ r ∈ q ++ rest, ∃ j, n ≤ j ∧ r.probe = .mjpegPath mac addr j := by
      rintro rest ⟨h1, h2⟩
      subst hq
      refine ⟨List.pairwise_append.mpr ⟨diff_request _ _ _ _, h1, fun a ha b hb e => ?_⟩, fun r hr => ?_⟩
      · obtain ⟨j, hj, e'⟩ := h2 b hb
        rw [mem_request ha, e'] at e
        injection e with _ _ e
        omega
      · rcases List.mem_append.mp hr with h | h
        · exact ⟨n, Nat.le_refl _, mem_request h⟩
        · obtain ⟨j, hj, e⟩ := h2 r h
          exact ⟨j, by omega, e⟩
    apply hr
    split
    · exact ih _ _
    · exact ⟨.nil, nofun⟩

theorem nodup_kept {E : Env} (ho : ∀ l, (E.order l).Perm l) (l : List (MacAddr × SocketAddr)) (ports : List UInt16)
    (hp : ports.Nodup) : (E.order (filterDuplicit l (getPortPriorities ports))).Nodup :=
  (List.pairwise_map.mp (kept_nodup ho l ports hp)).imp fun h e => h (by rw [e])

theorem requests_diff (E : Env) (ho : ∀ l, (E.order l).Perm l) (devices : List Device) (world : Probe → Reply)
    (whitelist rtspPaths mjpegPaths : List Bytes) (t : Nat) :
    (requests E devices world whitelist rtspPaths mjpegPaths t).Pairwise Diff := by
  obtain ⟨runs, _, h2⟩ := devices_run whitelist (net devices world).devices [] _ ok_new
  rw [List.nil_append] at h2
  change Scan.Ok (factsOf runs) (findOpenPorts whitelist (net devices world)) at h2
  have hn : (E.order (findOpenPorts whitelist (net devices world)).socketAddrs).Nodup :=
    (ho _).nodup_iff.mpr h2.socketAddrs_nodup
  have hnone : ∀ k, ([] : List Req).Pairwise Diff ∧ ∀ r ∈ ([] : List Req), k < kind r.probe := fun _ => ⟨.nil, nofun⟩
  unfold requests
  dsimp only
  generalize E.order (findOpenPorts whitelist (net devices world)).socketAddrs = addrs at hn ⊢
  have c1 : ∀ u, (rtspChecks E world u addrs).Pairwise Diff := fun u => diff_flatMap hn
    (fun x r hr => by
      split at hr
      · rw [mem_request hr]; rfl
      · cases hr)
    (fun x => by
      split
      · exact diff_request _ _ _ _
      · exact .nil)
  have c2 : ∀ u, (httpChecks E world u addrs).Pairwise Diff := fun u => diff_flatMap hn
    (fun x r hr => by
      split at hr
      · rw [mem_request hr]; rfl
      · cases hr)
    (fun x => by
      split
      · exact diff_request _ _ _ _
      · exact .nil)
  have k1 : ∀ u, ∀ r ∈ rtspChecks E world u addrs, kind r.probe = 0 := by
    intro u r hr
    obtain ⟨x, _, e, _⟩ := asked_rtspChecks.mp ⟨r, hr, rfl⟩
    rw [e]; rfl
  have k2 : ∀ u, ∀ r ∈ httpChecks E world u addrs, kind r.probe = 2 := by
    intro u r hr
    obtain ⟨x, _, e, _⟩ := asked_httpChecks.mp ⟨r, hr, rfl⟩
    rw [e]; rfl
  refine (diff_phase (c1 _) (k1 _) ?_).1
  split
  · next l _ =>
    refine diff_phase (k := 1) (diff_flatMap (nodup_kept ho l rtspPorts rtspPorts_nodup) ?_ ?_) ?_ ?_
    · intro x r hr
      obtain ⟨j, _, e⟩ := (rtsp_diff _ _ _ _ _ _ _ _).2 r hr
      rw [e]; rfl
    · exact fun x => (rtsp_diff _ _ _ _ _ _ _ _).1
    · intro r hr
      obtain ⟨x, _, hr⟩ := List.mem_flatMap.mp hr
      obtain ⟨j, _, e⟩ := (rtsp_diff _ _ _ _ _ _ _ _).2 r hr
      rw [e]; rfl
    split
    · refine diff_phase (k := 2) (c2 _) (k2 _) ?_
      split
      · next l _ =>
        refine ⟨diff_flatMap (nodup_kept ho l httpPorts httpPorts_nodup) ?_ ?_, ?_⟩
        · intro x r hr
          obtain ⟨j, _, e⟩ := (mjpeg_diff _ _ _ _ _ _ _ _).2 r hr
          rw [e]; rfl
        · exact fun x => (mjpeg_diff _ _ _ _ _ _ _ _).1
        · intro r hr
          obtain ⟨x, _, hr⟩ := List.mem_flatMap.mp hr
          obtain ⟨j, _, e⟩ := (mjpeg_diff _ _ _ _ _ _ _ _).2 r hr
          rw [e]
          show 2 < 3
          decide
      · exact hnone _
    · exact hnone _
  · exact hnone _

theorem nodup_probes {l : List Req} (h : l.Pairwise Diff) : (l.map (·.probe)).Nodup := by
  unfold List.Nodup
  rw [List.pairwise_map]
  exact h

end Verif.ScanTime
