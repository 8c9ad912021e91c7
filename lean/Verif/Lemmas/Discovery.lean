import Verif.Spec.Discovery
import Verif.Props.Http
import Verif.Lemmas.Utf8
import Verif.Props.Sdp
import Verif.Props.ScanResult
/-! # Answers, verdicts and the choice of a stream -/
namespace Verif.Discovery
open Verif Spec.Discovery Spec.Http Spec.Sdp

theorem valid_append {a b : Bytes} (ha : Utf8.valid a = true) (hb : Utf8.valid b = true) :
    Utf8.valid (a ++ b) = true := by
  obtain ⟨cs, rfl⟩ := Utf8.chars_of_valid a.length a (Nat.le_refl _) ha
  obtain ⟨ds, rfl⟩ := Utf8.chars_of_valid b.length b (Nat.le_refl _) hb
  rw [← List.flatMap_append]
  exact Utf8.valid_of_chars _

/-! ## Requests -/

theorem newRtsp_cases (L : Bytes → Bytes) (v m u : Bytes) (ig : Bool) :
    (∃ c, Http.newRtsp L v m u ig = .ok c ∧ c.ignore = ig ∧ ∀ m' ig', ∃ c', Http.newRtsp L v m' u ig' = .ok c')
    ∨ (∀ m' ig', Http.newRtsp L v m' u ig' = .err) ∨ ∀ m' ig', Http.newRtsp L v m' u ig' = .panic := by
  unfold Http.newRtsp
  cases Url.parse u with
  | err => exact .inr (.inl fun _ _ => rfl)
  | panic => exact .inr (.inr fun _ _ => rfl)
  | ok url =>
    dsimp only
    cases url.getScheme with
    | none => exact .inr (.inr fun _ _ => rfl)
    | some s =>
      cases url.getHost with
      | none => exact .inr (.inr fun _ _ => rfl)
      | some h =>
        dsimp only
        by_cases hs : L s = asc "rtsp"
        · simp only [if_pos hs]
          exact .inl ⟨_, rfl, rfl, fun _ _ => ⟨_, rfl⟩⟩
        · simp only [if_neg hs]
          exact .inr (.inl fun _ _ => trivial)

theorem newHttp_cases (L : Bytes → Bytes) (v m u : Bytes) (ig : Bool) :
    (∃ c, Http.newHttp L v m u ig = .ok c ∧ c.ignore = ig ∧ ∀ m' ig', ∃ c', Http.newHttp L v m' u ig' = .ok c')
    ∨ (∀ m' ig', Http.newHttp L v m' u ig' = .err) ∨ ∀ m' ig', Http.newHttp L v m' u ig' = .panic := by
  unfold Http.newHttp
  cases Url.parse u with
  | err => exact .inr (.inl fun _ _ => rfl)
  | panic => exact .inr (.inr fun _ _ => rfl)
  | ok url =>
    dsimp only
    cases url.getScheme with
    | none => exact .inr (.inr fun _ _ => rfl)
    | some s =>
      cases url.getHost with
      | none => exact .inr (.inr fun _ _ => rfl)
      | some h =>
        cases url.getPath with
        | none => exact .inr (.inr fun _ _ => rfl)
        | some p =>
          cases url.getQuery with
          | none => exact .inr (.inr fun _ _ => rfl)
          | some q =>
            dsimp only
            by_cases hs : L s = asc "http"
            · simp only [if_pos hs]
              exact .inl ⟨_, rfl, rfl, fun _ _ => ⟨_, rfl⟩⟩
            · simp only [if_neg hs]
              exact .inr (.inl fun _ _ => trivial)

/-- The result of a request that was sent. -/
def sent (E : Env) (N : Net) (P : Http.Proto) (probe : Probe) (ig : Bool) : Wire.Res Http.Response :=
  match N.answer probe with
  | none => .err
  | some pieces => Http.response E.T.lower P ig pieces

theorem exchange_options (E : Env) (N : Net) (probe : Probe) (url : Bytes) (hv : Utf8.valid url = true) :
    (RtspUrl E url ∧ exchange E N .rtsp probe (Http.options E.T.lower E.version url) = sent E N .rtsp probe true)
    ∨ (¬RtspUrl E url ∧ exchange E N .rtsp probe (Http.options E.T.lower E.version url) = .err) := by
  have hp := (Props.Http.C88_total (L := E.T.lower) E.version url hv).2.1
  unfold RtspUrl
  unfold Http.options at hp ⊢
  rcases newRtsp_cases E.T.lower E.version (asc "OPTIONS") url true with ⟨c, h1, h2, h3⟩ | h | h
  · refine .inl ⟨h3 _ _, ?_⟩
    rw [h1]
    unfold exchange
    dsimp only
    rw [h2]
    rfl
  · refine .inr ⟨?_, ?_⟩
    · rintro ⟨c, hc⟩; rw [h] at hc; cases hc
    · rw [h]; rfl
  · exact absurd (h _ _) hp

theorem exchange_describe (E : Env) (N : Net) (probe : Probe) (url : Bytes) (hv : Utf8.valid url = true) :
    (RtspUrl E url ∧ exchange E N .rtsp probe (Http.describe E.T.lower E.version url) = sent E N .rtsp probe false)
    ∨ (¬RtspUrl E url ∧ exchange E N .rtsp probe (Http.describe E.T.lower E.version url) = .err) := by
  have hp := (Props.Http.C88_total (L := E.T.lower) E.version url hv).2.2.1
  unfold RtspUrl
  unfold Http.describe at hp ⊢
  rcases newRtsp_cases E.T.lower E.version (asc "DESCRIBE") url false with ⟨c, h1, h2, h3⟩ | h | h
  · refine .inl ⟨h3 _ _, ?_⟩
    rw [h1]
    unfold exchange
    dsimp only
    have : (c.setRtsp E.T.lower (asc "Accept") (asc "application/sdp")).ignore = false := h2
    rw [this]
    rfl
  · refine .inr ⟨?_, ?_⟩
    · rintro ⟨c, hc⟩; rw [h] at hc; cases hc
    · rw [h]; rfl
  · rw [h] at hp; exact absurd rfl hp

theorem exchange_http (E : Env) (N : Net) (probe : Probe) (url : Bytes) (hv : Utf8.valid url = true) :
    (HttpUrl E url ∧ exchange E N .http probe (Http.getHeader E.T.lower E.version url) = sent E N .http probe true)
    ∨ (¬HttpUrl E url ∧ exchange E N .http probe (Http.getHeader E.T.lower E.version url) = .err) := by
  have hp := (Props.Http.C88_total (L := E.T.lower) E.version url hv).1
  unfold HttpUrl
  unfold Http.getHeader at hp ⊢
  rcases newHttp_cases E.T.lower E.version (asc "GET") url true with ⟨c, h1, h2, h3⟩ | h | h
  · refine .inl ⟨h3 _ _, ?_⟩
    rw [h1]
    unfold exchange
    dsimp only
    rw [h2]
    rfl
  · refine .inr ⟨?_, ?_⟩
    · rintro ⟨c, hc⟩; rw [h] at hc; cases hc
    · rw [h]; rfl
  · exact absurd (h _ _) hp

/-! ## Replies -/

theorem reply_ok {L : Bytes → Bytes} {P : Http.Proto} {ig : Bool} {pieces : List Bytes} {r : Http.Response}
    (h : Http.response L P ig pieces = .ok r) :
    (∃ hd body, Reply L P ig pieces hd body ∧ Shows L r hd (if ig then [] else body))
    ∧ ∀ hd body, Reply L P ig pieces hd body → Shows L r hd (if ig then [] else body) := by
  constructor
  · obtain ⟨head, rest, hd, body, h1, h2, h3, h4, h5⟩ := Props.Http.C63_sound ig pieces r h
    exact ⟨hd, body, ⟨head, rest, h1, h2, h3, h4⟩, h5⟩
  · rintro hd body ⟨head, rest, h1, h2, h3, h4⟩
    obtain ⟨r', h5, h6⟩ := Props.Http.C63_complete ig pieces head rest hd body h1 h2 h3 h4
    rw [h] at h5
    injection h5 with h5
    rw [h5]
    exact h6

theorem reply_response {L : Bytes → Bytes} {P : Http.Proto} {ig : Bool} {pieces : List Bytes} {hd : Head} {body : Bytes}
    (h : Reply L P ig pieces hd body) : ∃ r, Http.response L P ig pieces = .ok r := by
  obtain ⟨head, rest, h1, h2, h3, h4⟩ := h
  obtain ⟨r, h5, _⟩ := Props.Http.C63_complete ig pieces head rest hd body h1 h2 h3 h4
  exact ⟨r, h5⟩

theorem huge_iff {L : Bytes → Bytes} {pieces : List Bytes} :
    Http.response L .rtsp false pieces = .panic ↔ HugeLength L pieces := by
  rw [Props.Http.C87_panic]
  exact ⟨fun h => h.2, fun h => ⟨rfl, h⟩⟩

theorem shows_value {L : Bytes → Bytes} {r : Http.Response} {h : Head} {body : Bytes} (hs : Shows L r h body)
    (name : Bytes) : r.header.value L name = (h.last L name).bind id := by
  have hf := hs.fields name
  unfold Http.Header.value Head.last
  rw [← hf, List.getLast?_map]
  cases (r.header.fields.get L name).getLast? with
  | none => rfl
  | some f => cases hv : f.value <;> simp [hv]

theorem shows_status {L : Bytes → Bytes} {r : Http.Response} {h : Head} {body : Bytes} (hs : Shows L r h body)
    (n : UInt16) : r.header.status = n ↔ h.status = n.toNat := by
  rw [← hs.status, ← UInt16.toNat_inj]

theorem bind_id {α : Type} {x : Option (Option α)} {v : α} : x.bind id = some v ↔ x = some (some v) := by
  cases x with
  | none => simp
  | some y => simp

theorem hipcam_iff {E : Env} {r : Http.Response} {h : Head} {body path : Bytes} (hs : Shows E.T.lower r h body) :
    (isHipcam E r = true ∧ path ≠ asc "/11" ∧ path ≠ asc "/12") ↔ Buggy E.T.lower h path := by
  unfold isHipcam Buggy
  rw [shows_value hs, decide_eq_true_iff, bind_id, bind_id]

/-! ## Bodies -/

theorem mem_videoCodecs {T : Sdp.Txt} {s : Sdp.Session} {c : Bytes} :
    c ∈ videoCodecs T s ↔ ∃ m ∈ s.medias, m.mediaType = .video ∧ ∃ a ∈ m.attributes, T.lower a.name = asc "rtpmap"
      ∧ ∃ v r, a.value = some v ∧ RtpMapIs v r ∧ T.upper r.encoding = c := by
  unfold videoCodecs
  simp only [List.mem_flatMap, List.mem_filter, List.mem_filterMap, decide_eq_true_iff]
  constructor
  · rintro ⟨m, ⟨h1, h2⟩, a, h3, h4⟩
    cases ho : Sdp.RtpMap.ofAttr T a with
    | none => rw [ho] at h4; cases h4
    | some r =>
      rw [ho] at h4
      injection h4 with h4
      obtain ⟨g1, v, g2, g3⟩ := (Sdp.C65_rtpmap T a r).1 ho
      exact ⟨m, h1, h2, a, h3, g1, v, r, g2, g3, h4⟩
  · rintro ⟨m, h1, h2, a, h3, g1, v, r, g2, g3, h4⟩
    refine ⟨m, ⟨h1, h2⟩, a, h3, ?_⟩
    rw [(Sdp.C65_rtpmap T a r).2 ⟨g1, v, g2, g3⟩]
    exact congrArg some h4

theorem supported_of_parse {E : Env} {body : Bytes} {s : Sdp.Session} (h : Sdp.parse E.T E.stack body = .ok s) :
    isSupportedRtsp E body = .ok (decide (∃ c ∈ codecs, c ∈ videoCodecs E.T s)) := by
  unfold isSupportedRtsp
  rw [h]
  dsimp only
  congr 1
  rw [decide_eq_decide]
  unfold codecs
  simp

theorem supported_true {E : Env} {body : Bytes} : isSupportedRtsp E body = .ok true ↔ Playable E body := by
  constructor
  · intro h
    cases hp : Sdp.parse E.T E.stack body with
    | ok s =>
      rw [supported_of_parse hp] at h
      injection h with h
      obtain ⟨c, hc1, hc2⟩ := of_decide_eq_true h
      obtain ⟨ls, h1, h2, h3⟩ := (Sdp.C65_reads E.T E.stack body s).1 hp
      obtain ⟨m, g1, g2, a, g3, g4, v, r, g5, g6, g7⟩ := mem_videoCodecs.1 hc2
      exact ⟨ls, s, h1, h2, h3, m, g1, g2, a, g3, g4, v, r, g5, g6, by rw [g7]; exact hc1⟩
    | err => unfold isSupportedRtsp at h; rw [hp] at h; cases h
    | panic => unfold isSupportedRtsp at h; rw [hp] at h; cases h
    | overflow => unfold isSupportedRtsp at h; rw [hp] at h; cases h
  · rintro ⟨ls, s, h1, h2, h3, m, g1, g2, a, g3, g4, v, r, g5, g6, g7⟩
    have hp := (Sdp.C65_reads E.T E.stack body s).2 ⟨ls, h1, h2, h3⟩
    rw [supported_of_parse hp]
    congr 1
    exact decide_eq_true ⟨_, g7, mem_videoCodecs.2 ⟨m, g1, g2, a, g3, g4, v, r, g5, g6, rfl⟩⟩

theorem supported_panic {E : Env} {body : Bytes} : isSupportedRtsp E body = .panic ↔ TooDeep E body := by
  unfold TooDeep
  rw [← Sdp.C65_overflow]
  unfold isSupportedRtsp
  have := Sdp.C65_no_panic E.T E.stack body
  cases hp : Sdp.parse E.T E.stack body with
  | ok s => exact ⟨nofun, nofun⟩
  | err => exact ⟨nofun, nofun⟩
  | panic => exact absurd hp this
  | overflow => exact ⟨fun _ => rfl, fun _ => rfl⟩

theorem supported_err {E : Env} {body : Bytes} : isSupportedRtsp E body ≠ .err := by
  unfold isSupportedRtsp
  split <;> nofun

/-! ## Verdicts -/

/-- The verdict of the code. -/
def verdictOf : Wire.Res StreamType → Verdict
  | .ok .supported => .supported
  | .ok .locked => .locked
  | .ok .unsupported => .unsupported
  | .ok .notFound => .nothing
  | .ok .error => .nothing
  | .err => .nothing
  | .panic => .crash

theorem rtsp_err (E : Env) (N : Net) (mac : MacAddr) (addr : SocketAddr) (i : Nat) (path : Bytes) :
    getRtspStreamType E N mac addr i path ≠ .err := by
  unfold getRtspStreamType
  split
  · nofun
  · nofun
  · split
    · nofun
    · unfold rtspStreamType
      split
      · split
        · nofun
        · nofun
        · rename_i h; exact absurd h supported_err
        · nofun
      · split
        · nofun
        · split <;> nofun

set_option maxHeartbeats 1000000 in
theorem rtspVerdict_iff (E : Env) (N : Net) (mac : MacAddr) (addr : SocketAddr) (i : Nat) (path : Bytes)
    (hv : Utf8.valid (describeUrl E addr path) = true) (v : Verdict) :
    rtspVerdict E N mac addr i path v ↔ verdictOf (getRtspStreamType E N mac addr i path) = v := by
  -- without an answer
  have hno : (¬∃ h body, RtspReply E N mac addr i path h body) →
      ¬(RtspUrl E (describeUrl E addr path) ∧ ∃ pieces, N.answer (.rtspPath mac addr i) = some pieces ∧
        HugeLength E.T.lower pieces) → verdictOf (getRtspStreamType E N mac addr i path) = .nothing →
      (rtspVerdict E N mac addr i path v ↔ verdictOf (getRtspStreamType E N mac addr i path) = v) := by
    intro h1 h2 h3
    rw [h3]
    cases v with
    | supported => exact ⟨fun ⟨h, b, hr, _⟩ => absurd ⟨h, b, hr⟩ h1, nofun⟩
    | locked => exact ⟨fun ⟨h, b, hr, _⟩ => absurd ⟨h, b, hr⟩ h1, nofun⟩
    | unsupported => exact ⟨fun ⟨h, b, hr, _⟩ => absurd ⟨h, b, hr⟩ h1, nofun⟩
    | crash => exact ⟨fun h => h.elim (fun ⟨h, b, hr, _⟩ => absurd ⟨h, b, hr⟩ h1) (fun h => absurd h h2), nofun⟩
    | nothing => exact ⟨fun _ => rfl, fun _ => ⟨fun ⟨h, b, hr, _⟩ => h1 ⟨h, b, hr⟩, h2⟩⟩
  have hex := exchange_describe E N (.rtspPath mac addr i) (describeUrl E addr path) hv
  rcases hex with ⟨hu, hex⟩ | ⟨hu, hex⟩
  case inr =>
    apply hno
    · rintro ⟨h, b, hr⟩; exact hu hr.1
    · rintro ⟨h, _⟩; exact hu h
    · unfold getRtspStreamType
      unfold describeUrl at hex
      rw [hex]
      rfl
  case inl =>
  unfold sent at hex
  cases ha : N.answer (.rtspPath mac addr i) with
  | none =>
    rw [ha] at hex
    apply hno
    · rintro ⟨h, b, _, p, hp, _⟩; rw [ha] at hp; cases hp
    · rintro ⟨_, p, hp, _⟩; rw [ha] at hp; cases hp
    · unfold getRtspStreamType
      unfold describeUrl at hex
      rw [hex]
      rfl
  | some pieces =>
    rw [ha] at hex
    dsimp only at hex
    have hpieces : ∀ p, N.answer (.rtspPath mac addr i) = some p → p = pieces := by
      intro p hp; exact (Option.some.inj (ha.symm.trans hp)).symm
    cases hr : Http.response E.T.lower .rtsp false pieces with
    | err =>
      rw [hr] at hex
      apply hno
      · rintro ⟨h, b, _, p, hp, hrep, _⟩
        rw [hpieces p hp] at hrep
        obtain ⟨r, hr'⟩ := reply_response hrep
        rw [hr] at hr'
        cases hr'
      · rintro ⟨_, p, hp, hh⟩
        rw [hpieces p hp, ← huge_iff, hr] at hh
        cases hh
      · unfold getRtspStreamType
        unfold describeUrl at hex
        rw [hex]
        rfl
    | panic =>
      rw [hr] at hex
      have h1 : ¬∃ h body, RtspReply E N mac addr i path h body := by
        rintro ⟨h, b, _, p, hp, hrep, _⟩
        rw [hpieces p hp] at hrep
        obtain ⟨r, hr'⟩ := reply_response hrep
        rw [hr] at hr'
        cases hr'
      have h2 : RtspUrl E (describeUrl E addr path) ∧ ∃ pieces, N.answer (.rtspPath mac addr i) = some pieces ∧
          HugeLength E.T.lower pieces := ⟨hu, pieces, ha, huge_iff.1 hr⟩
      have h3 : verdictOf (getRtspStreamType E N mac addr i path) = .crash := by
        unfold getRtspStreamType
        unfold describeUrl at hex
        rw [hex]
        rfl
      rw [h3]
      cases v with
      | supported => exact ⟨fun ⟨h, b, hr, _⟩ => absurd ⟨h, b, hr⟩ h1, nofun⟩
      | locked => exact ⟨fun ⟨h, b, hr, _⟩ => absurd ⟨h, b, hr⟩ h1, nofun⟩
      | unsupported => exact ⟨fun ⟨h, b, hr, _⟩ => absurd ⟨h, b, hr⟩ h1, nofun⟩
      | crash => exact ⟨fun _ => rfl, fun _ => .inr h2⟩
      | nothing => exact ⟨fun h => absurd h2 h.2, nofun⟩
    | ok r =>
      rw [hr] at hex
      obtain ⟨⟨hd, body, hrep, hsh⟩, hall⟩ := reply_ok hr
      simp only [Bool.false_eq_true, if_false] at hsh hall
      have hnh : ¬∃ p, N.answer (.rtspPath mac addr i) = some p ∧ HugeLength E.T.lower p := by
        rintro ⟨p, hp, hh⟩
        rw [hpieces p hp, ← huge_iff, hr] at hh
        cases hh
      have hst : getRtspStreamType E N mac addr i path =
          if isHipcam E r ∧ path ≠ asc "/11" ∧ path ≠ asc "/12" then .ok .notFound else rtspStreamType E r := by
        unfold getRtspStreamType
        unfold describeUrl at hex
        rw [hex]
      by_cases hb : isHipcam E r = true ∧ path ≠ asc "/11" ∧ path ≠ asc "/12"
      · apply hno
        · rintro ⟨h, b, _, p, hp, hrep, hnb⟩
          rw [hpieces p hp] at hrep
          exact hnb ((hipcam_iff (hall h b hrep)).1 hb)
        · rintro ⟨_, h⟩; exact hnh h
        · rw [hst, if_pos hb]; rfl
      · rw [if_neg hb] at hst
        rw [hst]
        -- there is one answer
        have hone : ∀ h b, RtspReply E N mac addr i path h b ↔
            Reply E.T.lower .rtsp false pieces h b := by
          intro h b
          constructor
          · rintro ⟨_, p, hp, hrep, _⟩
            rw [hpieces p hp] at hrep
            exact hrep
          · intro hrep
            exact ⟨hu, pieces, ha, hrep, fun hbug => hb ((hipcam_iff (hall h b hrep)).2 hbug)⟩
        have h200 : ∀ h b, Reply E.T.lower .rtsp false pieces h b → (h.status = 200 ↔ r.header.status = 200) :=
          fun h b hrep => (shows_status (hall h b hrep) 200).symm
        have h401 : ∀ h b, Reply E.T.lower .rtsp false pieces h b → (h.status = 401 ↔ r.header.status = 401) :=
          fun h b hrep => (shows_status (hall h b hrep) 401).symm
        have hbody : ∀ h b, Reply E.T.lower .rtsp false pieces h b → r.body = b := fun h b hrep => (hall h b hrep).body
        -- the verdicts in terms of the response
        have hS : rtspVerdict E N mac addr i path .supported ↔ r.header.status = 200 ∧ Playable E r.body := by
          constructor
          · rintro ⟨h, b, h1, h2, h3⟩
            rw [hone] at h1
            exact ⟨(h200 h b h1).1 h2, by rw [hbody h b h1]; exact h3⟩
          · rintro ⟨h1, h2⟩
            exact ⟨hd, body, (hone _ _).2 hrep, (h200 _ _ hrep).2 h1, by rw [← hbody _ _ hrep]; exact h2⟩
        have hU : rtspVerdict E N mac addr i path .unsupported ↔
            r.header.status = 200 ∧ ¬Playable E r.body ∧ ¬TooDeep E r.body := by
          constructor
          · rintro ⟨h, b, h1, h2, h3⟩
            rw [hone] at h1
            exact ⟨(h200 h b h1).1 h2, by rw [hbody h b h1]; exact h3⟩
          · rintro ⟨h1, h2⟩
            exact ⟨hd, body, (hone _ _).2 hrep, (h200 _ _ hrep).2 h1, by rw [← hbody _ _ hrep]; exact h2⟩
        have hC : rtspVerdict E N mac addr i path .crash ↔ r.header.status = 200 ∧ TooDeep E r.body := by
          constructor
          · rintro (⟨h, b, h1, h2, h3⟩ | ⟨_, h⟩)
            · rw [hone] at h1
              exact ⟨(h200 h b h1).1 h2, by rw [hbody h b h1]; exact h3⟩
            · exact absurd h hnh
          · rintro ⟨h1, h2⟩
            exact .inl ⟨hd, body, (hone _ _).2 hrep, (h200 _ _ hrep).2 h1, by rw [← hbody _ _ hrep]; exact h2⟩
        have hL : rtspVerdict E N mac addr i path .locked ↔ r.header.status = 401 := by
          constructor
          · rintro ⟨h, b, h1, h2⟩
            rw [hone] at h1
            exact (h401 h b h1).1 h2
          · intro h1
            exact ⟨hd, body, (hone _ _).2 hrep, (h401 _ _ hrep).2 h1⟩
        have hN : rtspVerdict E N mac addr i path .nothing ↔ r.header.status ≠ 200 ∧ r.header.status ≠ 401 := by
          constructor
          · rintro ⟨h, _⟩
            refine ⟨fun h1 => h ⟨hd, body, (hone _ _).2 hrep, .inl ((h200 _ _ hrep).2 h1)⟩,
              fun h1 => h ⟨hd, body, (hone _ _).2 hrep, .inr ((h401 _ _ hrep).2 h1)⟩⟩
          · rintro ⟨h1, h2⟩
            refine ⟨?_, fun h => hnh h.2⟩
            rintro ⟨h, b, h3, h4 | h4⟩
            · rw [hone] at h3; exact h1 ((h200 h b h3).1 h4)
            · rw [hone] at h3; exact h2 ((h401 h b h3).1 h4)
        unfold rtspStreamType
        by_cases g1 : r.header.status = 200
        · rw [if_pos g1]
          have gne : r.header.status ≠ 401 := by rw [g1]; decide
          cases hsup : isSupportedRtsp E r.body with
          | err => exact absurd hsup supported_err
          | panic =>
            have ht := supported_panic.1 hsup
            have hnp : ¬Playable E r.body := fun h => by
              have := supported_true.2 h
              rw [hsup] at this
              cases this
            show _ ↔ Verdict.crash = v
            cases v with
            | supported => rw [hS]; exact ⟨fun h => absurd h.2 hnp, nofun⟩
            | locked => rw [hL]; exact ⟨fun h => absurd h gne, nofun⟩
            | unsupported => rw [hU]; exact ⟨fun h => absurd ht h.2.2, nofun⟩
            | crash => rw [hC]; exact ⟨fun _ => rfl, fun _ => ⟨g1, ht⟩⟩
            | nothing => rw [hN]; exact ⟨fun h => absurd g1 h.1, nofun⟩
          | ok b =>
            have hnt : ¬TooDeep E r.body := fun h => by
              have := supported_panic.2 h
              rw [hsup] at this
              cases this
            cases b with
            | true =>
              have hp := supported_true.1 hsup
              show _ ↔ Verdict.supported = v
              cases v with
              | supported => rw [hS]; exact ⟨fun _ => rfl, fun _ => ⟨g1, hp⟩⟩
              | locked => rw [hL]; exact ⟨fun h => absurd h gne, nofun⟩
              | unsupported => rw [hU]; exact ⟨fun h => absurd hp h.2.1, nofun⟩
              | crash => rw [hC]; exact ⟨fun h => absurd h.2 hnt, nofun⟩
              | nothing => rw [hN]; exact ⟨fun h => absurd g1 h.1, nofun⟩
            | false =>
              have hnp : ¬Playable E r.body := fun h => by
                have := supported_true.2 h
                rw [hsup] at this
                cases this
              show _ ↔ Verdict.unsupported = v
              cases v with
              | supported => rw [hS]; exact ⟨fun h => absurd h.2 hnp, nofun⟩
              | locked => rw [hL]; exact ⟨fun h => absurd h gne, nofun⟩
              | unsupported => rw [hU]; exact ⟨fun _ => rfl, fun _ => ⟨g1, hnp, hnt⟩⟩
              | crash => rw [hC]; exact ⟨fun h => absurd h.2 hnt, nofun⟩
              | nothing => rw [hN]; exact ⟨fun h => absurd g1 h.1, nofun⟩
        · rw [if_neg g1]
          by_cases g2 : r.header.status = 401
          · rw [if_pos g2]
            show _ ↔ Verdict.locked = v
            cases v with
            | supported => rw [hS]; exact ⟨fun h => absurd h.1 g1, nofun⟩
            | locked => rw [hL]; exact ⟨fun _ => rfl, fun _ => g2⟩
            | unsupported => rw [hU]; exact ⟨fun h => absurd h.1 g1, nofun⟩
            | crash => rw [hC]; exact ⟨fun h => absurd h.1 g1, nofun⟩
            | nothing => rw [hN]; exact ⟨fun h => absurd g2 h.2, nofun⟩
          · rw [if_neg g2]
            have hv : verdictOf (if r.header.status = 404 then Wire.Res.ok StreamType.notFound else .ok .error) =
                .nothing := by
              split <;> rfl
            rw [hv]
            cases v with
            | supported => rw [hS]; exact ⟨fun h => absurd h.1 g1, nofun⟩
            | locked => rw [hL]; exact ⟨fun h => absurd h g2, nofun⟩
            | unsupported => rw [hU]; exact ⟨fun h => absurd h.1 g1, nofun⟩
            | crash => rw [hC]; exact ⟨fun h => absurd h.1 g1, nofun⟩
            | nothing => rw [hN]; exact ⟨fun _ => rfl, fun _ => ⟨g1, g2⟩⟩

end Verif.Discovery
