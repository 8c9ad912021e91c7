import Verif.Lemmas.RawScan
namespace Verif.Raw
open Verif Verif.Spec Verif.Spec.Raw

/-! ## Ports -/

/-- The ports an iterator still has. -/
def itPorts (s : PortIter) : List UInt16 :=
  (List.range' s.port.toNat (s.last.toNat - s.port.toNat)).map UInt16.ofNat ++ (usablePrefix s.iter).flatMap portsOf

theorem itPorts_empty (s : PortIter) (h : ¬ s.port < s.last) : itPorts s = (usablePrefix s.iter).flatMap portsOf := by
  rw [UInt16.lt_iff_toNat_lt] at h
  rw [itPorts, show s.last.toNat - s.port.toNat = 0 by omega]
  rfl

theorem itPorts_more (s : PortIter) (h : s.port < s.last) : itPorts s = s.port :: itPorts { s with port := s.port + 1 } := by
  rw [UInt16.lt_iff_toNat_lt] at h
  have := s.last.toNat_lt
  have e : (s.port + 1).toNat = s.port.toNat + 1 := by
    rw [UInt16.toNat_add, show (1 : UInt16).toNat = 1 from rfl]; omega
  unfold itPorts
  dsimp only
  rw [e, show s.last.toNat - s.port.toNat = (s.last.toNat - (s.port.toNat + 1)) + 1 by omega, List.range'_succ,
    List.map_cons, UInt16.ofNat_toNat, List.cons_append]

theorem toRange_usable (r : PortRange) (h : Usable r) : r.toRange.1 < r.toRange.2 ∧
    (List.range' r.toRange.1.toNat (r.toRange.2.toNat - r.toRange.1.toNat)).map UInt16.ofNat = portsOf r := by
  cases r with
  | range a b => exact ⟨h, rfl⟩
  | single p =>
    have hp : p.toNat ≠ 65535 := fun hh => h (UInt16.toNat_inj.mp hh)
    have := p.toNat_lt
    have e : (p + 1).toNat = p.toNat + 1 := by
      rw [UInt16.toNat_add, show (1 : UInt16).toNat = 1 from rfl]; omega
    refine ⟨?_, ?_⟩
    · rw [UInt16.lt_iff_toNat_lt]
      show p.toNat < (p + 1).toNat
      omega
    · show (List.range' p.toNat ((p + 1).toNat - p.toNat)).map UInt16.ofNat = [p]
      rw [e, show p.toNat + 1 - p.toNat = 1 by omega, List.range'_one, List.map_cons, UInt16.ofNat_toNat]
      rfl

theorem toRange_unusable (r : PortRange) (h : ¬ Usable r) : ¬ r.toRange.1 < r.toRange.2 := by
  cases r with
  | range a b => exact h
  | single p =>
    have hp : p = 65535 := Decidable.not_not.mp h
    subst hp
    decide

/-- The iterator yields its ports. -/
theorem portNext (s : PortIter) :
    (∃ s', s.next = (none, s') ∧ itPorts s = []) ∨ (∃ p s', s.next = (some p, s') ∧ itPorts s = p :: itPorts s') := by
  unfold PortIter.next
  by_cases h : s.port < s.last
  · have hr : s.refill = s := by
      unfold PortIter.refill
      rw [if_neg]
      rw [ge_iff_le, UInt16.le_iff_toNat_le]
      rw [UInt16.lt_iff_toNat_lt] at h
      omega
    dsimp only
    rw [hr, if_pos h]
    exact .inr ⟨_, _, rfl, itPorts_more s h⟩
  · have hge : s.port ≥ s.last := by
      rw [ge_iff_le, UInt16.le_iff_toNat_le]
      rw [UInt16.lt_iff_toNat_lt] at h
      omega
    rw [itPorts_empty s h]
    unfold PortIter.refill
    rw [if_pos hge]
    cases hi : s.iter with
    | nil =>
      dsimp only
      rw [if_neg h]
      exact .inl ⟨_, rfl, rfl⟩
    | cons r iter =>
      dsimp only
      by_cases hu : Usable r
      · obtain ⟨h1, h2⟩ := toRange_usable r hu
        rw [if_pos h1]
        refine .inr ⟨_, _, rfl, ?_⟩
        have e := itPorts_more ⟨iter, r.toRange.2, r.toRange.1⟩ h1
        dsimp only at e
        rw [← e]
        unfold itPorts usablePrefix
        dsimp only
        rw [h2, List.takeWhile_cons, if_pos (by simpa using hu), List.flatMap_cons]
      · rw [if_neg (toRange_unusable r hu)]
        refine .inl ⟨_, rfl, ?_⟩
        unfold usablePrefix
        rw [List.takeWhile_cons, if_neg (by simpa using hu)]
        rfl

theorem itPorts_iter (c : List PortRange) : itPorts (portIter c) = (usablePrefix c).flatMap portsOf :=
  itPorts_empty _ (by show ¬ (0 : UInt16) < 0; decide)

/-! ## The generator -/

/-- The frames for a host with an iterator and for the hosts that follow. -/
def tcpFor (dev : EtherDev) (sport : UInt16) (c : List PortRange) (host : MacAddr × Ip4) (ports : PortIter)
    (hosts : List (MacAddr × Ip4)) : List Bytes :=
  (itPorts ports).map (synFrame dev sport host) ++
    hosts.flatMap (fun h => ((usablePrefix c).flatMap portsOf).map (synFrame dev sport h))

/-- All frames of a generator. -/
def tcpAll (dev : EtherDev) (sport : UInt16) (c : List PortRange) (g : TcpGen) : List Bytes :=
  match g.host with
  | some host => tcpFor dev sport c host g.ports g.hosts
  | none => []

theorem tcpNextFor_spec (dev : EtherDev) (sport : UInt16) (c : List PortRange) (host : MacAddr × Ip4) (ports : PortIter)
    (hosts : List (MacAddr × Ip4)) :
    (tcpNextFor dev sport c host ports hosts = none ∧ tcpFor dev sport c host ports hosts = []) ∨
    (∃ p g, tcpNextFor dev sport c host ports hosts = some (p, g) ∧
      tcpFor dev sport c host ports hosts = p :: tcpAll dev sport c g) := by
  induction hosts generalizing host ports with
  | nil =>
    rcases portNext ports with ⟨s', h1, h2⟩ | ⟨p, s', h1, h2⟩
    · refine .inl ⟨?_, ?_⟩
      · rw [tcpNextFor, h1]
      · rw [tcpFor, h2]; rfl
    · refine .inr ⟨_, _, by rw [tcpNextFor, h1], ?_⟩
      rw [tcpFor, h2]; rfl
  | cons h hs ih =>
    rcases portNext ports with ⟨s', h1, h2⟩ | ⟨p, s', h1, h2⟩
    · have e : tcpFor dev sport c host ports (h :: hs) = tcpFor dev sport c h (portIter c) hs := by
        rw [tcpFor, h2, tcpFor, itPorts_iter]; rfl
      have e2 : tcpNextFor dev sport c host ports (h :: hs) = tcpNextFor dev sport c h (portIter c) hs := by
        rw [tcpNextFor, h1]
      rw [e, e2]
      exact ih h (portIter c)
    · refine .inr ⟨_, _, by rw [tcpNextFor, h1], ?_⟩
      rw [tcpFor, h2]; rfl

theorem tcpNext_spec (dev : EtherDev) (sport : UInt16) (c : List PortRange) (g : TcpGen) :
    (tcpNext dev sport c g = none ∧ tcpAll dev sport c g = []) ∨
    (∃ p g', tcpNext dev sport c g = some (p, g') ∧ tcpAll dev sport c g = p :: tcpAll dev sport c g') := by
  obtain ⟨host, hosts, ports⟩ := g
  cases host with
  | none => exact .inl ⟨rfl, rfl⟩
  | some host => exact tcpNextFor_spec dev sport c host ports hosts

theorem tcpAll_new (dev : EtherDev) (sport : UInt16) (c : List PortRange) (hosts : List (MacAddr × Ip4)) :
    tcpAll dev sport c (TcpGen.new hosts c) =
      hosts.flatMap (fun h => ((usablePrefix c).flatMap portsOf).map (synFrame dev sport h)) := by
  cases hosts with
  | nil => rfl
  | cons h hs =>
    show tcpFor dev sport c h (portIter c) hs = _
    rw [tcpFor, itPorts_iter, List.flatMap_cons]

theorem tcp_sends (dev : EtherDev) (sport : UInt16) (c : List PortRange) (hosts : List (MacAddr × Ip4)) (l : List Bytes)
    (r : Bool) :
    Sends (tcpNext dev sport c) (TcpGen.new hosts c) l r ↔
      (r = true ∧ l = hosts.flatMap (fun h => ((usablePrefix c).flatMap portsOf).map (synFrame dev sport h))) ∨
      (r = false ∧ ∃ x rest,
        hosts.flatMap (fun h => ((usablePrefix c).flatMap portsOf).map (synFrame dev sport h)) = l ++ x :: rest) := by
  rw [sends_iff (tcpNext dev sport c) (tcpAll dev sport c) ?_ ?_, tcpAll_new]
  · intro s h
    rcases tcpNext_spec dev sport c s with ⟨_, h2⟩ | ⟨p, g', h1, _⟩
    · exact h2
    · rw [h] at h1; exact absurd h1 (by simp)
  · intro s p s' h
    rcases tcpNext_spec dev sport c s with ⟨h1, _⟩ | ⟨p', g', h1, h2⟩
    · rw [h] at h1; exact absurd h1 (by simp)
    · have h3 := Prod.mk.inj (Option.some.inj (h.symm.trans h1))
      rw [h3.1, h3.2, h2]

/-! ## The listener -/

/-- The frames that are parsed. -/
def parsed (w : Nat) (fs : List Bytes) : List Frame :=
  fs.filterMap (fun f => match Frame.parse w f with
    | .ok x => some x
    | _ => none)

theorem parsed_cons (w : Nat) (f : Bytes) (fs : List Bytes) :
    parsed w (f :: fs) = (match Frame.parse w f with
      | .ok x => [x]
      | _ => []) ++ parsed w fs := by
  unfold parsed
  rw [List.filterMap_cons]
  cases Frame.parse w f <;> rfl

theorem stops_iff (start last : Nat) (r : Round) :
    stops packetTimeout totalTimeout start (lastPacket last [r]) r = true ↔ EndsAt start last [] r := by
  unfold stops EndsAt totalTimeout packetTimeout
  dsimp only
  rw [Bool.or_eq_true, decide_eq_true_iff, decide_eq_true_iff, List.nil_append]
  constructor
  · rintro (h | h)
    · exact .inl (by omega)
    · exact .inr (by omega)
  · rintro (h | h)
    · exact .inl (by omega)
    · exact .inr (by omega)

theorem endsAt_cons (start last : Nat) (x : Round) (b : List Round) (r : Round) :
    EndsAt start last (x :: b) r ↔ EndsAt start (lastPacket last [x]) b r := Iff.rfl

theorem captured_cons (x : Round) (l : List Round) :
    captured (x :: l) = (match x.read with
      | .packet data => [data]
      | _ => []) ++ captured l := by
  unfold captured
  rw [List.filterMap_cons]
  cases x.read <;> rfl

theorem deadly_panic (w : Nat) (hw : w = 32 ∨ w = 64) (f : Bytes) : Frame.parse w f = .panic ↔ Deadly f := by
  rcases frame_outcome w hw f with ⟨_, h1, h2⟩ | ⟨_, h1, h2⟩ | ⟨_, h1, fr, h2, _⟩
  · rw [h2]; exact ⟨fun h => (by cases h), fun h => absurd h h1⟩
  · rw [h2]; exact ⟨fun _ => h1, fun _ => rfl⟩
  · rw [h2]; exact ⟨fun h => (by cases h), fun h => absurd h h1⟩

open Classical in
/-- One round. -/
theorem listen_step (w start last : Nat) (res : List Frame) (x : Round) (rest : List Round) (he : x.read ≠ .error) :
    listenLoop w packetTimeout totalTimeout start last res (x :: rest) =
      if (∃ data, x.read = .packet data ∧ Frame.parse w data = .panic) then .finished .panic
      else if stops packetTimeout totalTimeout start (lastPacket last [x]) x then
        .finished (.ok (res ++ parsed w (captured [x])))
      else listenLoop w packetTimeout totalTimeout start (lastPacket last [x]) (res ++ parsed w (captured [x])) rest := by
  have e0 : listenLoop w packetTimeout totalTimeout start last res (x :: rest) = (match x.read with
    | .error => .finished .err
    | .timeout =>
      if stops packetTimeout totalTimeout start last x then .finished (.ok res)
      else listenLoop w packetTimeout totalTimeout start last res rest
    | .packet data =>
      match Frame.parse w data with
      | .panic => .finished .panic
      | .ok f =>
        if stops packetTimeout totalTimeout start x.now x then .finished (.ok (res ++ [f]))
        else listenLoop w packetTimeout totalTimeout start x.now (res ++ [f]) rest
      | .err =>
        if stops packetTimeout totalTimeout start x.now x then .finished (.ok res)
        else listenLoop w packetTimeout totalTimeout start x.now res rest) := by
    rw [listenLoop]
    rfl
  have e1 : lastPacket last [x] = (match x.read with
    | .packet _ => x.now
    | _ => last) := rfl
  have e2 : captured [x] = (match x.read with
    | .packet data => [data]
    | _ => []) := by rw [captured_cons]; cases x.read <;> rfl
  rw [e0, e1, e2]
  cases hx : x.read with
  | error => exact absurd hx he
  | timeout =>
    have hn : ¬ ∃ data, Read.timeout = .packet data ∧ Frame.parse w data = .panic := by rintro ⟨d, h, _⟩; cases h
    dsimp only
    rw [if_neg hn, show parsed w [] = [] from rfl, List.append_nil]
  | packet data =>
    dsimp only
    cases hp : Frame.parse w data with
    | panic =>
      have hn : ∃ d, Read.packet data = .packet d ∧ Frame.parse w d = .panic := ⟨data, rfl, hp⟩
      rw [if_pos hn]
    | ok fr =>
      have hn : ¬ ∃ d, Read.packet data = .packet d ∧ Frame.parse w d = .panic := by
        rintro ⟨d, h, h'⟩; injection h with h; subst h; rw [hp] at h'; cases h'
      rw [if_neg hn]
      dsimp only
      rw [show parsed w [data] = [fr] by rw [parsed_cons, hp]; rfl]
    | err =>
      have hn : ¬ ∃ d, Read.packet data = .packet d ∧ Frame.parse w d = .panic := by
        rintro ⟨d, h, h'⟩; injection h with h; subst h; rw [hp] at h'; cases h'
      rw [if_neg hn]
      dsimp only
      rw [show parsed w [data] = [] by rw [parsed_cons, hp]; rfl, List.append_nil]

theorem captured_packet (x : Round) (data : Bytes) (h : x.read = .packet data) (l : List Round) (hx : x ∈ l) :
    data ∈ captured l := List.mem_filterMap.mpr ⟨x, hx, by rw [h]⟩

theorem parsed_append (w : Nat) (a b : List Bytes) : parsed w (a ++ b) = parsed w a ++ parsed w b := List.filterMap_append

theorem captured_append (a b : List Round) : captured (a ++ b) = captured a ++ captured b := List.filterMap_append

/-- The whole loop. -/
theorem listen_ended (w start last : Nat) (res : List Frame) (before : List Round) (r : Round) (after : List Round)
    (hne : ∀ x ∈ before ++ [r], x.read ≠ .error)
    (hnb : ∀ b x a, before = b ++ x :: a → ¬ EndsAt start last b x) (hend : EndsAt start last before r) :
    ((∃ f ∈ captured (before ++ [r]), Frame.parse w f = .panic) →
      listenLoop w packetTimeout totalTimeout start last res (before ++ r :: after) = .finished .panic) ∧
    ((∀ f ∈ captured (before ++ [r]), Frame.parse w f ≠ .panic) →
      listenLoop w packetTimeout totalTimeout start last res (before ++ r :: after) =
        .finished (.ok (res ++ parsed w (captured (before ++ [r]))))) := by
  induction before generalizing last res with
  | nil =>
    rw [List.nil_append, List.nil_append, listen_step _ _ _ _ _ _ (hne r (List.mem_singleton.mpr rfl))]
    have hs := (stops_iff start last r).mpr hend
    constructor
    · rintro ⟨f, hf, hp⟩
      obtain ⟨x, hx, hx2⟩ := List.mem_filterMap.mp hf
      rw [List.mem_singleton.mp hx] at hx2
      cases hrd : r.read with
      | packet data =>
        rw [hrd] at hx2
        have := Option.some.inj hx2
        subst this
        exact if_pos ⟨_, rfl, hp⟩
      | error => rw [hrd] at hx2; cases hx2
      | timeout => rw [hrd] at hx2; cases hx2
    · intro hf
      rw [if_neg, if_pos hs]
      rintro ⟨d, hd, hp⟩
      exact hf d (captured_packet r d hd _ (List.mem_singleton.mpr rfl)) hp
  | cons x b ih =>
    have hxs : stops packetTimeout totalTimeout start (lastPacket last [x]) x = false := by
      cases hh : stops packetTimeout totalTimeout start (lastPacket last [x]) x with
      | false => rfl
      | true => exact absurd ((stops_iff start last x).mp hh) (hnb [] x b rfl)
    have ih' := ih (lastPacket last [x]) (res ++ parsed w (captured [x]))
      (fun y hy => hne y (List.mem_cons_of_mem _ hy))
      (fun b' y a hb => fun he => hnb (x :: b') y a (by rw [hb]; rfl) ((endsAt_cons start last x b' y).mpr he))
      ((endsAt_cons start last x b r).mp hend)
    rw [List.cons_append, List.cons_append, listen_step _ _ _ _ _ _ (hne x List.mem_cons_self)]
    rw [hxs, show (x :: (b ++ [r])) = [x] ++ (b ++ [r]) from rfl, captured_append, parsed_append]
    by_cases hp : ∃ data, x.read = .packet data ∧ Frame.parse w data = .panic
    · rw [if_pos hp]
      refine ⟨fun _ => rfl, fun hf => ?_⟩
      obtain ⟨d, hd, hp⟩ := hp
      exact absurd hp (hf d (List.mem_append_left _ (captured_packet x d hd _ (List.mem_singleton.mpr rfl))))
    · rw [if_neg hp, if_neg (by simp)]
      constructor
      · rintro ⟨f, hf, hpf⟩
        rcases List.mem_append.mp hf with hf | hf
        · exfalso
          obtain ⟨y, hy, hy2⟩ := List.mem_filterMap.mp hf
          rw [List.mem_singleton.mp hy] at hy2
          cases hrd : x.read with
          | packet data =>
            rw [hrd] at hy2
            have := Option.some.inj hy2
            subst this
            exact hp ⟨_, hrd, hpf⟩
          | error => rw [hrd] at hy2; cases hy2
          | timeout => rw [hrd] at hy2; cases hy2
        · exact ih'.1 ⟨f, hf, hpf⟩
      · intro hf
        rw [← List.append_assoc]
        exact ih'.2 (fun f hf' => hf f (List.mem_append_right _ hf'))

/-- What a scan gets from the listener. -/
theorem sr_ended (w : Nat) (hw : w = 32 ∨ w = 64) (run : Run) (before : List Round) (r : Round) (h : Ended run before r) :
    ((∃ f ∈ captured (before ++ [r]), Deadly f) → sr w packetTimeout totalTimeout run = some .panic) ∧
    ((∀ f ∈ captured (before ++ [r]), ¬ Deadly f) → sr w packetTimeout totalTimeout run =
      some (if run.sendOpened && run.sent then .ok (parsed w (captured (before ++ [r]))) else .err)) := by
  obtain ⟨after, hr⟩ := h.rounds
  have key := listen_ended w run.start run.last [] before r after h.noError h.notBefore h.ends
  unfold sr packetListener
  rw [h.opened, if_pos rfl, hr]
  constructor
  · rintro ⟨f, hf, hd⟩
    rw [key.1 ⟨f, hf, (deadly_panic w hw f).mpr hd⟩]
  · intro hf
    rw [key.2 (fun f hf' hp => hf f hf' ((deadly_panic w hw f).mp hp))]
    dsimp only
    rw [List.nil_append]
    split <;> rfl

/-! ## The results -/

theorem slice_at8 (f : Bytes) (i n : Nat) (h : i < f.length) : slice f i (n + 1) = at8 f i :: slice f (i + 1) n := by
  unfold slice
  rw [drop_cons_at8 f i h, List.take_succ_cons]

theorem slice_zero (f : Bytes) (i : Nat) : slice f i 0 = [] := List.take_zero

theorem slice_mac (f : Bytes) (i : Nat) (h : i + 6 ≤ f.length) :
    slice f i 6 = [at8 f i, at8 f (i + 1), at8 f (i + 2), at8 f (i + 3), at8 f (i + 4), at8 f (i + 5)] := by
  rw [slice_at8 f i 5 (by omega), slice_at8 f (i + 1) 4 (by omega), slice_at8 f (i + 2) 3 (by omega),
    slice_at8 f (i + 3) 2 (by omega), slice_at8 f (i + 4) 1 (by omega), slice_at8 f (i + 5) 0 (by omega), slice_zero]

theorem slice_ip (f : Bytes) (i : Nat) (h : i + 4 ≤ f.length) :
    slice f i 4 = [at8 f i, at8 f (i + 1), at8 f (i + 2), at8 f (i + 3)] := by
  rw [slice_at8 f i 3 (by omega), slice_at8 f (i + 1) 2 (by omega), slice_at8 f (i + 2) 1 (by omega),
    slice_at8 f (i + 3) 0 (by omega), slice_zero]

theorem slice_length (f : Bytes) (i n : Nat) (h : i + n ≤ f.length) : (slice f i n).length = n := by
  unfold slice
  rw [List.length_take, List.length_drop]
  omega

/-- The body of a frame by its kind. -/
theorem kind_arp (w : Nat) (hw : w = 32 ∨ w = 64) (f : Bytes) (hd : ¬ Deadly f) :
    (IsArp f ∧ ∃ hd p, Frame.parse w f = .ok ⟨hd, .arp p⟩ ∧ p.sha = slice f 22 (field f 18 1) ∧
      p.spa = slice f (22 + field f 18 1) (field f 19 1) ∧ 22 + 2 * field f 18 1 + 2 * field f 19 1 ≤ f.length) ∨
    (¬ IsArp f ∧ (Frame.parse w f = .err ∨ ∃ fr, Frame.parse w f = .ok fr ∧ ∀ p, fr.body ≠ .arp p)) := by
  rcases frame_outcome w hw f with ⟨h1, _, h2⟩ | ⟨_, h1, _⟩ | ⟨h1, _, fr, h2, h3, h4⟩
  · exact .inr ⟨fun h => h.2 h1, .inl h2⟩
  · exact absurd h1 hd
  · obtain ⟨hdr, body⟩ := fr
    cases body with
    | arp p =>
      obtain ⟨a, _, _, _, b, c, d⟩ := h4
      rw [at8_field, at8_field] at d
      rw [at8_field] at b
      rw [at8_field, at8_field] at c
      exact .inl ⟨⟨a, h1⟩, hdr, p, h2, b, c, d⟩
    | ip p =>
      refine .inr ⟨fun h => ?_, .inr ⟨_, h2, fun p h => by cases h⟩⟩
      exact absurd (h.1.2.symm.trans h4.1.1.2) (by decide)
    | raw bs =>
      exact .inr ⟨fun h => h4.1 h.1.2, .inr ⟨_, h2, fun p h => by cases h⟩⟩

theorem kind_ip (w : Nat) (hw : w = 32 ∨ w = 64) (f : Bytes) (hd : ¬ Deadly f) :
    (IsIp f ∧ ∃ p, Frame.parse w f = .ok ⟨⟨atMac f 6, atMac f 0, at16 f 12⟩, .ip p⟩ ∧ p.header.src = atIp f 26 ∧
      34 ≤ f.length ∧ ((ipProtocol f = 6 ∧ ∃ t, p.body = .tcp t ∧ t.sport = at16 f (ipPayload f) ∧
        ipPayload f + 20 ≤ f.length) ∨ (ipProtocol f ≠ 6 ∧ ∀ t, p.body ≠ .tcp t))) ∨
    (¬ IsIp f ∧ (Frame.parse w f = .err ∨ ∃ fr, Frame.parse w f = .ok fr ∧ ∀ p, fr.body ≠ .ip p)) := by
  rcases frame_outcome w hw f with ⟨h1, _, h2⟩ | ⟨_, h1, _⟩ | ⟨h1, _, fr, h2, h3, h4⟩
  · exact .inr ⟨fun h => h.2 h1, .inl h2⟩
  · exact absurd h1 hd
  · obtain ⟨hdr, body⟩ := fr
    cases body with
    | arp p =>
      refine .inr ⟨fun h => ?_, .inr ⟨_, h2, fun p h => by cases h⟩⟩
      exact absurd (h.1.2.symm.trans h4.1.2) (by decide)
    | ip p =>
      dsimp only at h3
      subst h3
      obtain ⟨iph, body⟩ := p
      obtain ⟨hg, hs, _, hb⟩ := h4
      refine .inl ⟨⟨hg.1, h1⟩, _, h2, hs, hg.2.1, ?_⟩
      cases body with
      | tcp t => exact .inl ⟨hb.1, t, rfl, hb.2.2.1, hb.2.1⟩
      | icmp q => exact .inr ⟨fun h => absurd (hb.symm.trans h) (by decide), fun t h => by cases h⟩
      | raw bs => exact .inr ⟨hb.2, fun t h => by cases h⟩
    | raw bs =>
      exact .inr ⟨fun h => h4.2.1 h.1.2, .inr ⟨_, h2, fun p h => by cases h⟩⟩

theorem macFromSlice_six (bs : Bytes) :
    (bs.length = 6 ∧ ∃ m, macFromSlice bs = some m ∧ bs = [m.b0, m.b1, m.b2, m.b3, m.b4, m.b5]) ∨
    (bs.length ≠ 6 ∧ macFromSlice bs = none) := by
  unfold macFromSlice
  split
  · exact .inl ⟨rfl, _, rfl, rfl⟩
  · rename_i hne
    refine .inr ⟨fun h => ?_, rfl⟩
    match bs, h with
    | [a, b, c, d, e, f], _ => exact hne a b c d e f rfl

theorem ip4FromSlice_four (bs : Bytes) :
    (bs.length = 4 ∧ ∃ m, ip4FromSlice bs = some m ∧ bs = [m.a, m.b, m.c, m.d]) ∨
    (bs.length ≠ 4 ∧ ip4FromSlice bs = none) := by
  unfold ip4FromSlice
  split
  · rename_i a b c d
    exact .inl ⟨rfl, _, rfl, by rw [ofU32_rd32]⟩
  · rename_i hne
    refine .inr ⟨fun h => ?_, rfl⟩
    match bs, h with
    | [a, b, c, d], _ => exact hne a b c d rfl

section
open Classical

/-- The result of the ARP scanner. -/
theorem arpHosts_spec (w : Nat) (hw : w = 32 ∨ w = 64) (fs : List Bytes) (hd : ∀ f ∈ fs, ¬ Deadly f) :
    ((∃ f ∈ fs, IsArp f ∧ ¬ EtherArp f) → arpHosts (parsed w fs) = .panic) ∧
    ((∀ f ∈ fs, IsArp f → EtherArp f) →
      ∃ hosts, arpHosts (parsed w fs) = .ok hosts ∧ Pairwise ArpSender (fs.filter (fun f => decide (IsArp f))) hosts) := by
  induction fs with
  | nil => exact ⟨fun ⟨f, hf, _⟩ => absurd hf List.not_mem_nil, fun _ => ⟨[], rfl, .nil⟩⟩
  | cons f fs ih =>
    have ih := ih (fun g hg => hd g (List.mem_cons_of_mem _ hg))
    rw [parsed_cons, List.filter_cons]
    rcases kind_arp w hw f (hd f List.mem_cons_self) with ⟨ha, hdr, p, hp, hsha, hspa, hlen⟩ | ⟨hna, hp⟩
    · rw [hp]
      dsimp only
      rw [List.singleton_append, arpHosts]
      dsimp only
      rw [if_pos (by simpa using ha)]
      have l1 : p.sha.length = field f 18 1 := by rw [hsha]; exact slice_length _ _ _ (by omega)
      have l2 : p.spa.length = field f 19 1 := by rw [hspa]; exact slice_length _ _ _ (by omega)
      by_cases he : EtherArp f
      · rcases macFromSlice_six p.sha with ⟨_, m, hm, em⟩ | ⟨h, _⟩
        · rcases ip4FromSlice_four p.spa with ⟨_, a, hx, ea⟩ | ⟨h, _⟩
          · rw [hm, hx]
            dsimp only
            constructor
            · rintro ⟨g, hg, h1, h2⟩
              rcases List.mem_cons.mp hg with rfl | hg
              · exact absurd he h2
              · rw [ih.1 ⟨g, hg, h1, h2⟩]
            · intro hall
              obtain ⟨hosts, e, hpw⟩ := ih.2 (fun g hg => hall g (List.mem_cons_of_mem _ hg))
              rw [e]
              refine ⟨_, rfl, .cons ⟨?_, ?_⟩ hpw⟩
              · rw [← em, hsha, he.1]
              · rw [← ea, hspa, he.1, he.2]
          · exact absurd (l2.trans he.2) h
        · exact absurd (l1.trans he.1) h
      · have hpanic : (match macFromSlice p.sha, ip4FromSlice p.spa with
            | some sha, some spa =>
              match arpHosts (parsed w fs) with
              | .ok l => (.ok ((sha, spa) :: l) : Wire.Res (List (MacAddr × Ip4)))
              | r => r
            | _, _ => .panic) = .panic := by
          rcases macFromSlice_six p.sha with ⟨h, m, hm, _⟩ | ⟨_, hm⟩
          · rcases ip4FromSlice_four p.spa with ⟨h', a, hx, _⟩ | ⟨_, hx⟩
            · exact absurd ⟨l1.symm.trans h, l2.symm.trans h'⟩ he
            · rw [hm, hx]
          · rw [hm]
        exact ⟨fun _ => hpanic, fun hall => absurd (hall f List.mem_cons_self ha) he⟩
    · rw [if_neg (by simpa using hna)]
      have e : arpHosts ((match Frame.parse w f with
          | .ok x => [x]
          | _ => []) ++ parsed w fs) = arpHosts (parsed w fs) := by
        rcases hp with hp | ⟨fr, hp, hb⟩
        · rw [hp]; rfl
        · rw [hp]
          dsimp only
          rw [List.singleton_append, arpHosts]
          split
          · rename_i p hx
            exact absurd hx (hb p)
          · rfl
      rw [e]
      constructor
      · rintro ⟨g, hg, h1, h2⟩
        rcases List.mem_cons.mp hg with rfl | hg
        · exact absurd h1 hna
        · exact ih.1 ⟨g, hg, h1, h2⟩
      · exact fun hall => ih.2 (fun g hg => hall g (List.mem_cons_of_mem _ hg))

theorem ipSender_at (f : Bytes) (h : 34 ≤ f.length) : IpSender f (atMac f 6, atIp f 26) := by
  refine ⟨slice_mac f 6 (by omega), ?_⟩
  rw [slice_ip f 26 (by omega)]
  dsimp only
  rw [atIp, at32, ofU32_rd32]

/-- The result of the ICMP scanner. -/
theorem icmpHosts_spec (w : Nat) (hw : w = 32 ∨ w = 64) (dev : EtherDev) (fs : List Bytes) (hd : ∀ f ∈ fs, ¬ Deadly f) :
    Pairwise IpSender (fs.filter (fun f => decide (IsIp f ∧ InNetwork dev (field f 26 4))))
      (icmpHosts dev (parsed w fs)) := by
  induction fs with
  | nil => exact .nil
  | cons f fs ih =>
    have ih := ih (fun g hg => hd g (List.mem_cons_of_mem _ hg))
    rw [parsed_cons, List.filter_cons]
    rcases kind_ip w hw f (hd f List.mem_cons_self) with ⟨ha, p, hp, hsrc, hlen, _⟩ | ⟨hna, hp⟩
    · rw [hp]
      dsimp only
      rw [List.singleton_append, icmpHosts]
      dsimp only
      rw [hsrc]
      have key : (asU32 (atIp f 26) &&& asU32 dev.mask = asU32 dev.ip &&& asU32 dev.mask) ↔ InNetwork dev (field f 26 4) := by
        rw [← UInt32.toNat_inj, UInt32.toNat_and, UInt32.toNat_and, asU32_toNat, asU32_toNat, asU32_toNat,
          atIp_field f 26 (by omega)]
        rfl
      by_cases hn : InNetwork dev (field f 26 4)
      · rw [if_pos (key.mpr hn), if_pos (by simpa using ⟨ha, hn⟩)]
        exact .cons (ipSender_at f hlen) ih
      · rw [if_neg (fun h => hn (key.mp h)), if_neg (by simpa using fun _ => hn)]
        exact ih
    · rw [if_neg (by simpa using fun h => absurd h hna)]
      have e : icmpHosts dev ((match Frame.parse w f with
          | .ok x => [x]
          | _ => []) ++ parsed w fs) = icmpHosts dev (parsed w fs) := by
        rcases hp with hp | ⟨fr, hp, hb⟩
        · rw [hp]; rfl
        · rw [hp]
          dsimp only
          rw [List.singleton_append, icmpHosts]
          split
          · rename_i p hx
            exact absurd hx (hb p)
          · rfl
      rw [e]
      exact ih

/-- The result of the TCP scanner. -/
theorem tcpServices_spec (w : Nat) (hw : w = 32 ∨ w = 64) (fs : List Bytes) (hd : ∀ f ∈ fs, ¬ Deadly f) :
    Pairwise TcpSender (fs.filter (fun f => decide (IsIp f ∧ ipProtocol f = 6))) (tcpServices (parsed w fs)) := by
  induction fs with
  | nil => exact .nil
  | cons f fs ih =>
    have ih := ih (fun g hg => hd g (List.mem_cons_of_mem _ hg))
    rw [parsed_cons, List.filter_cons]
    rcases kind_ip w hw f (hd f List.mem_cons_self) with ⟨ha, p, hp, hsrc, hlen, hb⟩ | ⟨hna, hp⟩
    · rw [hp]
      dsimp only
      rw [List.singleton_append]
      obtain ⟨iph, body⟩ := p
      rcases hb with ⟨h6, t, ht, hs, hl2⟩ | ⟨h6, ht⟩
      · dsimp only at ht hsrc
        subst ht
        rw [if_pos (by simpa using ⟨ha, h6⟩), tcpServices]
        dsimp only
        refine .cons ⟨?_, ?_⟩ ih
        · rw [hsrc]
          exact ipSender_at f hlen
        · rw [hs, at16_field f _ (by omega)]
      · rw [if_neg (by simpa using fun _ => h6), tcpServices]
        dsimp only
        split
        · rename_i a b hx
          injection hx with hx
          injection hx with _ hx
          exact absurd hx (ht _)
        · exact ih
    · rw [if_neg (by simpa using fun h => absurd h hna)]
      have e : tcpServices ((match Frame.parse w f with
          | .ok x => [x]
          | _ => []) ++ parsed w fs) = tcpServices (parsed w fs) := by
        rcases hp with hp | ⟨fr, hp, hb⟩
        · rw [hp]; rfl
        · rw [hp]
          dsimp only
          rw [List.singleton_append, tcpServices]
          split
          · rename_i p t hx
            exact absurd hx (hb _)
          · rfl
      rw [e]
      exact ih

end

end Verif.Raw
