import Verif.Lemmas.Devices
/-!
# The list of network interfaces (C109, C110)
-/
namespace Verif.Props.Devices
open Verif Verif.CMem Verif.Devices Verif.Spec.Devices Verif.Lemmas.Devices

/-- On Linux the list consists of exactly the entries of the system that are Ethernet interfaces with an IPv4 address
and mask. No memory error happens, every block is freed and every descriptor closed. If allocations fail, interfaces
are missing, and that is all. -/
theorem C109_linux (sys : Linux) (h : Heap NetDev) (hw : WF h) (hn : ∀ e ∈ sys.ifaddrs.getD [], Named e)
    (hb : ∀ e ∈ sys.ifaddrs.getD [], ¬ Maskless (etherLinux sys.hwaddr) e) :
    ∃ is h', list (findLinux sys) h = .ok is h' ∧ Same h h' ∧ is.Sublist (expectedLinux sys) ∧
      (false ∉ h.answers → is = expectedLinux sys) := by
  refine list_wp hw ?_
  unfold expectedLinux findLinux
  by_cases hs : sys.socket = true
  · rw [if_pos hs, if_pos hs]
    refine wp_bind (wp_acquire ?_)
    cases he : sys.ifaddrs with
    | none =>
      refine wp_bind (wp_pure (wp_bind (wp_release (by simp) (wp_pure ⟨[], [], ?_, rfl, nofun, fun h' hs => ⟨hs, ?_, ?_⟩⟩))))
      · have := Owns.refl hw
        simpa using this
      · simp
      · simp
    | some es =>
      rw [he] at hn hb
      have hw1 : WF { h with held := .ifaddrs :: .fd :: h.held } := wf_same hw (Nat.le_refl _) rfl
      refine wp_bind (wp_acquire (wp_bind ?_))
      refine findLoop_wp (macSpec_linux sys) es hn (fun e _ hsk => ?_) (fun e _ hsk => ?_) hb
        (Owns.refl hw1) (fun h' p' l' vs h1 h2 h3 h4 => ?_)
      · have : e.addr = none := by simpa using hsk
        simp [interface, this]
      · intro hh; rw [hh] at hsk; cases hsk
      · have hheld : h'.held = .ifaddrs :: .fd :: h.held := h1.held
        refine wp_bind (wp_release (by rw [hheld]; simp) (wp_bind (wp_pure (wp_bind (wp_release ?_ (wp_pure ?_))))))
        · dsimp only; rw [hheld]; simp
        · refine ⟨l', vs.reverse, ⟨⟨h1.wf.pos, h1.wf.zero, h1.wf.fresh⟩, h1.chain, h1.nodup, h1.above, h1.below, h1.frame,
            h1.room, h1.next, h1.answers, ?_⟩, ?_, fun v hv => ?_, fun h' hs => ⟨hs, ?_, fun hf => ?_⟩⟩
          · dsimp only; rw [hheld]; simp
          · rw [h3]; simp
          · have hv' := h2.subset (List.mem_reverse.1 hv)
            obtain ⟨e, he1, he2⟩ := List.mem_filterMap.1 hv'
            unfold interface at he2
            split at he2
            · cases he2; exact (hn e he1).1
            · cases he2
          · exact h2.reverse
          · exact congrArg _ (h4 hf)
  · rw [if_neg hs, if_neg hs]
    exact wp_pure ⟨[], [], Owns.refl hw, rfl, nofun, fun h' hs => ⟨hs, List.Sublist.refl _, fun _ => rfl⟩⟩

/-- The same on macOS. The MAC address of an interface is that of its first Ethernet link entry. -/
theorem C109_macos (ifaddrs : Option (List IfAddr)) (h : Heap NetDev) (hw : WF h)
    (hn : ∀ e ∈ ifaddrs.getD [], Named e) (hb : ∀ e ∈ ifaddrs.getD [], ¬ Maskless (etherMacos (ifaddrs.getD [])) e) :
    ∃ is h', list (findMacos ifaddrs) h = .ok is h' ∧ Same h h' ∧ is.Sublist (expectedMacos ifaddrs) ∧
      (false ∉ h.answers → is = expectedMacos ifaddrs) := by
  refine list_wp hw ?_
  unfold expectedMacos findMacos
  cases ifaddrs with
  | none => exact wp_pure ⟨[], [], Owns.refl hw, rfl, nofun, fun h' hs => ⟨hs, List.Sublist.refl _, fun _ => rfl⟩⟩
  | some es =>
    have hw1 : WF { h with held := .ifaddrs :: h.held } := wf_same hw (Nat.le_refl _) rfl
    refine wp_bind (wp_acquire (wp_bind ?_))
    refine findLoop_wp (macSpec_macos es) es hn (fun e _ hsk => ?_) (fun e _ hsk => ?_) hb
      (Owns.refl hw1) (fun h' p' l' vs h1 h2 h3 h4 => ?_)
    · unfold interface
      split
      · next m a k e1 e2 e3 => rw [e2] at hsk; cases hsk
      · rfl
    · intro hh; rw [hh] at hsk; cases hsk
    · have hheld : h'.held = .ifaddrs :: h.held := h1.held
      refine wp_bind (wp_release (by rw [hheld]; simp) (wp_pure ?_))
      refine ⟨l', vs.reverse, ⟨⟨h1.wf.pos, h1.wf.zero, h1.wf.fresh⟩, h1.chain, h1.nodup, h1.above, h1.below, h1.frame,
        h1.room, h1.next, h1.answers, ?_⟩, ?_, fun v hv => ?_, fun h' hs => ⟨hs, ?_, fun hf => ?_⟩⟩
      · dsimp only; rw [hheld]; simp
      · rw [h3]; simp
      · have hv' := h2.subset (List.mem_reverse.1 hv)
        obtain ⟨e, he1, he2⟩ := List.mem_filterMap.1 hv'
        unfold interface at he2
        split at he2
        · cases he2; exact (hn e he1).1
        · cases he2
      · exact h2.reverse
      · exact congrArg _ (h4 hf)

/-- On Windows the list consists of exactly the Ethernet and wireless adapters with an IPv4 address, in the order of
the system, and the masks have as many bits as the prefixes, provided that no prefix is longer than 31 and that all
allocations succeed. All memory is given back. -/
theorem C109_windows (sys : Windows) (h : Heap NetDev) (hw : WF h)
    (hz : ∀ a ∈ sys.adapters.getD [], (0 : UInt8) ∉ a.name)
    (hp : ∀ a ∈ sys.adapters.getD [], Wanted a → ∀ ip n, firstIpv4 a.unicast = some (ip, n) → n < 32)
    (hf : false ∉ h.answers) :
    ∃ is h', list (findWindows sys) h = .ok is h' ∧ Same h h' ∧ Listed (sys.adapters.getD []) is := by
  refine list_wp hw (findWindows_wp hw sys hp (fun h' _ hf' => absurd hf' hf) (fun h' p' l' k1 k2 k3 => ?_))
  obtain ⟨vs, e1, e2, e3⟩ := k2.listed (k3 hf) hp hz
  exact ⟨l', vs, k1, e1, e2, fun h'' hs => ⟨hs, e3⟩⟩

/-- Whatever allocations fail, making the list on Windows and freeing it touches no memory wrongly and leaks nothing. -/
theorem C109_windows_memory (sys : Windows) (h : Heap NetDev) (hw : WF h)
    (hp : ∀ a ∈ sys.adapters.getD [], Wanted a → ∀ ip n, firstIpv4 a.unicast = some (ip, n) → n < 32) :
    ∃ p h' h'', findWindows sys h = .ok p h' ∧ freeDeviceList p h' = .ok () h'' ∧ Same h h'' := by
  have := findWindows_wp hw sys hp (Q := fun p h' => wp (freeDeviceList p) h' fun _ h'' => Same h h'')
    (fun h' ho _ => freeDeviceList_wp hw ho fun _ => ⟨rfl, ho.held⟩)
    (fun h' p' l' ho _ _ => freeDeviceList_wp hw ho fun _ => ⟨rfl, ho.held⟩)
  obtain ⟨p, h', e, u, h'', e', s⟩ := this
  exact ⟨p, h', h'', e, e', s⟩

/-! ## Where the claim fails -/

/-- On Linux the program dereferences NULL as soon as one Ethernet entry with an IPv4 address has no mask. -/
theorem C110_linux_maskless (sys : Linux) (h : Heap NetDev) (hw : WF h) (hs : sys.socket = true)
    (hn : ∀ e ∈ sys.ifaddrs.getD [], Named e) (hb : ∃ e ∈ sys.ifaddrs.getD [], Maskless (etherLinux sys.hwaddr) e)
    (hf : false ∉ h.answers) : list (findLinux sys) h = .fault .null := by
  refine faults_bind ?_
  unfold findLinux
  rw [if_pos hs]
  refine wp_faults (wp_acquire ?_)
  cases he : sys.ifaddrs with
  | none => rw [he] at hb; obtain ⟨e, h1, -⟩ := hb; cases h1
  | some es =>
    rw [he] at hn hb
    have hw1 : WF { h with held := .ifaddrs :: .fd :: h.held } := wf_same hw (Nat.le_refl _) rfl
    refine wp_faults (wp_acquire (faults_bind ?_))
    refine findLoop_faults (macSpec_linux sys) es hn (fun e _ hsk => ?_) (fun e _ hsk hm => ?_) hb (Owns.refl hw1) hf
    · intro hh; rw [hh] at hsk; cases hsk
    · obtain ⟨-, ⟨a, ha⟩, -⟩ := hm
      rw [ha] at hsk
      cases hsk

/-- The same on macOS. -/
theorem C110_macos_maskless (es : List IfAddr) (h : Heap NetDev) (hw : WF h)
    (hn : ∀ e ∈ es, Named e) (hb : ∃ e ∈ es, Maskless (etherMacos es) e)
    (hf : false ∉ h.answers) : list (findMacos (some es)) h = .fault .null := by
  have hw1 : WF { h with held := .ifaddrs :: h.held } := wf_same hw (Nat.le_refl _) rfl
  refine faults_bind (wp_faults (wp_acquire (faults_bind ?_)))
  refine findLoop_faults (macSpec_macos es) es hn (fun e _ hsk => ?_) (fun e _ hsk hm => ?_) hb (Owns.refl hw1) hf
  · intro hh; rw [hh] at hsk; cases hsk
  · obtain ⟨-, ⟨a, ha⟩, -⟩ := hm
    rw [ha] at hsk
    cases hsk

/-- On Windows an adapter with a prefix of 32 bits leads to a shift by 32, which C leaves undefined. -/
theorem C110_windows_host_prefix (sys : Windows) (h : Heap NetDev) (hw : WF h)
    (hb : ∃ a ∈ sys.adapters.getD [], Wanted a ∧ ∃ ip n, firstIpv4 a.unicast = some (ip, n) ∧ 32 ≤ n)
    (hf : false ∉ h.answers) : list (findWindows sys) h = .fault .shift :=
  faults_bind (findWindows_faults hw sys hb hf)

/-- Missing for C110: that no answer of the system leads to undefined behaviour; this is false. Proved: on Linux the
answers that do are exactly those with a maskless entry (with allocations that succeed). -/
theorem C110_linux_partial (sys : Linux) (h : Heap NetDev) (hw : WF h) (hs : sys.socket = true)
    (hn : ∀ e ∈ sys.ifaddrs.getD [], Named e) (hf : false ∉ h.answers) :
    (∃ f, list (findLinux sys) h = .fault f) ↔ ∃ e ∈ sys.ifaddrs.getD [], Maskless (etherLinux sys.hwaddr) e := by
  constructor
  · rintro ⟨f, hfault⟩
    apply Classical.byContradiction
    intro hno
    obtain ⟨is, h', e, -⟩ := C109_linux sys h hw hn fun x hx hm => hno ⟨x, hx, hm⟩
    rw [e] at hfault
    cases hfault
  · exact fun hb => ⟨_, C110_linux_maskless sys h hw hs hn hb hf⟩

/-- The same on macOS. -/
theorem C110_macos_partial (es : List IfAddr) (h : Heap NetDev) (hw : WF h) (hn : ∀ e ∈ es, Named e)
    (hf : false ∉ h.answers) :
    (∃ f, list (findMacos (some es)) h = .fault f) ↔ ∃ e ∈ es, Maskless (etherMacos es) e := by
  constructor
  · rintro ⟨f, hfault⟩
    apply Classical.byContradiction
    intro hno
    obtain ⟨is, h', e, -⟩ := C109_macos (some es) h hw hn fun x hx hm => hno ⟨x, hx, hm⟩
    rw [e] at hfault
    cases hfault
  · exact fun hb => ⟨_, C110_macos_maskless es h hw hn hb hf⟩

/-- On Windows they are exactly those with a listed adapter whose prefix has more than 31 bits. -/
theorem C110_windows_partial (sys : Windows) (h : Heap NetDev) (hw : WF h)
    (hz : ∀ a ∈ sys.adapters.getD [], (0 : UInt8) ∉ a.name) (hf : false ∉ h.answers) :
    (∃ f, list (findWindows sys) h = .fault f) ↔
      ∃ a ∈ sys.adapters.getD [], Wanted a ∧ ∃ ip n, firstIpv4 a.unicast = some (ip, n) ∧ 32 ≤ n := by
  constructor
  · rintro ⟨f, hfault⟩
    apply Classical.byContradiction
    intro hno
    obtain ⟨is, h', e, -⟩ := C109_windows sys h hw hz (fun a ha hwa ip n hu => by
      apply Classical.byContradiction
      intro hlt
      exact hno ⟨a, ha, hwa, ip, n, hu, by omega⟩) hf
    rw [e] at hfault
    cases hfault
  · exact fun hb => ⟨_, C110_windows_host_prefix sys h hw hb hf⟩

/-! ## Examples -/

def empty (answers : List Bool) : Heap NetDev := ⟨fun _ => none, 1, answers, []⟩

theorem empty_wf (answers : List Bool) : WF (empty answers) := ⟨Nat.one_pos, rfl, fun _ _ => rfl⟩

/-- The interfaces, or the fault. -/
def shown : Out NetDev (List Interface) → Except Fault (List Interface)
  | .ok is _ => .ok is
  | .fault f => .error f

instance : DecidableEq (Except Fault (List Interface)) := fun a b => by
  cases a with
  | error x => cases b with
    | error y => exact decidable_of_iff (x = y) (by simp)
    | ok y => exact .isFalse nofun
  | ok x => cases b with
    | error y => exact .isFalse nofun
    | ok y => exact decidable_of_iff (x = y) (by simp)

def eth0 : Bytes := [101, 116, 104, 48]
def lo : Bytes := [108, 111]
def mac0 : MacAddr := ⟨2, 0, 0, 0, 0, 1⟩

def box : Linux where
  socket := true
  ifaddrs := some [
    ⟨lo, some (.inet ⟨127, 0, 0, 1⟩), some (.inet ⟨255, 0, 0, 0⟩)⟩,
    ⟨eth0, some .other, none⟩,
    ⟨eth0, some (.inet ⟨10, 0, 0, 5⟩), some (.inet ⟨255, 255, 255, 0⟩)⟩,
    ⟨eth0, none, none⟩,
    ⟨eth0, some (.inet ⟨10, 1, 0, 5⟩), some (.inet ⟨255, 255, 0, 0⟩)⟩]
  hwaddr := fun n => if n = eth0 then some (1, mac0) else if n = lo then some (772, ⟨0, 0, 0, 0, 0, 0⟩) else none

example : (∀ e ∈ box.ifaddrs.getD [], Named e) ∧ (∀ e ∈ box.ifaddrs.getD [], ¬ Maskless (etherLinux box.hwaddr) e) := by
  constructor
  · intro e he
    simp only [box, Option.getD_some, List.mem_cons, List.not_mem_nil, or_false] at he
    rcases he with rfl | rfl | rfl | rfl | rfl <;> exact ⟨by decide, by decide⟩
  · rintro e he ⟨-, ⟨a, ha⟩, hm⟩
    simp only [box, Option.getD_some, List.mem_cons, List.not_mem_nil, or_false] at he
    rcases he with rfl | rfl | rfl | rfl | rfl <;> first | (cases hm; done) | (cases ha; done)

example : shown (list (findLinux box) (empty [])) =
    .ok [⟨eth0, mac0, ⟨10, 1, 0, 5⟩, ⟨255, 255, 0, 0⟩⟩, ⟨eth0, mac0, ⟨10, 0, 0, 5⟩, ⟨255, 255, 255, 0⟩⟩] := by decide +kernel

/-- The fourth allocation is the name of the entry without IPv4 address, the sixth that of the first interface. -/
example : shown (list (findLinux box) (empty [true, true, true, true, true, false])) =
    .ok [⟨eth0, mac0, ⟨10, 1, 0, 5⟩, ⟨255, 255, 0, 0⟩⟩] := by decide +kernel

/-- A VPN that presents itself as Ethernet with an address without a mask. -/
def maskless : Linux := { box with ifaddrs := some [⟨eth0, some (.inet ⟨10, 0, 0, 5⟩), none⟩] }

example : shown (list (findLinux maskless) (empty [])) = .error .null := by decide +kernel

def mac : List IfAddr := [
  ⟨eth0, some (.link 6 6 mac0), none⟩,
  ⟨eth0, some (.inet ⟨10, 0, 0, 5⟩), some (.inet ⟨255, 255, 255, 0⟩)⟩,
  ⟨lo, some (.link 24 0 ⟨0, 0, 0, 0, 0, 0⟩), none⟩,
  ⟨lo, some (.inet ⟨127, 0, 0, 1⟩), some (.inet ⟨255, 0, 0, 0⟩)⟩]

example : shown (list (findMacos (some mac)) (empty [])) =
    .ok [⟨eth0, mac0, ⟨10, 0, 0, 5⟩, ⟨255, 255, 255, 0⟩⟩] := by decide +kernel

example : (∀ e ∈ (some mac).getD [], Named e) ∧ (∀ e ∈ (some mac).getD [], ¬ Maskless (etherMacos mac) e) := by
  constructor
  · intro e he
    simp only [mac, Option.getD_some, List.mem_cons, List.not_mem_nil, or_false] at he
    rcases he with rfl | rfl | rfl | rfl <;> exact ⟨by decide, by decide⟩
  · rintro e he ⟨-, ⟨a, ha⟩, hm⟩
    simp only [mac, Option.getD_some, List.mem_cons, List.not_mem_nil, or_false] at he
    rcases he with rfl | rfl | rfl | rfl <;> first | (cases hm; done) | (cases ha; done)

def pc (n : UInt8) : Windows := ⟨true, 2000, some [
  ⟨lo, 24, 0, ⟨0, 0, 0, 0, 0, 0⟩, [(.inet ⟨127, 0, 0, 1⟩, 8)]⟩,
  ⟨eth0, 6, 6, mac0, [(.other, 64), (.inet ⟨10, 0, 0, 5⟩, n)]⟩,
  ⟨eth0, 71, 6, mac0, [(.inet ⟨10, 1, 0, 5⟩, 16)]⟩]⟩

example : shown (list (findWindows (pc 20)) (empty [])) =
    .ok [⟨eth0, mac0, ⟨10, 0, 0, 5⟩, ⟨255, 255, 240, 0⟩⟩, ⟨eth0, mac0, ⟨10, 1, 0, 5⟩, ⟨255, 255, 0, 0⟩⟩] := by decide +kernel

example : (∀ a ∈ (pc 20).adapters.getD [], (0 : UInt8) ∉ a.name) ∧
    (∀ a ∈ (pc 20).adapters.getD [], Wanted a → ∀ ip n, firstIpv4 a.unicast = some (ip, n) → n < 32) := by
  constructor
  · decide
  · intro a ha _ ip n hn
    simp only [pc, Option.getD_some, List.mem_cons, List.not_mem_nil, or_false] at ha
    rcases ha with rfl | rfl | rfl <;> (simp [firstIpv4] at hn; omega)

/-- A point-to-point adapter. -/
example : shown (list (findWindows (pc 32)) (empty [])) = .error .shift := by decide +kernel

/-- On Windows a name that could not be copied is not noticed, and the caller dereferences NULL. -/
theorem C110_windows_no_memory :
    ∃ (sys : Windows) (h : Heap NetDev), WF h ∧ (∀ a ∈ sys.adapters.getD [], (0 : UInt8) ∉ a.name) ∧
      (∀ a ∈ sys.adapters.getD [], Wanted a → ∀ ip n, firstIpv4 a.unicast = some (ip, n) → n < 32) ∧
      list (findWindows sys) h = .fault .null := by
  refine ⟨⟨false, 0, some [⟨eth0, 6, 6, mac0, [(.inet ⟨10, 0, 0, 5⟩, 16)]⟩]⟩, empty [true, true, false], empty_wf _, by decide, ?_, ?_⟩
  · intro a ha _ ip n hn
    simp only [Option.getD_some, List.mem_cons, List.not_mem_nil, or_false] at ha
    subst ha
    simp [firstIpv4] at hn
    omega
  · have : shown (list (findWindows ⟨false, 0, some [⟨eth0, 6, 6, mac0, [(.inet ⟨10, 0, 0, 5⟩, 16)]⟩]⟩)
      (empty [true, true, false])) = .error .null := by decide +kernel
    revert this
    cases list (findWindows ⟨false, 0, some [⟨eth0, 6, 6, mac0, [(.inet ⟨10, 0, 0, 5⟩, 16)]⟩]⟩) (empty [true, true, false]) with
    | ok is h => intro h; cases h
    | fault f => intro h; cases h; rfl

end Verif.Props.Devices
