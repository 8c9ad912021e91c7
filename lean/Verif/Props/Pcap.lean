import Verif.Lemmas.Pcap
/-!
# The capture wrapper (C111, C112, C113)
-/
namespace Verif.Props
open Verif Verif.CMem Verif.Pcap Verif.Spec.Pcap Verif.Lemmas.Pcap

/-! ## C111: memory -/

/-- The life of a capture, with any options and calls, with any answers of the capture library and of the allocator, on
every platform: no access to memory that is not there, and afterwards all memory and all handles are given back. The client
is only aborted if memory runs out or if the filter is set to nothing. -/
theorem C111_safe (pf : Platform) (hp : pf = unix ∨ pf = windows) (lib : Lib) (hl : Sound lib) (device : Bytes) (hd : Str device)
    (opts : List Opt) (hf : StrOpts opts) (cs : List Call) (hc : ∀ c ∈ cs, SoundCall c) (h : Heap Wrapper) (hw : WF h) :
    ∃ l h', life pf lib device opts cs h = .ok l h' ∧
      match l with
      | .panic => false ∈ h.answers ∨ .filter none ∈ opts
      | .notOpened _ => Same h h'
      | .done _ => Same h h' := by
  have key : ∀ {oe R}, wp (life pf lib device opts cs) h (fun l h' => Outcome h h' lib oe R device opts cs l) →
      ∃ l h', life pf lib device opts cs h = .ok l h' ∧
        match l with
        | .panic => false ∈ h.answers ∨ .filter none ∈ opts
        | .notOpened _ => Same h h'
        | .done _ => Same h h' := by
    rintro oe R ⟨l, h', k1, k2⟩
    refine ⟨l, h', k1, ?_⟩
    cases l with
    | panic => exact k2
    | notOpened e => exact k2.1
    | done rs => exact k2.1
  rcases hp with rfl | rfl
  · exact key (life_wp (sane_unix lib hl) hw device hd opts hf cs hc)
  · exact key (life_wp (sane_windows lib hl) hw device hd opts hf cs hc)

/-- `filter(None)` aborts the client whatever happens. -/
theorem C111_filter_none (pf : Platform) (hp : pf = unix ∨ pf = windows) (lib : Lib) (hl : Sound lib) (device : Bytes)
    (hd : Str device) (opts : List Opt) (hf : StrOpts opts) (hn : .filter none ∈ opts) (cs : List Call)
    (hc : ∀ c ∈ cs, SoundCall c) (h : Heap Wrapper) (hw : WF h) : ∃ h', life pf lib device opts cs h = .ok .panic h' := by
  have key : ∀ {oe R}, wp (life pf lib device opts cs) h (fun l h' => Outcome h h' lib oe R device opts cs l) →
      ∃ h', life pf lib device opts cs h = .ok .panic h' := by
    rintro oe R ⟨l, h', k1, k2⟩
    cases l with
    | panic => exact ⟨h', k1⟩
    | notOpened e => exact absurd hn k2.2.1
    | done rs => exact absurd hn k2.2.1
  rcases hp with rfl | rfl
  · exact key (life_wp (sane_unix lib hl) hw device hd opts hf cs hc)
  · exact key (life_wp (sane_windows lib hl) hw device hd opts hf cs hc)

/-! ## C112: results and errors -/

/-- On Windows every error is reported with its text, and every frame is delivered as it was captured. -/
theorem C112_windows (lib : Lib) (hl : Sound lib) (device : Bytes) (hd : Str device) (opts : List Opt) (hf : StrOpts opts)
    (hn : .filter none ∉ opts) (cs : List Call) (hc : ∀ c ∈ cs, SoundCall c) (h : Heap Wrapper) (hw : WF h) :
    ∃ l h', life windows lib device opts cs h = .ok l h' ∧
      RightLife (false ∈ h.answers) (lib.strerror 12) (openErrorWindows lib device (settings opts))
        (Right (false ∈ h.answers) (readErrorWindows lib) writeErrorWindows) cs l := by
  obtain ⟨l, h', k1, k2⟩ := life_wp (sane_windows lib hl) hw device hd opts hf cs hc
  refine ⟨l, h', k1, ?_⟩
  cases l with
  | panic => exact k2.resolve_right hn
  | notOpened e => exact k2.2.2
  | done rs => exact k2.2.2

/-- On Linux and macOS the same holds of everything but reads that fail before the capture library is asked for a frame; of
those the caller is told that there is a frame, an empty one. -/
theorem C112_unix (lib : Lib) (hl : Sound lib) (device : Bytes) (hd : Str device) (opts : List Opt) (hf : StrOpts opts)
    (hn : .filter none ∉ opts) (cs : List Call) (hc : ∀ c ∈ cs, SoundCall c) (h : Heap Wrapper) (hw : WF h) :
    ∃ l h', life unix lib device opts cs h = .ok l h' ∧
      RightLife (false ∈ h.answers) (lib.strerror 12) (openErrorUnix lib device (settings opts))
        (fun c r => Early c ∧ r = .got [] (.ok true) ∨
          ¬ Early c ∧ Right (false ∈ h.answers) (readErrorUnix lib) writeErrorUnix c r) cs l := by
  obtain ⟨l, h', k1, k2⟩ := life_wp (sane_unix lib hl) hw device hd opts hf cs hc
  refine ⟨l, h', k1, ?_⟩
  cases l with
  | panic => exact k2.resolve_right hn
  | notOpened e => exact k2.2.2
  | done rs => exact k2.2.2

/-- The capture of a scan asks the library for whole frames (65536 bytes are more than any Ethernet frame has), reads
that return after 100 ms, and the filter of the scan; it is opened unless the library refuses exactly this. -/
theorem C112_listener (lib : Lib) (hl : Sound lib) (device : Bytes) (hd : Str device) (filter : Bytes) (hf : Str filter)
    (cs : List Call) (hc : ∀ c ∈ cs, SoundCall c) (h : Heap Wrapper) (hw : WF h) :
    (∃ l h', life windows lib device (listenerOpts filter) cs h = .ok l h' ∧
      RightLife (false ∈ h.answers) (lib.strerror 12)
        (openErrorWindows lib device { max := 65536, timeout := 100, filter := some filter })
        (Right (false ∈ h.answers) (readErrorWindows lib) writeErrorWindows) cs l) ∧
    ∃ l h', life unix lib device (listenerOpts filter) cs h = .ok l h' ∧
      RightLife (false ∈ h.answers) (lib.strerror 12)
        (openErrorUnix lib device { max := 65536, timeout := 100, filter := some filter })
        (fun c r => Early c ∧ r = .got [] (.ok true) ∨
          ¬ Early c ∧ Right (false ∈ h.answers) (readErrorUnix lib) writeErrorUnix c r) cs l := by
  have h1 : StrOpts (listenerOpts filter) := by
    intro f hm
    simp [listenerOpts] at hm
    rw [hm]; exact hf
  exact ⟨C112_windows lib hl device hd _ h1 (by simp [listenerOpts]) cs hc h hw,
    C112_unix lib hl device hd _ h1 (by simp [listenerOpts]) cs hc h hw⟩

theorem each_imp {α β : Type} {R S : α → β → Prop} {as : List α} {bs : List β} (he : Each R as bs)
    (hi : ∀ a ∈ as, ∀ b, R a b → S a b) : Each S as bs := by
  induction he with
  | nil => exact .nil
  | cons h _ ih =>
    exact .cons (hi _ (List.mem_cons_self ..) _ h) (ih fun a ha b => hi a (List.mem_cons_of_mem _ ha) b)

/-- On Linux and macOS, without such reads. Missing: reads in which `pcap_setnonblock` or `poll` fails, see
`C112_unix_not`. -/
theorem C112_unix_partial (lib : Lib) (hl : Sound lib) (device : Bytes) (hd : Str device) (opts : List Opt) (hf : StrOpts opts)
    (hn : .filter none ∉ opts) (cs : List Call) (hc : ∀ c ∈ cs, SoundCall c) (he : ∀ c ∈ cs, ¬ Early c)
    (h : Heap Wrapper) (hw : WF h) :
    ∃ l h', life unix lib device opts cs h = .ok l h' ∧
      RightLife (false ∈ h.answers) (lib.strerror 12) (openErrorUnix lib device (settings opts))
        (Right (false ∈ h.answers) (readErrorUnix lib) writeErrorUnix) cs l := by
  obtain ⟨l, h', k1, k2⟩ := C112_unix lib hl device hd opts hf hn cs hc h hw
  refine ⟨l, h', k1, ?_⟩
  cases l with
  | panic => exact k2
  | notOpened e => exact k2
  | done rs =>
    refine ⟨k2.1, each_imp k2.2 fun c hm r hr => ?_⟩
    rcases hr with hr | hr
    · exact absurd hr.1 (he c hm)
    · exact hr.2

/-! ### Samples -/

/-- A library that works. -/
def goodLib : Lib := ⟨fun _ => [69], fun _ _ _ => .ok none, fun _ _ _ => none, fun _ => none, fun _ => none⟩

/-- A library whose filters do not compile, with a text that is too long for the buffer, after a warning. -/
def badLib : Lib :=
  ⟨fun _ => [69], fun _ _ _ => .ok (some [87, 87]), fun _ _ _ => none, fun _ => some (-1, List.replicate 300 70), fun _ => none⟩

theorem sound_goodLib : Sound goodLib :=
  ⟨fun _ => by show (0 : UInt8) ∉ [69]; decide, nofun, nofun, nofun, nofun, nofun⟩

theorem sound_badLib : Sound badLib := by
  refine ⟨fun _ => by show (0 : UInt8) ∉ [69]; decide, nofun, ?_, nofun, ?_, nofun⟩
  · intro d m t e he
    cases he
    unfold Short Str
    decide
  · intro f c e he
    cases he
    unfold Str
    decide +kernel

/-- An empty heap. -/
def emptyHeap (answers : List Bool) : Heap Wrapper := ⟨fun _ => none, 1, answers, []⟩

theorem wf_emptyHeap (answers : List Bool) : WF (emptyHeap answers) := ⟨Nat.one_pos, rfl, fun _ _ => rfl⟩

/-- Reads and a write, all of which work but the last read. -/
def sampleCalls : List Call :=
  [.read ⟨none, none, .packet [1, 2, 3]⟩, .write [9] ⟨none, none⟩, .read ⟨none, none, .nothing⟩,
    .read ⟨none, none, .error (-1) [88]⟩]

theorem sound_sampleCalls : ∀ c ∈ sampleCalls, SoundCall c := by
  intro c hc
  simp only [sampleCalls, List.mem_cons, List.not_mem_nil, or_false] at hc
  rcases hc with rfl | rfl | rfl | rfl
  · exact ⟨nofun, nofun, nofun⟩
  · exact ⟨nofun, nofun⟩
  · exact ⟨nofun, nofun, nofun⟩
  · refine ⟨nofun, nofun, ?_⟩
    intro c t he
    cases he
    unfold Str
    decide

/-- What a program returns. -/
def result {α : Type} : Out Wrapper α → Option α
  | .ok a _ => some a
  | .fault _ => none

deriving instance DecidableEq for Except
deriving instance DecidableEq for Answer
deriving instance DecidableEq for Life

example : result (life unix goodLib [101] (listenerOpts [97]) sampleCalls (emptyHeap [])) =
    some (.done [.got [1, 2, 3] (.ok true), .wrote (.ok ()), .got [] (.ok false), .got [] (.error [88])]) := by decide +kernel
example : result (life windows goodLib [101] (listenerOpts [97]) sampleCalls (emptyHeap [])) =
    some (.done [.got [1, 2, 3] (.ok true), .wrote (.ok ()), .got [] (.ok false), .got [] (.error [88])]) := by decide +kernel
example : result (life unix badLib [101] (listenerOpts [97]) [] (emptyHeap [])) =
    some (.notOpened (List.replicate 300 70)) := by decide +kernel
example : result (life windows badLib [101] (listenerOpts [97]) [] (emptyHeap [true, true, true, true, true, false])) =
    some (.notOpened (List.replicate 255 70)) := by decide +kernel
example : result (life unix goodLib [101] (listenerOpts [97]) [] (emptyHeap [true, true, false])) = some .panic := by decide +kernel
example : ∃ l h', life unix goodLib [101] (listenerOpts [97]) sampleCalls (emptyHeap []) = .ok l h' ∧
    RightLife (false ∈ ([] : List Bool)) [69] (openErrorUnix goodLib [101] (settings (listenerOpts [97])))
      (Right (false ∈ ([] : List Bool)) (readErrorUnix goodLib) writeErrorUnix) sampleCalls l :=
  C112_unix_partial goodLib sound_goodLib [101] (by unfold Str; decide) (listenerOpts [97])
    (by intro f hf; simp [listenerOpts] at hf; subst hf; unfold Str; decide) (by simp [listenerOpts]) sampleCalls sound_sampleCalls
    (by
      intro c hc
      simp only [sampleCalls, List.mem_cons, List.not_mem_nil, or_false] at hc
      rcases hc with rfl | rfl | rfl | rfl <;> simp [Early]) (emptyHeap []) (wf_emptyHeap _)
example : ∃ h', life unix goodLib [101] [.filter none] [] (emptyHeap []) = .ok .panic h' :=
  C111_filter_none unix (.inl rfl) goodLib sound_goodLib [101] (by unfold Str; decide) _ (by intro f hf; simp at hf)
    (List.mem_cons_self ..) [] nofun (emptyHeap []) (wf_emptyHeap _)

/-- The full statement is false on Linux and macOS: when `poll` fails, the caller is told of a frame. -/
theorem C112_unix_not : ¬ ∀ (lib : Lib), Sound lib → ∀ (device : Bytes), Str device → ∀ (opts : List Opt), StrOpts opts →
    .filter none ∉ opts → ∀ (cs : List Call), (∀ c ∈ cs, SoundCall c) → ∀ (h : Heap Wrapper), WF h →
    ∃ l h', life unix lib device opts cs h = .ok l h' ∧
      RightLife (false ∈ h.answers) (lib.strerror 12) (openErrorUnix lib device (settings opts))
        (Right (false ∈ h.answers) (readErrorUnix lib) writeErrorUnix) cs l := by
  intro hall
  obtain ⟨l, h', k1, k2⟩ := hall goodLib sound_goodLib [101] (by unfold Str; decide) [] nofun nofun
    [.read ⟨none, some 5, .nothing⟩] (by
      intro c hc
      simp only [List.mem_cons, List.not_mem_nil, or_false] at hc
      subst hc
      refine ⟨nofun, ?_, nofun⟩
      intro n hn
      cases hn
      decide) (emptyHeap []) (wf_emptyHeap _)
  have : result (life unix goodLib [101] [] [.read ⟨none, some 5, .nothing⟩] (emptyHeap [])) =
      some (.done [.got [] (.ok true)]) := by decide +kernel
  rw [k1] at this
  cases this
  obtain ⟨-, k2⟩ := k2
  cases k2 with
  | cons a _ =>
    obtain ⟨e, he, -⟩ := a
    cases he

/-! ## C113: a device that fails during a scan -/

theorem each_split {α β : Type} {R : α → β → Prop} {as as' : List α} {a : α} {bs : List β} (he : Each R (as ++ a :: as') bs) :
    ∃ bs1 b bs2, bs = bs1 ++ b :: bs2 ∧ Each R as bs1 ∧ R a b := by
  induction as generalizing bs with
  | nil =>
    cases he with
    | cons h _ => exact ⟨[], _, _, rfl, .nil, h⟩
  | cons x as ih =>
    cases he with
    | cons h hr =>
      obtain ⟨bs1, b, bs2, rfl, k1, k2⟩ := ih hr
      exact ⟨_ :: bs1, b, bs2, rfl, .cons h k1, k2⟩

theorem each_length {α β : Type} {R : α → β → Prop} {as : List α} {bs : List β} (he : Each R as bs) : as.length = bs.length := by
  induction he with
  | nil => rfl
  | cons _ _ ih => rw [List.length_cons, List.length_cons, ih]

theorem listenLoop_error (w pt : Nat) (tt : Option Nat) (start last : Nat) (res : List Raw.Frame) (pre post : List Raw.Round) (r : Raw.Round)
    (hr : r.read = .error) : Raw.listenLoop w pt tt start last res (pre ++ r :: post) =
      match Raw.listenLoop w pt tt start last res pre with
      | .running => .finished .err
      | x => x := by
  induction pre generalizing last res with
  | nil =>
    rw [List.nil_append]
    unfold Raw.listenLoop
    rw [hr]
  | cons x pre ih =>
    rw [List.cons_append, Raw.listenLoop, Raw.listenLoop]
    cases x.read with
    | error => rfl
    | timeout =>
      dsimp only
      split
      · rfl
      · exact ih ..
    | packet data =>
      dsimp only
      cases Raw.Frame.parse w data with
      | panic => rfl
      | err =>
        dsimp only
        split
        · rfl
        · exact ih ..
      | ok f =>
        dsimp only
        split
        · rfl
        · exact ih ..

/-- Only reads. -/
def Reads (cs : List Call) : Prop := ∀ c ∈ cs, ∃ a, c = .read a

theorem right_read {p : Prop} {re : ReadAns → Option Bytes} {we : WriteAns → Option Bytes} {a : ReadAns} {r : Answer}
    (h : Right p re we (.read a) r) : ∃ b x, r = .got b x := by
  simp only [Right] at h
  split at h
  · obtain ⟨e, rfl, _⟩ := h
    exact ⟨_, _, rfl⟩
  · split at h <;> exact ⟨_, _, h⟩

theorem filterMap_length {cs : List Call} {l : List Answer} {R : Call → Answer → Prop} (hr : Reads cs) (he : Each R cs l)
    (hg : ∀ a r, R (.read a) r → ∃ b x, r = .got b x) : (l.filterMap readOf).length = cs.length := by
  induction he with
  | nil => rfl
  | @cons c r cs l h _ ih =>
    obtain ⟨a, rfl⟩ := hr c (List.mem_cons_self ..)
    obtain ⟨b, x, rfl⟩ := hg a r h
    have := ih fun c hc => hr c (List.mem_cons_of_mem _ hc)
    cases x with
    | error e => simp [readOf, this]
    | ok v => cases v <;> simp [readOf, this]

theorem listener_error {R : Call → Answer → Prop} {pre post : List Call} {a : ReadAns} {l : List Answer}
    (he : Each R (pre ++ .read a :: post) l) (hr : Reads pre) (hg : ∀ a r, R (.read a) r → ∃ b x, r = .got b x)
    (ha : ∀ r, R (.read a) r → ∃ b e, r = .got b (.error e)) (w pt : Nat) (tt : Option Nat) (start last : Nat)
    (clocks : List (Nat × Nat × Nat)) (hk : pre.length < clocks.length) :
    listener w pt tt start last l clocks =
      match listener w pt tt start last (l.take pre.length) (clocks.take pre.length) with
      | .running => .finished .err
      | x => x := by
  obtain ⟨l1, r, l2, rfl, k1, k2⟩ := each_split he
  obtain ⟨b, e, rfl⟩ := ha r k2
  have hlen := each_length k1
  have hlen2 := filterMap_length hr k1 hg
  have hclocks : clocks = clocks.take pre.length ++ clocks[pre.length] :: clocks.drop (pre.length + 1) := by
    rw [List.getElem_cons_drop, List.take_append_drop]
  unfold listener
  rw [List.take_append_of_le_length (by omega), List.take_of_length_le (by omega), List.filterMap_append, List.filterMap_cons]
  simp only [readOf]
  conv => lhs; rw [hclocks]
  rw [List.zipWith_append (by rw [hlen2, List.length_take]; omega), List.zipWith_cons_cons]
  exact listenLoop_error _ _ _ _ _ _ _ _ _ rfl

/-- On Windows a scan ends with an error as soon as a read fails, unless it has ended before. -/
theorem C113_windows (lib : Lib) (hl : Sound lib) (device : Bytes) (hd : Str device) (filter : Bytes) (hf : Str filter)
    (pre post : List Call) (a : ReadAns) (hr : Reads pre) (hc : ∀ c ∈ pre ++ .read a :: post, SoundCall c)
    (ha : readErrorWindows lib a ≠ none) (h : Heap Wrapper) (hw : WF h) (l : List Answer) (h' : Heap Wrapper)
    (hrun : life windows lib device (listenerOpts filter) (pre ++ .read a :: post) h = .ok (.done l) h')
    (w start last : Nat) (clocks : List (Nat × Nat × Nat)) (hk : pre.length < clocks.length) :
    listener w Raw.packetTimeout Raw.totalTimeout start last l clocks =
      match listener w Raw.packetTimeout Raw.totalTimeout start last (l.take pre.length) (clocks.take pre.length) with
      | .running => .finished .err
      | x => x := by
  obtain ⟨l', h'', k1, k2⟩ := C112_windows lib hl device hd (listenerOpts filter)
    (by intro f hm; simp [listenerOpts] at hm; rw [hm]; exact hf) (by simp [listenerOpts]) _ hc h hw
  rw [hrun] at k1
  cases k1
  refine listener_error k2.2 hr (fun a r => right_read) (fun r hx => ?_) w _ _ start last clocks hk
  simp only [Right] at hx
  split at hx
  · obtain ⟨e, rfl, _⟩ := hx
    exact ⟨_, _, rfl⟩
  · next hn => exact absurd hn ha

/-- On Linux and macOS this holds if the capture library reports the failure when it is asked for a frame. Missing: failures
of `pcap_setnonblock` and `poll`, see `C113_unix_not`. -/
theorem C113_unix_partial (lib : Lib) (hl : Sound lib) (device : Bytes) (hd : Str device) (filter : Bytes) (hf : Str filter)
    (pre post : List Call) (a : ReadAns) (hr : Reads pre) (hc : ∀ c ∈ pre ++ .read a :: post, SoundCall c)
    (ha : readErrorUnix lib a ≠ none) (hx : ¬ Early (.read a)) (h : Heap Wrapper) (hw : WF h) (l : List Answer) (h' : Heap Wrapper)
    (hrun : life unix lib device (listenerOpts filter) (pre ++ .read a :: post) h = .ok (.done l) h')
    (w start last : Nat) (clocks : List (Nat × Nat × Nat)) (hk : pre.length < clocks.length) :
    listener w Raw.packetTimeout Raw.totalTimeout start last l clocks =
      match listener w Raw.packetTimeout Raw.totalTimeout start last (l.take pre.length) (clocks.take pre.length) with
      | .running => .finished .err
      | x => x := by
  obtain ⟨l', h'', k1, k2⟩ := C112_unix lib hl device hd (listenerOpts filter)
    (by intro f hm; simp [listenerOpts] at hm; rw [hm]; exact hf) (by simp [listenerOpts]) _ hc h hw
  rw [hrun] at k1
  cases k1
  refine listener_error k2.2 hr (fun a r hy => ?_) (fun r hy => ?_) w _ _ start last clocks hk
  · rcases hy with hy | hy
    · exact ⟨_, _, hy.2⟩
    · exact right_read hy.2
  · rcases hy with hy | hy
    · exact absurd hy.1 hx
    · obtain ⟨-, hy⟩ := hy
      simp only [Right] at hy
      split at hy
      · obtain ⟨e, rfl, _⟩ := hy
        exact ⟨_, _, rfl⟩
      · next hn => exact absurd hn ha

theorem listenLoop_empty (w pt : Nat) (tt : Option Nat) (start last : Nat) (rs : List Raw.Round) (hr : ∀ r ∈ rs, r.read = .packet []) :
    Raw.listenLoop w pt tt start last [] rs =
      if rs.any (fun r => Raw.stops pt tt start r.now r) then .finished (.ok []) else .running := by
  induction rs generalizing last with
  | nil => rfl
  | cons r rs ih =>
    have ih := ih r.now fun x hx => hr x (List.mem_cons_of_mem _ hx)
    have hp : Raw.Frame.parse w [] = .err := by
      unfold Raw.Frame.parse
      rw [if_pos (by decide)]
    rw [Raw.listenLoop, hr r (List.mem_cons_self ..)]
    dsimp only
    rw [hp]
    dsimp only
    rw [ih, List.any_cons]
    cases Raw.stops pt tt start r.now r <;> simp

/-- On Linux and macOS a scan whose reads all fail in `pcap_setnonblock` or `poll` never ends with an error: it runs until the
total timeout, or until a round takes longer than the timeout for packets, and finds nothing. -/
theorem C113_unix_silent (lib : Lib) (hl : Sound lib) (device : Bytes) (hd : Str device) (filter : Bytes) (hf : Str filter)
    (cs : List Call) (hc : ∀ c ∈ cs, SoundCall c) (he : ∀ c ∈ cs, Early c) (h : Heap Wrapper) (hw : WF h) (l : List Answer)
    (h' : Heap Wrapper) (hrun : life unix lib device (listenerOpts filter) cs h = .ok (.done l) h')
    (w start last : Nat) (clocks : List (Nat × Nat × Nat)) (hk : clocks.length ≤ cs.length) :
    listener w Raw.packetTimeout Raw.totalTimeout start last l clocks =
      if clocks.any (fun c => decide (c.2.1 - start > 20000) || decide (c.2.2 - c.1 > 2000)) then .finished (.ok []) else .running := by
  obtain ⟨l', h'', k1, k2⟩ := C112_unix lib hl device hd (listenerOpts filter)
    (by intro f hm; simp [listenerOpts] at hm; rw [hm]; exact hf) (by simp [listenerOpts]) cs hc h hw
  rw [hrun] at k1
  cases k1
  obtain ⟨-, k2⟩ := k2
  have hl2 : l.filterMap readOf = List.replicate cs.length (.packet []) := by
    clear hrun hk
    induction k2 with
    | nil => rfl
    | @cons c r cs l h _ ih =>
      have hr : r = .got [] (.ok true) := by
        rcases h with h | h
        · exact h.2
        · exact absurd (he c (List.mem_cons_self ..)) h.1
      subst hr
      rw [List.filterMap_cons, List.length_cons, List.replicate_succ]
      simp only [readOf]
      rw [ih (fun c hx => hc c (List.mem_cons_of_mem _ hx)) (fun c hx => he c (List.mem_cons_of_mem _ hx))]
  unfold listener
  rw [hl2, listenLoop_empty]
  · have : ∀ (n : Nat) (clocks : List (Nat × Nat × Nat)), clocks.length ≤ n →
        (List.zipWith (fun r (c : Nat × Nat × Nat) => (⟨r, c.1, c.2.1, c.2.2⟩ : Raw.Round))
          (List.replicate n (.packet [])) clocks).any (fun r => Raw.stops Raw.packetTimeout Raw.totalTimeout start r.now r) =
        clocks.any (fun c => decide (c.2.1 - start > 20000) || decide (c.2.2 - c.1 > 2000)) := by
      intro n
      induction n with
      | zero =>
        intro clocks hk
        rw [List.length_eq_zero_iff.1 (Nat.le_zero.1 hk)]
        rfl
      | succ n ih =>
        intro clocks hk
        cases clocks with
        | nil => rfl
        | cons c clocks =>
          rw [List.replicate_succ, List.zipWith_cons_cons, List.any_cons, List.any_cons, ih clocks (by simpa using hk)]
          rfl
    rw [this _ _ hk]
  · intro r hr
    rw [List.mem_iff_getElem] at hr
    obtain ⟨i, hi, rfl⟩ := hr
    rw [List.getElem_zipWith, List.getElem_replicate]

/-- Such a run exists: three reads fail, the scan finds nothing and reports no error. -/
theorem C113_unix_not : ∃ (lib : Lib) (cs : List Call) (l : List Answer) (h' : Heap Wrapper) (clocks : List (Nat × Nat × Nat)),
    Sound lib ∧ (∀ c ∈ cs, SoundCall c ∧ ∃ a t, c = .read a ∧ readErrorUnix lib a = some t) ∧ cs ≠ [] ∧ cs.length = clocks.length ∧
    life unix lib [101] (listenerOpts [97]) cs (emptyHeap []) = .ok (.done l) h' ∧
    listener 64 Raw.packetTimeout Raw.totalTimeout 0 0 l clocks = .finished (.ok []) := by
  have hs : ∀ c ∈ List.replicate 3 (Call.read ⟨none, some 5, .nothing⟩),
      SoundCall c ∧ ∃ a t, c = .read a ∧ readErrorUnix goodLib a = some t := by
    intro c hc
    rw [List.eq_of_mem_replicate hc]
    refine ⟨⟨nofun, ?_, nofun⟩, _, _, rfl, rfl⟩
    intro n hn
    cases hn
    decide
  have hrun : result (life unix goodLib [101] (listenerOpts [97]) (List.replicate 3 (Call.read ⟨none, some 5, .nothing⟩)) (emptyHeap [])) =
      some (.done (List.replicate 3 (.got [] (.ok true)))) := by decide +kernel
  cases ho : life unix goodLib [101] (listenerOpts [97]) (List.replicate 3 (Call.read ⟨none, some 5, .nothing⟩)) (emptyHeap []) with
  | fault f => rw [ho] at hrun; cases hrun
  | ok a h' =>
    rw [ho] at hrun
    cases hrun
    refine ⟨goodLib, _, _, h', [(1, 2, 3), (10000, 10001, 10002), (20000, 20001, 20002)], sound_goodLib, hs, nofun, rfl, ho, ?_⟩
    decide +kernel

example : readErrorWindows goodLib ⟨none, none, .error (-1) [88]⟩ ≠ none := nofun
example : readErrorUnix goodLib ⟨none, none, .error (-1) [88]⟩ ≠ none := nofun
example : ¬ Early (.read ⟨none, none, .error (-1) [88]⟩) := by simp [Early]
example : listener 64 Raw.packetTimeout Raw.totalTimeout 0 0 [.got [1, 2] (.ok true), .got [] (.error [88])]
    [(1, 1, 1), (2, 2, 2)] = .finished .err := by decide +kernel

end Verif.Props
