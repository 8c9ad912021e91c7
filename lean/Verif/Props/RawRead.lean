import Verif.Lemmas.RawRead
/-!
# C124: no frame and no message makes the client read outside of the bytes it was given
-/
namespace Verif.Props

open Verif.RawRead
open Verif.Spec.RawRead

/-- A parser that computes a function of the data, in whatever memory they are, stays within them. -/
private theorem within_of {α : Type} {parse : Slice → Out α} {f : Bytes → Wire.Res α}
    (h : ∀ s data, Is s data → parse s = Out.of (f data)) : StaysWithin parse ∧ DependsOnlyOnData parse := by
  constructor
  · intro p data
    rw [h _ data (is_slice (only_holds p data))]
    cases f data <;> simp [Out.of]
  · intro m m' p p' data hm hm'
    rw [h _ data (is_slice hm), h _ data (is_slice hm')]

/-- Whatever frame the network delivers, parsing it (with the ARP, IPv4, ICMP and TCP headers and the option words in it)
reads the bytes of the frame and nothing else. -/
theorem C124_frame_in_bounds (w : Nat) (hw : w = 32 ∨ w = 64) :
    StaysWithin (frame w) ∧ DependsOnlyOnData (frame w) :=
  within_of fun _ _ h => frame_eq hw h

/-- So does each of the parsers on its own, for whatever data. -/
theorem C124_packets_in_bounds (w : Nat) (hw : w = 32 ∨ w = 64) :
    StaysWithin arp ∧ StaysWithin (ip w) ∧ StaysWithin icmp ∧ StaysWithin (tcp w) :=
  ⟨(within_of fun _ _ h => arp_eq h).1, (within_of fun _ _ h => ip_eq hw h).1, (within_of fun _ _ h => icmp_eq h).1,
    (within_of fun _ _ h => tcp_eq hw h).1⟩

/-- Whatever the server sends, decoding the header of a message and a control message reads the bytes that were received
and nothing else. -/
theorem C124_message_in_bounds :
    (StaysWithin header ∧ DependsOnlyOnData header) ∧ (StaysWithin control ∧ DependsOnlyOnData control) :=
  ⟨within_of fun _ _ h => header_eq h, within_of fun _ _ h => control_eq h⟩

/-- The checksum of any data reads them and nothing else, of an even as of an odd number of bytes. -/
theorem C124_checksum_in_bounds :
    StaysWithin (fun s => sumRaw s.mem s.ptr s.len) ∧ DependsOnlyOnData (fun s => sumRaw s.mem s.ptr s.len) :=
  within_of (f := fun data => .ok (Raw.sumBe data)) fun s data h => by
    rw [h.len]
    exact sumRaw_eq h.holds

/-- The fields read through pointers are the fields the other models read from the bytes, in whatever memory the bytes
are: what is proved of those models holds of the pointers. -/
theorem C124_reads_the_bytes (w : Nat) (hw : w = 32 ∨ w = 64) (m : Mem) (p : Nat) (data : Bytes) (h : Holds m p data) :
    frame w (slice m p data) = Out.of (Raw.Frame.parse w data) ∧
    header (slice m p data) = Out.of (Wire.Header.fromBytes data) ∧
    control (slice m p data) = Out.of (Control.ControlMessage.fromBytes data) ∧
    sumRaw m p data.length = .ok (Raw.sumBe data) :=
  ⟨frame_eq hw (is_slice h), header_eq (is_slice h), control_eq (is_slice h), sumRaw_eq h⟩

/-- An IPv4 header that claims to be shorter than 20 bytes passes the check of the length: the number of option words has
wrapped around. Only the allocation for that many words stops the client, with a panic, before it reads them. -/
theorem C124_short_header_panics (w : Nat) (hw : w = 32 ∨ w = 64) (m : Mem) (p : Nat) (data : Bytes)
    (h : Holds m p data) (hl : 20 ≤ data.length) (hi : (Raw.at8 data 0 &&& 0x0f).toNat < 5) :
    ip w (slice m p data) = .panic := by
  rw [ip_eq hw (is_slice h)]
  have hp : Raw.IpHeader.parse w data = .panic := by
    unfold Raw.IpHeader.parse
    rw [if_neg (by omega)]
    dsimp only
    rw [if_neg]
    · unfold Raw.vecWords
      rcases words_cases hw (and15_lt (Raw.at8 data 0)) with ⟨h5, _⟩ | ⟨_, hc⟩
      · omega
      · rw [if_pos hc]
    · rcases hw with rfl | rfl
      · rw [show (2:Nat) ^ 32 = 4294967296 from rfl]
        omega
      · rw [show (2:Nat) ^ 64 = 18446744073709551616 from rfl]
        omega
  unfold Raw.Ip.parse
  rw [if_neg (by omega), hp]
  rfl

/-- The same for a TCP header. -/
theorem C124_short_tcp_header_panics (w : Nat) (hw : w = 32 ∨ w = 64) (m : Mem) (p : Nat) (data : Bytes)
    (h : Holds m p data) (hl : 20 ≤ data.length) (hi : (Raw.at8 data 12 >>> 4).toNat < 5) :
    tcp w (slice m p data) = .panic := by
  rw [tcp_eq hw (is_slice h)]
  have hd : (Raw.at16 data 12 >>> 12).toNat = (Raw.at8 data 12 >>> 4).toNat := by
    have ha := (Raw.at8 data 12).toNat_lt
    have hb := (Raw.at8 data 13).toNat_lt
    rw [UInt16.toNat_shiftRight, UInt8.toNat_shiftRight, Raw.at16, rd16]
    simp [Nat.shiftRight_eq_div_pow]
    omega
  unfold Raw.Tcp.parse
  rw [if_neg (by omega)]
  dsimp only
  rw [if_neg]
  · unfold Raw.vecWords
    rcases words_cases hw (shr12_lt (Raw.at16 data 12)) with ⟨h5, _⟩ | ⟨_, hc⟩
    · omega
    · rw [if_pos hc]
      rfl
  · rcases hw with rfl | rfl
    · rw [show (2:Nat) ^ 32 = 4294967296 from rfl]
      omega
    · rw [show (2:Nat) ^ 64 = 18446744073709551616 from rfl]
      omega

/-- The reads are real ones: without the check of the allocation the first of the option words is outside of a header of
20 bytes, and in this model that is a fault. -/
theorem C124_words_would_fault (p : Nat) (data : Bytes) (hl : data.length = 20) (n : Nat) :
    wordLoop (only p data) (p + 20) 0 (n + 1) = .fault := by
  have h0 : only p data (p + 20) = none := by simp [only, hl]
  simp [wordLoop, peek, h0]
  rfl

/-- A frame of type IPv4 whose header claims no bytes at all. -/
def shortHeaderFrame : Bytes :=
  [1, 2, 3, 4, 5, 6, 7, 8, 9, 10, 11, 12, 0x08, 0x00] ++ [0x40] ++ List.replicate 19 0

/-- A frame with an ARP reply is parsed, one with a short header panics, and both are read in a memory that holds nothing
else. -/
example :
    (∃ f, frame 64 (slice (only 1000 (Raw.Frame.arp ⟨1, 2, 3, 4, 5, 6⟩ ⟨7, 8, 9, 10, 11, 12⟩
        (.ipv4 .reply ⟨1, 2, 3, 4, 5, 6⟩ ⟨10, 0, 0, 1⟩ ⟨7, 8, 9, 10, 11, 12⟩ ⟨10, 0, 0, 2⟩)).bytes) 1000
      (Raw.Frame.arp ⟨1, 2, 3, 4, 5, 6⟩ ⟨7, 8, 9, 10, 11, 12⟩
        (.ipv4 .reply ⟨1, 2, 3, 4, 5, 6⟩ ⟨10, 0, 0, 1⟩ ⟨7, 8, 9, 10, 11, 12⟩ ⟨10, 0, 0, 2⟩)).bytes) = .ok f) ∧
    frame 64 (slice (only 1000 shortHeaderFrame) 1000 shortHeaderFrame) = .panic ∧
    control (slice (only 8 [0, 7, 0, 13, 0, 1, 0, 0, 0, 9]) 8 [0, 7, 0, 13, 0, 1, 0, 0, 0, 9]) =
      .ok ⟨7, 13, .connect 1 9⟩ := by
  refine ⟨?_, ?_, ?_⟩
  · rw [frame_eq (.inr rfl) (is_slice (only_holds _ _))]
    exact ⟨_, rfl⟩
  · rw [frame_eq (.inr rfl) (is_slice (only_holds _ _))]
    decide +kernel
  · decide +kernel

/-- A TCP header whose data offset is 0 words. -/
example : tcp 64 (slice (only 5 (List.replicate 24 0)) 5 (List.replicate 24 0)) = .panic :=
  C124_short_tcp_header_panics 64 (.inr rfl) _ _ _ (only_holds _ _) (by decide) (by decide)

/-- A slice over one byte more than there is faults: the theorems above are not about a memory that answers everything. -/
example : (Slice.mk (only 8 [1, 2, 3]) 8 4).toVec = .fault := by decide +kernel

end Verif.Props
