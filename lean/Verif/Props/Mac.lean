import Verif.Lemmas.Mac
/-!
# C71: the text of a MAC address

The specification is in `Verif/Spec/Mac.lean`.
-/
namespace Verif.MacText
open Verif Verif.Spec.Mac

/-- C71: a printed address is read back as the same address. -/
theorem C71_round_trip (m : MacAddr) : MacAddr.parse m.format = some m := mac_roundtrip m

/-- C71: a text is read as an address iff it is six hexadecimal octets joined by colons, which are the bytes of the
address. -/
theorem C71_parse (s : Bytes) (m : MacAddr) :
    MacAddr.parse s = some m ↔ ∃ t0 t1 t2 t3 t4 t5, s = joined t0 t1 t2 t3 t4 t5 ∧ HexOctet t0 m.b0 ∧ HexOctet t1 m.b1 ∧
      HexOctet t2 m.b2 ∧ HexOctet t3 m.b3 ∧ HexOctet t4 m.b4 ∧ HexOctet t5 m.b5 := by
  constructor
  · intro h
    unfold MacAddr.parse at h
    split at h
    · rename_i a b c d e f heq
      injection h with h
      subst h
      cases hs : splitOn 58 s with
      | nil => rw [hs] at heq; cases heq
      | cons t0 l =>
        match l, hs with
        | [t1, t2, t3, t4, t5], hs =>
          rw [hs] at heq
          simp only [List.map_cons, List.map_nil, List.cons.injEq, and_true] at heq
          obtain ⟨h0, h1, h2, h3, h4, h5⟩ := heq
          refine ⟨t0, t1, t2, t3, t4, t5, ?_, (parseOctet_iff _ _).mp h0, (parseOctet_iff _ _).mp h1,
            (parseOctet_iff _ _).mp h2, (parseOctet_iff _ _).mp h3, (parseOctet_iff _ _).mp h4, (parseOctet_iff _ _).mp h5⟩
          rw [splitOn_join 58 s t0 _ hs]
          simp [joined]
        | [], hs => rw [hs] at heq; have := congrArg List.length heq; simp at this
        | [_], hs => rw [hs] at heq; have := congrArg List.length heq; simp at this
        | [_, _], hs => rw [hs] at heq; have := congrArg List.length heq; simp at this
        | [_, _, _], hs => rw [hs] at heq; have := congrArg List.length heq; simp at this
        | [_, _, _, _], hs => rw [hs] at heq; have := congrArg List.length heq; simp at this
        | _ :: _ :: _ :: _ :: _ :: _ :: _, hs => rw [hs] at heq; have := congrArg List.length heq; simp at this
    · cases h
  · rintro ⟨t0, t1, t2, t3, t4, t5, rfl, h0, h1, h2, h3, h4, h5⟩
    unfold MacAddr.parse joined
    simp only [List.append_assoc, List.cons_append]
    rw [splitOn_append _ _ _ (octet_colon h0), splitOn_append _ _ _ (octet_colon h1),
      splitOn_append _ _ _ (octet_colon h2), splitOn_append _ _ _ (octet_colon h3),
      splitOn_append _ _ _ (octet_colon h4), splitOn_word _ _ (octet_colon h5)]
    simp only [List.map_cons, List.map_nil, (parseOctet_iff _ _).mpr h0, (parseOctet_iff _ _).mpr h1,
      (parseOctet_iff _ _).mpr h2, (parseOctet_iff _ _).mpr h3, (parseOctet_iff _ _).mpr h4, (parseOctet_iff _ _).mpr h5]

/-- A text with a sign, a missing zero, superfluous zeros and capital letters is an address. -/
example : MacAddr.parse (asc "+0:1:0002:aB:FF:05") = some ⟨0, 1, 2, 0xab, 0xff, 5⟩ := by decide +kernel
/-- An octet above 255, five octets, seven octets and an empty octet are not. -/
example : MacAddr.parse (asc "100:1:2:3:4:5") = none ∧ MacAddr.parse (asc "1:2:3:4:5") = none ∧
    MacAddr.parse (asc "0:1:2:3:4:5:6") = none ∧ MacAddr.parse (asc "0:1::3:4:5") = none := by decide +kernel

/-- C71: two addresses with the same text are the same address. -/
theorem C71_injective (m n : MacAddr) (h : m.format = n.format) : m = n := by
  have := mac_roundtrip m
  rw [h, mac_roundtrip n] at this
  exact (Option.some.inj this).symm

theorem hex2_spec (b : UInt8) : ∃ x y, hex2 b = [x, y] ∧ HexOctet [x, y] b ∧
    ∀ c ∈ [x, y], ¬ (65 ≤ c.toNat ∧ c.toNat ≤ 90) := by
  refine ⟨_, _, rfl, (parseOctet_iff _ _).mp (parseOctet_hex2 b), ?_⟩
  have : ∀ n, n < 256 → ∀ c ∈ hex2 (UInt8.ofNat n), ¬ (65 ≤ c.toNat ∧ c.toNat ≤ 90) := by decide +kernel
  have := this b.toNat b.toNat_lt
  rwa [UInt8.ofNat_toNat] at this

/-- C71: the text of an address is six octets of two digits without capital letters. -/
theorem C71_format (m : MacAddr) : ∃ t0 t1 t2 t3 t4 t5, m.format = joined t0 t1 t2 t3 t4 t5 ∧ HexOctet t0 m.b0 ∧
    HexOctet t1 m.b1 ∧ HexOctet t2 m.b2 ∧ HexOctet t3 m.b3 ∧ HexOctet t4 m.b4 ∧ HexOctet t5 m.b5 ∧
    ∀ t ∈ [t0, t1, t2, t3, t4, t5], t.length = 2 ∧ ∀ c ∈ t, ¬ (65 ≤ c.toNat ∧ c.toNat ≤ 90) := by
  have ho : ∀ b, HexOctet (hex2 b) b := fun b => (parseOctet_iff _ _).mp (parseOctet_hex2 b)
  refine ⟨hex2 m.b0, hex2 m.b1, hex2 m.b2, hex2 m.b3, hex2 m.b4, hex2 m.b5, ?_, ho _, ho _, ho _, ho _, ho _, ho _, ?_⟩
  · simp [MacAddr.format, joined]
  · intro t ht
    have hb : ∃ b, t = hex2 b := by
      simp only [List.mem_cons, List.not_mem_nil, or_false] at ht
      rcases ht with rfl | rfl | rfl | rfl | rfl | rfl <;> exact ⟨_, rfl⟩
    obtain ⟨b, rfl⟩ := hb
    obtain ⟨x, y, e, -, h⟩ := hex2_spec b
    rw [e]
    exact ⟨rfl, h⟩

example : (⟨0, 1, 2, 0xab, 0xff, 5⟩ : MacAddr).format = asc "00:01:02:ab:ff:05" := by decide +kernel

end Verif.MacText
