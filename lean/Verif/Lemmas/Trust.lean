import Verif.Spec.Trust
/-!
# Lemmas on the TLS settings and the trusted certificates
-/
namespace Verif.Trust
open Verif Verif.Spec.Trust Verif.Storage

/-- A call changes only the lists of certificates. -/
theorem call_keeps (b : Builder) (c : Call) :
    (b.call c).1.options = b.options ∧ (b.call c).1.verify = b.verify ∧ (b.call c).1.ciphers = b.ciphers := by
  cases c with
  | caFile cs => cases cs <;> exact ⟨rfl, rfl, rfl⟩
  | pem x a => cases x <;> cases a <;> exact ⟨rfl, rfl, rfl⟩
  | der x a => cases x <;> cases a <;> exact ⟨rfl, rfl, rfl⟩

/-- So does a function of the application. -/
theorem run_keeps (f : Prog) : ∀ b : Builder,
    (f.run b).1.options = b.options ∧ (f.run b).1.verify = b.verify ∧ (f.run b).1.ciphers = b.ciphers := by
  induction f with
  | ret code => exact fun b => ⟨rfl, rfl, rfl⟩
  | call c next ih =>
    intro b
    obtain ⟨h1, h2, h3⟩ := ih (b.call c).2 (b.call c).1
    obtain ⟨k1, k2, k3⟩ := call_keeps b c
    exact ⟨h1.trans k1, h2.trans k2, h3.trans k3⟩

/-- And so does a storage. -/
theorem load_keeps (b : Builder) (s : Store) :
    (s.load b).1.options = b.options ∧ (s.load b).1.verify = b.verify ∧ (s.load b).1.ciphers = b.ciphers := by
  cases s with
  | default ps => exact ⟨rfl, rfl, rfl⟩
  | custom f =>
    cases f with
    | none => exact ⟨rfl, rfl, rfl⟩
    | some f => exact run_keeps f b

/-- A connector is there iff OpenSSL makes the builder, takes the ciphers, and the storage succeeds. -/
theorem getTlsConnector_eq {new : Option Builder} {ok : Bool} {s : Store} {b : Builder} :
    getTlsConnector new ok s = some b ↔
      ∃ b0, new = some b0 ∧ ok = true ∧ s.load { harden b0 with ciphers := cipherList } = (b, true) := by
  cases new with
  | none => exact ⟨fun h => (by cases h), fun ⟨_, h, _⟩ => by cases h⟩
  | some b0 =>
    cases ok with
    | false => exact ⟨fun h => (by cases h), fun ⟨_, _, h, _⟩ => by cases h⟩
    | true =>
      show (if (s.load { harden b0 with ciphers := cipherList }).2 = true then
        some (s.load { harden b0 with ciphers := cipherList }).1 else none) = some b ↔ _
      generalize hr : s.load { harden b0 with ciphers := cipherList } = r
      obtain ⟨x, o⟩ := r
      cases o with
      | false =>
        refine ⟨fun h => (by cases h), fun ⟨b1, h1, _, h2⟩ => ?_⟩
        cases h1
        rw [hr] at h2
        cases h2
      | true =>
        constructor
        · intro h
          exact ⟨b0, rfl, rfl, by rw [hr]; exact congrArg (·, true) (Option.some.inj h)⟩
        · rintro ⟨b1, h1, _, h2⟩
          cases h1
          rw [hr] at h2
          cases h2
          rfl

/-- What a call returns and adds to the trusted certificates. -/
theorem call_good {b : Builder} {c : Call}
    (h : (c matches .caFile (some _) | .pem (some _) true | .der (some _) true) = true) : (b.call c).2 = 0 := by
  cases c with
  | caFile cs => cases cs with | none => cases h | some cs => rfl
  | pem x a => cases x with
    | none => cases h
    | some x => cases a with | false => cases h | true => rfl
  | der x a => cases x with
    | none => cases h
    | some x => cases a with | false => cases h | true => rfl

theorem call_bad {b : Builder} {c : Call}
    (h : (c matches .caFile (some _) | .pem (some _) true | .der (some _) true) = false) : b.call c = (b, 22) := by
  cases c with
  | caFile cs => cases cs with | none => rfl | some cs => cases h
  | pem x a => cases x with
    | none => rfl
    | some x => cases a with | false => rfl | true => cases h
  | der x a => cases x with
    | none => rfl
    | some x => cases a with | false => rfl | true => cases h

theorem call_trusted (b : Builder) (c : Call) (x : Nat) :
    x ∈ (b.call c).1.trusted ↔ x ∈ b.trusted ∨ ∃ cs, c = .caFile (some cs) ∧ x ∈ cs := by
  cases c with
  | caFile cs =>
    cases cs with
    | none => exact ⟨.inl, fun h => h.elim id (fun ⟨_, h, _⟩ => by cases h)⟩
    | some cs =>
      show x ∈ b.trusted ++ cs ↔ _
      rw [List.mem_append]
      exact ⟨fun h => h.imp id (fun h => ⟨cs, rfl, h⟩), fun h => h.imp id (fun ⟨_, h, k⟩ => by cases h; exact k)⟩
  | pem y a =>
    have : (b.call (.pem y a)).1.trusted = b.trusted := by cases y <;> cases a <;> rfl
    rw [this]
    exact ⟨.inl, fun h => h.elim id (fun ⟨_, h, _⟩ => by cases h)⟩
  | der y a =>
    have : (b.call (.der y a)).1.trusted = b.trusted := by cases y <;> cases a <;> rfl
    rw [this]
    exact ⟨.inl, fun h => h.elim id (fun ⟨_, h, _⟩ => by cases h)⟩

/-- Running the function of the application, against what it did. -/
theorem run_did {f : Prog} {l : List (Call × Int)} {code : Int} (h : Did f l code) : ∀ b : Builder,
    (f.run b).2 = (l, code) ∧ ∀ x, x ∈ (f.run b).1.trusted ↔ x ∈ b.trusted ∨ FromFile l x := by
  induction h with
  | ret =>
    intro b
    exact ⟨rfl, fun x => ⟨.inl, fun h => h.elim id (fun ⟨_, h, _⟩ => by cases h)⟩⟩
  | @good c next l code hc _ ih =>
    intro b
    have e := call_good (b := b) hc
    obtain ⟨h1, h2⟩ := ih (b.call c).1
    show ((c, (b.call c).2) :: ((next (b.call c).2).run (b.call c).1).2.1,
      ((next (b.call c).2).run (b.call c).1).2.2) = _ ∧ ∀ x, x ∈ ((next (b.call c).2).run (b.call c).1).1.trusted ↔ _
    rw [e, h1]
    refine ⟨rfl, fun x => ?_⟩
    rw [h2, call_trusted]
    constructor
    · rintro ((h | ⟨cs, rfl, h⟩) | ⟨cs, h, k⟩)
      · exact .inl h
      · exact .inr ⟨cs, List.mem_cons_self, h⟩
      · exact .inr ⟨cs, List.mem_cons_of_mem _ h, k⟩
    · rintro (h | ⟨cs, h, k⟩)
      · exact .inl (.inl h)
      · rcases List.mem_cons.1 h with h | h
        · cases h
          exact .inl (.inr ⟨cs, rfl, k⟩)
        · exact .inr ⟨cs, h, k⟩
  | @bad c next l code hc _ ih =>
    intro b
    have e := call_bad (b := b) hc
    obtain ⟨h1, h2⟩ := ih b
    show ((c, (b.call c).2) :: ((next (b.call c).2).run (b.call c).1).2.1,
      ((next (b.call c).2).run (b.call c).1).2.2) = _ ∧ ∀ x, x ∈ ((next (b.call c).2).run (b.call c).1).1.trusted ↔ _
    rw [e, h1]
    refine ⟨rfl, fun x => ?_⟩
    rw [h2]
    constructor
    · rintro (h | ⟨cs, h, k⟩)
      · exact .inl h
      · exact .inr ⟨cs, List.mem_cons_of_mem _ h, k⟩
    · rintro (h | ⟨cs, h, k⟩)
      · exact .inl h
      · rcases List.mem_cons.1 h with h | h
        · cases h
        · exact .inr ⟨cs, h, k⟩

end Verif.Trust
