import Verif.Lemmas.Trust
import Verif.Props.Storage
/-!
# C100, C101: what is required of the service's TLS, and which authorities are trusted

`new` is what OpenSSL makes for the client: any builder, with any options and any certificates (those of the system).
-/
namespace Verif.Trust
open Verif Verif.Spec.Trust Verif.Storage Verif.Spec.Storage

/-- **C100.** Whatever OpenSSL starts with, whatever storage is used and whatever its functions do: if there is a connector
at all, then it verifies its peer, uses no compression, offers the fixed list of ciphers, and allows only the versions 1.2
and 1.3 of TLS. No other version is switched off. -/
theorem C100_settings (b0 : Builder) (ok : Bool) (s : Store) (b : Builder) (h : getTlsConnector (some b0) ok s = some b) :
    b.verify = true ∧ Opt.noCompression ∈ b.options ∧ b.ciphers = asc "HIGH:!aNULL:!kRSA:!PSK:!MD5:!RC4"
    ∧ ∀ v, Allows b v ↔ (v = .tls12 ∨ v = .tls13) ∧ Allows b0 v := by
  obtain ⟨b1, e, -, hl⟩ := getTlsConnector_eq.1 h
  cases e
  obtain ⟨h1, h2, h3⟩ := load_keeps { harden b0 with ciphers := cipherList } s
  rw [hl] at h1 h2 h3
  have h1 : b.options = .no .tls11 :: .no .tls10 :: .no .ssl3 :: .no .ssl2 :: .noCompression :: b0.options := h1
  refine ⟨h2, by rw [h1]; simp, h3, fun v => ?_⟩
  unfold Allows
  rw [h1]
  cases v <;> simp

/-- **C100.** A session with a service is set up only if the service speaks TLS 1.2 or 1.3 and its certificate is signed by
an authority that is trusted. -/
theorem C100_handshake (b0 : Builder) (ok : Bool) (s : Store) (b : Builder) (h : getTlsConnector (some b0) ok s = some b)
    (srv : Server) :
    Accepts b srv ↔ (srv.version = .tls12 ∨ srv.version = .tls13) ∧ Allows b0 srv.version ∧ srv.authority ∈ b.trusted := by
  obtain ⟨h1, -, -, h2⟩ := C100_settings b0 ok s b h
  unfold Accepts
  rw [h2, h1, and_assoc]
  exact ⟨fun h => ⟨h.1, h.2.1, h.2.2 rfl⟩, fun h => ⟨h.1, h.2.1, fun _ => h.2.2⟩⟩

/-- **C100.** With the default storage certificates that cannot be loaded never stand in the way of a connection: there is a
connector iff OpenSSL makes the builder and takes the ciphers. It trusts what OpenSSL trusts, every certificate of each
given path without failures, and nothing but certificates of the given paths. -/
theorem C100_default (b0 : Builder) (ps : List (Bytes × Node)) :
    ∃ b, getTlsConnector (some b0) true (.default ps) = some b
      ∧ (∀ c ∈ b0.trusted, c ∈ b.trusted)
      ∧ (∀ p ∈ ps, Fine p.1 p.2 → ∀ c, HasCert p.1 p.2 c → c ∈ b.trusted)
      ∧ (∀ c ∈ b.trusted, c ∈ b0.trusted ∨ ∃ p ∈ ps, HasCert p.1 p.2 c) := by
  refine ⟨_, rfl, fun c hc => List.mem_append_left _ hc, fun p hp hf c hc => ?_, fun c hc => ?_⟩
  · exact List.mem_append_right _ ((C93_paths ps).1 p hp hf c hc)
  · exact (List.mem_append.1 hc).imp id (C93_only ps c)

/-- **C100.** Without a builder, or if the ciphers are refused, there is no connector: no connection is made with other
settings. -/
theorem C100_none (new : Option Builder) (ok : Bool) (s : Store) (h : new = none ∨ ok = false) :
    getTlsConnector new ok s = none := by
  cases hg : getTlsConnector new ok s with
  | none => rfl
  | some b =>
    obtain ⟨b0, h1, h2, -⟩ := getTlsConnector_eq.1 hg
    rcases h with h | h
    · rw [h] at h1; cases h1
    · rw [h] at h2; cases h2

/-- A builder like the one OpenSSL makes: certificate 1 of the system, SSL 2 and 3 switched off. -/
def exBuilder : Builder := ⟨[.no .ssl2, .no .ssl3], true, asc "DEFAULT", [1], []⟩

/-- `C100_settings`, `C100_default`: there is such a connector, it trusts the system and the three certificates. -/
example : (getTlsConnector (some exBuilder) true (.default [(asc "ca", exDir)])).map (·.trusted) = some [1, 1, 2, 3] := by
  decide +kernel
example : Allows exBuilder .tls13 ∧ Allows exBuilder .tls10 := by unfold Allows; decide

/-- **C101.** The code returned by the function of the application decides: 0 gives a connector, anything else none. -/
theorem C101_code (b0 : Builder) (f : Prog) (calls : List (Call × Int)) (code : Int) (h : Did f calls code) :
    (getTlsConnector (some b0) true (.custom (some f))).isSome = true ↔ code = 0 := by
  have hr := (run_did h { harden b0 with ciphers := cipherList }).1
  rw [Option.isSome_iff_exists]
  constructor
  · rintro ⟨b, hb⟩
    obtain ⟨b1, h1, -, h2⟩ := getTlsConnector_eq.1 hb
    cases h1
    have h2 := (Prod.ext_iff.1 h2).2
    have h2 : decide ((f.run { harden b0 with ciphers := cipherList }).2.2 = 0) = true := h2
    rw [hr] at h2
    exact of_decide_eq_true h2
  · intro hc
    refine ⟨_, getTlsConnector_eq.2 ⟨b0, rfl, rfl, Prod.ext rfl ?_⟩⟩
    show decide ((f.run { harden b0 with ciphers := cipherList }).2.2 = 0) = true
    rw [hr]
    exact decide_eq_true hc

/-- **C101 (partial).** For certificates in files: the connector trusts what OpenSSL trusts and exactly those certificates
the application was told are loaded, whatever calls it makes and however they depend on each other. Missing: the same for
PEM and DER certificates, which is false (`C101_pem_der_ignored`). -/
theorem C101_files_partial (b0 : Builder) (f : Prog) (calls : List (Call × Int)) (h : Did f calls 0) :
    ∃ b, getTlsConnector (some b0) true (.custom (some f)) = some b
      ∧ ∀ c, c ∈ b.trusted ↔ c ∈ b0.trusted ∨ FromFile calls c := by
  obtain ⟨b, hb⟩ := Option.isSome_iff_exists.1 ((C101_code b0 f calls 0 h).2 rfl)
  refine ⟨b, hb, fun c => ?_⟩
  obtain ⟨b1, h1, -, h2⟩ := getTlsConnector_eq.1 hb
  cases h1
  have h2 := (Prod.ext_iff.1 h2).1
  have h2 : (f.run { harden b0 with ciphers := cipherList }).1 = b := h2
  have := (run_did h { harden b0 with ciphers := cipherList }).2 c
  rw [h2] at this
  exact this

/-- **C101 (finding).** A service whose authority is known only from a PEM or DER certificate is refused, although the
application was told, for all its calls, that they succeeded: the certificate goes to the list of the names a *server*
sends to its clients, and not to the trusted certificates. For every application, and every such certificate. -/
theorem C101_pem_der_ignored (b0 b : Builder) (f : Prog) (calls : List (Call × Int)) (h : Did f calls 0) (c : Nat)
    (h0 : c ∉ b0.trusted) (hf : ¬ FromFile calls c) (hb : getTlsConnector (some b0) true (.custom (some f)) = some b)
    (srv : Server) (hs : srv.authority = c) : ¬ Accepts b srv := by
  obtain ⟨b', hb', ht⟩ := C101_files_partial b0 f calls h
  rw [hb] at hb'
  cases hb'
  intro ha
  have := ((C100_handshake b0 true _ b hb srv).1 ha).2.2
  rw [hs] at this
  exact ((ht c).1 this).elim h0 hf

/-- An application that loads a file with two certificates, then the PEM certificate 7, and returns what that returned. -/
def exProg : Prog := .call (.caFile (some [5, 6])) (fun _ => .call (.pem (some 7) true) (fun r => .ret r))

/-- `C101_files_partial`, `C101_pem_der_ignored`: it was told that 5, 6 and 7 are loaded, and 7 is from no file. -/
theorem exProg_did : Did exProg [(.caFile (some [5, 6]), 0), (.pem (some 7) true, 0)] 0 := .good rfl (.good rfl .ret)
example : FromFile [(.caFile (some [5, 6]), 0), (.pem (some 7) true, 0)] 6 := ⟨[5, 6], .head _, by decide⟩

/-- **C101 is false.** The application was told that the certificate 7 is loaded, and it is not trusted. -/
theorem C101_told_false :
    ¬ ∀ (b0 : Builder) (f : Prog) (calls : List (Call × Int)), Did f calls 0 →
      ∃ b, getTlsConnector (some b0) true (.custom (some f)) = some b ∧ ∀ c, Told calls c → c ∈ b.trusted := by
  intro h
  obtain ⟨b, hb, ht⟩ := h exBuilder exProg _ exProg_did
  have h7 := ht 7 (.inr (.inl ⟨true, .tail _ (.head _)⟩))
  have : getTlsConnector (some exBuilder) true (.custom (some exProg)) =
    some { harden exBuilder with ciphers := cipherList, trusted := [1, 5, 6], announced := [7] } := rfl
  rw [this] at hb
  cases hb
  exact absurd h7 (by decide)

end Verif.Trust
