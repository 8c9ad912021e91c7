import Verif.Model.Storage
/-!
# Model of the TLS settings and of the certificates of authorities

Source: /repo/src/config.rs (83-85, 1031-1063), /repo/src/exports/storage/ca.rs, /repo/src/exports/storage/custom.rs
(177-190), /repo/src/storage.rs (354-371).

OpenSSL is not modelled: the builder is what the code sets in it. Whether it can parse a certificate is an input.
Certificates are numbers.
-/
namespace Verif.Trust
open Verif Verif.Storage

/-- The versions of the protocol (config.rs:1044-1047). -/
inductive Version where
  | ssl2
  | ssl3
  | tls10
  | tls11
  | tls12
  | tls13
deriving DecidableEq

/-- The options of OpenSSL that matter here: no compression; a version is switched off (config.rs:1043-1047). -/
inductive Opt where
  | noCompression
  | no (v : Version)
deriving DecidableEq

/-- An `SslConnectorBuilder` (config.rs:1034): its options, whether the certificate of the peer is verified, the ciphers,
the certificates the peer is verified against, and the list of the authorities that is sent to a peer when its
certificate is requested (`add_client_ca`, which is for servers). -/
structure Builder where
  options : List Opt
  verify : Bool
  ciphers : Bytes
  trusted : List Nat
  announced : List Nat
deriving DecidableEq

/-- `SSL_CIPHER_LIST` (config.rs:84-85). -/
def cipherList : Bytes := asc "HIGH:!aNULL:!kRSA:!PSK:!MD5:!RC4"

/-- The options and the verification (config.rs:1041-1051). `set_options` adds to the options. -/
def harden (b : Builder) : Builder :=
  { b with
    options := .no .tls11 :: .no .tls10 :: .no .ssl3 :: .no .ssl2 :: .noCompression :: b.options
    verify := true }

/-! ## The C interface -/

/-- A call of the application on the builder (ca.rs:26-70): a file, with what OpenSSL loads from it; a PEM or a DER
certificate, with what it is parsed to, and whether OpenSSL can add it. -/
inductive Call where
  | caFile (certs : Option (List Nat))
  | pem (cert : Option Nat) (added : Bool)
  | der (cert : Option Nat) (added : Bool)
deriving DecidableEq

/-- `libc::EINVAL` (ca.rs:35). -/
def EINVAL : Int := 22

/-- `ac__ca_cert_storage__load_ca_file`, `…__load_pem` and `…__load_der` (ca.rs:26-70): the builder and the return value. -/
def Builder.call (b : Builder) : Call → Builder × Int
  | .caFile (some cs) => ({ b with trusted := b.trusted ++ cs }, 0)
  | .caFile none => (b, EINVAL)
  | .pem (some c) true => ({ b with announced := b.announced ++ [c] }, 0)
  | .pem (some _) false => (b, EINVAL)
  | .pem none _ => (b, EINVAL)
  | .der (some c) true => ({ b with announced := b.announced ++ [c] }, 0)
  | .der (some _) false => (b, EINVAL)
  | .der none _ => (b, EINVAL)

/-- The function of the application that loads the certificates (custom.rs:45-46): its calls, which may depend on what
the calls before returned, and its return value. -/
inductive Prog where
  | ret (code : Int)
  | call (c : Call) (next : Int → Prog)

/-- Running it (custom.rs:182): the builder, the calls with what they returned, and the return value. -/
def Prog.run (b : Builder) : Prog → Builder × List (Call × Int) × Int
  | .ret code => (b, [], code)
  | .call c next =>
    let r := b.call c
    let s := (next r.2).run r.1
    (s.1, (c, r.2) :: s.2.1, s.2.2)

/-- A storage as far as certificates go: the default one with its paths (storage.rs:354-371), or the one of the C
interface, with or without a function (custom.rs:177-190). -/
inductive Store where
  | default (paths : List (Bytes × Node))
  | custom (f : Option Prog)

/-- `Storage::load_ca_certificates` (storage.rs:354-371, custom.rs:177-190): the builder, and whether it succeeds. -/
def Store.load (b : Builder) : Store → Builder × Bool
  | .default ps => ({ b with trusted := b.trusted ++ (loadAll ps).1 }, true)
  | .custom none => (b, true)
  | .custom (some f) => let r := f.run b; (r.1, r.2.2 = 0)

/-- `Config::get_tls_connector` (config.rs:1031-1063). `new`: what `SslConnector::builder` returns, `none` is an error;
`ciphersOk`: OpenSSL accepts the list of ciphers. `none` is an error: the connection is not tried (arrow/mod.rs:681-683). -/
def getTlsConnector (new : Option Builder) (ciphersOk : Bool) (s : Store) : Option Builder :=
  match new with
  | none => none
  | some b =>
    if ciphersOk then
      let r := s.load { harden b with ciphers := cipherList }
      if r.2 then some r.1 else none
    else none

end Verif.Trust
