import Verif.Model.Trust
/-!
# Specification of the TLS settings and the trusted certificates
-/
namespace Verif.Spec.Trust
open Verif Verif.Trust Verif.Storage

/-- The version of the protocol may be used. -/
def Allows (b : Builder) (v : Version) : Prop := Opt.no v ∉ b.options

/-- The server a connection leads to: the version it speaks, and the authority that signed its certificate. -/
structure Server where
  version : Version
  authority : Nat

/-- What OpenSSL does with such a server in the handshake: it refuses a version that is switched off and, when the peer is
verified, an authority that is not trusted. (The name in the certificate is C97.) -/
def Accepts (b : Builder) (s : Server) : Prop := Allows b s.version ∧ (b.verify = true → s.authority ∈ b.trusted)

/-- What the function of the application did, from the builder `b`: the calls it made, what they returned, and the code it
returned in the end. A call fails with `EINVAL` (22) iff OpenSSL cannot use what it is given. -/
inductive Did : Prog → List (Call × Int) → Int → Prop where
  | ret {code : Int} : Did (.ret code) [] code
  | good {c : Call} {next : Int → Prog} {l : List (Call × Int)} {code : Int} :
      (c matches .caFile (some _) | .pem (some _) true | .der (some _) true) = true →
      Did (next 0) l code → Did (.call c next) ((c, 0) :: l) code
  | bad {c : Call} {next : Int → Prog} {l : List (Call × Int)} {code : Int} :
      (c matches .caFile (some _) | .pem (some _) true | .der (some _) true) = false →
      Did (next 22) l code → Did (.call c next) ((c, 22) :: l) code

/-- The application was told that the certificate `c` is loaded. -/
def Told (calls : List (Call × Int)) (c : Nat) : Prop :=
  (∃ cs, (Call.caFile (some cs), 0) ∈ calls ∧ c ∈ cs)
  ∨ (∃ a, (Call.pem (some c) a, 0) ∈ calls)
  ∨ (∃ a, (Call.der (some c) a, 0) ∈ calls)

/-- The certificate `c` was in a file that was loaded. -/
def FromFile (calls : List (Call × Int)) (c : Nat) : Prop := ∃ cs, (Call.caFile (some cs), 0) ∈ calls ∧ c ∈ cs

end Verif.Spec.Trust
