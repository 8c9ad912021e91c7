import Verif.Spec.Uplink
import Verif.Spec.Storage
import Verif.Model.Secure
/-!
# Vocabulary for the servers the client identifies itself to
-/
namespace Verif.Spec.Secure
open Verif Verif.Secure Verif.Spec

/-- `h` is the host in the address `a`, which is `h` or `h:p`. -/
def Host (a h : Bytes) : Prop := (58 ∉ a ∧ h = a) ∨ ∃ p, 58 ∉ p ∧ a = h ++ 58 :: p

/-- An authority the client was told to trust: by OpenSSL itself, by a file in one of the directories or files of the
storage, or by a file the application has loaded. -/
def Authority (new : Option Trust.Builder) (s : Trust.Store) (c : Nat) : Prop :=
  (∃ b, new = some b ∧ c ∈ b.trusted) ∨
  match s with
  | .default paths => ∃ p ∈ paths, Storage.HasCert p.1 p.2 c
  | .custom none => False
  | .custom (some f) => ∃ calls, Trust.Did f calls 0 ∧ Trust.FromFile calls c

/-- The server speaks TLS 1.2 or 1.3 and has a certificate for the host in the address `a`, signed by an authority the client
trusts. -/
def Genuine (k : Trial) (a : Bytes) (p : Peer) : Prop :=
  (p.server.version = .tls12 ∨ p.server.version = .tls13) ∧ Authority k.new k.store p.server.authority ∧
    ∃ h, Host a h ∧ h ∈ p.names

/-- The bytes begin with a whole message of `n` bytes. -/
def Whole (bs : Bytes) (n : Nat) : Prop := 11 ≤ bs.length ∧ bs[0]? = some 2 ∧ n = 11 + field bs 7 4 ∧ n ≤ bs.length

/-- One of the messages at the beginning of the bytes is such. -/
inductive Contains (P : Bytes → Prop) : Bytes → Prop
  | here {bs : Bytes} {n : Nat} : Whole bs n → P (bs.take n) → Contains P bs
  | later {bs : Bytes} {n : Nat} : Whole bs n → Contains P (bs.drop n) → Contains P bs

/-- A REDIRECT message: for the control service, of type 3, with the target and a zero. -/
def RedirectTo (a : Bytes) (m : Bytes) : Prop := field m 1 2 = 0 ∧ field m 13 2 = 3 ∧ m.drop 15 = a ++ [0]

/-- The client has a reason to try `a` in the attempt number `i`: it is the configured address, or the target of a REDIRECT
sent in the attempt before, by a genuine server for the address of that attempt, which had accepted the client, and for whose
address there was a reason as well. -/
inductive Vouched (addr : Bytes) (trials : Nat → Trial) : Nat → Bytes → Prop
  | configured (i : Nat) : Vouched addr trials i addr
  | redirected {i j t : Nat} {a a' : Bytes} : Vouched addr trials i a →
      Tls.connect (trials i).call.net = (.connected j, t) → Genuine (trials i) a ((trials i).peers j) →
      Uplink.Answers Uplink.accepted (trials i).call.chunks.flatten →
      Contains (RedirectTo a') (trials i).call.chunks.flatten → Vouched addr trials (i + 1) a'

end Verif.Spec.Secure
