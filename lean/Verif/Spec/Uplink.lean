import Verif.Spec.Bytes
import Verif.Spec.Reconnect
/-!
# Vocabulary for the properties of the link to the service
-/
namespace Verif.Spec.Uplink
open Verif

/-- The bytes begin with an answer to REGISTER: a message of protocol version 2 for the control service, 8 bytes long, with
the id 0, of type ACK (0), and with this code. -/
structure Answers (code : Nat) (bs : Bytes) : Prop where
  whole : 19 ≤ bs.length
  version : bs[0]? = some 2
  service : field bs 1 2 = 0
  size : field bs 7 4 = 8
  id : field bs 11 2 = 0
  ack : field bs 13 2 = 0
  code : field bs 15 4 = code

/-- The code with which REGISTER is accepted. -/
def accepted : Nat := 0
/-- The code of a refusal because of the protocol version. -/
def badVersion : Nat := 1
/-- The code of a refusal because the client is not known. -/
def notAuthorized : Nat := 2

end Verif.Spec.Uplink
