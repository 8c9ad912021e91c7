import Verif.Spec.Bytes
import Verif.Model.Client
/-!
# The number of open sessions, as it can be observed
-/
namespace Verif.Spec.Status
open Verif Verif.Client Verif.Session

/-- A session is opened. -/
def isOpening : NEv → Bool
  | .ev (.mgr (.opened ..)) => true
  | _ => false

/-- A session is over: hung up by the server, or ended with a HUP to the server. -/
def isEnding : NEv → Bool
  | .ev (.mgr (.hungUp _)) => true
  | .ev (.mgr (.ended _ _)) => true
  | _ => false

/-- Request `req` was the last thing that happened: an accepted GET_STATUS (control service, type 8) with this id. -/
def Asked (before : List NEv) (req : UInt16) : Prop :=
  ∃ m : Wire.Message, before.getLast? = some (.ev (.got m .ok)) ∧ m.header.service = 0 ∧
    field m.payload 2 2 = 8 ∧ field m.payload 0 2 = req.toNat

/-- `n` sessions are open: so many more were opened than are over. -/
def OpenNow (before : List NEv) (n : Nat) : Prop :=
  before.countP isOpening = before.countP isEnding + n

end Verif.Spec.Status
