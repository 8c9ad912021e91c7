import Verif.Spec.Config
/-!
# The identity file
-/
namespace Verif.Spec.Identity
open Verif Verif.SvcTable Verif.Config Verif.Spec.Config

/-- The JSON object with the UUID as its only member. -/
def publicIdentity (E : Env) (uuid : Bytes) : Json := .obj [(asc "uuid", .str (E.formatUuid uuid))]

/-- The file is a JSON object whose only member is `uuid`, a text of this UUID. -/
def Names (E : Env) (file : Option Bytes) (uuid : Bytes) : Prop :=
  ∃ data text, file = some data ∧ E.parse data = some (.obj [(asc "uuid", .str text)]) ∧ E.parseUuid text = some uuid

/-- The identity file is written whenever the client is started. -/
def IdentityWritten : Op → Prop
  | .start a => a.outIdentity = .ok
  | _ => True

end Verif.Spec.Identity
