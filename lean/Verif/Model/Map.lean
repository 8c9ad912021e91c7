/-!
# Finite maps

`std::collections::HashMap` (not part of /repo) as an association list: `get`, `insert` (replaces the
value of an equal key), `remove`, and the list itself for iteration. The real iteration order is
unspecified; theorems do not depend on it unless they say so.
-/
namespace Verif

/-- A map from `κ` to `β` (`HashMap<K, V>`) (the standard library). -/
abbrev AMap (κ β : Type) := List (κ × β)

namespace AMap
variable {κ β : Type} [DecidableEq κ]

/-- `HashMap::get` (the standard library). -/
def get (m : AMap κ β) (k : κ) : Option β := (m.find? (fun p => p.1 = k)).map (·.2)

/-- `HashMap::remove` (the map that is left) (the standard library). -/
def remove (m : AMap κ β) (k : κ) : AMap κ β := m.filter (fun p => ¬ p.1 = k)

/-- `HashMap::insert` (the standard library). -/
def insert (m : AMap κ β) (k : κ) (v : β) : AMap κ β := m.remove k ++ [(k, v)]

/-- The keys of a map (the standard library). -/
def keys (m : AMap κ β) : List κ := m.map (·.1)

end AMap
end Verif
