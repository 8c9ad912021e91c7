import Verif.Model.RawRead
/-!
# Specification: reads stay within the data

Nothing here refers to how a parser works.
-/
namespace Verif.Spec.RawRead

open Verif.RawRead (Mem Slice Out)

/-- The data are in memory at an address. Other addresses may hold anything or nothing. -/
def Holds (m : Mem) (p : Nat) (data : Bytes) : Prop :=
  ∀ i b, data[i]? = some b → m (p + i) = some b

/-- Memory that consists of the data at an address and of nothing else: every other address is not to be read. -/
def only (p : Nat) (data : Bytes) : Mem := fun a => if p ≤ a then data[a - p]? else none

/-- The slice over the whole of the data, in a memory. -/
def slice (m : Mem) (p : Nat) (data : Bytes) : Slice := ⟨m, p, data.length⟩

/-- A parser reads no byte outside of the data it is given: it never reads an address that holds none of them. -/
def StaysWithin {α : Type} (parse : Slice → Out α) : Prop :=
  ∀ (p : Nat) (data : Bytes), parse (slice (only p data) p data) ≠ .fault

/-- What a parser does is a matter of the data alone: neither of their address nor of what lies around them. -/
def DependsOnlyOnData {α : Type} (parse : Slice → Out α) : Prop :=
  ∀ (m m' : Mem) (p p' : Nat) (data : Bytes), Holds m p data → Holds m' p' data →
    parse (slice m p data) = parse (slice m' p' data)

end Verif.Spec.RawRead
