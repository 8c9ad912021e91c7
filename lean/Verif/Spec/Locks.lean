import Verif.Model.Locks
/-!
# What an application may do in its callbacks, and what it means that nothing hangs
-/
namespace Verif.Spec.Locks

open Verif.Locks

/-- The callback of a logger does nothing with the client but write to its channels. -/
def QuietLog (m : Log) : Prop := ∀ f ∈ m.cb, f = .command

/-- Code that may call anything, as long as the callbacks of the loggers it uses are quiet. -/
def QuietAct : Act → Prop
  | .call _ => True
  | .log m => QuietLog m

/-- The callback of a storage asks the client for nothing; it may command and log. -/
def StorageAct : Act → Prop
  | .call f => f = .command
  | .log m => QuietLog m

def PoliteStep : CStep → Prop
  | .table _ => True
  | .log m => QuietLog m
  | .storage acts => ∀ a ∈ acts, StorageAct a

def PoliteSub : Sub → Prop
  | .log m => QuietLog m
  | _ => True

/-- The callbacks that run within the operation are polite. The listeners of `setState` may call everything. -/
def Polite : Op → Prop
  | .app a => QuietAct a
  | .client _ subs => ∀ u ∈ subs, PoliteSub u
  | .plain subs => ∀ u ∈ subs, PoliteSub u
  | .session _ => True
  | .context _ steps => ∀ u ∈ steps, PoliteStep u
  | .setState _ steps told => (∀ u ∈ steps, PoliteStep u) ∧ ∀ a ∈ told, QuietAct a
  | .capture _ => True

/-- Every callback of every operation of every thread is polite. -/
def AllPolite (threads : List (List Op)) : Prop := ∀ ops ∈ threads, ∀ o ∈ ops, Polite o

/-- Every thread ran all of its code and holds nothing. -/
def Done (s : List Thread) : Prop := ∀ t ∈ s, t.rest = [] ∧ t.held = []

/-- Some thread has something to do and no thread can make a step. -/
def Deadlock (s : List Thread) : Prop := (∃ t ∈ s, t.rest ≠ []) ∧ ∀ i, step s i = none

/-- How many steps are still to be made. -/
def todo (s : List Thread) : Nat := (s.map fun t => t.rest.length).sum

end Verif.Spec.Locks
