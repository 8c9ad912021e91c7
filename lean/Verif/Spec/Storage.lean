import Verif.Model.Storage
/-!
# Specification of the files with paths, of the certificates and of the state file
-/
namespace Verif.Spec.Storage
open Verif Verif.Storage
open Verif.Reconnect (ConnState)

/-- A text with its lines. A line ends with `\n` or `\r\n`; the last one may have no end. -/
inductive TextFile : Bytes → List Bytes → Prop where
  | empty : TextFile [] []
  | last {l : Bytes} : 10 ∉ l → l ≠ [] → TextFile l [l]
  | lf {l bs : Bytes} {ls : List Bytes} : 10 ∉ l → l.getLast? ≠ some 13 → TextFile bs ls → TextFile (l ++ 10 :: bs) (l :: ls)
  | crlf {l bs : Bytes} {ls : List Bytes} : 10 ∉ l → TextFile bs ls → TextFile (l ++ 13 :: 10 :: bs) (l :: ls)

/-- A comment begins with `#`. -/
def Comment (l : Bytes) : Prop := ∃ t, l = 35 :: t

instance : DecidablePred Comment := fun l =>
  match l with
  | [] => .isFalse (by rintro ⟨t, h⟩; cases h)
  | b :: t => if h : b = 35 then .isTrue ⟨t, by rw [h]⟩ else .isFalse (by rintro ⟨u, e⟩; injection e with e _; exact h e)

/-- The same letter, of any case; the second one is a small letter. -/
def SameLetter (x y : UInt8) : Prop := x = y ∨ x.toNat + 32 = y.toNat

/-- A file name that ends with `.der`, `.cer`, `.crt` or `.pem`, in any case, with something before it. -/
def CertName (name : Bytes) : Prop :=
  ∃ before x y z, name = before ++ [46, x, y, z] ∧ before ≠ [] ∧
    ∃ e ∈ ["der", "cer", "crt", "pem"], ∃ a b c, asc e = [a, b, c] ∧ SameLetter x a ∧ SameLetter y b ∧ SameLetter z c

/-- An entry of a directory that is listed before any failure of the listing. -/
inductive Lists : Entries → Bytes → Node → Prop where
  | here {name : Bytes} {n : Node} {rest : Entries} : Lists (.item name n rest) name n
  | later {name m : Bytes} {n x : Node} {rest : Entries} : Lists rest m x → Lists (.item name n rest) m x

/-- The whole directory can be listed. -/
inductive Complete : Entries → Prop where
  | done : Complete .done
  | item {name : Bytes} {n : Node} {rest : Entries} : Complete rest → Complete (.item name n rest)

/-- What is in a tree: the node itself, and what is in the directories, at any depth. -/
inductive Within : Bytes → Node → Bytes → Node → Prop where
  | here {name : Bytes} {n : Node} : Within name n name n
  | under {name m k : Bytes} {es : Entries} {n x : Node} : Lists es m n → Within m n k x → Within name (.dir es) k x

/-- Nothing in the tree fails: every directory can be listed, every certificate file can be loaded. -/
def Fine (name : Bytes) (n : Node) : Prop :=
  ∀ k x, Within name n k x →
    x ≠ .unreadable ∧ (∀ es, x = .dir es → Complete es) ∧ (CertName k → x ≠ .file none)

/-- The certificate `c` is in a certificate file of the tree. -/
def HasCert (name : Bytes) (n : Node) (c : Nat) : Prop :=
  ∃ k cs, Within name n k (.file (some cs)) ∧ CertName k ∧ c ∈ cs

/-- The writes of a history, in order: the state, and what became of the write. -/
def writes (evs : List Ev) : List (ConnState × Config.Out) :=
  evs.filterMap fun | .saved s o => some (s, o) | _ => none

/-- The state of the client after an event; `none`: no client runs. -/
def next (_ : Option ConnState) : Ev → Option ConnState
  | .started => some .disconnected
  | .ended => none
  | .saved s _ => some s

/-- The state of the client after a history that begins without a client. -/
def state (evs : List Ev) : Option ConnState := evs.foldl next none

/-- The line that stands for a state. -/
def line : ConnState → Bytes
  | .connected => asc "connected" ++ [10]
  | .disconnected => asc "disconnected" ++ [10]
  | .unauthorized => asc "unauthorized" ++ [10]

/-- The process ended during the write. -/
def Crash (o : Config.Out) : Prop := o = .crashBefore ∨ ∃ n, o = .crash n

/-- A write that was not cut short. -/
def Whole (o : Config.Out) : Prop := o = .ok ∨ o = .notCreated ∨ o = .crashBefore

end Verif.Spec.Storage
