import Verif.Model.Loggers
import Verif.Spec.Logger
/-!
# Specification of the loggers: levels as a function of the history

Histories are given with the newest step first. Handles are numbered in the order in which they are made.
-/
namespace Verif.Spec.Loggers
open Verif Verif.Log Verif.Loggers Verif.Spec.Log

/-- The number of handles after a history. -/
def made : List Op → Nat
  | [] => 0
  | .new _ :: past => made past + 1
  | .clone h :: past => if h < made past then made past + 1 else made past
  | _ :: past => made past

/-- The first original of a handle: the handle it was cloned from, and so on. -/
def original : List Op → Nat → Nat
  | [], h => h
  | .clone g :: past, h => if h = made past ∧ g < made past then original past g else original past h
  | _ :: past, h => original past h

/-- The kind of a handle. -/
def kind : List Op → Nat → Option Kind
  | [], _ => none
  | .new k :: past, h => if h = made past then some k else kind past h
  | .clone g :: past, h => if h = made past ∧ g < made past then kind past g else kind past h
  | _ :: past, h => kind past h

/-- The level of a handle: what was last set for it; for callback loggers, what was last set for any clone of the same
original. A clone starts with the level of what it was cloned from. -/
def level : List Op → Nat → Severity
  | [], _ => .info
  | .new k :: past, h => if h = made past then (if k = .dummy then .debug else .info) else level past h
  | .clone g :: past, h => if h = made past ∧ g < made past then level past g else level past h
  | .setLevel g s :: past, h =>
    if g < made past ∧ (g = h ∨ (kind past h = some .callback ∧ original past g = original past h)) then s else level past h
  | .log _ _ _ :: past, h => level past h

/-- What a C program reads: the bytes up to the first NUL. -/
def readC (memory : Bytes) : Bytes := memory.takeWhile (· ≠ 0)

/-- The number of the color of a severity: grey, white, yellow, red. -/
def paint : Severity → Bytes
  | .debug => asc "1;30"
  | .info => asc "0;37"
  | .warn => asc "0;33"
  | .error => asc "0;31"

/-- The line of a message between the escape sequences for its color and for no color. -/
def colored (m : Msg) : Bytes :=
  [0x1b, 0x5b] ++ paint m.severity ++ [0x6d] ++ (line m).dropLast ++ [0x1b, 0x5b, 0x6d, 0x0a]

/-- The priorities of `syslog.h`: LOG_ERR, LOG_WARNING, LOG_INFO and LOG_DEBUG. -/
def sysPriority : Severity → Nat
  | .error => 3
  | .warn => 4
  | .info => 6
  | .debug => 7

/-- The place and the text of a message. -/
def place (m : Msg) : Bytes := [0x5b] ++ m.file ++ [0x3a] ++ m.line ++ [0x5d, 0x20] ++ m.text

/-- `out` is a text in which every NUL of `s` is replaced by a backslash and a zero. -/
inductive Escaped : Bytes → Bytes → Prop where
  | nil : Escaped [] []
  | nul {s out} : Escaped s out → Escaped (0 :: s) (0x5c :: 0x30 :: out)
  | other {b s out} : b ≠ 0 → Escaped s out → Escaped (b :: s) (b :: out)

end Verif.Spec.Loggers
