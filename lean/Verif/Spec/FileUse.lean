/-!
# What one output does to the stream of a file device
-/

namespace FNLog.Spec

/-- How the operating system and the device decide during one output. -/
structure FileAnswers where
  /-- the device refuses the record while the file is closed -/
  refused : Bool
  rotate : Bool
  nameTooLong : Bool
  opens : Bool
  stat : Bool
  wholeWrite : Bool

/-- The stream after the rotation: none, or the one before. -/
def keptStream (a : FileAnswers) (f : Option Nat) : Option Nat := if a.rotate then none else f

/-- The stream the text goes to: the one kept, or a new one. -/
def targetStream (a : FileAnswers) (f : Option Nat) (new : Nat) : Option Nat :=
  match keptStream a f with
  | some g => some g
  | none => if !a.nameTooLong && a.opens && a.stat then some new else none

/-- The stream after one output of `x`, and what was handed to `fwrite`. -/
def fileCall (a : FileAnswers) (f : Option Nat) (new : Nat) (x : List Char) : Option Nat × List (Nat × List Char) :=
  if f = none ∧ a.refused then (none, [])
  else match targetStream a f new with
    | none => (none, [])
    | some g => if x = [] then (some g, []) else (if a.wholeWrite then some g else none, [(g, x)])

end FNLog.Spec
