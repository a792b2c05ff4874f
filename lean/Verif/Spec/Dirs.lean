import Verif.Model.Dirs

/-!
# What the properties of directories say
-/

namespace FNLog.Spec
open FNLog

/-- Whatever exists in the first tree exists unchanged in the second one. -/
def Keeps (t t' : Tree) : Prop := ∀ l e, t l = some e → t' l = some e

/-- The other processes remove and change nothing. -/
def Polite (w : World) : Prop := ∀ k t, Keeps t (w k t)

/-- The root is a directory and everything is inside a directory. -/
def WellFormed (t : Tree) : Prop := t.isDir [] = true ∧ ∀ l c e, t (l ++ [c]) = some e → t.isDir l = true

/-- The place a path speaks of, read off its text. -/
def placeOf (cwd : Loc) (p : List Char) : Loc := (rawComps p).foldl descend (startOf cwd p)

/-- `a` is the text in front of one of the `/` of the path. -/
def DirPrefix (a path : List Char) : Prop := a ≠ [] ∧ ∃ b, path = a ++ '/' :: b

end FNLog.Spec
