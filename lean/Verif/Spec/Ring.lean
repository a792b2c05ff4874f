/-!
# What a user expects of a channel, without reference to the ring buffer

Only lists of lines are mentioned here.
-/

namespace FNLog.Spec

variable {β : Type}

/-- `out` consists of lines of `lines`, each used at most once (as many times as it was logged). -/
def EachAtMostOnce (lines out : List β) : Prop := ∃ rest, List.Perm (out ++ rest) lines

/-- Every line exactly once, in any order. -/
def EachExactlyOnce (lines out : List β) : Prop := List.Perm out lines

/-- The first lines, in order, nothing skipped. -/
def InOrderPrefix (lines out : List β) : Prop := ∃ rest, out ++ rest = lines

/-- The lines of one thread, in order of appearance. -/
def linesOf (t : Nat) (l : List (Nat × β)) : List β := (l.filter (fun e => e.1 == t)).map Prod.snd

/-- The complete line that belongs to a text. -/
def withEnd (nl : β) (text : List β) : List β := text ++ [nl]

end FNLog.Spec
