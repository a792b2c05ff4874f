/-!
# What a user expects of crash recovery, without reference to indices or memory
-/

namespace FNLog.Spec

/-- The line an unfinished log becomes: what had been written (its tail cut off if the marker would not
fit into a record of `size` bytes), the marker, a line end. -/
def recoveredLine (size : Nat) (written : List Char) : List Char :=
  written.take (size - 20) ++ "!!!core recover!!!".toList ++ ['\n']

end FNLog.Spec
