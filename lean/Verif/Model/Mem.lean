/-!
# Raw memory

Bytes are `Char`s. A write outside of a buffer is undefined behaviour (`none` / `Out.ub`).
-/

namespace FNLog

/-- Outcome of a computation on raw memory: a value, undefined behaviour, or a loop that has not ended
within the given number of rounds. -/
inductive Out (β : Type) where
  | val (x : β)
  | ub
  | running
deriving DecidableEq, Repr

/-- Overwrite `b[off .. off + s.length)`; writing outside of the buffer is undefined behaviour. -/
def writeAt (b : List Char) (off : Nat) (s : List Char) : Option (List Char) :=
  if off + s.length ≤ b.length then some (b.take off ++ s ++ b.drop (off + s.length)) else none

end FNLog
