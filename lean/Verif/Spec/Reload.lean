import Verif.Spec.Recover

/-!
# What becomes of an unfinished log when the processes that complete it are killed as well
-/

namespace FNLog.Spec

/-- The texts killed processes can make of an unfinished log `t` in a record of `size` bytes: nothing has
happened, or one more process has appended the marker, perhaps with the byte behind it. -/
inductive Marked (size : Nat) (t : List Char) : List Char → Prop
  | none : Marked size t t
  | more {t' tail : List Char} : Marked size t t' → tail.length ≤ 1 →
      Marked size t (t'.take (size - 20) ++ "!!!core recover!!!".toList ++ tail)

/-- Slot `j` of a ring lies from index `w` on and before index `h`. -/
def Between (w h j : Int) : Prop := if w ≤ h then w ≤ j ∧ j < h else w ≤ j ∨ j < h

end FNLog.Spec
