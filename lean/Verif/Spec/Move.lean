import Verif.Model.Move

/-! # What programs with stream objects are to do -/

namespace FNLog.Spec
open Move (Act)

/-- The objects that exist after a step, if it is one that C++ allows: objects are constructed where there is none, and used and destroyed
where there is one. -/
def aliveStep {V : Type} (alive : List Nat) : Act V → Option (List Nat)
  | .make i _ => if i ∈ alive then none else some (i :: alive)
  | .move i j => if i ∈ alive ∧ j ∉ alive then some (j :: alive) else none
  | .put i _ => if i ∈ alive then some alive else none
  | .drop i => if i ∈ alive then some (alive.filter (· ≠ i)) else none

/-- The objects that exist after a program. -/
def aliveAfter {V : Type} : List Nat → List (Act V) → Option (List Nat)
  | l, [] => some l
  | l, a :: as => (aliveStep l a).bind fun l => aliveAfter l as

/-- What is streamed to the statement that object `i` holds: it goes over to the object that is move-constructed from `i`. -/
def operands {V : Type} (i : Nat) : List (Act V) → List V
  | [] => []
  | .make _ _ :: as => operands i as
  | .put j v :: as => if j = i then v :: operands i as else operands i as
  | .move a b :: as => if a = i then operands b as else operands i as
  | .drop j :: as => if j = i then [] else operands i as

/-- The statement that object `i` holds comes to its end. -/
def ends {V : Type} (i : Nat) : List (Act V) → Bool
  | [] => false
  | .make _ _ :: as => ends i as
  | .put _ _ :: as => ends i as
  | .move a b :: as => if a = i then ends b as else ends i as
  | .drop j :: as => if j = i then true else ends i as

/-- The number of statements that are let in. -/
def letIn {V : Type} (as : List (Act V)) : Nat := as.countP fun | .make _ (some _) => true | _ => false

end FNLog.Spec
