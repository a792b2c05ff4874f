/-! # What the statistics of a channel should be -/

namespace FNLog.Spec

/-- `m` is the largest number of the list, or `z` if none is larger than `z`. -/
def LargestOf {β : Type} [LE β] (z : β) (l : List β) (m : β) : Prop :=
  z ≤ m ∧ (∀ n ∈ l, n ≤ m) ∧ (m = z ∨ m ∈ l)

/-- Sum of the lengths of the lines with the given priority. -/
def lengthOf {γ : Type} (prio len : γ → Nat) (p : Nat) : List γ → Nat
  | [] => 0
  | l :: ls => (if prio l = p then len l else 0) + lengthOf prio len p ls

end FNLog.Spec
