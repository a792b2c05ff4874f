/-!
# What a device should get from its UDP input
-/

namespace FNLog.Spec

/-- The text of a datagram: its bytes; if it fills the record of `N` bytes it is cut and ended. -/
def gramText (N : Nat) (d : List Char) : List Char := if d.length < N then d else d.take (N - 2) ++ ['\n', '\x00']

/-- The texts of datagrams; there is nothing to output for an empty one. -/
def gramTexts (N : Nat) (l : List (List Char)) : List (List Char) := (l.filter fun d => !d.isEmpty).map (gramText N)

/-- Of the datagrams `kept`, in this order, some have been output, each once, and `waiting` are still to be output, in this order; the others
are `gone`. -/
def Received (N : Nat) (kept waiting gone out : List (List Char)) : Prop :=
  ∃ taken, out = gramTexts N taken ∧ (taken ++ waiting).Sublist kept ∧ kept.Perm (taken ++ waiting ++ gone)

/-- Each of the times is at least `gap` after the one before it. -/
def SpacedBy (gap : Int) : List Int → Prop
  | a :: b :: l => a + gap ≤ b ∧ SpacedBy gap (b :: l)
  | _ => True

/-- How many datagrams one round takes: to the first empty one, at most `n`. -/
def roundTakes : Nat → List (List Char) → Nat
  | 0, _ => 0
  | _ + 1, [] => 0
  | n + 1, d :: q => if d.isEmpty then 1 else 1 + roundTakes n q

end FNLog.Spec
