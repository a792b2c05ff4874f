import Verif.Model.Ring
import Verif.Spec.Ring

/-!
# Executions that go on for ever

Specification for C100: infinite schedules, and what is fair.
-/

namespace FNLog.Spec
open FNLog.Ring

variable {α : Type}

/-- The first `n` events of an infinite schedule. -/
def upTo (σ : Nat → Ev α) (n : Nat) : List (Ev α) := (List.range n).map σ

/-- The state in front of event `n`. -/
def stateAt (c : Cfg α) (σ : Nat → Ev α) (n : Nat) : St α := run c (init c) (upTo σ n)

/-- The operating system is fair: a thread that is inside a log statement, or is the thread of the channel, makes a
further step at some time. -/
def Fair (c : Cfg α) (σ : Nat → Ev α) : Prop :=
  ∀ t n, (stateAt c σ n).pc t ≠ .idle → ∃ m, n ≤ m ∧ σ m = .run t

/-- `p` holds from some time on. -/
def Eventually (p : Nat → Prop) : Prop := ∃ m, ∀ n, m ≤ n → p n

end FNLog.Spec
