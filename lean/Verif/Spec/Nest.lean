import Verif.Model.Nest
import Verif.Spec.Live

/-!
# Statements inside of statements that go on for ever

Specification for C113.
-/

namespace FNLog.Spec
open FNLog.Nest FNLog.Ring

variable {α : Type}

/-- The state in front of event `n`. -/
def nestAt (c : Nat → Cfg α) (σ : Nat → NEv α) : Nat → Nested α
  | 0 => ninit c
  | n + 1 => nstep c (nestAt c σ n) (σ n)

/-- The operating system is fair to the threads that log and to those of the channels. -/
structure NestFair (c : Nat → Cfg α) (σ : Nat → NEv α) : Prop where
  threads : ∀ t n, (nestAt c σ n).stack t ≠ [] → ∃ m, n ≤ m ∧ σ m = .run t
  workers : ∀ i n, (c i).async = true → ∃ m, n ≤ m ∧ σ m = .work i

/-- No compare-and-swap succeeds although its index went round the ring since it was loaded (C12). -/
def NestTimely (c : Nat → Cfg α) (σ : Nat → NEv α) : Prop :=
  ∀ n i e, ringEv (nestAt c σ n) i (σ n) = some e → timelyEv (c i) ((nestAt c σ n).ring i) e

/-- The channels are in an order, and a statement inside of others is on a channel in front of theirs. -/
def Ranked (rank : Nat → Nat) (c : Nat → Cfg α) (σ : Nat → NEv α) : Prop :=
  ∀ n t i b, σ n = .log t i b → ∀ j ∈ (nestAt c σ n).stack t, rank i < rank j

end FNLog.Spec
