import Verif.Model.Api

/-!
# Sessions

Specification for C104, C105: what a logger is for its users, and infinite schedules.
-/

namespace FNLog.Spec
open FNLog.Api

/-- The life of a logger: nothing is loaded, or it is stopped, or it runs. -/
inductive Life where
  | empty | stopped | running
deriving DecidableEq, Repr

/-- A configuration is loaded while the logger does not run; a logger with a configuration is started; a running logger is stopped. -/
inductive Moves : Life → Done → Life → Prop where
  | load (t : Nat) : Moves .empty (.loaded t) .stopped
  | reload (t : Nat) : Moves .stopped (.loaded t) .stopped
  | start (t : Nat) : Moves .stopped (.started t) .running
  | stop (t : Nat) : Moves .running (.stopped t) .stopped

/-- A history of such moves, from `a` to `b`. -/
inductive Sessions : Life → List Done → Life → Prop where
  | nil (a : Life) : Sessions a [] a
  | snoc {a b c : Life} {ds : List Done} {d : Done} : Sessions a ds b → Moves b d c → Sessions a (ds ++ [d]) c

/-- The first `n` events of an infinite schedule lead from the constructor to here. -/
def apiAt (σ : Nat → Api.Ev) (n : Nat) : Api.St := Api.run {} ((List.range n).map σ)

/-- The operating system is fair: every thread that is inside a call, and every thread of a channel, makes a further step at some time. -/
structure ApiFair (σ : Nat → Api.Ev) : Prop where
  call : ∀ t n, (apiAt σ n).pc t ≠ .idle → ∃ m e, n ≤ m ∧ σ m = .run t e
  work : ∀ i n, (apiAt σ n).worker i ≠ .none → (apiAt σ n).worker i ≠ .ended → ∃ m e, n ≤ m ∧ σ m = .work i e

/-- From some time on the threads of the channels find their queues empty (for this see C101). -/
def Drained (σ : Nat → Api.Ev) : Prop := ∃ k, ∀ m i e, k ≤ m → σ m = .work i e → e.more = false

end FNLog.Spec
