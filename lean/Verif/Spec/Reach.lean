import Verif.Model.Flush
import Verif.Spec.Threads

/-!
# Executions of a channel that go on for ever

Specification for C106: infinite schedules of log statements and steps of threads, with buffered files.
-/

namespace FNLog.Spec

/-- The first `n` events of an infinite schedule. -/
def firstActs (σ : Nat → Act) (n : Nat) : List Act := (List.range n).map σ

/-- The channel is in state `f` in front of event `n`. -/
def FAt (S : Setup) (B : Stdio) (o : OutSt) (σ : Nat → Act) (n : Nat) (f : FCrew) : Prop :=
  fActs S B (firstActs σ n) (fCrew S o) = some f

/-- The callers keep their obligations, no compare-and-swap succeeds although its index went round the ring (see C12), nobody
stops the channel, and the operating system is fair: a thread that is inside a log statement, or is the thread of the channel,
makes a further step at some time. -/
structure FEndless (S : Setup) (B : Stdio) (o : OutSt) (σ : Nat → Act) : Prop where
  sound : ∀ n, SoundAct S (σ n)
  onTime : ∀ n, FOnTime S B (firstActs σ n) (fCrew S o)
  noStop : ∀ n, (σ n).noStop
  fair : ∀ t n f, FAt S B o σ n f → f.crew.ring.pc t ≠ .idle → ∃ m, n ≤ m ∧ σ m = .run t

end FNLog.Spec
