import Verif.Model.Share
import Verif.Spec.ApiLog

/-!
# Taking turns

Specification for C115.
-/

namespace FNLog.Spec
open FNLog.Api

/-- The logger of the process is not started, and the process is outside of it. -/
def Rests (s : LSt) : Prop := s.api.state = .uninit ∧ (∀ t, s.api.pc t = .idle) ∧ ∀ t, s.log t = .idle

/-- A process does something only while the other rests.  In each process log statements are made only when no call of the life cycle is
in progress, and no logger is destroyed. -/
def Turns (es : List (Bool × LEv)) : Prop :=
  ∀ es1 p e es2, es = es1 ++ (p, e) :: es2 → Rests (trun (fun _ => {}) es1 (!p)) ∧
    ((∃ t, (trun (fun _ => {}) es1 p).log t ≠ .idle) → Still (trun (fun _ => {}) es1 p)) ∧ ∀ t, e ≠ .destroy t

/-- The process makes no call of the life cycle from now on; it may log. -/
def Leaves (p : Bool) (es : List (Bool × LEv)) : Prop := ∀ e, (p, e) ∈ es → NoCall e

/-- A statement that has not been let in. -/
def Outer : LogPc → Prop
  | .idle | .shm _ | .state _ | .chan _ => True
  | _ => False

end FNLog.Spec
