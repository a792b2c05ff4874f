import Verif.Model.ApiLog
import Verif.Spec.Races

/-!
# Accesses of log statements and of the destructor

Specification for C112, as in `Spec/Races`.
-/

namespace FNLog.Spec
open FNLog.Api

/-- What the next step of a statement reads.  Behind line 331 it uses `shm_` all the time. -/
def logReads : LogPc → Var → Prop
  | .idle, _ => False
  | .state _, .state => True
  | .state _, _ => False
  | _, .shm => True
  | .chan i, .chan j | .hold i, .chan j | .again i, .chan j | .push i, .chan j | .publish i, .chan j | .kind i, .chan j
  | .queue i, .chan j => i = j
  | _, _ => False

def logWrites : LogPc → Var → Prop
  | .run i, .chan j => i = j
  | _, _ => False

def dtorReads (t : Nat) : Dtor → Var → Prop
  | .check u, .state => u = t
  | .unload u, .shm => u = t
  | _, _ => False

def dtorWrites (t : Nat) : Dtor → Var → Prop
  | .unload u, .shm => u = t
  | _, _ => False

/-- The next step of `w` reads `v`. -/
def LReads (s : LSt) (v : Var) (w : Who) : Prop :=
  Reads s.api v w ∨ ∃ t, w = .api t ∧ (logReads (s.log t) v ∨ dtorReads t s.dtor v)

/-- The next step of `w` writes `v`. -/
def LWrites (s : LSt) (v : Var) (w : Who) : Prop :=
  Writes s.api v w ∨ ∃ t, w = .api t ∧ (logWrites (s.log t) v ∨ dtorWrites t s.dtor v)

/-- A data race on `v`. -/
def LRace (s : LSt) (v : Var) (w r : Who) : Prop := w ≠ r ∧ LWrites s v w ∧ (LReads s v r ∨ LWrites s v r)

/-- `w` is a thread inside of a log statement. -/
def Stating (s : LSt) (w : Who) : Prop := ∃ t, w = .api t ∧ s.log t ≠ .idle

/-- No call of the life cycle is in progress (a sync statement may be in `HotUpdateLogger`), and no destructor. -/
def Still (s : LSt) : Prop :=
  (∀ t, s.api.pc t = .idle ∨ ∃ h, s.api.pc t = .hot h) ∧ (s.dtor = .no ∨ s.dtor = .gone)

/-- Log statements are made only when no call of the life cycle is in progress: after the return of `StartLogger` and before the call
of `StopLogger`. -/
def Apart (es : List LEv) : Prop :=
  ∀ es1 es2, es = es1 ++ es2 → (∃ t, (lrun {} es1).log t ≠ .idle) → Still (lrun {} es1)

/-- The calls of the life cycle are left to thread 0; not the destructor. -/
def OneThread : LEv → Prop
  | .api (.call t _) => t = 0
  | .destroy _ => False
  | _ => True

/-- No call of the life cycle. -/
def NoCall : LEv → Prop
  | .api (.call _ _) => False
  | .destroy _ => False
  | _ => True

end FNLog.Spec
