import Verif.Model.Threads
import Verif.Spec.Ring
import Verif.Spec.Output

/-!
# What several threads may expect of a channel
-/

namespace FNLog

/-- Not a stop. -/
def Act.noStop : Act → Prop
  | .stop => False
  | _ => True

/-- The thread of an event of a log statement. -/
def Act.thread : Act → Option Nat
  | .log t _ _ => some t
  | .run t => some t
  | _ => none

namespace Spec

/-- The statements among the events satisfy the obligations of a caller; date caches are results of formatting dates. -/
def SoundAct (S : Setup) : Act → Prop
  | .log _ a ops => Sound S a ops
  | .dates _ c => CacheFrom S.env.zone c
  | _ => True

/-- The log statements of a thread, in program order. -/
def statementsOf (t : Nat) : List Act → List (Call × List StreamOp)
  | [] => []
  | .log u a ops :: es => if u = t then (a, ops) :: statementsOf t es else statementsOf t es
  | _ :: es => statementsOf t es

open Classical in
/-- Device `k` processes records (from its `n`-th on) one after the other, and nothing else happens. -/
noncomputable def alone (S : Setup) (k : Nat) (d : Device) : Nat → List (Head × List Char) → OutSt → Option OutSt
  | _, [], o => some o
  | n, (h, line) :: rest, o =>
    if DeviceTakes d h.priority h.category h.identify then
      (enterProcDevice S.fenv S.channel.id k d (S.os n k) (devLog h line) o).bind (alone S k d (n + 1) rest)
    else alone S k d (n + 1) rest o

/-- The steps of a thread. -/
def stepsOf (t : Nat) (es : List Act) : Nat :=
  match es with
  | [] => 0
  | .run u :: es => (if u = t then 1 else 0) + stepsOf t es
  | _ :: es => stepsOf t es

end Spec
end FNLog
