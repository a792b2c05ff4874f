import Verif.Spec.Threads
import Verif.Model.WeakThreads

/-!
# What several threads may expect of a channel under the C++ memory model
-/

namespace FNLog.Spec

/-- The statements among the events satisfy the obligations of a caller; date caches are results of formatting dates. -/
def SoundWAct (S : Setup) : WAct → Prop
  | .log _ a ops _ => Sound S a ops
  | .dates _ c => CacheFrom S.env.zone c
  | _ => True

/-- The log statements of a thread, in program order. -/
def wStatementsOf (t : Nat) : List WAct → List (Call × List StreamOp)
  | [] => []
  | .log u a ops _ :: es => if u = t then (a, ops) :: wStatementsOf t es else wStatementsOf t es
  | _ :: es => wStatementsOf t es

end FNLog.Spec
