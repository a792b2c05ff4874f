import Verif.Model.ApiLog
import Verif.Spec.Api

/-!
# The life cycle while statements are in progress

Specification for C114: infinite schedules of `Model/ApiLog`, as in `Spec/Api`, and configurations that agree on the kinds of the
channels.
-/

namespace FNLog.Spec
open FNLog.Api

/-- The first `n` events of an infinite schedule lead from the constructor to here. -/
def logAt (σ : Nat → LEv) (n : Nat) : LSt := lrun {} ((List.range n).map σ)

/-- The operating system is fair: every thread that is inside a call, and every thread of a channel, makes a further step at some time.
Nothing is said about statements: they may stop anywhere. -/
structure LateFair (σ : Nat → LEv) : Prop where
  call : ∀ t n, (logAt σ n).api.pc t ≠ .idle → ∃ m e, n ≤ m ∧ σ m = .api (.run t e)
  work : ∀ i n, (logAt σ n).api.worker i ≠ .none → (logAt σ n).api.worker i ≠ .ended → ∃ m e, n ≤ m ∧ σ m = .api (.work i e)

/-- From some time on the threads of the channels find their queues empty. -/
def LateDrained (σ : Nat → LEv) : Prop := ∃ k, ∀ m i e, k ≤ m → σ m = .api (.work i e) → e.more = false

/-- In the configuration channel `i` is async if and only if `f i`.  Behind the last channel the memory is zero, and `CHANNEL_ASYNC` is
zero (fn_data.h 234, fn_load.h 236). -/
def Kinds (f : Nat → Bool) (x : Conf) : Prop := ∀ i, x.async i = if i < x.size then f i else true

/-- The configuration a call brings. -/
def callConf : Call → Option Conf
  | .init x | .parseStart x | .loadStart x => x
  | _ => none

/-- Every configuration that is loaded has the same kinds of channels; the logger is not destroyed. -/
def Typed (f : Nat → Bool) : LEv → Prop
  | .api (.call _ c) => ∀ x, callConf c = some x → Kinds f x
  | .destroy _ => False
  | _ => True

end FNLog.Spec
