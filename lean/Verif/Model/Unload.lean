import Verif.Model.Logger
import Verif.Spec.Life

/-!
# The end of a logger

`UnloadSharedMemory` (fn_load.h 142-158) and the destructor of `Logger` (fn_core.h 411-422).  What `shm_` points to is
not recorded in the logger; the model keeps it beside the logger.
-/

namespace FNLog
open Spec

/-- The memory `shm_` points to: from `new` (fn_load.h 43) or a segment of System V shared memory (64, 77). -/
inductive Origin where
  | heap
  | segment (idx : Int)
deriving DecidableEq, Repr

/-- A logger and the memory its `shm_` points to. -/
structure Owner where
  lg : Lg := {}
  origin : Option Origin := none

/-- What LoadSharedMemory assigns to `shm_` (fn_load.h 41-45, 135) for `shm_key_ = key`. -/
def loadOrigin (os : ShmOs) (key : Int) : Option Origin :=
  if key ≤ 0 then some .heap
  else match os with
    | .created idx _ => some (.segment idx)
    | .existing idx _ => some (.segment idx)
    | _ => none

/-- The answers of the operating system to a call. -/
def opOs : Op → ShmOs
  | .init e _ _ => e.os
  | .initFile e _ _ => e.os
  | _ => .probeError

/-- The memory after a call: `shm_` is assigned only if it was NULL (fn_load.h 219-221), by the key just read (218). -/
def originAfter (os : ShmOs) (w : Owner) (l' : Lg) : Option Origin :=
  match w.lg.shm, l'.shm with
  | none, some _ => loadOrigin os l'.shmKey
  | _, _ => w.origin

/-- A call, with the memory. -/
def Owner.exec (o : Op) (w : Owner) : Option Owner :=
  (o.exec w.lg).map fun l' => ⟨l', originAfter (opOs o) w l'⟩

/-- A sequence of calls. -/
def Owner.execAll : List Op → Owner → Option Owner
  | [], w => some w
  | o :: os, w => (w.exec o).bind (Owner.execAll os)

/-- What UnloadSharedMemory gives back. -/
inductive Freed where
  | nothing
  /-- `delete` of the memory -/
  | deleted
  /-- the memory is detached (if it is attached) and the segment with this identifier removed -/
  | removed (idx : Int)
deriving DecidableEq, Repr

/-- UnloadSharedMemory (fn_load.h 142-158).  `shmdt` of memory that is not attached only fails; `delete` of memory that is
not from `new` is undefined. -/
def unloadShm (w : Owner) : Out (Freed × Owner) :=
  match w.lg.shm with
  | none => .val (.nothing, w)
  | some s =>
    if w.lg.shmKey > 0 then .val (.removed s.seg.id, ⟨{ w.lg with shm := none }, none⟩)
    else if w.origin = some .heap then .val (.deleted, ⟨{ w.lg with shm := none }, none⟩)
    else .ub

/-- The loop of the destructor (fn_core.h 413-420), `n` rounds granted. -/
def stopLoop (fuel : Nat) : Nat → Lg → Out Lg
  | 0, l => if l.state = .uninit then .val l else .running
  | n + 1, l =>
    if l.state = .uninit then .val l
    else match stopLogger fuel l with
      | .ub => .ub
      | .running => .running
      | .val (_, l) => stopLoop fuel n l

/-- The destructor of `Logger` (fn_core.h 411-422). -/
def destroy (fuel n : Nat) (w : Owner) : Out (Freed × Owner) :=
  match stopLoop fuel n w.lg with
  | .ub => .ub
  | .running => .running
  | .val l => unloadShm { w with lg := l }

end FNLog
