import Verif.Model.ApiLog
import Verif.Model.Recover

/-!
# Two processes with the same `shm_key` (C115)

Two processes (or two loggers of one process) whose configurations name the same positive `shm_key`.  `LoadSharedMemory` (fn_load.h 46-86)
attaches to a segment that exists, whoever else is attached; from then on `shm_` of both loggers points to the same memory, with
`channel_size_`, `channel_type_` and `channel_state_` (fn_data.h 316-319, 349).  `logger_state_`, `state_lock_`, `async_threads`,
`hot_update_` and `shm_` itself belong to each logger (fn_data.h 415-429).

Each process is a logger of `Model/ApiLog`; a step of one is seen by the other in what they share, if both are attached.

Simplifications: those of `Model/ApiLog`; there the queues are left out.  What `LoadSharedMemory` does to a queue that is in use is
`Ring.attach` below, in one step.  The segment is the
same for both as long as no logger is destroyed (`UnloadSharedMemory`, fn_load.h 145-151, removes the key).
-/

namespace FNLog.Api

/-- The two processes. -/
abbrev Two := Bool → LSt

/-- What a process finds after the other has made the step to `a`. -/
def seen (a b : LSt) : LSt :=
  if a.api.loaded && b.api.loaded then
    { b with api := { b.api with size := a.api.size, async := a.api.async, chan := a.api.chan } }
  else b

/-- A step of process `x.1`. -/
def tstep (s : Two) (x : Bool × LEv) : Two :=
  fun q => if q = x.1 then lstep (s x.1) x.2 else seen (lstep (s x.1) x.2) (s q)

def trun (s : Two) (es : List (Bool × LEv)) : Two := es.foldl tstep s

end FNLog.Api

namespace FNLog.Ring

variable {α : Type}

/-- `LoadSharedMemory` and `InitFromYMAL` of a process on the queue of a channel another process is using (fn_load.h 106-128, 237): what
recovery after a crash does to the queue, while the threads of the other process go on.  The kinds of the channels are the same. -/
def attach (c : Cfg α) (f : List α → List α) (s : St α) : St α :=
  { recover c f s with
    state := .null, lgRunning := s.lgRunning, pc := s.pc, calls := s.calls, acquired := s.acquired, out := s.out, lost := s.lost,
    base := s.base, old := s.old }

end FNLog.Ring
