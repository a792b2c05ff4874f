import Verif.Model.Share

/-!
# Several writer threads on the queue of one async channel

Two processes with the same `shm_key` both run the async channel: each has made its own `std::thread(EnterProcChannel, …)` (fn_core.h 44) and
all of these threads work on the same `RingBuffer` and the same `channel_state_`.  `Verif/Model/Ring.lean` has one such thread; the steps are
the same here, any number of threads may be inside `EnterProcChannel`.

* A process comes while the queue is empty: what its load does to a queue that is not empty is `Ring.attach` (`Verif/Model/Share.lean`, C115).
* `logger_state_` is not in the segment, every process has its own.  A statement is admitted here whenever the channel runs (fn_channel.h
  335), so the schedules include those in which the logger of its process runs as well (341).
* Not modelled: what `StopLogger` does after the `join` (fn_core.h 96, 99, 150-167).
-/

namespace FNLog.Ring
open FNLog

variable {α : Type}

/-- What can happen: an event of `Verif/Model/Ring.lean`, or a process comes and thread `t` is its writer. -/
inductive MEv (α : Type) where
  | ev (e : Ev α)
  | join (t : Nat)

/-- One event.  `join`: `LoadSharedMemory` on an empty queue stores the indices it finds (fn_load.h 100-128, `attach_quiet`), `InitFromYMAL`
sets `channel_state_` to NULL (234), StartChannels creates the thread (fn_core.h 44). -/
def stepM (c : Cfg α) (s : St α) : MEv α → St α
  | .ev (.call t body) =>
    match s.pc t with
    | .idle => if s.state = .running then { s with calls := s.calls ++ [(t, body)] }.go t (.hChk 0 body) else s
    | _ => s
  | .ev e => step c s e
  | .join t =>
    match s.pc t with
    | .idle => if s.R = s.H then { s with state := .null }.go t .cLoad else s
    | _ => s

/-- Run a schedule. -/
def runM (c : Cfg α) (s : St α) (es : List (MEv α)) : St α := es.foldl (stepM c) s

/-- The segment after ResetSHMLogger (fn_load.h 23-36), before any thread is created. -/
def blank (c : Cfg α) : St α := { init c with state := .null, pc := fun _ => .idle }

/-- What a thread outputs in one event. -/
def emits (c : Cfg α) (s : St α) : MEv α → List (Nat × (Nat × List α))
  | .ev (.run t) => ((stepT c s t).out.drop s.out.length).map (fun x => (t, x))
  | _ => []

/-- The lines output, with the thread that output each of them and its position in the queue. -/
def outs (c : Cfg α) : St α → List (MEv α) → List (Nat × (Nat × List α))
  | _, [] => []
  | s, e :: es => emits c s e ++ outs c (stepM c s e) es

/-- An event is timely, see `timelyAt`. -/
def timelyMEv (c : Cfg α) (s : St α) : MEv α → Prop
  | .ev e => timelyEv c s e
  | .join _ => True

instance (c : Cfg α) (s : St α) (e : MEv α) : Decidable (timelyMEv c s e) := by
  unfold timelyMEv; split <;> infer_instance

/-- No compare-and-swap succeeds although the index went round the ring since it was loaded. -/
def TimelyM (c : Cfg α) : St α → List (MEv α) → Prop
  | _, [] => True
  | s, e :: es => timelyMEv c s e ∧ TimelyM c (stepM c s e) es

instance TimelyM.dec (c : Cfg α) : (s : St α) → (es : List (MEv α)) → Decidable (TimelyM c s es)
  | _, [] => inferInstanceAs (Decidable True)
  | s, e :: es =>
    haveI := TimelyM.dec c (stepM c s e) es
    inferInstanceAs (Decidable (timelyMEv c s e ∧ TimelyM c (stepM c s e) es))

end FNLog.Ring
