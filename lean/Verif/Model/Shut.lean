import Verif.Model.Flush
import Verif.Model.Recover

/-!
# The end of StopLogger: closing the files

`StopLogger` (fn_core.h 170-208) closes all files when it has stopped the channels (191-199).  The thread of an async channel
has been joined then (96); log statements in progress on a sync channel have not been waited for, and the files are closed
without the lock of the channel.

Simplifications: those of `Verif/Model/Flush.lean`; the closing of the file of one device is one step, and so is
`CleanChannels` (150-168) for the queue of the channel.
-/

namespace FNLog

/-- An event of the channel, CleanChannels (fn_core.h 191), or `close` of the file of device `j` by StopLogger (193-199). -/
inductive FEv where
  | act (e : Act)
  | clean
  | shut (j : Nat)

/-- Lines 195-198 of fn_core.h. -/
def shutFile (j : Nat) (f : FCrew) : FCrew :=
  if (f.crew.out.dev j).handle = none then f else f.setFile j (f.file j).close

/-- CleanChannels (fn_core.h 150-168). -/
def cleanQueue (S : Setup) (f : FCrew) : FCrew := { f with crew := { f.crew with ring := Ring.cleanCut S.cfg 4 f.crew.ring } }

/-- StopLogger has got to line 191: `logger_state_` is not running (189), and the thread of an async channel has ended (96). -/
def mayShut (S : Setup) (f : FCrew) : Bool :=
  f.crew.ring.lgRunning = false && (S.cfg.async = false || f.crew.ring.pc Ring.worker = .done)

/-- One event; StopLogger does not clean the queue or close files before it may. -/
def fEvent (S : Setup) (B : Stdio) (f : FCrew) : FEv → Option FCrew
  | .act e => fAct S B f e
  | .clean => some (if mayShut S f then cleanQueue S f else f)
  | .shut j => some (if mayShut S f then shutFile j f else f)

/-- A sequence of events. -/
def fEvents (S : Setup) (B : Stdio) : List FEv → FCrew → Option FCrew
  | [], f => some f
  | e :: es, f => do
    let f ← fEvent S B f e
    fEvents S B es f

end FNLog
