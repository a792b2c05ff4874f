import Verif.Model.Shut

/-!
# Stop and start again

`StartLogger` (fn_core.h 109-148) may be called again when `StopLogger` (170-209) has returned.  It creates a new thread for an
async channel (44) and sets the states; everything else is what the session before has left: the slots with the old records, the
statistics, the date caches of the threads, the numbers of the streams.

Simplifications: those of `Verif/Model/Shut.lean`; the histories of the model begin anew with each session.
-/

namespace FNLog
open Ring (Cfg St upd worker)

/-- StartChannels (fn_core.h 30-72) for one channel: a sync channel is running (40), an async channel gets a thread (44).  The
indices and marks are those that CleanChannels has left; the history variables are those of the new session. -/
def Ring.begin {α : Type} (c : Cfg α) (s : St α) : St α :=
  { s with
    state := if c.async then .null else .running
    lgRunning := false
    pc := fun t => if c.async = true ∧ t = worker then .cLoad else s.pc t
    calls := [], acquired := [], out := [], lost := [], base := 0, old := 0 }

/-- The local variables of the thread of an async channel are new. -/
def newLocal {β : Type} (S : Setup) (v : β) (x : Nat → β) : Nat → β := if S.cfg.async then upd x worker v else x

/-- StartLogger (fn_core.h 109-148) up to the creation of the thread. -/
def fStart (S : Setup) (f : FCrew) : FCrew :=
  { f with
    crew := { f.crew with ring := Ring.begin S.cfg f.crew.ring, pos := newLocal S 0 f.crew.pos, made := [], visits := [] }
    count := newLocal S 0 f.count
    fl := newLocal S .off f.fl }

/-- A session: the answers of the operating system, the decisions of the C library, what happens until StopLogger is called, and
what the threads still do until StopLogger has joined the thread of the channel. -/
structure Session where
  os : Nat → Nat → Os
  stdio : Stdio
  log : List Act
  rest : List Act

/-- The channel during a session. -/
def Session.on (x : Session) (S : Setup) : Setup := { S with os := x.os }

/-- Lines 191-199 of fn_core.h; the handles of devices that are not files are never open. -/
def closeAll (S : Setup) : List FEv :=
  .clean :: ((List.range S.channel.devices.length).filter fun j =>
    match S.channel.devices[j]? with
    | some d => d.outType = .file
    | none => false).map .shut

/-- A session from the call of StartLogger to the return of StopLogger. -/
def playSession (S : Setup) (x : Session) (f : FCrew) : Option FCrew := do
  let f ← fActs (x.on S) x.stdio (x.log ++ .closing :: .stop :: x.rest) (fStart S f)
  fEvents (x.on S) x.stdio (closeAll S) f

/-- Sessions one after the other. -/
def playAll (S : Setup) : List Session → FCrew → Option FCrew
  | [], f => some f
  | x :: xs, f => do
    let f ← playSession S x f
    playAll S xs f

end FNLog
