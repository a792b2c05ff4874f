import Verif.Model.Sessions
import Verif.Model.Recover

/-!
# The process dies, another one attaches to the queue

`Verif/Model/Recover.lean` on the channel with its devices and streams (`Verif/Model/Flush.lean`): when the process dies, the threads,
the buffers of the streams, the handles and the sockets are gone; the slots and indices (shared memory), the statistics of the
devices (shared memory, kept by `InitFromYMAL`, fn_load.h 229-236) and the files remain.  `LoadSharedMemory` (fn_load.h 86-135)
completes the records that were not published, and `StartLogger` starts a new thread for an async channel.

Simplifications: between `content_len_ = 0` (InitLogData, fn_channel.h 288) and the stores to the other members a slot has the
members of an older record; all such slots have the members `stale`, which is arbitrary.  The configuration is the same in
both processes.  The history `calls` of the ring begins with the records found in it.
-/

namespace FNLog
open Ring (Cfg St upd worker)

/-- Lines 108-117 of fn_load.h on the contents of a slot: the priority, and the text with the marker. -/
def rescue (N : Nat) (stale : Head) (x : List Piece) : List Piece :=
  let r := (decode x).getD (stale, [])
  .head { r.1 with priority := PRIORITY_FATAL } :: ((r.2.take (N - coreDesc.length - 2) ++ coreDesc ++ ['\n']).map .byte)

/-- The queue of the new process. -/
def reborn (S : Setup) (stale : Head) (s : St Piece) : St Piece :=
  let r := Ring.recover S.cfg (rescue S.env.N stale) s
  { r with calls := r.acquired.map fun e => (e.1, e.2.dropLast) }

/-- The devices of the new process: no file is open, no socket. -/
def OutSt.orphaned (o : OutSt) : OutSt := { o with dev := fun j => { o.dev j with handle := none, sock := false, openTs := 0 } }

/-- The process dies; a new one loads the shared memory (fn_load.h 38-141, 219-237) and starts the logger (fn_core.h 30-72). -/
def fCrash (S : Setup) (stale : Head) (f : FCrew) : FCrew where
  crew :=
    { ring := reborn S stale f.crew.ring
      out := f.crew.out.orphaned
      caches := fun _ => DateCache.zero
      pos := fun _ => 0
      made := []
      visits := [] }
  buf := fun _ => []
  gen := fun _ => 0
  count := fun _ => 0
  fl := fun _ => .off

/-- What a process does until it dies (or until we look): the answers of the operating system, the decisions of the C library,
the events. -/
structure Spell where
  os : Nat → Nat → Os
  stdio : Stdio
  acts : List Act

/-- The channel during a spell. -/
def Spell.on (x : Spell) (S : Setup) : Setup := { S with os := x.os }

end FNLog
