import Verif.Model.Threads

/-!
# Any number of threads logging to one channel, with a hook

`SetVirtualDevice` (fn_out_virtual_device.h 25-28) registers a function that the destructor of `LogStream` calls with the
record (fn_stream.h 176-200), in the thread of the statement, before PushLog makes the record available.  No lock is taken:
calls by different threads may overlap.

Simplifications: as in `Verif/Model/Threads.lean`; the statistics and the call of the hook (fn_out_virtual_device.h 66-69) are
one step; the hook does not change the record, the NUL that lines 63-64 of fn_out_virtual_device.h write for it is not part of what PushLog
keeps, and what else it does is not modelled (it may log, see
`Verif/Model/Fleet.lean` for other channels).
-/

namespace FNLog
open Ring (upd)

/-- The threads, the records of the statements that the threads are inside of, and (history) the calls of the hook. -/
structure Post where
  crew : Crew
  /-- the record of the statement of a thread, when all operations have been done -/
  held : Nat → Option (Head × Rec)
  /-- the calls of the hook: thread, fields and text found -/
  hooked : List (Nat × Head × List Char)

/-- The record of a statement before its destructor (fn_stream.h 86-174 and the operators); none if it is refused. -/
def recordOf (S : Setup) (a : Call) (ops : List StreamOp) (cache : DateCache) : Option (Option (Head × Rec)) := do
  let t ← construct S.env S.names S.lg a cache
  let t ← operateAll S.env t ops
  match t.head, t.strm.data with
  | some h, some r => some (some (h, r))
  | _, _ => some none

/-- Lines 180-194 of fn_stream.h: the hook, for the record of thread `t`. -/
def callHookOf (S : Setup) (t : Nat) (h : Head) (r : Rec) (p : Post) : Option Post := do
  let fires ← hookFires S.hook S.channel h
  if fires then do
    let r ← hookNul S.env.N r
    let k := S.channel.virtualDeviceId.toNat
    let logs ← accountDevice (p.crew.out.dev k).logs h.priority r.len
    some { p with
      crew := { p.crew with out := p.crew.out.setDev k { p.crew.out.dev k with logs := logs } }
      hooked := p.hooked ++ [(t, h, r.content.take r.len)] }
  else some p

/-- The destructor of the statement of thread `t` begins when all operations have been done. -/
def beforePush (S : Setup) (t : Nat) (p : Post) : Option Post :=
  match p.crew.ring.pc t with
  | .fill _ [] =>
    match p.held t with
    | some (h, r) => callHookOf S t h r p
    | none => none
  | _ => some p

/-- A thread begins a log statement (see `beginLog`). -/
def holdRecord (S : Setup) (t : Nat) (a : Call) (ops : List StreamOp) (p : Post) : Option Post :=
  match p.crew.ring.pc t with
  | .idle =>
    if p.crew.ring.lgRunning = true ∧ p.crew.ring.state = .running then
      (recordOf S a ops (p.crew.caches t)).map fun r => { p with held := upd p.held t r }
    else some p
  | _ => some p

/-- What happens before an event of `Act`. -/
def postBefore (S : Setup) (p : Post) : Act → Option Post
  | .log t a ops => holdRecord S t a ops p
  | .run t => beforePush S t p
  | _ => some p

/-- One event. -/
def postAct (S : Setup) (p : Post) (e : Act) : Option Post := do
  let p ← postBefore S p e
  let c ← act S p.crew e
  some { p with crew := c }

/-- A sequence of events. -/
def postActs (S : Setup) : List Act → Post → Option Post
  | [], p => some p
  | e :: es, p => do
    let p ← postAct S p e
    postActs S es p

/-- A fresh channel. -/
def post (S : Setup) (o : OutSt) : Post := ⟨crew S o, fun _ => none, []⟩

end FNLog
