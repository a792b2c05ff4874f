import Verif.Model.Statement

/-!
# Any number of threads logging to one channel

The log statements of `Verif/Model/Statement.lean` on the ring of `Verif/Model/Ring.lean`, with `DispatchLog`
(fn_channel.h 53-95) one device at a time: a thread of a sync channel takes the lock of the channel for each device anew
(`EnterProcDevice`, fn_channel.h 23-50), so that the devices may see the records in different orders; on an async channel
only its thread dispatches.

Simplifications: no hook is registered; the text of a record is worked out when the statement begins (it depends on the
arguments and on the date cache of the thread only, `thread_local` in fn_fmt.h 321-322) and then written to the slot piece by
piece; the configuration does not change.
-/

namespace FNLog
open Ring (Cfg St upd)

/-- A device was reached by a dispatch: its number, the number of the record, the record. -/
structure Visit where
  device : Nat
  number : Nat
  head : Head
  text : List Char

/-- The state of the channel, of its devices, of the threads, and (last two fields) history. -/
structure Crew where
  ring : St Piece
  out : OutSt
  /-- the date cache of each thread -/
  caches : Nat → DateCache
  /-- the device that a thread inside DispatchLog has to look at next -/
  pos : Nat → Nat
  /-- history: the statements begun while logger and channel were running, with their threads -/
  made : List (Nat × Call × List StreamOp)
  /-- history: the devices reached by dispatches -/
  visits : List Visit

/-- What can happen. -/
inductive Act where
  /-- a thread begins a log statement -/
  | log (t : Nat) (a : Call) (ops : List StreamOp)
  /-- a thread makes one step -/
  | run (t : Nat)
  /-- fn_core.h 146, 189, 86 and 92-95, as in `Ring.Ev` -/
  | started
  | closing
  | stop
  /-- a thread formats dates elsewhere (in another channel, say), which changes its date cache -/
  | dates (t : Nat) (c : DateCache)

/-- What PushLog (fn_channel.h 477-525) makes of a record: its pieces without the line end; none if the statement has been
refused. -/
def sealed (S : Setup) (t : Stmt) : Option (Option (List Piece)) :=
  match t.head, t.strm.data with
  | some h, some r => (sealRec S.env.N r).map fun r => some (pieces h (r.content.take (r.len - 1)))
  | _, _ => some none

/-- A statement from its constructor to the destructor (fn_stream.h 86-200): the pieces of its record, and the date cache. -/
def formed (S : Setup) (a : Call) (ops : List StreamOp) (cache : DateCache) : Option (Option (List Piece) × DateCache) := do
  let t ← construct S.env S.names S.lg a cache
  let t ← operateAll S.env t ops
  let body ← sealed S t
  some (body, t.strm.cache)

/-- A statement that has passed the filters goes on with HoldChannel (fn_stream.h 92). -/
def holdFor (c : Cfg Piece) (t : Nat) (s : St Piece) : Option (List Piece) → St Piece
  | none => s
  | some b => Ring.step c s (.call t b)

/-- A thread begins a log statement; it is refused unless logger and channel are running (BlockInput, fn_channel.h 335-343).
A thread inside a statement cannot begin another. -/
def beginLog (S : Setup) (t : Nat) (a : Call) (ops : List StreamOp) (s : Crew) : Option Crew :=
  match s.ring.pc t with
  | .idle =>
    if s.ring.lgRunning = true ∧ s.ring.state = .running then do
      let (body, cache) ← formed S a ops (s.caches t)
      some { s with ring := holdFor S.cfg t s.ring body, caches := upd s.caches t cache, made := s.made ++ [(t, a, ops)] }
    else some s
  | _ => some s

/-- The visits of a device. -/
def visitsOf (j : Nat) (v : List Visit) : List Visit := v.filter fun x => x.device == j

/-- EnterProcDevice (fn_channel.h 23-50) if the filter lets the record pass. -/
def enterIf (S : Setup) (r : Bool) (n j : Nat) (d : Device) (h : Head) (text : List Char) (o : OutSt) : Option OutSt :=
  if r then enterProcDevice S.fenv S.channel.id j d (S.os n j) (devLog h text) o else some o

/-- One round of the loop of DispatchLog (fn_channel.h 55-94) for the record `k`, at device `d`.  The answers of the
operating system are numbered by the visits of the device. -/
def dispatchNext (S : Setup) (t k : Nat) (d : Device) (s : Crew) : Option Crew := do
  let (h, text) ← decode (s.ring.cell (k % S.cfg.L))
  let r ← dispatchTakes d h.priority h.category h.identify
  let o ← enterIf S r (visitsOf (s.pos t) s.visits).length (s.pos t) d h text s.out
  some { s with out := o, pos := upd s.pos t (s.pos t + 1), visits := s.visits ++ [⟨s.pos t, k, h, text⟩] }

/-- A step of a thread. -/
def runThread (S : Setup) (t : Nat) (s : Crew) : Option Crew :=
  match s.ring.pc t with
  | .cDisp k =>
    match S.channel.devices[s.pos t]? with
    | some d => dispatchNext S t k d s
    | none => some { s with ring := Ring.stepT S.cfg s.ring t, pos := upd s.pos t 0 }
  | _ => some { s with ring := Ring.stepT S.cfg s.ring t }

/-- One event. -/
def act (S : Setup) (s : Crew) : Act → Option Crew
  | .log t a ops => beginLog S t a ops s
  | .run t => runThread S t s
  | .started => some { s with ring := Ring.step S.cfg s.ring .started }
  | .closing => some { s with ring := Ring.step S.cfg s.ring .closing }
  | .stop => some { s with ring := Ring.step S.cfg s.ring .stop }
  | .dates t c => some { s with caches := upd s.caches t c }

/-- A sequence of events. -/
def acts (S : Setup) : List Act → Crew → Option Crew
  | [], s => some s
  | e :: es, s => do
    let s ← act S s e
    acts S es s

/-- A fresh channel (see `Ring.init`) with the given devices. -/
def crew (S : Setup) (o : OutSt) : Crew := ⟨Ring.init S.cfg, o, fun _ => DateCache.zero, fun _ => 0, [], []⟩

/-- No compare-and-swap of the sequence succeeds although the index went round the ring since it was loaded (see
`Ring.Timely`). -/
def OnTime (S : Setup) : List Act → Crew → Prop
  | [], _ => True
  | e :: es, s => (∀ t, e = .run t → Ring.timelyAt S.cfg s.ring t) ∧ ∀ s', act S s e = some s' → OnTime S es s'

end FNLog
