import Verif.Model.Api

/-!
# Log statements beside the life cycle (C112)

`Model/Api` with the log statements of any number of threads (`BlockInput`, `HoldChannel` and `PushChannel`, fn_channel.h 329-526), as far
as they use the variables of the life cycle, and with the destructor of the logger (fn_core.h 411-422, fn_load.h 142-158).

A statement does not take `state_lock_`.  It looks at `shm_`, `logger_state_` and `channel_state_` where the code does; what the filters
and the queue say is an answer of the environment.  On a sync channel it goes through `EnterProcChannel`, where it may set
`channel_state_` (fn_channel.h 189), and through `HotUpdateLogger`.

Simplifications: those of `Model/Api`.  The memory `shm_` points to is one object; after it was released, `bad` notes whether a step of a
statement or of the thread of a channel uses it.
-/

namespace FNLog.Api
open FNLog.Ring (upd)

/-- A log statement on channel `i`, where its next step is (lines of fn_channel.h). -/
inductive LogPc where
  | idle
  /-- line 331 -/
  | shm (i : Nat)
  /-- line 335 -/
  | state (i : Nat)
  /-- lines 339-424 -/
  | chan (i : Nat)
  /-- line 451, and the attempt to get a slot -/
  | hold (i : Nat)
  /-- line 469 -/
  | again (i : Nat)
  /-- the text of the record, and line 479 -/
  | size (i : Nat)
  /-- line 489 -/
  | push (i : Nat)
  /-- lines 494-518 -/
  | publish (i : Nat)
  /-- line 520 -/
  | kind (i : Nat)
  /-- `EnterProcChannel`, lines 101-187 -/
  | queue (i : Nat)
  /-- line 189 -/
  | run (i : Nat)
  /-- lines 192-256 -/
  | tail (i : Nat)
  /-- line 257: in `HotUpdateLogger`; then line 263 -/
  | hot (i : Nat)
deriving DecidableEq, Repr

/-- The destructor, run by thread `t`. -/
inductive Dtor where
  | no
  /-- line 413 of fn_core.h -/
  | check (t : Nat)
  /-- line 415, in `StopLogger` -/
  | stop (t : Nat)
  /-- line 421: `UnloadSharedMemory` -/
  | unload (t : Nat)
  | gone
deriving DecidableEq, Repr

structure LSt where
  api : St := {}
  log : Nat → LogPc := fun _ => .idle
  dtor : Dtor := .no
  /-- the memory was released -/
  freed : Bool := false
  /-- ghost: it was used afterwards -/
  bad : Bool := false

/-- Answers of the environment to a step of a statement. -/
structure LEnv where
  /-- the filters admit the record -/
  pass : Bool := true
  /-- a slot could be had -/
  got : Bool := true
  /-- one more round of a loop -/
  more : Bool := false

inductive LEv where
  /-- a step of `Model/Api`; a call is only made outside of statements, and `HotUpdateLogger` is only called by statements -/
  | api (e : Ev)
  /-- thread `t`, if it does nothing else, logs to channel `i` -/
  | say (t i : Nat)
  /-- thread `t` makes a step of its statement -/
  | go (t : Nat) (e : LEnv)
  /-- thread `t`, if it does nothing else, calls the destructor -/
  | destroy (t : Nat)
  /-- the destructor makes a step -/
  | dtor

/-- Thread `t` goes on at `p`. -/
def LSt.goto (s : LSt) (t : Nat) (p : LogPc) : LSt := { s with log := upd s.log t p }

/-- The next step of a statement uses the memory behind `shm_`.  (In line 331 the pointer is null after the release.) -/
def LogPc.uses : LogPc → Bool
  | .idle | .shm _ | .state _ => false
  | _ => true

/-- The same for the thread of a channel. -/
def Worker.uses : Worker → Bool
  | .none | .ended => false
  | _ => true

/-- A step of a log statement. -/
def logT (s : LSt) (t : Nat) (e : LEnv) : LSt :=
  let a := s.api
  match s.log t with
  | .idle => s
  | .shm i => s.goto t (if a.loaded && decide (i < a.size) then .state i else .idle)
  | .state i => s.goto t (if a.state = .running then .chan i else .idle)
  | .chan i => s.goto t (if a.chan i = .running && e.pass then .hold i else .idle)
  | .hold i => s.goto t (if a.chan i = .running then (if e.got then .size i else if e.more then .hold i else .again i) else .again i)
  | .again i => s.goto t (if a.chan i = .running then .hold i else .idle)
  | .size i => s.goto t (if i < a.size then .push i else .idle)
  | .push i => s.goto t (if a.chan i = .running then .publish i else .idle)
  | .publish i => s.goto t (if a.chan i = .running && e.more then .publish i else .kind i)
  | .kind i => s.goto t (if !a.async i && decide (a.chan i = .running) then .queue i else .idle)
  | .queue i => s.goto t (if a.chan i = .null then .run i else .tail i)
  | .run i => { s with api := { a with chan := upd a.chan i .running } }.goto t (.tail i)
  | .tail i => { s with api := step a (.call t .hot) }.goto t (.hot i)
  | .hot i => s.goto t (match a.pc t with
    | .idle => .idle
    | _ => .hot i)

/-- A call a user can make. -/
def Call.user : Call → Bool
  | .hot => false
  | _ => true

/-- Thread `t` is outside of the logger. -/
def LSt.free (s : LSt) (t : Nat) : Bool :=
  (match s.api.pc t with
    | .idle => true
    | _ => false) && s.log t == .idle &&
  (match s.dtor with
    | .check u | .stop u | .unload u => u != t
    | _ => true)

/-- A step of the destructor. -/
def dtorStep (s : LSt) : LSt :=
  match s.dtor with
  | .no | .gone => s
  | .check t => if s.api.state = .uninit then { s with dtor := .unload t } else { s with api := step s.api (.call t .stop), dtor := .stop t }
  | .stop t => match s.api.pc t with
    | .idle => { s with dtor := .check t }
    | _ => s
  | .unload _ => { s with api := { s.api with loaded := false }, freed := s.freed || s.api.loaded, dtor := .gone }

/-- Released memory is used if the step uses it. -/
def LSt.mark (s : LSt) (b : Bool) (s' : LSt) : LSt := { s' with bad := s'.bad || (s.freed && b) }

def lstep (s : LSt) : LEv → LSt
  | .api (.call t c) => if s.free t && c.user then { s with api := step s.api (.call t c) } else s
  | .api (.work i e) => s.mark (s.api.worker i).uses { s with api := step s.api (.work i e) }
  | .api (.run t e) => s.mark (s.log t).uses { s with api := step s.api (.run t e) }
  | .say t i => if s.free t then s.goto t (.shm i) else s
  | .go t e => s.mark (s.log t).uses (logT s t e)
  | .destroy t => if s.free t && s.dtor == .no then { s with dtor := .check t } else s
  | .dtor => dtorStep s

def lrun (s : LSt) (es : List LEv) : LSt := es.foldl lstep s

end FNLog.Api
