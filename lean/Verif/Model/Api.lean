import Verif.Model.Types
import Verif.Model.Ring

/-!
# Calls of the life cycle from several threads (C104, C105)

`StartLogger`, `StopLogger`, `InitFromYMAL`, `ParseAndStartLogger`, `LoadAndStartLogger` (fn_core.h 30-265, fn_load.h 161-275) and
`HotUpdateLogger` (fn_load.h 277-381) called by any number of threads, together with the threads of the async channels, as far as
`logger_state_`, `state_lock_`, `channel_state_`, `async_threads` and `hot_update_` are concerned.

Every load and store of one of these and every operation on the lock is one step, steps interleave arbitrarily, and a load returns the
newest value.  A step of a thread that waits (for the lock, or for the end of a thread) changes nothing.

Simplifications: the queue and the devices are left out (`Model/Ring`, `Model/Threads`): whether the thread of a channel finds its
queue empty is an answer of the environment, given with the event; so are the checks of `HotUpdateLogger` on clock and file.  The
text of a configuration is represented by what these functions use of it.  Creating a thread succeeds (otherwise C57, C98).
Left out is that a late log statement on a sync channel sets `channel_state_` again (fn_channel.h 189; C95, C101).
-/

namespace FNLog.Api
open FNLog.Ring (upd)

/-- What the functions below use of a text the parser has accepted, and the answer of `LoadSharedMemory` (fn_load.h 217). -/
structure Conf where
  /-- `channel_size_` -/
  size : Nat
  /-- `channel_type_ == CHANNEL_ASYNC` -/
  async : Nat → Bool
  hot : Bool
  /-- whether `LoadSharedMemory` would succeed -/
  shm : Bool

/-- Inside of `HotUpdateLogger` (fn_load.h 277-381), where the next step is. -/
inductive Hot where
  /-- lines 279-310: whether to go on is the answer of the environment, except for `hot_update_` -/
  | enter
  /-- line 311, `logger_state_` without the lock -/
  | state
  /-- lines 316-326: the text has been parsed; takes the lock -/
  | lock
  /-- line 327 -/
  | state2
  /-- lines 331-380 -/
  | update
  /-- the guard of line 326 is destroyed -/
  | unlock
  | done
deriving DecidableEq, Repr

/-- The thread of a channel, an element of `async_threads` (fn_data.h 399), where its next step is. -/
inductive Worker where
  /-- there is none: not joinable -/
  | none
  /-- fn_channel.h 103-187: the queue, up to the load in line 187 -/
  | queue
  /-- line 189 -/
  | run
  /-- lines 192-257: flush, UDP input, `HotUpdateLogger` -/
  | hot (h : Hot)
  /-- lines 263-264 -/
  | check
  /-- line 268 -/
  | leave
  /-- the function has returned; joinable -/
  | ended
deriving DecidableEq, Repr

/-- Who called `StopChannels`: `StopLogger` (fn_core.h 190), or `StartLogger` after a failure (141), itself called alone or by one of the
functions that load and start (`whole`). -/
inductive Up where
  | stop
  | start (whole : Bool)
deriving DecidableEq, Repr

/-- A thread that uses the API, where its next step is.  `o`: called from `ParseAndStartLogger` or `LoadAndStartLogger`. -/
inductive Pc where
  | idle
  /-- a log statement on a sync channel in `HotUpdateLogger` (fn_channel.h 521, 257) -/
  | hot (h : Hot)
  -- `StartLogger`, fn_core.h 109-148
  /-- line 111 -/
  | stState (o : Bool)
  /-- lines 116-125 -/
  | stShm (o : Bool)
  /-- line 126 -/
  | stLock (o : Bool)
  /-- line 127 -/
  | stState2 (o : Bool)
  /-- line 132 -/
  | stSize (o : Bool)
  /-- line 137 -/
  | stMark (o : Bool)
  /-- `StartChannels` at channel `i`, lines 32-47 -/
  | stChan (o : Bool) (i : Nat)
  /-- line 53, after `n` rounds -/
  | stPoll (o : Bool) (i n : Nat)
  /-- line 58 -/
  | stNull (o : Bool) (i : Nat)
  /-- line 63 -/
  | stRun (o : Bool) (i : Nat)
  /-- line 146 -/
  | stDone (o : Bool)
  /-- line 142 -/
  | stFail (o : Bool)
  /-- the guard of line 126 is destroyed; `ok`: the result is 0 -/
  | stUnlock (o ok : Bool)
  -- `StopLogger`, fn_core.h 170-209
  /-- line 172 -/
  | spSize
  /-- line 177 -/
  | spState
  /-- line 182 -/
  | spLock
  /-- line 184 -/
  | spState2
  /-- line 189 -/
  | spMark
  /-- lines 191-207 -/
  | spDone
  /-- the guard of line 182 is destroyed -/
  | spUnlock (ok : Bool)
  -- `StopChannels`, fn_core.h 76-107
  /-- at channel `i`, lines 78-90 -/
  | scChan (u : Up) (i : Nat)
  /-- line 92 -/
  | scState (u : Up) (i : Nat)
  /-- line 94 -/
  | scMark (u : Up) (i : Nat)
  /-- line 96 -/
  | scJoin (u : Up) (i : Nat)
  /-- line 98 -/
  | scNull (u : Up) (i : Nat)
  -- `InitFromYMAL`, fn_load.h 161-245; `x`: what the text means, `none` if the parser refuses it (or the file can not be read)
  /-- line 163 -/
  | inState (o : Bool) (x : Option Conf)
  /-- line 198 -/
  | inLock (o : Bool) (x : Conf)
  /-- line 199 -/
  | inState2 (o : Bool) (x : Conf)
  /-- lines 206-244 -/
  | inLoad (o : Bool) (x : Conf)
  /-- the guard of line 198 is destroyed -/
  | inUnlock (o ok : Bool)
  -- `ParseAndStartLogger`, fn_core.h 212-238, and `LoadAndStartLogger`, 240-265 (`p` = false, without the check in line 220)
  /-- lines 214, 242 -/
  | whState (p : Bool) (x : Option Conf)
  /-- lines 219, 247 -/
  | whLock (p : Bool) (x : Option Conf)
  /-- line 220 -/
  | whState2 (x : Option Conf)
  /-- the guard is destroyed -/
  | whUnlock (ok : Bool)

/-- Who holds the lock: a thread that uses the API, or the thread of a channel. -/
inductive Who where
  | api (t : Nat)
  | worker (i : Nat)
deriving DecidableEq, Repr

/-- Ghost: what has been brought about, in that order. -/
inductive Done where
  | started (t : Nat)
  | stopped (t : Nat)
  | loaded (t : Nat)
deriving DecidableEq, Repr

structure St where
  state : LoggerState := .uninit
  /-- `state_lock_`, a recursive mutex: the owner and how often it has locked -/
  lock : Option (Who × Nat) := none
  /-- `shm_ != NULL` -/
  loaded : Bool := false
  hot : Bool := false
  size : Nat := 0
  async : Nat → Bool := fun _ => false
  chan : Nat → ChannelState := fun _ => .null
  worker : Nat → Worker := fun _ => .none
  pc : Nat → Pc := fun _ => .idle
  /-- `std::terminate`: a thread was assigned to a `std::thread` that still had one -/
  terminate : Bool := false
  /-- a null pointer was dereferenced -/
  null : Bool := false
  done : List Done := []

/-- What a thread calls. -/
inductive Call where
  | start
  | stop
  | init (x : Option Conf)
  /-- `ParseAndStartLogger` -/
  | parseStart (x : Option Conf)
  /-- `LoadAndStartLogger` -/
  | loadStart (x : Option Conf)
  /-- a log statement on a sync channel comes to `HotUpdateLogger` -/
  | hot

/-- The first step of a call. -/
def Call.pc : Call → Pc
  | .start => .stState false
  | .stop => .spSize
  | .init x => .inState false x
  | .parseStart x => .whState true x
  | .loadStart x => .whState false x
  | .hot => .hot .enter

/-- Answers of the environment to one step. -/
structure Env where
  /-- `HotUpdateLogger` goes on to line 311: time has passed and the file has changed -/
  changed : Bool := false
  /-- the parser accepts the file, and `hot_update_` in it -/
  parsed : Option Bool := none
  /-- `write_idx_ != read_idx_` in line 264 of fn_channel.h -/
  more : Bool := false

inductive Ev where
  /-- thread `t`, if it is not inside of a call, calls something -/
  | call (t : Nat) (c : Call)
  /-- thread `t` makes a step -/
  | run (t : Nat) (e : Env)
  /-- the thread of channel `i` makes a step -/
  | work (i : Nat) (e : Env)

/-- `mutex_.lock()`; `none`: has to wait. -/
def take (l : Option (Who × Nat)) (w : Who) : Option (Option (Who × Nat)) :=
  match l with
  | none => some (some (w, 1))
  | some (v, n) => if v = w then some (some (w, n + 1)) else none

/-- `mutex_.unlock()` -/
def release (l : Option (Who × Nat)) : Option (Who × Nat) :=
  match l with
  | some (v, n + 2) => some (v, n + 1)
  | _ => none

/-- A step in `HotUpdateLogger` (fn_load.h 277-381). -/
def hotStep (s : St) (w : Who) (e : Env) : Hot → Hot × St
  | .enter => (if s.hot && e.changed then .state else .done, s)
  | .state => (if s.state = .running && e.parsed.isSome then .lock else .done, s)
  | .lock => match take s.lock w with
    | some l => (.state2, { s with lock := l })
    | none => (.lock, s)
  | .state2 => (if s.state = .running then .update else .unlock, s)
  | .update => (.unlock, if s.hot then { s with hot := e.parsed.getD s.hot } else s)
  | .unlock => (.done, { s with lock := release s.lock })
  | .done => (.done, s)

/-- Thread `t` goes on at `p`. -/
def St.goto (s : St) (t : Nat) (p : Pc) : St := { s with pc := upd s.pc t p }

/-- `StartLogger` returns: to the user, or to the function that loads and starts. -/
def startRet (o ok : Bool) : Pc := if o then .whUnlock ok else .idle

/-- `InitFromYMAL` returns: to the user, or to the function that loads and starts, which goes on with `StartLogger`. -/
def initRet (o ok : Bool) : Pc := if o then (if ok then .stState true else .whUnlock false) else .idle

/-- `StopChannels` returns. -/
def chansRet : Up → Pc
  | .stop => .spDone
  | .start o => .stFail o

/-- Takes the lock and goes on at `p`, or waits. -/
def locked (s : St) (t : Nat) (p : Pc) : St :=
  match take s.lock (.api t) with
  | some l => { s with lock := l }.goto t p
  | none => s

/-- A step of a thread that uses the API. -/
def runT (s : St) (t : Nat) (e : Env) : St :=
  match s.pc t with
  | .idle => s
  | .hot h =>
    let r := hotStep s (.api t) e h
    r.2.goto t (if r.1 = .done then .idle else .hot r.1)
  | .stState o => s.goto t (if s.state = .uninit then .stShm o else startRet o false)
  | .stShm o => s.goto t (if s.loaded && decide (0 < s.size) then .stLock o else startRet o false)
  | .stLock o => locked s t (.stState2 o)
  | .stState2 o => s.goto t (if s.state = .uninit then .stSize o else .stUnlock o false)
  | .stSize o => s.goto t (if 0 < s.size then .stMark o else .stUnlock o false)
  | .stMark o => { s with state := .initing }.goto t (.stChan o 0)
  | .stChan o i =>
    if i < s.size then
      if s.async i then
        { s with worker := upd s.worker i .queue, terminate := s.terminate || decide (s.worker i ≠ Worker.none) }.goto t (.stPoll o i 0)
      else { s with chan := upd s.chan i .running }.goto t (.stChan o (i + 1))
    else s.goto t (.stDone o)
  | .stPoll o i n => s.goto t (if s.chan i = .null && decide (n < 100) then .stPoll o i (n + 1) else .stNull o i)
  | .stNull o i => s.goto t (if s.chan i = .null then .scChan (.start o) 0 else .stRun o i)
  | .stRun o i => s.goto t (if s.chan i = .running then .stChan o (i + 1) else .scChan (.start o) 0)
  | .stDone o => { s with state := .running, done := s.done ++ [Done.started t] }.goto t (.stUnlock o true)
  | .stFail o => { s with state := .uninit }.goto t (.stUnlock o false)
  | .stUnlock o ok => { s with lock := release s.lock }.goto t (startRet o ok)
  | .spSize => { s with null := s.null || !s.loaded }.goto t (if 0 < s.size then .spState else .idle)
  | .spState => s.goto t (if s.state = .running then .spLock else .idle)
  | .spLock => locked s t .spState2
  | .spState2 => s.goto t (if s.state = .running then .spMark else .spUnlock false)
  | .spMark => { s with state := .closing }.goto t (.scChan .stop 0)
  | .spDone => { s with state := .uninit, done := s.done ++ [Done.stopped t] }.goto t (.spUnlock true)
  | .spUnlock _ => { s with lock := release s.lock }.goto t .idle
  | .scChan u i =>
    if i < s.size then
      if s.async i then s.goto t (if s.worker i = .none then .scNull u i else .scState u i)
      else { s with chan := upd s.chan i .null }.goto t (.scChan u (i + 1))
    else s.goto t (chansRet u)
  | .scState u i => s.goto t (if s.chan i = .running then .scMark u i else .scJoin u i)
  | .scMark u i => { s with chan := upd s.chan i .waitingFinish }.goto t (.scJoin u i)
  | .scJoin u i => if s.worker i = .ended then { s with worker := upd s.worker i .none }.goto t (.scNull u i) else s
  | .scNull u i => { s with chan := upd s.chan i .null }.goto t (.scChan u (i + 1))
  | .inState o x =>
    match x with
    | some x => s.goto t (if s.state = .uninit then .inLock o x else initRet o false)
    | none => s.goto t (initRet o false)
  | .inLock o x => locked s t (.inState2 o x)
  | .inState2 o x => s.goto t (if s.state = .uninit then .inLoad o x else .inUnlock o false)
  | .inLoad o x =>
    if s.loaded || x.shm then
      { s with loaded := true, hot := x.hot, size := x.size, async := x.async, chan := fun _ => .null,
               done := if 0 < x.size then s.done ++ [Done.loaded t] else s.done }.goto t (.inUnlock o (decide (0 < x.size)))
    else { s with hot := x.hot }.goto t (.inUnlock o false)
  | .inUnlock o ok => { s with lock := release s.lock }.goto t (initRet o ok)
  | .whState p x => s.goto t (if s.state = .uninit then .whLock p x else .idle)
  | .whLock p x => locked s t (if p then .whState2 x else .inState true x)
  | .whState2 x => s.goto t (if s.state = .uninit then .inState true x else .whUnlock false)
  | .whUnlock _ => { s with lock := release s.lock }.goto t .idle

/-- A step of the thread of channel `i`: `EnterProcChannel` (fn_channel.h 99-270) on an async channel. -/
def workI (s : St) (i : Nat) (e : Env) : St :=
  match s.worker i with
  | .none => s
  | .queue => { s with worker := upd s.worker i (if s.chan i = .null then .run else .hot .enter) }
  | .run => { s with chan := upd s.chan i .running, worker := upd s.worker i (.hot .enter) }
  | .hot h =>
    let r := hotStep s (.worker i) e h
    { r.2 with worker := upd r.2.worker i (if r.1 = .done then .check else .hot r.1) }
  | .check => { s with worker := upd s.worker i (if s.chan i = .running || e.more then .queue else .leave) }
  | .leave => { s with chan := upd s.chan i .finish, worker := upd s.worker i .ended }
  | .ended => s

def step (s : St) : Ev → St
  | .call t c => match s.pc t with
    | .idle => s.goto t c.pc
    | _ => s
  | .run t e => runT s t e
  | .work i e => workI s i e

def run (s : St) (es : List Ev) : St := es.foldl step s

end FNLog.Api
