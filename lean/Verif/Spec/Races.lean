import Verif.Model.Api

/-!
# Accesses to the variables of the life cycle

Specification for C107: which of the variables that are neither atomic nor a lock (fn_data.h 318-323, 396-445) the next step of a
thread reads or writes, and what a data race is.  A program has a data race exactly if, in some interleaving of its steps, two
threads are about to access the same variable and one of them is going to write.
-/

namespace FNLog.Spec
open FNLog.Api

/-- A variable. -/
inductive Var where
  /-- `logger_state_` -/
  | state
  /-- `shm_`, `channel_size_` and the `channel_type_` of all channels, which are written together (fn_load.h 206-244) -/
  | shm
  /-- `hot_update_` -/
  | hot
  /-- `channel_state_` of a channel -/
  | chan (i : Nat)
  /-- `async_threads[i]` -/
  | thread (i : Nat)

def hotReads : Hot → Var → Prop
  | .enter, .hot => True
  | .state, .state => True
  | .state2, .state => True
  | .update, .hot => True
  | _, _ => False

def hotWrites : Hot → Var → Prop
  | .update, .hot => True
  | _, _ => False

/-- What the next step of a thread that uses the API reads. -/
def pcReads (s : Api.St) : Pc → Var → Prop
  | .hot h, v => hotReads h v
  | .stState _, .state | .stState2 _, .state | .spState, .state | .spState2, .state => True
  | .inState _ _, .state | .inState2 _ _, .state | .whState _ _, .state | .whState2 _, .state => True
  | .stShm _, .shm | .stSize _, .shm | .spSize, .shm | .stChan _ _, .shm | .scChan _ _, .shm | .inLoad _ _, .shm => True
  | .stPoll _ i _, .chan j | .stNull _ i, .chan j | .stRun _ i, .chan j | .scState _ i, .chan j => i = j
  | .scChan _ i, .thread j => i = j ∧ i < s.size ∧ s.async i = true
  | .scJoin _ i, .thread j => i = j
  | _, _ => False

/-- What it writes. -/
def pcWrites (s : Api.St) : Pc → Var → Prop
  | .hot h, v => hotWrites h v
  | .stMark _, .state | .stDone _, .state | .stFail _, .state | .spMark, .state | .spDone, .state => True
  | .stChan _ i, .chan j | .scChan _ i, .chan j => i = j ∧ i < s.size ∧ s.async i = false
  | .stChan _ i, .thread j => i = j ∧ i < s.size ∧ s.async i = true
  | .scMark _ i, .chan j | .scNull _ i, .chan j => i = j
  | .scJoin _ i, .thread j => i = j
  | .inLoad _ _, .shm | .inLoad _ _, .hot | .inLoad _ _, .chan _ => True
  | _, _ => False

/-- What the next step of the thread of channel `i` reads; it uses `shm_` all the time. -/
def workReads (i : Nat) : Worker → Var → Prop
  | .none, _ | .ended, _ => False
  | _, .shm => True
  | .queue, .chan j | .check, .chan j => i = j
  | .hot h, v => hotReads h v
  | _, _ => False

def workWrites (i : Nat) : Worker → Var → Prop
  | .run, .chan j | .leave, .chan j => i = j
  | .hot h, v => hotWrites h v
  | _, _ => False

/-- The next step of `w` reads `v`. -/
def Reads (s : Api.St) (v : Var) : Who → Prop
  | .api t => pcReads s (s.pc t) v
  | .worker i => workReads i (s.worker i) v

/-- The next step of `w` writes `v`. -/
def Writes (s : Api.St) (v : Var) : Who → Prop
  | .api t => pcWrites s (s.pc t) v
  | .worker i => workWrites i (s.worker i) v

/-- A data race on `v`: `w` is going to write it while `r` is going to access it. -/
def Race (s : Api.St) (v : Var) (w r : Who) : Prop := w ≠ r ∧ Writes s v w ∧ (Reads s v r ∨ Writes s v r)

/-- The step of `w` with answers `e`. -/
def stepOf (s : Api.St) (e : Env) : Who → Api.St
  | .api t => runT s t e
  | .worker i => workI s i e

/-- Two states have the same value of a variable. -/
def Same (a b : Api.St) : Var → Prop
  | .state => a.state = b.state
  | .shm => a.loaded = b.loaded ∧ a.size = b.size ∧ a.async = b.async
  | .hot => a.hot = b.hot
  | .chan i => a.chan i = b.chan i
  | .thread i => (a.worker i = .none ↔ b.worker i = .none)

/-- No hot update is configured. -/
def coldCall : Api.Call → Prop
  | .init x | .parseStart x | .loadStart x => ∀ c, x = some c → c.hot = false
  | _ => True

/-- The life cycle is left to thread 0, and no hot update is configured. -/
def Alone : Api.Ev → Prop
  | .call t c => t = 0 ∧ coldCall c
  | _ => True

end FNLog.Spec
