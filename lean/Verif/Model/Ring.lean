import Verif.Model.Types

/-!
# The ring buffer of a channel as a transition system

Transcribed from `/repo/src/include/fn_channel.h`: `HoldChannel` (430-475), `PushChannel` (477-525),
`EnterProcChannel` (99-270), and the parts of `StartChannels`, `StopChannels` (fn_core.h 30-107) that
set `channel_state_`.

* Every load, store or compare-and-swap of a shared variable is one step; steps of different threads
  interleave arbitrarily (sequential consistency).
* The four indices are stored as running totals `H W P R`; the C++ variables `hold_idx_`,
  `write_idx_`, `proc_idx_`, `read_idx_` are these totals modulo `BUFFER_LEN` (`Cfg.L`), and every
  comparison, array access and compare-and-swap below uses only the value modulo `L`, as the code
  does.  In the same way a thread's local `old_idx` is stored as the total it was read from and used
  modulo `L` only.
* The text of a log is a list over an arbitrary alphabet `α`; the producer writes it one element at a
  time.  Device output of a record is one step (`cDisp`).
* Not modelled: sleeping, flushing, UDP input, hot update, the per-priority byte counters, the
  maximum queue size and delay statistics (none of them touches the ring).
-/

namespace FNLog.Ring
open FNLog

/-- `data_mark_` (fn_data.h 118-123). -/
inductive Mark where
  | invalid | hold | ready
deriving DecidableEq, Repr

/-- Program counters of a thread inside the logging calls. Line numbers are of fn_channel.h. -/
inductive PC (α : Type) where
  /-- outside of the logging calls -/
  | idle
  /-- 451: test `channel_state_`, `i` is the `for` counter -/
  | hChk (i : Nat) (body : List α)
  /-- 455: load `hold_idx_` -/
  | hLoad (i : Nat) (body : List α)
  /-- 457: load `read_idx_` and compare with `old_idx + 1` -/
  | hRead (i tk : Nat) (body : List α)
  /-- 461: compare-and-swap on `hold_idx_` -/
  | hCas (i tk : Nat) (body : List α)
  /-- 469: after the `for` loop, test `channel_state_` -/
  | hOut (body : List α)
  /-- 444-445: count the wait and sleep -/
  | hSleep (body : List α)
  /-- 463: increment CHANNEL_LOG_HOLD -/
  | hInc (k : Nat) (body : List α)
  /-- 464: `data_mark_ = MARK_HOLD` -/
  | hMark (k : Nat) (body : List α)
  /-- 288: `content_len_ = 0` (InitLogData, called by the LogStream constructor) -/
  | fInit (k : Nat) (body : List α)
  /-- the `<<` operations write the text piece by piece -/
  | fill (k : Nat) (rest : List α)
  /-- 489: test `channel_state_` in PushChannel -/
  | pChk (k : Nat)
  /-- 494-497: terminate the line -/
  | pSeal (k : Nat)
  /-- 499: `data_mark_ = 2` -/
  | pMark (k : Nat)
  /-- 504: load `write_idx_` -/
  | wLoad
  /-- 506: load `hold_idx_` and compare -/
  | wHold (tk : Nat)
  /-- 510: load `data_mark_` and compare with 2 -/
  | wMark (tk : Nat)
  /-- 514: compare-and-swap on `write_idx_` -/
  | wCas (tk : Nat)
  /-- 516: increment CHANNEL_LOG_PUSH -/
  | wInc
  /-- 518: loop condition on `channel_state_` -/
  | wCond
  /-- 520: sync channels continue with EnterProcChannel -/
  | wExit
  /-- 109: load `proc_idx_` -/
  | cLoad
  /-- 111: load `write_idx_` and compare -/
  | cWrite (tk : Nat)
  /-- 118: compare-and-swap on `proc_idx_` -/
  | cCas (tk : Nat)
  /-- 124: DispatchLog -/
  | cDisp (k : Nat)
  /-- 125: `data_mark_ = 0` -/
  | cClear (k : Nat)
  /-- 126: increment CHANNEL_LOG_PROCESSED -/
  | cStat (k : Nat)
  /-- 127: add `cur_log.content_len_` to CHANNEL_LOG_PROCESSED_BYTES -/
  | cBytes (k : Nat)
  /-- 158: load `read_idx_` -/
  | rLoad
  /-- 160: load `proc_idx_` and compare -/
  | rProc (tk : Nat)
  /-- 164: load `data_mark_` and compare with MARK_INVALID -/
  | rMark (tk : Nat)
  /-- 168: compare-and-swap on `read_idx_` -/
  | rCas (tk : Nat)
  /-- 187: test `channel_state_ == CHANNEL_STATE_NULL` -/
  | cEnd
  /-- 189: `channel_state_ = CHANNEL_STATE_RUNNING` -/
  | cSet
  /-- 263-264: loop condition, channel type and `channel_state_` -/
  | cLoop
  /-- 264: load `write_idx_` -/
  | cLoopW
  /-- 264: load `read_idx_` and compare -/
  | cLoopR (w : Nat)
  /-- 268: `channel_state_ = CHANNEL_STATE_FINISH` -/
  | cFin
  /-- the async thread has returned -/
  | done
deriving DecidableEq, Repr

/-- Constants of a channel: `BUFFER_LEN`, the channel type, the line terminator. -/
structure Cfg (α : Type) where
  L : Nat
  async : Bool
  nl : α

/-- Shared memory, program counters and (last five fields) history variables. -/
structure St (α : Type) where
  /-- total of `hold_idx_` -/
  H : Nat
  /-- total of `write_idx_` -/
  W : Nat
  /-- total of `proc_idx_` -/
  P : Nat
  /-- total of `read_idx_` -/
  R : Nat
  /-- `buffer_[i].data_mark_` -/
  mark : Nat → Mark
  /-- `buffer_[i].content_[0, content_len_)` -/
  cell : Nat → List α
  /-- `channel_state_` -/
  state : ChannelState
  /-- `logger_state_ == LOGGER_STATE_RUNNING` -/
  lgRunning : Bool
  pc : Nat → PC α
  /-- CHANNEL_LOG_WAIT_COUNT, CHANNEL_LOG_HOLD, CHANNEL_LOG_PUSH, CHANNEL_LOG_PROCESSED,
  CHANNEL_LOG_PROCESSED_BYTES -/
  nWait : Nat
  nHold : Nat
  nPush : Nat
  nProc : Nat
  nBytes : Nat
  /-- history: admitted log statements (thread, text) in call order -/
  calls : List (Nat × List α)
  /-- history: log statements (thread, complete line) in the order in which they acquired a slot -/
  acquired : List (Nat × List α)
  /-- history: dispatched records, as (position in `acquired`, content read from the slot) -/
  out : List (Nat × List α)
  /-- history: acquired log statements whose PushChannel returned E_LOGGER_NOT_RUNNING -/
  lost : List Nat
  /-- history: everything below this position was handed over by crash recovery as processed -/
  base : Nat
  /-- history: positions below this one may carry an old mark after crash recovery -/
  old : Nat

variable {α : Type}

/-- Continue thread `t` at `p`. -/
def St.go (s : St α) (t : Nat) (p : PC α) : St α :=
  { s with pc := fun u => if u = t then p else s.pc u }

/-- Point update of a slot-indexed array. -/
def upd {β : Type} (f : Nat → β) (i : Nat) (v : β) : Nat → β := fun j => if j = i then v else f j

/-- One step of thread `t`; the line numbers are those of the program counters. -/
def stepT (c : Cfg α) (s : St α) (t : Nat) : St α :=
  match s.pc t with
  | .idle => s
  -- HoldChannel
  | .hChk i b => if s.state = .running then s.go t (.hLoad i b) else s.go t (.hOut b)
  | .hLoad i b => s.go t (.hRead i s.H b)
  | .hRead i tk b =>
    if (tk + 1) % c.L = s.R % c.L then s.go t (.hOut b) else s.go t (.hCas i tk b)
  | .hCas i tk b =>
    if s.H % c.L = tk % c.L then
      { s with H := s.H + 1, acquired := s.acquired ++ [(t, b ++ [c.nl])] }.go t (.hInc s.H b)
    else if i + 1 < max c.L 10 then s.go t (.hChk (i + 1) b)
    else s.go t (.hOut b)
  | .hOut b => if s.state = .running then s.go t (.hSleep b) else s.go t .idle
  | .hSleep b => { s with nWait := s.nWait + 1 }.go t (.hChk 0 b)
  | .hInc k b => { s with nHold := s.nHold + 1 }.go t (.hMark k b)
  | .hMark k b => { s with mark := upd s.mark (k % c.L) .hold }.go t (.fInit k b)
  -- the log statement writes its text
  | .fInit k b => { s with cell := upd s.cell (k % c.L) [] }.go t (.fill k b)
  | .fill k [] => s.go t (.pChk k)
  | .fill k (x :: rest) =>
    { s with cell := upd s.cell (k % c.L) (s.cell (k % c.L) ++ [x]) }.go t (.fill k rest)
  -- PushChannel
  | .pChk k => if s.state = .running then s.go t (.pSeal k)
    else { s with lost := k :: s.lost }.go t .idle
  | .pSeal k => { s with cell := upd s.cell (k % c.L) (s.cell (k % c.L) ++ [c.nl]) }.go t (.pMark k)
  | .pMark k => { s with mark := upd s.mark (k % c.L) .ready }.go t .wLoad
  | .wLoad => s.go t (.wHold s.W)
  | .wHold tk => if tk % c.L = s.H % c.L then s.go t .wExit else s.go t (.wMark tk)
  | .wMark tk => if s.mark (tk % c.L) ≠ .ready then s.go t .wExit else s.go t (.wCas tk)
  | .wCas tk =>
    if s.W % c.L = tk % c.L then { s with W := s.W + 1 }.go t .wInc else s.go t .wCond
  | .wInc => { s with nPush := s.nPush + 1 }.go t .wCond
  | .wCond => if s.state = .running then s.go t .wLoad else s.go t .wExit
  | .wExit => if c.async = false ∧ s.state = .running then s.go t .cLoad else s.go t .idle
  -- EnterProcChannel
  | .cLoad => s.go t (.cWrite s.P)
  | .cWrite tk => if tk % c.L = s.W % c.L then s.go t .cEnd else s.go t (.cCas tk)
  | .cCas tk =>
    if s.P % c.L = tk % c.L then { s with P := s.P + 1 }.go t (.cDisp s.P) else s.go t .cEnd
  | .cDisp k => { s with out := s.out ++ [(k, s.cell (k % c.L))] }.go t (.cClear k)
  | .cClear k => { s with mark := upd s.mark (k % c.L) .invalid }.go t (.cStat k)
  | .cStat k => { s with nProc := s.nProc + 1 }.go t (.cBytes k)
  | .cBytes k => { s with nBytes := s.nBytes + (s.cell (k % c.L)).length }.go t .rLoad
  | .rLoad => s.go t (.rProc s.R)
  | .rProc tk => if tk % c.L = s.P % c.L then s.go t .cLoad else s.go t (.rMark tk)
  | .rMark tk => if s.mark (tk % c.L) ≠ .invalid then s.go t .cLoad else s.go t (.rCas tk)
  | .rCas tk =>
    if s.R % c.L = tk % c.L then { s with R := s.R + 1 }.go t .rLoad else s.go t .rLoad
  | .cEnd => if s.state = .null then s.go t .cSet else s.go t .cLoop
  | .cSet => { s with state := .running }.go t .cLoop
  | .cLoop =>
    if c.async = false then s.go t .idle
    else if s.state = .running then s.go t .cLoad else s.go t .cLoopW
  | .cLoopW => s.go t (.cLoopR s.W)
  | .cLoopR w => if w % c.L ≠ s.R % c.L then s.go t .cLoad else s.go t .cFin
  | .cFin => { s with state := .finish }.go t .done
  | .done => s

/-- What can happen: a thread begins a log statement with the given text, a thread makes one step,
or the controlling thread starts or stops the logger. -/
inductive Ev (α : Type) where
  | call (t : Nat) (body : List α)
  | run (t : Nat)
  /-- fn_core.h 146: `logger_state_ = LOGGER_STATE_RUNNING`, after StartChannels saw the channel
  running -/
  | started
  /-- fn_core.h 189: `logger_state_ = LOGGER_STATE_CLOSING` -/
  | closing
  /-- fn_core.h 86 (sync) and 92-95 (async) -/
  | stop

/-- One event. A log statement whose channel or logger is not running is refused by BlockInput
(fn_channel.h 335-343); the other filters are the subject of `Verif/Model/Filter.lean`, an event
`call` stands for a statement that passes them. -/
def step (c : Cfg α) (s : St α) : Ev α → St α
  | .call t body =>
    match s.pc t with
    | .idle => if s.lgRunning = true ∧ s.state = .running then
        { s with calls := s.calls ++ [(t, body)] }.go t (.hChk 0 body) else s
    | _ => s
  | .run t => stepT c s t
  | .started => if s.state = .running then { s with lgRunning := true } else s
  | .closing => { s with lgRunning := false }
  | .stop =>
    if c.async = true then
      if s.state = .running then { s with state := .waitingFinish } else s
    else { s with state := .null }

/-- Run a schedule. -/
def run (c : Cfg α) (s : St α) (evs : List (Ev α)) : St α := evs.foldl (step c) s

/-- The thread that executes EnterProcChannel of an async channel (fn_core.h 44). -/
def worker : Nat := 0

/-- A fresh channel: ResetSHMLogger (fn_load.h 23-36) on zero-initialised memory, then StartChannels
(fn_core.h 39-44): a sync channel is running, an async channel has its thread at the loop start. -/
def init (c : Cfg α) : St α where
  H := 0
  W := 0
  P := 0
  R := 0
  mark := fun _ => .invalid
  cell := fun _ => []
  state := if c.async then .null else .running
  lgRunning := false
  pc := fun t => if c.async = true ∧ t = worker then .cLoad else .idle
  nWait := 0
  nHold := 0
  nPush := 0
  nProc := 0
  nBytes := 0
  calls := []
  acquired := []
  out := []
  lost := []
  base := 0
  old := 0

/-- The loop of CleanChannels (fn_core.h 156-160); it makes at most `BUFFER_LEN` rounds. -/
def cleanMarks (L : Nat) : Nat → Nat → Nat → (Nat → Mark) → (Nat → Mark)
  | 0, _, _, m => m
  | n + 1, r, w, m =>
    if r % L = w % L then m else cleanMarks L n (r + 1) w (upd m (r % L) .invalid)

/-- The end of StopLogger (fn_core.h 96 and CleanChannels 150-168) followed by StartLogger (109-148,
StartChannels 30-72): indices and the marks between `read` and `write` are reset, the channel state is
set up as in `init`, a new worker thread starts.  Threads that are still inside a log statement stay
there.  The history variables are those of the new session. -/
def restart (c : Cfg α) (s : St α) : St α :=
  { s with
    H := 0, W := 0, P := 0, R := 0
    mark := cleanMarks c.L c.L s.R s.W s.mark
    state := if c.async then .null else .running
    lgRunning := false
    pc := fun t => if c.async = true ∧ t = worker then .cLoad else s.pc t
    calls := [], acquired := [], out := [], lost := [], base := 0, old := 0 }

/-- The compare-and-swap about to be made by `t` (if any) is timely: if it succeeds, the variable has not
been changed since `t` loaded its expected value.  (A variable that has the expected value again was
changed at least `L` times.) -/
def timelyAt (c : Cfg α) (s : St α) (t : Nat) : Prop :=
  match s.pc t with
  | .hCas _ tk _ => s.H % c.L = tk % c.L → s.H = tk
  | .wCas tk => s.W % c.L = tk % c.L → s.W = tk
  | .cCas tk => s.P % c.L = tk % c.L → s.P = tk
  | .rCas tk => s.R % c.L = tk % c.L → s.R = tk
  | _ => True

/-- An event is timely. -/
def timelyEv (c : Cfg α) (s : St α) : Ev α → Prop
  | .run t => timelyAt c s t
  | _ => True

instance (c : Cfg α) (s : St α) (t : Nat) : Decidable (timelyAt c s t) := by
  unfold timelyAt; split <;> infer_instance

instance (c : Cfg α) (s : St α) (e : Ev α) : Decidable (timelyEv c s e) := by
  unfold timelyEv; split <;> infer_instance

/-- A schedule in which no compare-and-swap succeeds although the index went round the ring since it was
loaded. -/
def Timely (c : Cfg α) : St α → List (Ev α) → Prop
  | _, [] => True
  | s, e :: es => timelyEv c s e ∧ Timely c (step c s e) es

instance Timely.dec (c : Cfg α) : (s : St α) → (es : List (Ev α)) → Decidable (Timely c s es)
  | _, [] => inferInstanceAs (Decidable True)
  | s, e :: es =>
    haveI := Timely.dec c (step c s e) es
    inferInstanceAs (Decidable (timelyEv c s e ∧ Timely c (step c s e) es))

/-- No thread is delayed for `L` successful compare-and-swaps of others between loading an index and its own
compare-and-swap. -/
def WithinLap (c : Cfg α) : St α → List (Ev α) → Prop
  | _, [] => True
  | s, e :: es => (∀ t, e = .run t →
      match s.pc t with
      | .hCas _ tk _ => s.H < tk + c.L
      | .wCas tk => s.W < tk + c.L
      | .cCas tk => s.P < tk + c.L
      | .rCas tk => s.R < tk + c.L
      | _ => True) ∧ WithinLap c (step c s e) es

end FNLog.Ring
