/-!
# The stream of a file device, access by access

Transcribed from `FileHandler` (fn_file.h 126-195) and its uses: `EnterProcOutFileDevice` and `OpenFileDevice` (fn_out_file_device.h 192-340), which
run under the lock of the channel on a sync channel (fn_channel.h 28), the flush loops of `EnterProcChannel` (fn_channel.h 175-181, 194-200)
and the closing loop of `StopLogger` (fn_core.h 193-199), which do not take that lock.  `Verif/Model/Flush.lean` has the output to a device in one
step; here every access to `file_` is a step.

Simplifications:
* Which way a decision goes that does not depend on `file_` (whether the file is to be rotated, whether it may be tried again, whether the name is
  too long) is chosen by the schedule, like the answers of the operating system.
* Streams have numbers, which are not used again; a stream is open from `fopen` to `fclose`.  Using a null or closed stream is undefined (`none`),
  except `fflush` of a null pointer, which flushes all streams.
* The statistics and the names of the files are left out.  That unordered accesses to the plain pointer `file_` are undefined in C++ whatever they
  return is not counted.
* On an async channel no lock is taken; its one thread always finds it free here.
-/

namespace FNLog.FileUse

/-- What comes after `close()`. -/
inductive After where
  /-- fn_out_file_device.h 246 -/
  | reopen
  /-- the end of `write` -/
  | leave
  /-- the next device in StopLogger -/
  | stop
deriving DecidableEq

/-- Where a thread is. -/
inductive PC where
  | idle
  /-- fn_out_file_device.h 325: `!writer.is_open() && … + 5 > log.timestamp_` -/
  | outQ (x : List Char)
  /-- 203-234: is the file to be closed? -/
  | rotate (x : List Char)
  /-- 240: `is_open()` -/
  | closeQ (x : List Char)
  /-- fn_file.h 148: `file_ != nullptr` -/
  | cTest (x : List Char) (k : After)
  /-- 151-156: `file_ != nullptr`, `fileno(file_)`, `fsync` -/
  | cSync (x : List Char) (k : After)
  /-- 159: `fclose(file_)` -/
  | cClose (x : List Char) (k : After)
  /-- 160: `file_ = nullptr` -/
  | cNull (x : List Char) (k : After)
  /-- fn_out_file_device.h 246: `is_open()` -/
  | openQ (x : List Char)
  /-- 279: the name is too long -/
  | name (x : List Char)
  /-- fn_file.h 128: `file_ != nullptr` -/
  | oTest (x : List Char)
  /-- 130: `fclose(file_)` -/
  | oClose (x : List Char)
  /-- 131 -/
  | oNull (x : List Char)
  /-- 133: `file_ = fopen(…)` -/
  | oOpen (x : List Char)
  /-- 134: `if (file_)` -/
  | oTest2 (x : List Char)
  /-- 136: `fstat(fileno(file_), …)` -/
  | oStat (x : List Char)
  /-- 138: `fclose(file_)` -/
  | oFail (x : List Char)
  /-- 139 -/
  | oFailNull (x : List Char)
  /-- fn_out_file_device.h 330: `is_open()` -/
  | wQ (x : List Char)
  /-- fn_file.h 181: `if (file_ && len > 0)` -/
  | wTest (x : List Char)
  /-- 183: `fwrite(…, file_)` -/
  | wWrite (x : List Char)
  /-- 191: `if (file_)` -/
  | fTest
  /-- 193: `fflush(file_)` -/
  | fFlush
  /-- fn_core.h 195: `is_open()` -/
  | sQ
deriving DecidableEq

/-- The state. -/
structure St where
  /-- `file_` -/
  file : Option Nat
  /-- the streams that are open, the number of the next one -/
  live : List Nat
  next : Nat
  pc : Nat → PC
  /-- the thread that has `read_locks_[channel_id]` -/
  lock : Option Nat
  /-- history: the stream and the text of every `fwrite` -/
  written : List (Nat × List Char)

/-- Go to a place. -/
def St.go (s : St) (t : Nat) (p : PC) : St := { s with pc := fun u => if u = t then p else s.pc u }

/-- The end of EnterProcDevice: unlock (fn_data.h 367-373). -/
def St.leave (s : St) (t : Nat) : St := { s with lock := none }.go t .idle

/-- After `close()`. -/
def St.after (s : St) (t : Nat) (x : List Char) : After → St
  | .reopen => s.go t (.openQ x)
  | .leave => s.leave t
  | .stop => s.go t .idle

/-- The stream `file_` points to, if it is open. -/
def St.stream (s : St) : Option Nat := s.file.bind fun g => if g ∈ s.live then some g else none

/-- `fclose(file_)`. -/
def St.fclose (s : St) : Option St := s.stream.map fun g => { s with live := s.live.filter (· ≠ g) }

/-- `file_ = fopen(…)` (fn_file.h 133). -/
def St.fopen (s : St) (ok : Bool) : St :=
  if ok then { s with file := some s.next, live := s.next :: s.live, next := s.next + 1 } else { s with file := none }

/-- One step of thread `t`; `b` is the answer of the operating system, or the decision. -/
def stepT (s : St) (t : Nat) (b : Bool) : Option St :=
  match s.pc t with
  | .idle => some s
  | .outQ x => some (if s.file = none ∧ b then s.leave t else s.go t (.rotate x))
  | .rotate x => some (s.go t (if b then .closeQ x else .openQ x))
  | .closeQ x => some (s.go t (if s.file = none then .openQ x else .cTest x .reopen))
  | .cTest x k => some (if s.file = none then s.after t x k else s.go t (.cSync x k))
  | .cSync x k => if s.file = none then some (s.go t (.cClose x k)) else s.stream.map fun _ => s.go t (.cClose x k)
  | .cClose x k => s.fclose.map (·.go t (.cNull x k))
  | .cNull x k => some ({ s with file := none }.after t x k)
  | .openQ x => some (s.go t (if s.file = none then .name x else .wQ x))
  | .name x => some (s.go t (if b then .wQ x else .oTest x))
  | .oTest x => some (s.go t (if s.file = none then .oOpen x else .oClose x))
  | .oClose x => s.fclose.map (·.go t (.oNull x))
  | .oNull x => some ({ s with file := none }.go t (.oOpen x))
  | .oOpen x => some ((s.fopen b).go t (.oTest2 x))
  | .oTest2 x => some (s.go t (if s.file = none then .wQ x else .oStat x))
  | .oStat x => s.stream.map fun _ => s.go t (if b then .wQ x else .oFail x)
  | .oFail x => s.fclose.map (·.go t (.oFailNull x))
  | .oFailNull x => some ({ s with file := none }.go t (.wQ x))
  | .wQ x => some (if s.file = none then s.leave t else s.go t (.wTest x))
  | .wTest x => some (if s.file = none ∨ x = [] then s.leave t else s.go t (.wWrite x))
  | .wWrite x => s.stream.map fun g =>
      if b then { s with written := s.written ++ [(g, x)] }.leave t else { s with written := s.written ++ [(g, x)] }.go t (.cTest x .leave)
  | .fTest => some (s.go t (if s.file = none then .idle else .fFlush))
  | .fFlush => if s.file = none then some (s.go t .idle) else s.stream.map fun _ => s.go t .idle
  | .sQ => some (s.go t (if s.file = none then .idle else .cTest [] .stop))

/-- What can happen: a record is output (when the lock is free), a thread flushes, StopLogger closes, a thread makes a step. -/
inductive Ev where
  | enter (t : Nat) (x : List Char)
  | flush (t : Nat)
  | stop (t : Nat)
  | run (t : Nat) (b : Bool)

/-- One event; `none`: a null or closed stream was used. -/
def step (s : St) : Ev → Option St
  | .enter t x => some (if s.pc t = .idle ∧ s.lock = none then { s with lock := some t }.go t (.outQ x) else s)
  | .flush t => some (if s.pc t = .idle then s.go t .fTest else s)
  | .stop t => some (if s.pc t = .idle then s.go t .sQ else s)
  | .run t b => stepT s t b

/-- Run a schedule. -/
def run : St → List Ev → Option St
  | s, [] => some s
  | s, e :: es => (step s e).bind (run · es)

/-- A new device (fn_file.h 164-168). -/
def begin : St := ⟨none, [], 1, fun _ => .idle, none, []⟩

end FNLog.FileUse
