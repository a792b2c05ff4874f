import Verif.Model.Threads

/-!
# Buffered files: what has reached the operating system

`FileHandler` writes through a `FILE` (fn_file.h 179-195): what is written stays in the buffer of the stream until the stream
is flushed or closed, or until the C library decides to hand on some of it.  Transcribed from fn_out_file_device.h 192-339 and
fn_file.h 126-195 once more, with the buffer, and from the flush loops of `EnterProcChannel` (fn_channel.h 104, 128, 172-183,
192-201), which any thread of a sync channel makes without the lock that `EnterProcDevice` takes (fn_channel.h 28).

The threads are those of `Verif/Model/Threads.lean`; the field `out.fs` of the state is what the operating system has.

Simplifications: `fflush` and `fclose` do not fail, and the bytes that an incomplete `fwrite` reports as written get to the
file; `file_` is read once in `FileHandler::flush`; the closing of all files at the end of `StopLogger` (fn_core.h 193-199) is
not an event.  The files of a process that ends without closing them keep what the operating system has.
-/

namespace FNLog
open Ring (PC upd)

/-- The buffer of a stream: what was written, with the thread that wrote it (the thread is history). -/
abbrev Chunks := List (Nat × List Char)

/-- The bytes of a buffer. -/
def Chunks.bytes (b : Chunks) : List Char := (b.map Prod.snd).flatten

/-- The C library hands on the first `n` bytes of a buffer: the bytes, and what is left. -/
def Chunks.spill : Nat → Chunks → List Char × Chunks
  | _, [] => ([], [])
  | n, (t, x) :: r =>
    if x.length ≤ n then (x ++ (Chunks.spill (n - x.length) r).1, (Chunks.spill (n - x.length) r).2)
    else (x.take n, (t, x.drop n) :: r)

/-- A file device with its stream. -/
structure BufSt where
  /-- what the operating system has -/
  fs : Fs
  /-- `file_` is not null: the path it was opened with -/
  handle : Option (List Char)
  /-- the buffer of the stream -/
  buf : Chunks
  /-- the number of streams opened so far: the identity of the present one -/
  gen : Nat
  logs : Fields

/-- Append to a file. -/
def Fs.append (fs : Fs) (p : List Char) (x : List Char) : Fs := fs.set p (some ((fs p).getD [] ++ [x]))

/-- `fflush` (fn_file.h 193). -/
def BufSt.flush (s : BufSt) : BufSt :=
  match s.handle with
  | none => s
  | some p => { s with fs := s.fs.append p s.buf.bytes, buf := [] }

/-- `FileHandler::close` (fn_file.h 146-162): `fclose` flushes. -/
def BufSt.close (s : BufSt) : BufSt := { s.flush with handle := none }

/-- Lines 298-314 of fn_out_file_device.h. -/
def bufOpenFile (E : FileEnv) (log : FileLog) (path : List Char) (s : BufSt) : BufSt :=
  let r := openFile E log path ⟨s.fs, s.handle, s.logs⟩
  if log.opens = false then { s with logs := r.logs }
  else { fs := r.fs, handle := r.handle, buf := [], gen := s.gen + 1, logs := r.logs }

/-- OpenFileDevice (fn_out_file_device.h 192-315). -/
def bufOpenFileDevice (E : FileEnv) (channelId : Int) (d : Device) (log : FileLog) (s : BufSt) : Option BufSt :=
  let limit := limitOut d s.logs log.content.length
  let s := if limit || periodOut d s.logs log.ts then
      { s.close with logs := s.logs.put DEVICE_LOG_CUR_FILE_SIZE 0 } else s
  if s.handle ≠ none then some s
  else do
    let path ← fullPath E.proc (E.tm log.ts) E.fuel d channelId
    if path.length ≥ 250 then
      return { s with logs := (openFailed 1 log.ts ⟨s.fs, s.handle, s.logs⟩).logs }
    else return bufOpenFile E log path { s with fs := rotate d limit path s.fs }

/-- `FileHandler::write` (fn_file.h 179-188) by thread `t`; the C library then hands on `n` bytes of the buffer. -/
def bufWriteFile (t n : Nat) (log : FileLog) (path : List Char) (s : BufSt) : BufSt :=
  if log.content = [] then s
  else match log.short with
    | none =>
      let b := (s.buf ++ [(t, log.content)]).spill n
      { s with fs := s.fs.append path b.1, buf := b.2 }
    | some k => { s with buf := s.buf ++ [(t, log.content.take k)] }.close

/-- EnterProcOutFileDevice (fn_out_file_device.h 319-339). -/
def bufFileDevice (E : FileEnv) (channelId : Int) (t n : Nat) (d : Device) (log : FileLog) (s : BufSt) : Option BufSt :=
  if s.handle = none ∧ s.logs DEVICE_LOG_LAST_TRY_CREATE_TIMESTAMP + 5 > log.ts then some s
  else do
    let s ← bufOpenFileDevice E channelId d log s
    match s.handle with
    | none => return s
    | some path =>
      let s := bufWriteFile t n log path s
      let logs ← accountFile s.logs log.priority log.content.length
      return { s with logs := logs }

/-! ## Threads -/

/-- FN_LOG_FORCE_FLUSH_QUE (fn_data.h 72-74), and what the C library does on its own: the bytes it hands on at the `n`-th visit
of a device. -/
structure Stdio where
  queue : Nat
  spill : Nat → Nat → Nat

/-- Where a thread is in a flush loop (fn_channel.h 175-181, 194-200). -/
inductive FlushPc where
  /-- not in a flush loop -/
  | off
  /-- before device `j`: its type (177, 196), and `if (file_)` (fn_file.h 191) -/
  | look (j : Nat)
  /-- `fflush(file_)` (fn_file.h 193) with the stream number `g` of device `j` -/
  | call (j g : Nat)
deriving DecidableEq, Repr

/-- The state of `Crew`, the streams, and the threads. -/
structure FCrew where
  /-- its `out.fs` is what the operating system has -/
  crew : Crew
  /-- the buffers of the streams of the devices -/
  buf : Nat → Chunks
  /-- the number of streams opened so far by the devices -/
  gen : Nat → Nat
  /-- `flush_count` (fn_channel.h 104) of each thread -/
  count : Nat → Nat
  fl : Nat → FlushPc

/-- The file device `j`. -/
def FCrew.file (f : FCrew) (j : Nat) : BufSt :=
  ⟨f.crew.out.fs, (f.crew.out.dev j).handle, f.buf j, f.gen j, (f.crew.out.dev j).logs⟩

/-- Replace the file device `j`. -/
def FCrew.setFile (f : FCrew) (j : Nat) (b : BufSt) : FCrew :=
  { f with
    crew := { f.crew with
      out := { f.crew.out.setDev j { f.crew.out.dev j with handle := b.handle, logs := b.logs } with fs := b.fs } }
    buf := upd f.buf j b.buf
    gen := upd f.gen j b.gen }

/-- EnterProcDevice (fn_channel.h 23-50). -/
def enterBuf (S : Setup) (B : Stdio) (t n j : Nat) (d : Device) (log : DevLog) (f : FCrew) : Option FCrew :=
  if d.outType = .file then
    (bufFileDevice S.fenv S.channel.id t (B.spill n j) d
      ⟨log.ts, log.priority, log.text, (S.os n j).opens, (S.os n j).short⟩ (f.file j)).map (f.setFile j)
  else
    (enterProcDevice S.fenv S.channel.id j d (S.os n j) log f.crew.out).map fun o => { f with crew := { f.crew with out := o } }

/-- EnterProcDevice if the filter lets the record pass. -/
def enterBufIf (S : Setup) (B : Stdio) (r : Bool) (t n j : Nat) (d : Device) (log : DevLog) (f : FCrew) : Option FCrew :=
  if r then enterBuf S B t n j d log f else some f

/-- Where DispatchLog goes on. -/
def FCrew.visited (f : FCrew) (t : Nat) (v : Visit) : FCrew :=
  { f with crew := { f.crew with pos := upd f.crew.pos t (f.crew.pos t + 1), visits := f.crew.visits ++ [v] } }

/-- One round of the loop of DispatchLog (fn_channel.h 55-94), as `dispatchNext`. -/
def bufDispatchNext (S : Setup) (B : Stdio) (t k : Nat) (d : Device) (f : FCrew) : Option FCrew := do
  let (h, text) ← decode (f.crew.ring.cell (k % S.cfg.L))
  let r ← dispatchTakes d h.priority h.category h.identify
  let f' ← enterBufIf S B r t (visitsOf (f.crew.pos t) f.crew.visits).length (f.crew.pos t) d (devLog h text) f
  some (f'.visited t ⟨f.crew.pos t, k, h, text⟩)

/-- `flush_count` and the flush loop after a step of a thread from `p` to `q`: line 128; 172-174; 192-193 (the variable ends
with the round, 104). -/
def flushAfter (B : Stdio) (count : Nat) : PC Piece → PC Piece → Nat × FlushPc
  | .cBytes _, .rLoad => (count + 1, .off)
  | .rProc _, .cLoad => if count > B.queue then (0, .look 0) else (count, .off)
  | .rMark _, .cLoad => if count > B.queue then (0, .look 0) else (count, .off)
  | .cEnd, .cLoop => if count ≠ 0 then (0, .look 0) else (0, .off)
  | .cSet, .cLoop => if count ≠ 0 then (0, .look 0) else (0, .off)
  | _, _ => (count, .off)

/-- A thread has made a step of the ring. -/
def FCrew.moved (B : Stdio) (t : Nat) (f : FCrew) (c : Crew) : FCrew :=
  let r := flushAfter B (f.count t) (f.crew.ring.pc t) (c.ring.pc t)
  { f with crew := c, count := upd f.count t r.1, fl := upd f.fl t r.2 }

/-- A step of a flush loop before device `j` (fn_channel.h 175-177, 194-196, fn_file.h 191). -/
def flushLook (S : Setup) (t j : Nat) (f : FCrew) : FCrew :=
  match S.channel.devices[j]? with
  | none => { f with fl := upd f.fl t .off }
  | some d =>
    if d.outType = .file ∧ (f.crew.out.dev j).handle ≠ none then { f with fl := upd f.fl t (.call j (f.gen j)) }
    else { f with fl := upd f.fl t (.look (j + 1)) }

/-- `fflush` of the stream number `g` of device `j`; `none`: it has been closed (undefined behaviour). -/
def flushCall (t j g : Nat) (f : FCrew) : Option FCrew :=
  if (f.crew.out.dev j).handle = none ∨ f.gen j ≠ g then none
  else some { f.setFile j (f.file j).flush with fl := upd f.fl t (.look (j + 1)) }

/-- A step of a thread outside of the flush loops. -/
def bufRunThread (S : Setup) (B : Stdio) (t : Nat) (f : FCrew) : Option FCrew :=
  match f.crew.ring.pc t with
  | .cDisp k =>
    match S.channel.devices[f.crew.pos t]? with
    | some d => bufDispatchNext S B t k d f
    | none => (runThread S t f.crew).map (f.moved B t)
  | _ => (runThread S t f.crew).map (f.moved B t)

/-- A step of a thread. -/
def fRunThread (S : Setup) (B : Stdio) (t : Nat) (f : FCrew) : Option FCrew :=
  match f.fl t with
  | .look j => some (flushLook S t j f)
  | .call j g => flushCall t j g f
  | .off => bufRunThread S B t f

/-- One event. -/
def fAct (S : Setup) (B : Stdio) (f : FCrew) : Act → Option FCrew
  | .run t => fRunThread S B t f
  | e => (act S f.crew e).map fun c => { f with crew := c }

/-- A sequence of events. -/
def fActs (S : Setup) (B : Stdio) : List Act → FCrew → Option FCrew
  | [], f => some f
  | e :: es, f => do
    let f ← fAct S B f e
    fActs S B es f

/-- A fresh channel (see `crew`); nothing is buffered. -/
def fCrew (S : Setup) (o : OutSt) : FCrew := ⟨crew S o, fun _ => [], fun _ => 0, fun _ => 0, fun _ => .off⟩

/-- As `OnTime`. -/
def FOnTime (S : Setup) (B : Stdio) : List Act → FCrew → Prop
  | [], _ => True
  | e :: es, f => (∀ t, e = .run t → f.fl t = .off → Ring.timelyAt S.cfg f.crew.ring t) ∧
      ∀ f', fAct S B f e = some f' → FOnTime S B es f'

end FNLog
