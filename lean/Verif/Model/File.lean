import Verif.Model.Counters
import Verif.Model.Fmt

/-!
# The file device

Transcribed from `fn_out_file_device.h` (PreFmtName 18-59, FmtName 61-169, MakeFileName 173-184, MakePathName
186-189, OpenFileDevice 192-315, EnterProcOutFileDevice 319-339) and `fn_file.h` (open 126-145, write 179-188,
rollback 370-392).

Simplifications:
* The file system is a map from path names to regular files; a file is the sequence of blocks written to it.
  `rename` and `remove` of an existing file succeed; directories (`is_dir`, `create_dir`) only decide if a file
  can be opened, which is an input of every call.
* An open file is represented by its path: nobody else renames or removes it while it is open.
* `fwrite` reaches the file at once (buffering and flushing are not modelled).
* `localtime_r` and `mktime` are functions of the time (the time zone does not change).
-/

namespace FNLog

/-! ## File names -/

/-- The last decimal digit as a character. -/
def digitChar (n : Nat) : Char := Char.ofNat (48 + n % 10)

/-- `std::to_string` of a natural number. -/
def toStr (n : Nat) : List Char :=
  if _h : n < 10 then [digitChar n] else toStr (n / 10) ++ [digitChar n]
termination_by n
decreasing_by omega

/-- `snprintf("%0wd")`. -/
def zeroPadded (w : Nat) (x : Int) : List Char :=
  let t := toStr x.natAbs
  if x < 0 then '-' :: (List.replicate (w - 1 - t.length) '0' ++ t) else List.replicate (w - t.length) '0' ++ t

/-- PreFmtName (fn_out_file_device.h 18-59).  Behind a replacement the search continues with the text inserted,
which contains no `%`; the text in front of `pos` is not looked at again. -/
def preFmtName : List Char → List Char
  | [] => []
  | [c] => [c]
  | c :: d :: r =>
    if c = '%' ∧ d = 'F' then "$YEAR-$MON-$DAY".toList ++ preFmtName r
    else c :: preFmtName (d :: r)

/-- What a process knows: its name and id. -/
structure Proc where
  name : List Char
  pid : Int

/-- The `switch` of FmtName (fn_out_file_device.h 87-160) on the text behind `$`: the new text from `pos` on. -/
def fmtReplace (p : Proc) (t : Tm) : List Char → Option (List Char)
  | 'P' :: r =>
    if r.take 4 = "NAME".toList then some (p.name ++ r.drop 4)
    else if r.take 2 = "ID".toList then some (zeroPadded 6 p.pid ++ r.drop 2)
    else none
  | 'Y' :: r => if r.take 3 = "EAR".toList then some (zeroPadded 4 (t.year + 1900) ++ r.drop 3) else none
  | 'M' :: r =>
    if r.take 2 = "ON".toList then some (zeroPadded 2 (t.mon + 1) ++ r.drop 2)
    else if r.take 2 = "IN".toList then some (zeroPadded 2 t.min ++ r.drop 2)
    else none
  | 'D' :: r => if r.take 2 = "AY".toList then some (zeroPadded 2 t.mday ++ r.drop 2) else none
  | 'H' :: r => if r.take 3 = "OUR".toList then some (zeroPadded 2 t.hour ++ r.drop 3) else none
  | 'S' :: r => if r.take 2 = "EC".toList then some (zeroPadded 2 t.sec ++ r.drop 2) else none
  | _ => none

/-- The loop of FmtName (fn_out_file_device.h 72-167) on the text from `pos` on; `none`: still running.  After a
replacement `pos` stays, so the inserted text is searched too. -/
def fmtLoop (p : Proc) (t : Tm) : Nat → List Char → Option (List Char)
  | 0, _ => none
  | fuel + 1, s =>
    let skipped := s.takeWhile (· ≠ '$')
    match s.dropWhile (· ≠ '$') with
    | [] => some s
    | [_] => some s
    | d :: c :: r =>
      match fmtReplace p t (c :: r) with
      | some new => (fmtLoop p t fuel new).map (skipped ++ ·)
      | none => (fmtLoop p t fuel (c :: r)).map (skipped ++ d :: ·)

/-- FmtName (fn_out_file_device.h 61-169). -/
def fmtName (p : Proc) (t : Tm) (fuel : Nat) (fmt : List Char) : Option (List Char) :=
  if fmt = [] then some [] else fmtLoop p t fuel (preFmtName fmt)

/-- `std::to_string` of an `int`. -/
def intStr (x : Int) : List Char := if x < 0 then '-' :: toStr x.natAbs else toStr x.natAbs

/-- MakeFileName (fn_out_file_device.h 173-184). -/
def makeFileName (p : Proc) (t : Tm) (fuel : Nat) (file : List Char) (channelId deviceId : Int) : Option (List Char) :=
  let name := if file = [] then "$PNAME_$YEAR$MON$DAY_$PID.".toList ++ intStr channelId ++ intStr deviceId else file
  fmtName p t fuel (name ++ ".log".toList)

/-- Lines 266-275 of fn_out_file_device.h: the path of the directory with a `/` at its end. -/
def dirPath (path : List Char) : List Char :=
  if path = [] then []
  else
    let path := path.map fun c => if c = '\\' then '/' else c
    if path.getLast? = some '/' then path else path ++ ['/']

/-- The complete path (fn_out_file_device.h 264-277). -/
def fullPath (p : Proc) (t : Tm) (fuel : Nat) (d : Device) (channelId : Int) : Option (List Char) := do
  let name ← makeFileName p t fuel d.file channelId d.id
  let path ← fmtName p t fuel d.path
  return dirPath path ++ name

/-! ## The file system -/

/-- The blocks written to a file. -/
abbrev Blocks := List (List Char)

/-- `st_size`. -/
def fileSize (c : Blocks) : Int := ((c.map List.length).sum : Nat)

/-- The files. -/
abbrev Fs := List Char → Option Blocks

/-- Replace or remove a file. -/
def Fs.set (fs : Fs) (p : List Char) (c : Option Blocks) : Fs := fun q => if q = p then c else fs q

/-- `rename`. -/
def Fs.rename (fs : Fs) (old new : List Char) : Fs :=
  if fs old = none ∨ old = new then fs else (fs.set new (fs old)).set old none

def isDec (c : Char) : Bool := '0' ≤ c && c ≤ '9'

/-- The name of the next backup (fn_file.h 380-387). -/
def nextPath (path : List Char) (depth : Nat) : List Char :=
  let base := match path.reverse.dropWhile isDec with
    | '.' :: r => r.reverse
    | _ => path
  base ++ '.' :: toStr depth

/-- rollback (fn_file.h 370-392). -/
def rollback (maxDepth : Int) (path : List Char) (depth : Nat) (fs : Fs) : Fs :=
  match fs path with
  | none => fs
  | some _ =>
    if (depth : Int) > maxDepth then fs.set path none
    else (rollback maxDepth (nextPath path depth) (depth + 1) fs).rename path (nextPath path depth)
termination_by (maxDepth + 1 - depth).toNat
decreasing_by omega

/-- Conversion of a `long long` to `int` (fn_out_file_device.h 292). -/
def toInt (x : Int) : Int := (x + 2 ^ 31) % 2 ^ 32 - 2 ^ 31

/-! ## The device -/

/-- The surroundings of a process. -/
structure FileEnv where
  proc : Proc
  /-- `localtime_r` -/
  tm : Int → Tm
  /-- `mktime` of the beginning of the hour and of the day (fn_out_file_device.h 254-262) -/
  createHour : Int → Int
  createDay : Int → Int
  /-- rounds granted to FmtName -/
  fuel : Nat

/-- A log handed to the device, and what the operating system answers. -/
structure FileLog where
  ts : Int
  priority : Int
  content : List Char
  /-- `fopen` and `fstat` succeed -/
  opens : Bool
  /-- the number of bytes `fwrite` writes, if not all -/
  short : Option Nat := none

/-- A device: files, the file it has open, its statistics. -/
structure FileSt where
  fs : Fs
  handle : Option (List Char)
  logs : Fields

/-- `fields[k] = v`. -/
def Fields.put (f : Fields) (k : Nat) (v : Int) : Fields := fun j => if j = k then v else f j

/-- Lines 203-210 of fn_out_file_device.h. -/
def limitOut (d : Device) (logs : Fields) (len : Int) : Bool :=
  d.cfg.limitSize > 0 && d.cfg.rollback > 0 && logs DEVICE_LOG_CUR_FILE_SIZE + len > d.cfg.limitSize

/-- Lines 212-232 of fn_out_file_device.h. -/
def periodOut (d : Device) (logs : Fields) (ts : Int) : Bool :=
  if d.cfg.rolldaily ≠ 0 then
    ts < logs DEVICE_LOG_CUR_FILE_CREATE_DAY || ts ≥ logs DEVICE_LOG_CUR_FILE_CREATE_DAY + 24 * 3600
  else if d.cfg.rollhourly ≠ 0 then
    ts < logs DEVICE_LOG_CUR_FILE_CREATE_HOUR || ts ≥ logs DEVICE_LOG_CUR_FILE_CREATE_HOUR + 3600
  else false

/-- The statistics of a failed try (fn_out_file_device.h 279-284, 300-305). -/
def openFailed (code ts : Int) (s : FileSt) : FileSt :=
  { s with logs := (s.logs.put DEVICE_LOG_LAST_TRY_CREATE_ERROR code).put DEVICE_LOG_LAST_TRY_CREATE_TIMESTAMP ts }

/-- Lines 286-296 of fn_out_file_device.h: rotate if configured. -/
def rotate (d : Device) (limit : Bool) (path : List Char) (fs : Fs) : Fs :=
  if d.cfg.rollback > 0 ∨ d.cfg.limitSize > 0 then
    if d.cfg.stuffUp = 0 ∨ limit = true then
      rollback (toInt (if d.cfg.rollback > 0 then d.cfg.rollback else 1)) path 1 fs
    else fs
  else fs

/-- Lines 298-314 of fn_out_file_device.h: open the file for appending. -/
def openFile (E : FileEnv) (log : FileLog) (path : List Char) (s : FileSt) : FileSt :=
  if log.opens = false then openFailed 2 log.ts s
  else
    let c := (s.fs path).getD []
    let l := s.logs.put DEVICE_LOG_LAST_TRY_CREATE_CNT (s.logs DEVICE_LOG_LAST_TRY_CREATE_CNT + 1)
    let l := l.put DEVICE_LOG_LAST_TRY_CREATE_ERROR 0
    let l := l.put DEVICE_LOG_LAST_TRY_CREATE_TIMESTAMP 0
    let l := l.put DEVICE_LOG_CUR_FILE_CREATE_TIMESTAMP log.ts
    let l := l.put DEVICE_LOG_CUR_FILE_CREATE_DAY (E.createDay log.ts)
    let l := l.put DEVICE_LOG_CUR_FILE_CREATE_HOUR (E.createHour log.ts)
    let l := l.put DEVICE_LOG_CUR_FILE_SIZE (fileSize c)
    { fs := s.fs.set path (some c), handle := some path, logs := l }

/-- OpenFileDevice (fn_out_file_device.h 192-315); `none`: FmtName is still running. -/
def openFileDevice (E : FileEnv) (channelId : Int) (d : Device) (log : FileLog) (s : FileSt) : Option FileSt :=
  let limit := limitOut d s.logs log.content.length
  let s := if limit || periodOut d s.logs log.ts then
      { s with logs := s.logs.put DEVICE_LOG_CUR_FILE_SIZE 0, handle := none } else s
  if s.handle ≠ none then some s
  else do
    let path ← fullPath E.proc (E.tm log.ts) E.fuel d channelId
    if path.length ≥ 250 then return openFailed 1 log.ts s
    else return openFile E log path { s with fs := rotate d limit path s.fs }

/-- `FileHandler::write` (fn_file.h 179-188): an incomplete write closes the file. -/
def writeFile (log : FileLog) (path : List Char) (s : FileSt) : FileSt :=
  if log.content = [] then s
  else match log.short with
    | none => { s with fs := s.fs.set path (some ((s.fs path).getD [] ++ [log.content])) }
    | some n => { s with fs := s.fs.set path (some ((s.fs path).getD [] ++ [log.content.take n])), handle := none }

/-- Lines 335-338 of fn_out_file_device.h; `none`: the index of the priority is outside of the array. -/
def accountFile (f : Fields) (priority len : Int) : Option Fields := do
  let f ← incField DEVICE_LOG_MAX_ID f DEVICE_LOG_TOTAL_WRITE_LINE 1
  let f ← incField DEVICE_LOG_MAX_ID f DEVICE_LOG_TOTAL_WRITE_BYTE len
  let f ← incField DEVICE_LOG_MAX_ID f DEVICE_LOG_CUR_FILE_SIZE len
  incField DEVICE_LOG_MAX_ID f (DEVICE_LOG_PRIORITY + priority) len

/-- EnterProcOutFileDevice (fn_out_file_device.h 319-339). -/
def fileDevice (E : FileEnv) (channelId : Int) (d : Device) (log : FileLog) (s : FileSt) : Option FileSt :=
  if s.handle = none ∧ s.logs DEVICE_LOG_LAST_TRY_CREATE_TIMESTAMP + 5 > log.ts then some s
  else do
    let s ← openFileDevice E channelId d log s
    match s.handle with
    | none => return s
    | some path =>
      let s := writeFile log path s
      let logs ← accountFile s.logs log.priority log.content.length
      return { s with logs := logs }

/-- A sequence of logs. -/
def fileDeviceAll (E : FileEnv) (channelId : Int) (d : Device) : List FileLog → FileSt → Option FileSt
  | [], s => some s
  | log :: rest, s => (fileDevice E channelId d log s).bind (fileDeviceAll E channelId d rest)

end FNLog
