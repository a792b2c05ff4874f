import Verif.Model.File

/-!
# File devices on inodes

The same functions as in `Model/File.lean` (OpenFileDevice fn_out_file_device.h 192-315, EnterProcOutFileDevice 319-339,
FileHandler::open, write, rollback of fn_file.h 126-145, 179-188, 370-392), on a file system where a directory entry names
an inode and an open file *is* an inode: `rename` and `remove` change the entries, a `FILE*` opened before goes on writing
to the inode it has.  Several devices, of one process or of several, use the same file system, other programs rename,
remove and create files between their logs, and `rename` and `remove` may fail.

Simplifications:
* Only regular files have entries; a directory or a special file in the place of a file is seen as a failing `rename`,
  `remove` or `fopen` (`DiskSays`, `FileLog.opens`).
* `fwrite` reaches the file at once; what one device does for a log is not interrupted by another device.
-/

namespace FNLog

/-- Directory entries, contents of the inodes, and the number of the next new inode. -/
structure Disk where
  node : List Char → Option Nat
  data : Nat → Blocks
  next : Nat

/-- What is found under the names. -/
def Disk.fs (k : Disk) : Fs := fun p => (k.node p).map k.data

/-- What the operating system answers while a device handles a log: which `rename`s and `remove`s succeed. -/
structure DiskSays where
  ren : List Char → List Char → Bool
  rem : List Char → Bool

/-- `remove` (fn_file.h 346-349). -/
def Disk.unlink (k : Disk) (p : List Char) : Disk := { k with node := fun q => if q = p then none else k.node q }

/-- `rename` (fn_file.h 389); two names of one inode are left alone. -/
def Disk.rename (k : Disk) (old new : List Char) : Disk :=
  if k.node old = none ∨ k.node old = k.node new then k
  else { k with node := fun q => if q = old then none else if q = new then k.node old else k.node q }

/-- `fopen(path, "ab")` (fn_file.h 133): the inode of the name, a new one if there is none. -/
def Disk.openAppend (k : Disk) (p : List Char) : Nat × Disk :=
  match k.node p with
  | some i => (i, k)
  | none => (k.next, { node := fun q => if q = p then some k.next else k.node q,
                       data := fun i => if i = k.next then [] else k.data i, next := k.next + 1 })

/-- `fwrite` on a file opened for appending. -/
def Disk.append (k : Disk) (i : Nat) (b : List Char) : Disk :=
  { k with data := fun j => if j = i then k.data i ++ [b] else k.data j }

/-- rollback (fn_file.h 370-392). -/
def iRollback (a : DiskSays) (maxDepth : Int) (path : List Char) (depth : Nat) (k : Disk) : Disk :=
  match k.node path with
  | none => k
  | some _ =>
    if (depth : Int) > maxDepth then (if a.rem path then k.unlink path else k)
    else
      let k := iRollback a maxDepth (nextPath path depth) (depth + 1) k
      if a.ren path (nextPath path depth) then k.rename path (nextPath path depth) else k
termination_by (maxDepth + 1 - depth).toNat
decreasing_by omega

/-- The open file and the statistics of a device. -/
structure Holder where
  handle : Option Nat
  logs : Fields

/-- Lines 286-296 of fn_out_file_device.h. -/
def iRotate (a : DiskSays) (d : Device) (limit : Bool) (path : List Char) (k : Disk) : Disk :=
  if d.cfg.rollback > 0 ∨ d.cfg.limitSize > 0 then
    if d.cfg.stuffUp = 0 ∨ limit = true then
      iRollback a (toInt (if d.cfg.rollback > 0 then d.cfg.rollback else 1)) path 1 k
    else k
  else k

/-- The statistics of a failed try (fn_out_file_device.h 279-284, 300-305). -/
def iOpenFailed (code ts : Int) (h : Holder) : Holder :=
  { h with logs := (h.logs.put DEVICE_LOG_LAST_TRY_CREATE_ERROR code).put DEVICE_LOG_LAST_TRY_CREATE_TIMESTAMP ts }

/-- Lines 298-314 of fn_out_file_device.h. -/
def iOpenFile (E : FileEnv) (log : FileLog) (path : List Char) (s : Disk × Holder) : Disk × Holder :=
  if log.opens = false then (s.1, iOpenFailed 2 log.ts s.2)
  else
    let o := s.1.openAppend path
    let l := s.2.logs.put DEVICE_LOG_LAST_TRY_CREATE_CNT (s.2.logs DEVICE_LOG_LAST_TRY_CREATE_CNT + 1)
    let l := l.put DEVICE_LOG_LAST_TRY_CREATE_ERROR 0
    let l := l.put DEVICE_LOG_LAST_TRY_CREATE_TIMESTAMP 0
    let l := l.put DEVICE_LOG_CUR_FILE_CREATE_TIMESTAMP log.ts
    let l := l.put DEVICE_LOG_CUR_FILE_CREATE_DAY (E.createDay log.ts)
    let l := l.put DEVICE_LOG_CUR_FILE_CREATE_HOUR (E.createHour log.ts)
    let l := l.put DEVICE_LOG_CUR_FILE_SIZE (fileSize (o.2.data o.1))
    (o.2, ⟨some o.1, l⟩)

/-- Lines 235-245 of fn_out_file_device.h: close the file if the limit or the period says so. -/
def iClose (d : Device) (log : FileLog) (h : Holder) : Holder :=
  if limitOut d h.logs log.content.length || periodOut d h.logs log.ts then
    ⟨none, h.logs.put DEVICE_LOG_CUR_FILE_SIZE 0⟩ else h

/-- OpenFileDevice (fn_out_file_device.h 192-315); `none`: FmtName is still running. -/
def iOpenFileDevice (E : FileEnv) (channelId : Int) (d : Device) (a : DiskSays) (log : FileLog) (s : Disk × Holder) :
    Option (Disk × Holder) :=
  let limit := limitOut d s.2.logs log.content.length
  let h := iClose d log s.2
  if h.handle ≠ none then some (s.1, h)
  else do
    let path ← fullPath E.proc (E.tm log.ts) E.fuel d channelId
    if path.length ≥ 250 then return (s.1, iOpenFailed 1 log.ts h)
    else return iOpenFile E log path (iRotate a d limit path s.1, h)

/-- `FileHandler::write` (fn_file.h 179-188). -/
def iWriteFile (log : FileLog) (i : Nat) (s : Disk × Holder) : Disk × Holder :=
  if log.content = [] then s
  else match log.short with
    | none => (s.1.append i log.content, s.2)
    | some n => (s.1.append i (log.content.take n), { s.2 with handle := none })

/-- EnterProcOutFileDevice (fn_out_file_device.h 319-339). -/
def iFileDevice (E : FileEnv) (channelId : Int) (d : Device) (a : DiskSays) (log : FileLog) (s : Disk × Holder) :
    Option (Disk × Holder) :=
  if s.2.handle = none ∧ s.2.logs DEVICE_LOG_LAST_TRY_CREATE_TIMESTAMP + 5 > log.ts then some s
  else do
    let s ← iOpenFileDevice E channelId d a log s
    match s.2.handle with
    | none => return s
    | some i =>
      let s := iWriteFile log i s
      let logs ← accountFile s.2.logs log.priority log.content.length
      return (s.1, { s.2 with logs := logs })

/-! ## Several devices and other programs -/

/-- A file device: of which process, of which channel. -/
structure Seat where
  env : FileEnv
  channel : Int
  device : Device

/-- The disk and all devices. -/
structure Desk where
  disk : Disk
  holder : Nat → Holder

/-- What happens: device `u` handles a log; another program renames or removes a file or creates an empty one. -/
inductive DiskEv
  | log (u : Nat) (a : DiskSays) (l : FileLog)
  | rename (old new : List Char)
  | remove (p : List Char)
  | create (p : List Char)

/-- One event; `none`: undefined behaviour or FmtName still running. -/
def deskStep (U : Nat → Seat) (e : DiskEv) (s : Desk) : Option Desk :=
  match e with
  | .log u a l =>
    (iFileDevice (U u).env (U u).channel (U u).device a l (s.disk, s.holder u)).map fun r =>
      ⟨r.1, fun v => if v = u then r.2 else s.holder v⟩
  | .rename old new => some { s with disk := s.disk.rename old new }
  | .remove p => some { s with disk := s.disk.unlink p }
  | .create p => some { s with disk := (s.disk.openAppend p).2 }

/-- A sequence of events. -/
def deskRun (U : Nat → Seat) : List DiskEv → Desk → Option Desk
  | [], s => some s
  | e :: r, s => (deskStep U e s).bind (deskRun U r)

end FNLog
