import Verif.Model.File
import Verif.Spec.Fmt

/-!
# What file names, rotation and file output should be
-/

namespace FNLog.Spec

/-! ## Names -/

/-- `%0wd`: a decimal number with zeros between the sign and the digits up to the width `w`. -/
def fixedWidth (w : Nat) (x : Int) : List Char :=
  if x < 0 then '-' :: padLeft (w - 1) (numeral 10 x.natAbs) else padLeft w (numeral 10 x.toNat)

/-- The placeholders of a file name and their values. -/
def placeholders (p : Proc) (t : Tm) : List (List Char × List Char) :=
  let year := fixedWidth 4 (t.year + 1900)
  let mon := fixedWidth 2 (t.mon + 1)
  let day := fixedWidth 2 t.mday
  [("$PNAME".toList, p.name), ("$PID".toList, fixedWidth 6 p.pid), ("$YEAR".toList, year), ("$MON".toList, mon),
   ("$DAY".toList, day), ("$HOUR".toList, fixedWidth 2 t.hour), ("$MIN".toList, fixedWidth 2 t.min),
   ("$SEC".toList, fixedWidth 2 t.sec), ("%F".toList, year ++ '-' :: mon ++ '-' :: day)]

/-- Replace every placeholder of the table, from left to right, in one pass; other text is kept. -/
def subst (table : List (List Char × List Char)) : List Char → List Char
  | [] => []
  | c :: r =>
    match table.find? fun kv => kv.1.isPrefixOf (c :: r) with
    | some kv => kv.2 ++ subst table (r.drop (kv.1.length - 1))
    | none => c :: subst table r
termination_by s => s.length
decreasing_by all_goals simp; try omega

/-- The pattern of the file name without `.log`. -/
def nameOf (d : Device) (channelId : Int) : List Char :=
  if d.file = [] then "$PNAME_$YEAR$MON$DAY_$PID.".toList ++ decimal channelId ++ decimal d.id else d.file

/-- The path of the log file: the directory (with `/` for `\\`, ended by `/`), the name and `.log`. -/
def pathSpec (p : Proc) (t : Tm) (d : Device) (channelId : Int) : List Char :=
  let dir := (subst (placeholders p t) d.path).map fun c => if c = '\\' then '/' else c
  dir ++ (if dir = [] ∨ dir.getLast? = some '/' then [] else ['/']) ++
    subst (placeholders p t) (nameOf d channelId ++ ".log".toList)

/-! ## Backups -/

/-- The name of the `i`-th backup of `F`; `F` itself is number 0. -/
def backup (F : List Char) (i : Nat) : List Char := if i = 0 then F else F ++ '.' :: numeral 10 i

/-- `F` does not look like a backup: it does not end in `.` followed by digits (or by nothing). -/
def Plain (F : List Char) : Prop := ∀ b ds : List Char, F = b ++ '.' :: ds → ∃ c ∈ ds, c ∉ "0123456789".toList

/-- `F` and its first `i - 1` backups all exist. -/
def Run (fs : Fs) (F : List Char) (i : Nat) : Prop := ∀ j, j < i → fs (backup F j) ≠ none

/-- `new` comes from `old` by moving `F` to `F.1`, `F.1` to `F.2` and so on, as far as these files exist without a
gap, where the file number `N` is not moved but lost; no other file changes. -/
structure Rotated (N : Nat) (F : List Char) (old new : Fs) : Prop where
  gone : new F = none
  moved : ∀ i, 1 ≤ i → i ≤ N → Run old F i → new (backup F i) = old (backup F (i - 1))
  stays : ∀ i, 1 ≤ i → i ≤ N → ¬ Run old F i → new (backup F i) = old (backup F i)
  others : ∀ q, (∀ i, i ≤ N → q ≠ backup F i) → new q = old q

/-- Everything in `F` and its `N` backups, the oldest first. -/
def kept (N : Nat) (F : List Char) (fs : Fs) : Blocks :=
  match N with
  | 0 => (fs F).getD []
  | n + 1 => (fs (backup F (n + 1))).getD [] ++ kept n F fs

/-- How many of `F`, `F.1`, …, `F.N` do not exist. -/
def gaps (N : Nat) (F : List Char) (fs : Fs) : Nat :=
  match N with
  | 0 => if fs F = none then 1 else 0
  | n + 1 => (if fs (backup F (n + 1)) = none then 1 else 0) + gaps n F fs

/-! ## Which lines are taken -/

/-- The line does not fit into the file any more. -/
def TooBig (d : Device) (s : FileSt) (log : FileLog) : Prop :=
  0 < d.cfg.limitSize ∧ 0 < d.cfg.rollback ∧
    d.cfg.limitSize < s.logs DEVICE_LOG_CUR_FILE_SIZE + log.content.length

/-- The line belongs to another day or hour than the file. -/
def OtherPeriod (d : Device) (s : FileSt) (log : FileLog) : Prop :=
  (d.cfg.rolldaily ≠ 0 ∧ ¬ (s.logs DEVICE_LOG_CUR_FILE_CREATE_DAY ≤ log.ts ∧
    log.ts < s.logs DEVICE_LOG_CUR_FILE_CREATE_DAY + 86400)) ∨
  (d.cfg.rolldaily = 0 ∧ d.cfg.rollhourly ≠ 0 ∧ ¬ (s.logs DEVICE_LOG_CUR_FILE_CREATE_HOUR ≤ log.ts ∧
    log.ts < s.logs DEVICE_LOG_CUR_FILE_CREATE_HOUR + 3600))

/-- The line goes to the file that is open. -/
def Stays (d : Device) (s : FileSt) (log : FileLog) : Prop :=
  s.handle ≠ none ∧ ¬ TooBig d s log ∧ ¬ OtherPeriod d s log

/-- The line makes the device try to open a file. -/
def Tries (d : Device) (s : FileSt) (log : FileLog) : Prop :=
  ¬ Stays d s log ∧ (s.handle ≠ none ∨ s.logs DEVICE_LOG_LAST_TRY_CREATE_TIMESTAMP + 5 ≤ log.ts)

/-- The line finds an open file. -/
def Taken (E : FileEnv) (ch : Int) (d : Device) (s : FileSt) (log : FileLog) : Prop :=
  Stays d s log ∨ (Tries d s log ∧ log.opens = true ∧
    ∃ path, fullPath E.proc (E.tm log.ts) E.fuel d ch = some path ∧ path.length < 250)

/-- The device has processed `logs`, of which it has taken `taken`. -/
inductive Runs (E : FileEnv) (ch : Int) (d : Device) : FileSt → List FileLog → List FileLog → FileSt → Prop
  | nil (s : FileSt) : Runs E ch d s [] [] s
  | taken {s s' s'' : FileSt} {log : FileLog} {logs taken : List FileLog} :
    fileDevice E ch d log s = some s' → Taken E ch d s log → Runs E ch d s' logs taken s'' →
    Runs E ch d s (log :: logs) (log :: taken) s''
  | dropped {s s' s'' : FileSt} {log : FileLog} {logs taken : List FileLog} :
    fileDevice E ch d log s = some s' → ¬ Taken E ch d s log → Runs E ch d s' logs taken s'' →
    Runs E ch d s (log :: logs) taken s''

/-- What reaches the file of a line: nothing of an empty line, else what `fwrite` wrote. -/
def block (log : FileLog) : Blocks :=
  if log.content = [] then [] else match log.short with
    | none => [log.content]
    | some n => [log.content.take n]

/-- The priority is one of the eight of `LogPriority`. -/
def Valid (log : FileLog) : Prop := 0 ≤ log.priority ∧ log.priority < 8

/-- The number of backups of a device; a limit of the size alone gives one. -/
def backups (d : Device) : Nat :=
  if 0 < d.cfg.rollback then d.cfg.rollback.toNat else if 0 < d.cfg.limitSize then 1 else 0

/-- At most `limit` bytes, or one single block. -/
def Within (limit : Int) (c : Blocks) : Prop := fileSize c ≤ limit ∨ ∃ b, c = [b]

/-- The open file exists, its size is known, and its name comes from the time noted with it. -/
def Opened (E : FileEnv) (ch : Int) (d : Device) (s : FileSt) : Prop :=
  ∀ p, s.handle = some p → ∃ c ts, s.fs p = some c ∧ s.logs DEVICE_LOG_CUR_FILE_SIZE = fileSize c ∧
    s.logs DEVICE_LOG_CUR_FILE_CREATE_TIMESTAMP = ts ∧ fullPath E.proc (E.tm ts) E.fuel d ch = some p ∧
    s.logs DEVICE_LOG_CUR_FILE_CREATE_DAY = E.createDay ts ∧ s.logs DEVICE_LOG_CUR_FILE_CREATE_HOUR = E.createHour ts

/-- The local time is the given offset ahead of UTC at every time: the day and the hour of `ts` begin so many seconds
before it. -/
def FixedOffset (E : FileEnv) (off : Int) : Prop :=
  ∀ ts, E.createDay ts = ts - (ts + off) % 86400 ∧ E.createHour ts = ts - (ts + off) % 3600

end FNLog.Spec
