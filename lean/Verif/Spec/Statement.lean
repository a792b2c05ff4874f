import Verif.Model.Statement
import Verif.Spec.Filter
import Verif.Spec.File
import Verif.Proof.Prefix
import Verif.Proof.Regular

/-!
# What a log statement should do
-/

namespace FNLog.Spec

/-- The logger and the channel run, the filter of the channel accepts the log, and at least one device takes it. -/
def Admitted (lg : LoggerView) (channelId priority category identify : Int) : Prop :=
  lg.state = .running ∧ 0 ≤ channelId ∧ ∃ channels ch, lg.shm = some channels ∧ channels[channelId.toNat]? = some ch ∧
    ch.state = .running ∧ ChannelOk ch.cfg priority category identify ∧
    ∃ d ∈ ch.devices, DeviceTakes d (clampPriority priority) category identify

/-- The filters a call meets have defined results. -/
def CallDefined (lg : LoggerView) (channelId category identify : Int) : Prop :=
  ∀ channels ch, lg.shm = some channels → channels[channelId.toNat]? = some ch → ChanDefined ch category identify

/-- Threshold, ranges and masks of a device accept the record. -/
def HookAccepts (d : Device) (h : Head) : Prop :=
  d.cfg.priority ≤ h.priority ∧ RangeOk d.cfg.category d.cfg.categoryExtend h.category ∧
  RangeOk d.cfg.identify d.cfg.identifyExtend h.identify ∧ MaskOk d.cfg.categoryMask h.category ∧
  MaskOk d.cfg.identifyMask h.identify

/-! ## Files -/

/-- Two file systems have the same files among the names in `P`. -/
def AgreeOn (P : List Char → Prop) (a b : Fs) : Prop := ∀ p, P p → a p = b p

/-- The files of a device: the files its name gives at any time and their backups. -/
def FilesOf (E : FileEnv) (ch : Int) (d : Device) (p : List Char) : Prop :=
  ∃ ts F i, fullPath E.proc (E.tm ts) E.fuel d ch = some F ∧ p = backup F i

/-- Different file devices have different files. -/
def FilesApart (E : FileEnv) (ch : Int) (devices : List Device) : Prop :=
  ∀ (i j : Nat) (a b : Device), i ≠ j → devices[i]? = some a → devices[j]? = some b → a.outType = .file → b.outType = .file →
    ∀ p, ¬ (FilesOf E ch a p ∧ FilesOf E ch b p)

/-- The part of the state that file device `k` uses. -/
def view (o : OutSt) (k : Nat) : FileSt := ⟨o.fs, (o.dev k).handle, (o.dev k).logs⟩

/-- The open files of the file devices are their own (as at the beginning, when none is open). -/
def Own (E : FileEnv) (ch : Int) (devices : List Device) (o : OutSt) : Prop :=
  ∀ (k : Nat) (d : Device) (p : List Char), devices[k]? = some d → d.outType = .file → (o.dev k).handle = some p →
    FilesOf E ch d p

/-- A file that belongs to no file device. -/
def Foreign (E : FileEnv) (ch : Int) (devices : List Device) (p : List Char) : Prop :=
  ∀ d ∈ devices, d.outType = .file → ¬ FilesOf E ch d p

/-! ## Records -/

/-- The text of a line: cut so that the line end and a NUL fit. -/
def lineOf (N : Nat) (text : List Char) : List Char := text.take (N - 2) ++ ['\n']

/-- A record and its line, as it is found in the channel. -/
def cellOf (h : Head) (line : List Char) : List Piece := .head h :: line.map .byte

/-- What a file device is handed of a record, the `n`-th of the channel. -/
def fileLog (os : Os) (h : Head) (line : List Char) : FileLog := ⟨h.ts, h.priority, line, os.opens, os.short⟩

open Classical in
/-- Of the records from number `n` on, those that device `k` takes. -/
noncomputable def handed (os : Nat → Nat → Os) (k : Nat) (d : Device) : Nat → List (Head × List Char) → List FileLog
  | _, [] => []
  | n, (h, line) :: rest =>
    if DeviceTakes d h.priority h.category h.identify then fileLog (os n k) h line :: handed os k d (n + 1) rest
    else handed os k d (n + 1) rest

open Classical in
/-- The lines of the records that a device takes. -/
noncomputable def linesFor (d : Device) (recs : List (Head × List Char)) : List (List Char) :=
  (recs.filter fun r => DeviceTakes d r.1.priority r.1.category r.1.identify).map Prod.snd

/-- The texts written by a statement. -/
def written : List StreamOp → List Val
  | [] => []
  | .put v :: r => v :: written r
  | .setCategory _ :: r => written r

/-- The category after a statement. -/
def lastCategory (c : Int) : List StreamOp → Int
  | [] => c
  | .put _ :: r => lastCategory c r
  | .setCategory c' :: r => lastCategory c' r

/-- The prefix of a line: the selected fields and a blank. -/
def prefixOf (z : Zone) (a : PrefixArgs) (file : List Char) : List Char :=
  if a.mask = 0 then [] else prefixText
    [(a.mask.testBit 0, localDate z a.timestamp a.precise),
     (a.mask.testBit 1, bracket (priorityText a.priority.toNat)),
     (a.mask.testBit 2, bracket (numeral 10 a.thread)),
     (a.mask.testBit 3, bracket a.name),
     (a.mask.testBit 4, bracket a.desc),
     (a.mask.testBit 5, bracket (file ++ [':'] ++ numeral 10 a.line.toNat)),
     (a.mask.testBit 6, ['('] ++ funcField a.func ++ [')'])]

/-- The text of a statement: the prefix and the texts of the values. -/
def textOf (E : Env) (nm : Names) (a : Call) (ops : List StreamOp) (file : List Char) : List Char :=
  prefixOf E.zone (a.prefixArgs nm) file ++
    lineText ⟨doubleText E.lib, localDate E.zone⟩ (prefixOf E.zone (a.prefixArgs nm) file).length (written ops)

/-- The fields of the record of a statement. -/
def headOf (E : Env) (nm : Names) (a : Call) (ops : List StreamOp) (file : List Char) : Head where
  channelId := a.channelId
  priority := a.priority
  category := lastCategory a.category ops
  identify := a.identify
  line := a.line
  func := a.func
  file := a.file
  ts := a.ts
  precise := a.precise
  thread := a.thread
  prefixLen := (prefixOf E.zone (a.prefixArgs nm) file).length

/-- The arguments are admissible (see C23, C27). -/
structure Fits (E : Env) (nm : Names) (a : Call) (ops : List StreamOp) (file : List Char) : Prop where
  slot : a.junk.length = E.N
  args : (a.prefixArgs nm).Ok
  date : E.zone.Printed a.ts a.precise
  short : FileField a.file file
  names : file.length + (funcField a.func).length + 398 ≤ E.N
  vals : ∀ v ∈ written ops, Val.All (Val.Fine (fun _ _ => True) fun _ => True) v

/-- The text fits into a record (see C25). -/
def Roomy (E : Env) (nm : Names) (a : Call) (ops : List StreamOp) (file : List Char) : Prop :=
  (textOf E nm a ops file).length + 40 < E.N ∧
  ∀ v ∈ written ops, Val.All (Val.Fine E.zone.Printed fun n => (textOf E nm a ops file).length + n < E.N) v

/-- `t` is the text of the record of a statement: exactly its prefix and its values if there is room; else at least
the prefix, and not more than a record can hold. -/
structure RecordText (E : Env) (nm : Names) (a : Call) (ops : List StreamOp) (file t : List Char) : Prop where
  start : prefixOf E.zone (a.prefixArgs nm) file <+: t
  bound : t.length ≤ E.N
  all : Roomy E nm a ops file → t = textOf E nm a ops file

/-- What the hook finds in the record: a text that fills it has lost its last byte to a NUL. -/
def hookText (N : Nat) (t : List Char) : List Char := if t.length < N then t else t.take (N - 1) ++ ['\x00']

/-- The records of a sequence of statements: those that are admitted, in their order. -/
inductive Logged (S : Setup) : List (Call × List StreamOp) → List (Head × List Char) → Prop
  | nil : Logged S [] []
  | refused {a : Call} {ops : List StreamOp} {rest : List (Call × List StreamOp)} {recs : List (Head × List Char)} :
    ¬ Admitted S.lg a.channelId a.priority a.category a.identify → Logged S rest recs →
    Logged S ((a, ops) :: rest) recs
  | admitted {a : Call} {ops : List StreamOp} {file t : List Char} {rest : List (Call × List StreamOp)}
    {recs : List (Head × List Char)} :
    Admitted S.lg a.channelId a.priority a.category a.identify → FileField a.file file →
    RecordText S.env S.names a ops file t → Logged S rest recs →
    Logged S ((a, ops) :: rest) ((headOf S.env S.names a ops file, lineOf S.env.N t) :: recs)

/-- A channel of a logger: the C library and the calendar behave, the file devices have names, and
different names. -/
structure Ready (S : Setup) : Prop where
  lib : S.env.lib.Sane
  zone : S.env.zone.Sane
  slots : 2 ≤ S.cfg.L
  nl : S.cfg.nl = .byte '\n'
  id : 0 ≤ S.channel.id
  channel : ∃ channels, S.lg.shm = some channels ∧ channels[S.channel.id.toNat]? = some S.channel
  hook : S.hook = true → S.channel.virtualDeviceId < MAX_DEVICE_SIZE
  named : ∀ d ∈ S.channel.devices, d.outType = .file → ∀ ts, ∃ p, fullPath S.fenv.proc (S.fenv.tm ts) S.fenv.fuel d S.channel.id = some p

/-- A statement on the channel with admissible arguments, for which all filters are defined. -/
structure Sound (S : Setup) (a : Call) (ops : List StreamOp) : Prop where
  channel : a.channelId = S.channel.id
  admission : ChanDefined S.channel a.category a.identify
  dispatch : ∀ d ∈ S.channel.devices, DevDefined d (lastCategory a.category ops) a.identify
  fits : ∃ file, Fits S.env S.names a ops file

end FNLog.Spec
