import Verif.Model.Inode
import Verif.Spec.File
import Verif.Spec.Statement

/-! # What is said about file devices that share a file system -/

namespace FNLog.Spec

/-- No file has two names; inodes not yet given out have no name and nothing in them. -/
structure SoundDisk (k : Disk) : Prop where
  one : ∀ p q i, k.node p = some i → k.node q = some i → p = q
  old : ∀ p i, k.node p = some i → i < k.next
  clean : ∀ i, k.next ≤ i → k.data i = []

/-- Every open file exists as an inode. -/
def Held (s : Desk) : Prop := ∀ u i, (s.holder u).handle = some i → i < s.disk.next

/-- All renames and removes succeed. -/
def Grants (a : DiskSays) : Prop := (∀ p q, a.ren p q = true) ∧ ∀ p, a.rem p = true

/-- The logs of one device. -/
def logsOf (u : Nat) : List DiskEv → List FileLog
  | [] => []
  | .log v _ l :: r => if v = u then l :: logsOf u r else logsOf u r
  | _ :: r => logsOf u r

/-- The names another program touches. -/
def Touches : DiskEv → List Char → Prop
  | .log _ _ _, _ => False
  | .rename a b, p => p = a ∨ p = b
  | .remove a, p => p = a
  | .create a, p => p = a

/-- The files of a device. -/
def SeatFiles (c : Seat) : List Char → Prop := FilesOf c.env c.channel c.device

/-- No two devices have a file in common. -/
def SeatsApart (U : Nat → Seat) : Prop := ∀ u v, u ≠ v → ∀ p, ¬ (SeatFiles (U u) p ∧ SeatFiles (U v) p)

/-- A line in the file system: who wrote it, to which inode, and what. -/
structure Stamp where
  user : Nat
  inode : Nat
  text : List Char

/-- What was written to an inode. -/
def intoNode (i : Nat) (w : List Stamp) : Blocks := (w.filter (·.inode = i)).map (·.text)

/-- What a device wrote. -/
def byUser (u : Nat) (w : List Stamp) : Blocks := (w.filter (·.user = u)).map (·.text)

/-- The line finds an open file (`Taken` looks only at the statistics and whether a file is open). -/
def Finds (c : Seat) (h : Holder) (l : FileLog) : Prop :=
  Taken c.env c.channel c.device ⟨fun _ => none, h.handle.map fun _ => [], h.logs⟩ l

/-- An inode without a name. -/
def Nameless (k : Disk) (i : Nat) : Prop := ∀ p, k.node p ≠ some i

/-- The device never closes its file: no limit that counts, no period. -/
def Stubborn (d : Device) : Prop :=
  ¬ (0 < d.cfg.limitSize ∧ 0 < d.cfg.rollback) ∧ d.cfg.rolldaily = 0 ∧ d.cfg.rollhourly = 0

/-- The event takes no name away: no rotation is configured or every `rename` and `remove` of it fails; other programs
only create files. -/
def Harmless (U : Nat → Seat) : DiskEv → Prop
  | .log u a _ => ((U u).device.cfg.rollback ≤ 0 ∧ (U u).device.cfg.limitSize ≤ 0) ∨
      ((∀ p q, a.ren p q = false) ∧ ∀ p, a.rem p = false)
  | .create _ => True
  | _ => False

/-- The events have happened, and the devices have taken `t`, in this order: the lines that found an open file. -/
inductive DeskLogs (U : Nat → Seat) : Desk → List DiskEv → List (Nat × FileLog) → Desk → Prop
  | nil (s : Desk) : DeskLogs U s [] [] s
  | taken {s s' s'' : Desk} {u : Nat} {a : DiskSays} {l : FileLog} {es : List DiskEv} {t : List (Nat × FileLog)} :
    deskStep U (.log u a l) s = some s' → Finds (U u) (s.holder u) l → DeskLogs U s' es t s'' →
    DeskLogs U s (.log u a l :: es) ((u, l) :: t) s''
  | dropped {s s' s'' : Desk} {u : Nat} {a : DiskSays} {l : FileLog} {es : List DiskEv} {t : List (Nat × FileLog)} :
    deskStep U (.log u a l) s = some s' → ¬ Finds (U u) (s.holder u) l → DeskLogs U s' es t s'' →
    DeskLogs U s (.log u a l :: es) t s''
  | other {s s' s'' : Desk} {e : DiskEv} {es : List DiskEv} {t : List (Nat × FileLog)} :
    (∀ u a l, e ≠ .log u a l) → deskStep U e s = some s' → DeskLogs U s' es t s'' → DeskLogs U s (e :: es) t s''

/-- All logs, in order. -/
def allLogs : List DiskEv → List (Nat × FileLog)
  | [] => []
  | .log u _ l :: r => (u, l) :: allLogs r
  | _ :: r => allLogs r

/-- Who wrote what. -/
def texts (t : List (Nat × FileLog)) : List (Nat × List Char) := t.flatMap fun x => (block x.2).map fun b => (x.1, b)

/-- The lines of the devices whose file is `p`. -/
def linesInto (name : Nat → List Char) (p : List Char) (t : List (Nat × FileLog)) : Blocks :=
  t.flatMap fun x => if name x.1 = p then block x.2 else []

/-- The device can open its file for this log. -/
def CanOpen (c : Seat) (l : FileLog) : Prop :=
  l.opens = true ∧ 5 ≤ l.ts ∧ Valid l ∧
    ∃ path, fullPath c.env.proc (c.env.tm l.ts) c.env.fuel c.device c.channel = some path ∧ path.length < 250

/-- The open file of every device is found under its name. -/
def AtName (name : Nat → List Char) (s : Desk) : Prop :=
  ∀ u i, (s.holder u).handle = some i → s.disk.node (name u) = some i

end FNLog.Spec
