import Verif.Model.Crash
import Verif.Spec.Flush
import Verif.Spec.Recover
import Verif.Spec.Statement

/-! # What the users of a logger whose process dies may expect -/

namespace FNLog.Spec
open Ring (worker)

/-- The records in the slots from `read` to `write`: published, not released. -/
def queued (S : Setup) (f : FCrew) : List (Head × List Char) :=
  (List.range' f.crew.ring.R (f.crew.ring.W - f.crew.ring.R)).filterMap fun k => decode (f.crew.ring.cell (k % S.cfg.L))

/-- What becomes of a record that was being written: it is fatal, and its text ends with the marker.  Of a slot that has only been
emptied, the fields are old ones. -/
def cutShort (size : Nat) (stale : Head) (x : List Piece) : Head × List Char :=
  match decode x with
  | some (h, text) => ({ h with priority := 6 }, recoveredLine size text)
  | none => ({ stale with priority := 6 }, recoveredLine size [])

/-- The slots from `write` to `hold`: not published. -/
def mended (S : Setup) (stale : Head) (f : FCrew) : List (Head × List Char) :=
  (List.range' f.crew.ring.W (f.crew.ring.H - f.crew.ring.W)).map fun k =>
    cutShort S.env.N stale (f.crew.ring.cell (k % S.cfg.L))

/-- The devices can look at the fields of an old record. -/
def Usable (S : Setup) (h : Head) : Prop := ∀ d ∈ S.channel.devices, DevDefined d h.category h.identify

/-- A spell that begins in state `g`: no argument of a statement is unsound, no compare-and-swap is late (see `FOnTime`). -/
structure Sane (S : Setup) (x : Spell) (g : FCrew) : Prop where
  sound : ∀ e ∈ x.acts, SoundAct (x.on S) e
  timely : FOnTime (x.on S) x.stdio x.acts g

/-- The present process has begun in state `g`, has done `x`, and is in state `f`; any number of processes have died before it. -/
inductive Lived (S : Setup) : FCrew → Spell → FCrew → Prop where
  | fresh {o : OutSt} {x : Spell} {f : FCrew}
      (closed : ∀ (j : Nat) (d : Device), S.channel.devices[j]? = some d → d.outType = .file → (o.dev j).handle = none)
      (sane : Sane S x (fCrew S o)) (run : fActs (x.on S) x.stdio x.acts (fCrew S o) = some f) : Lived S (fCrew S o) x f
  | again {g f f' : FCrew} {x y : Spell} {stale : Head} (before : Lived S g x f) (usable : Usable S stale)
      (sane : Sane S y (fCrash S stale f)) (run : fActs (y.on S) y.stdio y.acts (fCrash S stale f) = some f') :
      Lived S (fCrash S stale f) y f'

/-- The bytes of a file that are still in the buffer of a device. -/
def unwritten (f : FCrew) (j : Nat) (p : List Char) : List Char :=
  if (f.crew.out.dev j).handle = some p then (f.buf j).bytes else []

/-- What a process that begins in state `g` has done when it is in state `f`: it has taken the records `new` into the queue. -/
structure Process (S : Setup) (x : Spell) (g f : FCrew) (new : List (Nat × Head × List Char)) : Prop where
  /-- They are the records of the log statements of the threads, in the order of the program; all of them, if the logger is not
  stopped and the thread is not in a statement. -/
  program : ∀ t, ∃ logged, Logged S (linesOf t f.crew.made) logged ∧ (linesOf t new).Sublist logged ∧
    ((∀ e ∈ x.acts, e.noStop) → f.crew.ring.pc t = .idle → linesOf t new = logged)
  /-- A file device is given the records found in the queue, then the new ones, in order and from the first on; what it was not
  given is in the queue, or in the `hold - write` slots that are not published.  The record at the head of the queue may have been
  given to the device. -/
  file : ∀ (j : Nat) (d : Device), S.channel.devices[j]? = some d → d.outType = .file → ∃ given rest taken t,
    queued S g ++ new.map Prod.snd = given ++ rest ∧
    (∃ n, n ≤ 1 ∧ ∃ unfinished, rest = (queued S f).drop n ++ unfinished ∧
      unfinished.length = f.crew.ring.H - f.crew.ring.W ∧ n ≤ (queued S f).length ∧ (queued S f).take n <:+ given) ∧
    Runs S.fenv S.channel.id d (view g.crew.out j) (handed x.os j d 0 given) taken t ∧
    (f.crew.out.dev j).logs = t.logs ∧
    ∀ p, FilesOf S.fenv S.channel.id d p → bytesOf t.fs p = (bytesOf f.crew.out.fs p).map (· ++ unwritten f j p)
  foreign : ∀ p, Foreign S.fenv S.channel.id S.channel.devices p → f.crew.out.fs p = g.crew.out.fs p
  /-- All of them are lines. -/
  lines : ∀ r ∈ queued S g ++ new.map Prod.snd, ∃ y, r.2 = y ++ ['\n']
  /-- Few records are in the buffer of a stream, none when the thread of the channel has nothing to do. -/
  lag : ∀ j, (f.buf j).length ≤ x.stdio.queue + 1
  rest : AtRest f worker → ∀ j, f.buf j = []

end FNLog.Spec
