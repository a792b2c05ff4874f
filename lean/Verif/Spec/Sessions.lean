import Verif.Model.Sessions
import Verif.Spec.Flush
import Verif.Spec.Statement

/-! # What the users of a logger that is stopped and started again may expect -/

namespace FNLog.Spec
open Ring (worker)

/-- A session in which StopLogger is called when no log statement is in progress, and returns.  On an async channel no
compare-and-swap is late (`FOnTime`), the channel is running, and StopLogger waits for the end of its thread; a sync channel is used
by one statement at a time. -/
structure Orderly (S : Setup) (x : Session) (f : FCrew) : Prop where
  sound : ∀ e ∈ x.log ++ x.rest, SoundAct S e
  noStop : ∀ e ∈ x.log, e.noStop
  async : S.cfg.async = true → FOnTime S x.stdio (x.log ++ .closing :: .stop :: x.rest) f ∧
    (∀ f', fActs S x.stdio x.log f = some f' → f'.crew.ring.state = .running ∧ ∀ t, t ≠ worker → f'.crew.ring.pc t = .idle) ∧
    ∀ f', fActs S x.stdio (x.log ++ .closing :: .stop :: x.rest) f = some f' → f'.crew.ring.pc worker = .done
  sync : S.cfg.async = false → Serial S x.stdio x.log f ∧
    ∀ f', fActs S x.stdio x.log f = some f' → ∀ e ∈ x.log, ∀ t, e.thread = some t → f'.crew.ring.pc t = .idle

/-- All sessions are orderly. -/
def OrderlyAll (S : Setup) : List Session → FCrew → Prop
  | [], _ => True
  | x :: xs, f => Orderly (x.on S) x (fStart S f) ∧ ∀ f', playSession S x f = some f' → OrderlyAll S xs f'

/-- The records of the admitted statements: on a sync channel in the order of the statements; on an async channel in one order that
agrees with the order of the statements of each thread. -/
def InOrder (S : Setup) (made : List (Nat × Call × List StreamOp)) (recs : List (Head × List Char)) : Prop :=
  if S.cfg.async then
    ∃ own : List (Nat × Head × List Char), own.map Prod.snd = recs ∧ ∀ t, Logged S (linesOf t made) (linesOf t own)
  else Logged S (made.map Prod.snd) recs

/-- What a session leaves behind: each file device has written the records, one after the other, to the files that the session found
(see `Runs`), and is closed; no other file is touched; the screen shows the lines. -/
structure SessionKept (S : Setup) (x : Session) (o : OutSt) (recs : List (Head × List Char)) (o' : OutSt) : Prop where
  file : ∀ (j : Nat) (d : Device), S.channel.devices[j]? = some d → d.outType = .file →
    ∃ taken t, Runs S.fenv S.channel.id d (view o j) (handed x.os j d 0 recs) taken t ∧
      (∀ p, FilesOf S.fenv S.channel.id d p → bytesOf o'.fs p = bytesOf t.fs p) ∧
      (o'.dev j).logs = t.logs ∧ (o'.dev j).handle = none
  foreign : ∀ p, Foreign S.fenv S.channel.id S.channel.devices p → bytesOf o'.fs p = bytesOf o.fs p
  screen : o'.screen = o.screen ++ screenLines S.channel.devices recs

/-- The sessions have been played, with the records that each has written. -/
inductive Went (S : Setup) : List Session → FCrew → List (List (Head × List Char)) → FCrew → Prop where
  | nil (f : FCrew) : Went S [] f [] f
  | cons {x : Session} {xs : List Session} {f f1 f2 f' : FCrew} {recs : List (Head × List Char)}
      {hist : List (List (Head × List Char))}
      (log : fActs (x.on S) x.stdio x.log (fStart S f) = some f1) (play : playSession S x f = some f2)
      (order : InOrder S f1.crew.made recs) (kept : SessionKept S x f.crew.out recs f2.crew.out) (rest : Went S xs f2 hist f') :
      Went S (x :: xs) f (recs :: hist) f'

end FNLog.Spec
