import Verif.Model.Threads
import Verif.Model.Weak

/-!
# Any number of threads logging to one channel, under the C++ memory model

The log statements and devices of `Verif/Model/Threads.lean` on the ring of `Verif/Model/Weak.lean`: a load of an index or
of a mark may return an older value, and a test of `channel_state_` or `logger_state_` may give any answer.

* DispatchLog (fn_channel.h 53-95) reads the record once for each device.  Each of these reads must be ordered after the
  earlier accesses to the record (`WSt.peek`).  As they come before the one at the end of DispatchLog in the same thread,
  which counts as an access (`WSt.touch`), whatever is ordered after that one is ordered after them.
* What a device does is one step: on a sync channel the lock of the channel is held meanwhile (fn_channel.h 29), and a
  mutex orders what is done under it; on an async channel only its thread dispatches.
* Otherwise the simplifications are those of the two models.
-/

namespace FNLog
open Ring (Cfg St upd)

namespace Weak

variable {α : Type}

/-- A read of the record in slot `i` that is followed by a `touch` of the same thread. -/
def WSt.peek (x : WSt α) (t i : Nat) : WSt α := { x with race := x.race || (x.view t).a i != x.acc i }

end Weak

open Weak (WSt)

/-- As `Crew`, with the ring under the C++ memory model. -/
structure WCrew where
  weak : WSt Piece
  out : OutSt
  caches : Nat → DateCache
  pos : Nat → Nat
  made : List (Nat × Call × List StreamOp)
  visits : List Visit

/-- The newest values. -/
def WCrew.crew (x : WCrew) : Crew := ⟨x.weak.s, x.out, x.caches, x.pos, x.made, x.visits⟩

/-- What can happen. -/
inductive WAct where
  /-- a thread begins a log statement; `b` is what the tests of BlockInput give (fn_channel.h 335-343) -/
  | log (t : Nat) (a : Call) (ops : List StreamOp) (b : Bool)
  /-- a thread makes one step; `n` and `b` as in `Weak.WEv` -/
  | run (t n : Nat) (b : Bool)
  /-- as in `Act` -/
  | dates (t : Nat) (c : DateCache)

/-- A statement that has passed the filters goes on with HoldChannel (fn_stream.h 92). -/
def wHoldFor (c : Cfg Piece) (t : Nat) (x : WSt Piece) : Option (List Piece) → WSt Piece
  | none => x
  | some b => Weak.step c x (.call t b)

/-- A thread begins a log statement (see `beginLog`). -/
def wBeginLog (S : Setup) (t : Nat) (a : Call) (ops : List StreamOp) (b : Bool) (x : WCrew) : Option WCrew :=
  match x.weak.s.pc t with
  | .idle =>
    if b then do
      let (body, cache) ← formed S a ops (x.caches t)
      some { x with weak := wHoldFor S.cfg t x.weak body, caches := upd x.caches t cache, made := x.made ++ [(t, a, ops)] }
    else some x
  | _ => some x

/-- One round of the loop of DispatchLog (see `dispatchNext`). -/
def wDispatchNext (S : Setup) (t k : Nat) (d : Device) (x : WCrew) : Option WCrew := do
  let s ← dispatchNext S t k d x.crew
  some ⟨x.weak.peek t (k % S.cfg.L), s.out, s.caches, s.pos, s.made, s.visits⟩

/-- A step of a thread (see `runThread`). -/
def wRunThread (S : Setup) (t n : Nat) (b : Bool) (x : WCrew) : Option WCrew :=
  match x.weak.s.pc t with
  | .cDisp k =>
    match S.channel.devices[x.pos t]? with
    | some d => wDispatchNext S t k d x
    | none => some { x with weak := Weak.stepT S.cfg x.weak t n b, pos := upd x.pos t 0 }
  | _ => some { x with weak := Weak.stepT S.cfg x.weak t n b }

/-- One event. -/
def wAct (S : Setup) (x : WCrew) : WAct → Option WCrew
  | .log t a ops b => wBeginLog S t a ops b x
  | .run t n b => wRunThread S t n b x
  | .dates t c => some { x with caches := upd x.caches t c }

/-- A sequence of events. -/
def wActs (S : Setup) : List WAct → WCrew → Option WCrew
  | [], x => some x
  | e :: es, x => do
    let x ← wAct S x e
    wActs S es x

/-- A fresh channel with the given devices. -/
def wCrew (S : Setup) (o : OutSt) : WCrew := ⟨Weak.init S.cfg, o, fun _ => DateCache.zero, fun _ => 0, [], []⟩

/-- No compare-and-swap of the sequence succeeds although the index went round the ring since it was loaded (see
`Ring.Timely`). -/
def WOnTime (S : Setup) : List WAct → WCrew → Prop
  | [], _ => True
  | e :: es, x =>
    (∀ t n b, e = .run t n b → Ring.timelyAt S.cfg x.weak.s t) ∧ ∀ x', wAct S x e = some x' → WOnTime S es x'

end FNLog
