import Verif.Model.Ring

/-!
# Statistics that are read from a record after it was handed on

`Verif/Model/Ring.lean` has the counters HOLD, PUSH, PROCESSED and PROCESSED_BYTES.  Here the remaining
statistics of a channel are added, as extra steps of the same threads:

* fn_channel.h 500: after `data_mark_ = 2` (499) the log statement reads `priority_` and `content_len_`
  of its record once more, and adds the length to the counter of the priority,
* fn_channel.h 130-144: after line 127 the consumer computes the queue length and raises
  CHANNEL_LOG_MAX_PROC_QUE_SIZE,
* fn_channel.h 146-154: then it reads `timestamp_` of the record, the time, and raises
  CHANNEL_LOG_MAX_DELAY_TIME_S.

The content of a record is a list of pieces, as in `Model/Ring`; what is read from it is given by
arbitrary functions (`Reads`).  `priority_` and `content_len_` are read in one step.
-/

namespace FNLog.Tally
open FNLog FNLog.Ring

variable {α : Type}

/-- What is read from a record with the given content: `priority_`, `content_len_`, `timestamp_`. -/
structure Reads (α : Type) where
  prio : List α → Nat
  len : List α → Nat
  time : List α → Int

/-- Where a thread is between two program counters of `Ring.PC`. -/
inductive Sub where
  | none
  /-- 500: read the record in the slot of position `k` and count -/
  | prio (k : Nat)
  /-- 130: load `write_idx_` -/
  | qLoad (k : Nat)
  /-- 141: load CHANNEL_LOG_MAX_PROC_QUE_SIZE and compare -/
  | qMax (k n : Nat)
  /-- 143: store CHANNEL_LOG_MAX_PROC_QUE_SIZE -/
  | qStore (k n : Nat)
  /-- 146-149: read `timestamp_` and the time -/
  | dRead (k : Nat)
  /-- 150: load CHANNEL_LOG_MAX_DELAY_TIME_S and compare -/
  | dMax (d : Int)
  /-- 152: store CHANNEL_LOG_MAX_DELAY_TIME_S -/
  | dStore (d : Int)
deriving DecidableEq, Repr

/-- The queue, where each thread is, the statistics, and (last three fields) history variables. -/
structure TSt (α : Type) where
  s : St α
  sub : Nat → Sub
  /-- CHANNEL_LOG_PRIORITY + p -/
  tally : Nat → Nat
  /-- CHANNEL_LOG_MAX_PROC_QUE_SIZE -/
  maxQ : Nat
  /-- CHANNEL_LOG_MAX_DELAY_TIME_S -/
  maxD : Int
  /-- history: positions counted at 500, with the content read -/
  counted : List (Nat × List α)
  /-- history: queue lengths computed at 131-139 -/
  sizes : List Nat
  /-- history: delays computed at 148-149 -/
  delays : List Int

/-- The queue length of 131-139, from the indices. -/
def queLen (L old w : Nat) : Nat := if old ≤ w then w - old else w + L - old

/-- Continue thread `t` at `q`. -/
def TSt.at (x : TSt α) (t : Nat) (q : Sub) : TSt α := { x with sub := upd x.sub t q }

/-- The extra steps that follow a step from the given program counter. -/
def next : PC α → Sub
  | .pMark k => .prio k
  | .cBytes k => .qLoad k
  | _ => .none

/-- One step of thread `t`; `now` is what `time(NULL)` returns. -/
def stepT (c : Cfg α) (f : Reads α) (x : TSt α) (t : Nat) (now : Int) : TSt α :=
  match x.sub t with
  | .none => { x with s := Ring.stepT c x.s t }.at t (next (x.s.pc t))
  | .prio k =>
    let l := x.s.cell (k % c.L)
    { x with
      tally := upd x.tally (f.prio l) (x.tally (f.prio l) + f.len l)
      counted := x.counted ++ [(k, l)] }.at t .none
  | .qLoad k =>
    let n := queLen c.L (k % c.L) (x.s.W % c.L)
    { x with sizes := x.sizes ++ [n] }.at t (.qMax k n)
  | .qMax k n => if x.maxQ < n then x.at t (.qStore k n) else x.at t (.dRead k)
  | .qStore k n => { x with maxQ := n }.at t (.dRead k)
  | .dRead k =>
    let ts := f.time (x.s.cell (k % c.L))
    if 0 < ts then { x with delays := x.delays ++ [now - 1 - ts] }.at t (.dMax (now - 1 - ts))
    else x.at t .none
  | .dMax d => if x.maxD < d then x.at t (.dStore d) else x.at t .none
  | .dStore d => { x with maxD := d }.at t .none

/-- An event of the queue together with the time. -/
structure TEv (α : Type) where
  ev : Ev α
  now : Int

/-- One event. -/
def step (c : Cfg α) (f : Reads α) (x : TSt α) (e : TEv α) : TSt α :=
  match e.ev with
  | .run t => stepT c f x t e.now
  | ev => { x with s := Ring.step c x.s ev }

/-- Run a schedule. -/
def run (c : Cfg α) (f : Reads α) (x : TSt α) (es : List (TEv α)) : TSt α := es.foldl (step c f) x

/-- The start: statistics are zero. -/
def init (c : Cfg α) : TSt α where
  s := Ring.init c
  sub := fun _ => .none
  tally := fun _ => 0
  maxQ := 0
  maxD := 0
  counted := []
  sizes := []
  delays := []

/-- The next step of thread `t` is timely in the sense of the queue. -/
def timelyAt (c : Cfg α) (x : TSt α) (t : Nat) : Prop := x.sub t = .none → Ring.timelyAt c x.s t

/-- A log statement that is about to read its record at 500 does so before the slot is taken again. -/
def promptAt (c : Cfg α) (x : TSt α) (t : Nat) : Prop := ∀ k, x.sub t = .prio k → x.s.H ≤ k + c.L

/-- Schedules in which no compare-and-swap succeeds although the index went round the ring. -/
def Timely (c : Cfg α) (f : Reads α) : TSt α → List (TEv α) → Prop
  | _, [] => True
  | x, e :: es => (∀ t, e.ev = .run t → timelyAt c x t) ∧ Timely c f (step c f x e) es

/-- Schedules without a delay of a full lap between 499 and 500. -/
def Prompt (c : Cfg α) (f : Reads α) : TSt α → List (TEv α) → Prop
  | _, [] => True
  | x, e :: es => (∀ t, e.ev = .run t → promptAt c x t) ∧ Prompt c f (step c f x e) es

instance (c : Cfg α) (x : TSt α) (t : Nat) : Decidable (timelyAt c x t) := by
  unfold timelyAt; infer_instance

instance (c : Cfg α) (x : TSt α) (t : Nat) : Decidable (promptAt c x t) :=
  match h : x.sub t with
  | .prio k => decidable_of_iff (x.s.H ≤ k + c.L) ⟨fun g j hj => by rw [h] at hj; cases hj; exact g, fun g => g k h⟩
  | .none => isTrue (fun j hj => by rw [h] at hj; cases hj)
  | .qLoad _ => isTrue (fun j hj => by rw [h] at hj; cases hj)
  | .qMax _ _ => isTrue (fun j hj => by rw [h] at hj; cases hj)
  | .qStore _ _ => isTrue (fun j hj => by rw [h] at hj; cases hj)
  | .dRead _ => isTrue (fun j hj => by rw [h] at hj; cases hj)
  | .dMax _ => isTrue (fun j hj => by rw [h] at hj; cases hj)
  | .dStore _ => isTrue (fun j hj => by rw [h] at hj; cases hj)

instance evDec (ev : Ev α) (p : Nat → Prop) [DecidablePred p] : Decidable (∀ t, ev = .run t → p t) :=
  match ev with
  | .run t => decidable_of_iff (p t) ⟨fun g u hu => by cases hu; exact g, fun g => g t rfl⟩
  | .call _ _ => isTrue (fun j hj => by cases hj)
  | .started => isTrue (fun j hj => by cases hj)
  | .closing => isTrue (fun j hj => by cases hj)
  | .stop => isTrue (fun j hj => by cases hj)

instance Timely.dec (c : Cfg α) (f : Reads α) : (x : TSt α) → (es : List (TEv α)) → Decidable (Timely c f x es)
  | _, [] => isTrue trivial
  | x, e :: es =>
    have := Timely.dec c f (step c f x e) es
    inferInstanceAs (Decidable (_ ∧ _))

instance Prompt.dec (c : Cfg α) (f : Reads α) : (x : TSt α) → (es : List (TEv α)) → Decidable (Prompt c f x es)
  | _, [] => isTrue trivial
  | x, e :: es =>
    have := Prompt.dec c f (step c f x e) es
    inferInstanceAs (Decidable (_ ∧ _))

end FNLog.Tally
