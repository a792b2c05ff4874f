import Verif.Model.Ring

/-!
# Statements inside of statements (C113)

A log statement holds its slot while its operands are evaluated (fn_stream.h 82-173, and the operators) and while its destructor calls the
hook (`SetVirtualDevice`; fn_stream.h 176-192, fn_out_virtual_device.h 66-69).  Operands and hook may log themselves, or hand the record on
with `TransmitChannel` (fn_channel.h 528-562), to the same or to another channel; the hook of tests/test_trans_log.cpp does.  The outer
statement goes on when the inner one has returned.

Any number of channels, each with the ring of `Model/Ring`, and any number of threads, each with the statements it is inside of.

Simplifications: as in `Model/Ring`; what an operand or a hook logs, and when, is up to the environment (the event `log`), as long as the
thread is writing its record or is in front of `PushChannel`; the text of the inner statement is arbitrary (that `TransmitChannel` copies the
record is the subject of C63).
-/

namespace FNLog.Nest
open FNLog.Ring (Cfg St Ev PC upd)

variable {α : Type}

/-- The number under which the rings know the statement of thread `t` that is inside of `d` others.  0 is the thread of the channel, 1 is
nobody. -/
def ctx (t d : Nat) : Nat := (if t < d then d * d + t else t * t + t + d) + 2

structure Nested (α : Type) where
  ring : Nat → St α
  /-- the channels of the statements the thread is inside of, the innermost first -/
  stack : Nat → List Nat

inductive NEv (α : Type) where
  /-- thread `t` begins a statement on channel `i` -/
  | log (t i : Nat) (body : List α)
  /-- thread `t` makes a step of its innermost statement -/
  | run (t : Nat)
  /-- the thread of channel `i` makes a step -/
  | work (i : Nat)
  /-- `logger_state_` becomes LOGGER_STATE_RUNNING, for channel `i` -/
  | started (i : Nat)

/-- Thread `t` can begin a statement: it is outside, or its innermost statement is writing its record or is in front of `PushChannel`. -/
def Nested.open (s : Nested α) (t : Nat) : Bool :=
  match s.stack t with
  | [] => true
  | i :: rest => match (s.ring i).pc (ctx t rest.length) with
    | .fill _ _ => true
    | _ => false

/-- The event of ring `i`, if any. -/
def ringEv (s : Nested α) (i : Nat) : NEv α → Option (Ev α)
  | .log t j body => if j = i ∧ s.open t = true then some (.call (ctx t (s.stack t).length) body) else none
  | .run t => match s.stack t with
    | [] => none
    | j :: rest => if j = i then some (.run (ctx t rest.length)) else none
  | .work j => if j = i then some (.run Ring.worker) else none
  | .started j => if j = i then some .started else none

/-- A ring makes its event. -/
def stepO (c : Cfg α) (s : St α) : Option (Ev α) → St α
  | none => s
  | some e => Ring.step c s e

/-- Whether a statement is over (or was refused). -/
def over (s : St α) (u : Nat) : Bool :=
  match s.pc u with
  | .idle => true
  | _ => false

/-- The statements thread `t` is inside of, after the rings have made their steps. -/
def stackAfter (s : Nested α) (ring : Nat → St α) : NEv α → Nat → List Nat
  | .log t i _ => if s.open t = true ∧ over (ring i) (ctx t (s.stack t).length) = false then upd s.stack t (i :: s.stack t) else s.stack
  | .run t => match s.stack t with
    | [] => s.stack
    | j :: rest => if over (ring j) (ctx t rest.length) = true then upd s.stack t rest else s.stack
  | _ => s.stack

/-- One event; channel `i` is `c i`. -/
def nstep (c : Nat → Cfg α) (s : Nested α) (e : NEv α) : Nested α :=
  let ring := fun i => stepO (c i) (s.ring i) (ringEv s i e)
  { ring := ring, stack := stackAfter s ring e }

/-- Fresh channels, threads outside. -/
def ninit (c : Nat → Cfg α) : Nested α := ⟨fun i => Ring.init (c i), fun _ => []⟩

def nrun (c : Nat → Cfg α) (s : Nested α) (es : List (NEv α)) : Nested α := es.foldl (nstep c) s

end FNLog.Nest
