/-!
# LogStream objects

Transcribed from `/repo/src/include/fn_stream.h`: what the constructors (75-85, 87-111), the destructor (176-199), the stream operators and
`set_category` (204) do with the members `logger_`, `log_data_` and `hold_idx_` (463-465) of the objects.

Simplifications: records are numbered in the order of the calls of HoldChannel that returned an index; the writes to a record
are kept as a list; PushLog is noted with the record of `log_data_` and `hold_idx_`. One thread; objects are numbered, and a number may
be used again after the destructor.
-/

namespace FNLog.Move

/-- The members of a LogStream: `logger_` is not null, the record of `log_data_`, `hold_idx_`. -/
structure Obj where
  logger : Bool
  data : Option Nat
  hold : Int
deriving DecidableEq, Repr

/-- What a program does with stream objects; `V` are the operands. -/
inductive Act (V : Type) where
  /-- The constructor 87-173; HoldChannel returns the index, or refuses (`none`) -/
  | make (i : Nat) (idx : Option Nat)
  /-- The move constructor 75-85: object `j` from object `i` -/
  | move (i j : Nat)
  /-- `operator<<`, `set_category` -/
  | put (i : Nat) (v : V)
  /-- The destructor 176-199 -/
  | drop (i : Nat)
deriving DecidableEq, Repr

/-- The objects that exist, what was written to each record, the calls of PushLog, number of records so far. -/
structure World (V : Type) where
  objs : Nat → Option Obj
  texts : Nat → List V
  pushes : List (Nat × Int)
  next : Nat

/-- Nothing yet. -/
def World.start (V : Type) : World V := ⟨fun _ => none, fun _ => [], [], 0⟩

/-- Set one entry. -/
def upd {α : Type} (f : Nat → α) (i : Nat) (x : α) : Nat → α := fun j => if j = i then x else f j

/-- One step; `none`: an object that does not exist is used, one that exists is constructed again, or a null pointer is followed. -/
def act {V : Type} (w : World V) : Act V → Option (World V)
  | .make i idx => match w.objs i, idx with
    | some _, _ => none
    -- 90-96: refused
    | none, none => some { w with objs := upd w.objs i (some ⟨false, none, -1⟩) }
    -- 107-109
    | none, some x => some { w with objs := upd w.objs i (some ⟨true, some w.next, (x : Int)⟩), next := w.next + 1 }
  | .move i j => match w.objs i, w.objs j with
    | some o, none =>
      -- 78-83; the other object is changed behind the reading of its members
      some { w with objs := upd (upd w.objs j (some ⟨o.logger, o.data, o.hold⟩)) i (some ⟨false, none, -1⟩) }
    | _, _ => none
  | .put i v => match w.objs i with
    | none => none
    | some o => match o.data with
      | none => some w
      | some k => some { w with texts := upd w.texts k (w.texts k ++ [v]) }
  | .drop i => match w.objs i with
    | none => none
    | some o => match o.data with
      | none => some { w with objs := upd w.objs i none }
      -- 195: `*logger_`
      | some k => if o.logger then some { w with objs := upd w.objs i none, pushes := w.pushes ++ [(k, o.hold)] } else none

/-- A program. -/
def run {V : Type} : World V → List (Act V) → Option (World V)
  | w, [] => some w
  | w, a :: as => match act w a with
    | none => none
    | some w => run w as

end FNLog.Move
