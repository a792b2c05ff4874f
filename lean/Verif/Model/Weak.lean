import Verif.Model.Ring

/-!
# The ring buffer under the C++ memory model

`Verif/Model/Ring.lean` lets every load see the newest value (sequential consistency).  The code asks for
less: the loads of the indices and marks are `memory_order_acquire` (fn_channel.h 109, 111, 131, 158, 160,
164, 455, 457, 504, 506, 510), so that a load may return an older value as long as nothing that happened
before the load contradicts it.  Here the same program is run with such loads.

* Every atomic variable has the sequence of values written to it so far (its modification order).  The
  indices are changed by compare-and-swap only, so that the n-th value of an index is its total `n`.
* A `View` says how much of these sequences is known to a thread.  A load returns any value that is not
  older than the view of the thread (the event chooses which); with the value the thread learns everything
  that the writer knew when writing (acquire / release).
* A compare-and-swap that succeeds reads the newest value (nothing can be inserted between the value read
  and the value written).  One that fails may bring any news or none.
* Stores of `data_mark_` (`=` is sequentially consistent, 464 is release) are put at the end of the
  sequence.  The memory model would also allow a place before values that the writer does not know of;
  `unordered` records whether there ever was such a choice.
* The text of a record (`content_`, `content_len_` and the other plain fields) is not atomic.  Two accesses
  of different threads, one of them a write, must be ordered by what the threads know of each other;
  `race` records an access that is not ordered after all earlier ones.  (Two reads would not conflict;
  asking that they are ordered as well is stronger.)
* `channel_state_` and `logger_state_` are plain variables written while other threads read them, which
  the standard calls undefined.  Here reading them gives any answer at any time (chosen by the event).
* Sequentially consistent operations are treated as acquire / release only, and the mutex of
  EnterProcDevice (fn_channel.h 29) as absent; both add behaviours and remove none.
* As in `Model/Ring`, not modelled: the statistics reads of the record after it was handed on (line 127 and
  144-151 after 125, line 500 after 499); see `Model/Tally` for these.
-/

namespace FNLog.Weak
open FNLog FNLog.Ring

/-- What a thread knows: how many values of each index, how many values of each mark, how many accesses
to the record of each slot. -/
structure View where
  h : Nat
  w : Nat
  p : Nat
  r : Nat
  m : Nat → Nat
  a : Nat → Nat

/-- Everything known in one of two views. -/
def View.join (v u : View) : View :=
  ⟨max v.h u.h, max v.w u.w, max v.p u.p, max v.r u.r, fun i => max (v.m i) (u.m i),
    fun i => max (v.a i) (u.a i)⟩

/-- Nothing but the initial values. -/
def View.none : View := ⟨0, 0, 0, 0, fun _ => 0, fun _ => 0⟩

variable {α : Type}

/-- Newest values and program counters (`s`), the sequences of values, what was released with each value,
and what each thread knows. -/
structure WSt (α : Type) where
  s : St α
  /-- released with the n-th value of `hold_idx_`, `write_idx_`, `proc_idx_`, `read_idx_` -/
  msgH : Nat → View
  msgW : Nat → View
  msgP : Nat → View
  msgR : Nat → View
  /-- values of `buffer_[i].data_mark_` so far: `vals i 0` … `vals i (mlen i)` -/
  vals : Nat → Nat → Mark
  mlen : Nat → Nat
  msgM : Nat → Nat → View
  /-- number of accesses to the record of slot `i` -/
  acc : Nat → Nat
  view : Nat → View
  race : Bool
  unordered : Bool

/-- The value a load returns, given the oldest and the newest allowed and the choice of the event. -/
def choose (lo hi n : Nat) : Nat := max lo (min n hi)

/-- Thread `t` learns what `u` says. -/
def WSt.see (x : WSt α) (t : Nat) (u : View) : WSt α :=
  { x with view := upd x.view t ((x.view t).join u) }

/-- Replace newest values and program counters. -/
def WSt.put (x : WSt α) (s : St α) : WSt α := { x with s := s }

/-- A successful compare-and-swap on `hold_idx_` (461). -/
def WSt.swapH (x : WSt α) (t : Nat) : WSt α :=
  let v := { (x.view t).join (x.msgH x.s.H) with h := x.s.H + 1 }
  { x with view := upd x.view t v, msgH := upd x.msgH (x.s.H + 1) v }

/-- A successful compare-and-swap on `write_idx_` (514). -/
def WSt.swapW (x : WSt α) (t : Nat) : WSt α :=
  let v := { (x.view t).join (x.msgW x.s.W) with w := x.s.W + 1 }
  { x with view := upd x.view t v, msgW := upd x.msgW (x.s.W + 1) v }

/-- A successful compare-and-swap on `proc_idx_` (118). -/
def WSt.swapP (x : WSt α) (t : Nat) : WSt α :=
  let v := { (x.view t).join (x.msgP x.s.P) with p := x.s.P + 1 }
  { x with view := upd x.view t v, msgP := upd x.msgP (x.s.P + 1) v }

/-- A successful compare-and-swap on `read_idx_` (168). -/
def WSt.swapR (x : WSt α) (t : Nat) : WSt α :=
  let v := { (x.view t).join (x.msgR x.s.R) with r := x.s.R + 1 }
  { x with view := upd x.view t v, msgR := upd x.msgR (x.s.R + 1) v }

/-- A store to `buffer_[i].data_mark_` (125, 464, 499). -/
def WSt.store (x : WSt α) (t i : Nat) (m : Mark) : WSt α :=
  let v := { x.view t with m := upd (x.view t).m i (x.mlen i + 1) }
  { x with
    vals := upd x.vals i (upd (x.vals i) (x.mlen i + 1) m)
    mlen := upd x.mlen i (x.mlen i + 1)
    msgM := upd x.msgM i (upd (x.msgM i) (x.mlen i + 1) v)
    view := upd x.view t v
    unordered := x.unordered || (x.view t).m i != x.mlen i }

/-- An access to the record in slot `i` (the writes of a log statement, DispatchLog). -/
def WSt.touch (x : WSt α) (t i : Nat) : WSt α :=
  { x with
    acc := upd x.acc i (x.acc i + 1)
    view := upd x.view t { x.view t with a := upd (x.view t).a i (x.acc i + 1) }
    race := x.race || (x.view t).a i != x.acc i }

/-- One step of thread `t`, as `Ring.stepT`; `n` chooses the value a load returns, `b` is what a test of
`channel_state_` gives (`== CHANNEL_STATE_RUNNING`, at 187 `== CHANNEL_STATE_NULL`). -/
def stepT (c : Cfg α) (x : WSt α) (t n : Nat) (b : Bool) : WSt α :=
  let s := x.s
  let v := x.view t
  match s.pc t with
  -- loads
  | .hLoad i body =>
    let k := choose v.h s.H n
    (x.see t (x.msgH k)).put (s.go t (.hRead i k body))
  | .hRead i tk body =>
    let k := choose v.r s.R n
    (x.see t (x.msgR k)).put
      (if (tk + 1) % c.L = k % c.L then s.go t (.hOut body) else s.go t (.hCas i tk body))
  | .wLoad =>
    let k := choose v.w s.W n
    (x.see t (x.msgW k)).put (s.go t (.wHold k))
  | .wHold tk =>
    let k := choose v.h s.H n
    (x.see t (x.msgH k)).put (if tk % c.L = k % c.L then s.go t .wExit else s.go t (.wMark tk))
  | .wMark tk =>
    let k := choose (v.m (tk % c.L)) (x.mlen (tk % c.L)) n
    (x.see t (x.msgM (tk % c.L) k)).put
      (if x.vals (tk % c.L) k ≠ .ready then s.go t .wExit else s.go t (.wCas tk))
  | .cLoad =>
    let k := choose v.p s.P n
    (x.see t (x.msgP k)).put (s.go t (.cWrite k))
  | .cWrite tk =>
    let k := choose v.w s.W n
    (x.see t (x.msgW k)).put (if tk % c.L = k % c.L then s.go t .cEnd else s.go t (.cCas tk))
  | .rLoad =>
    let k := choose v.r s.R n
    (x.see t (x.msgR k)).put (s.go t (.rProc k))
  | .rProc tk =>
    let k := choose v.p s.P n
    (x.see t (x.msgP k)).put (if tk % c.L = k % c.L then s.go t .cLoad else s.go t (.rMark tk))
  | .rMark tk =>
    let k := choose (v.m (tk % c.L)) (x.mlen (tk % c.L)) n
    (x.see t (x.msgM (tk % c.L) k)).put
      (if x.vals (tk % c.L) k ≠ .invalid then s.go t .cLoad else s.go t (.rCas tk))
  | .cLoopW =>
    let k := choose v.w s.W n
    (x.see t (x.msgW k)).put (s.go t (.cLoopR k))
  | .cLoopR w =>
    let k := choose v.r s.R n
    (x.see t (x.msgR k)).put (if w % c.L ≠ k % c.L then s.go t .cLoad else s.go t .cFin)
  -- compare-and-swap
  | .hCas _ tk _ =>
    (if s.H % c.L = tk % c.L then x.swapH t else x.see t (x.msgH (choose v.h s.H n))).put
      (Ring.stepT c s t)
  | .wCas tk =>
    (if s.W % c.L = tk % c.L then x.swapW t else x.see t (x.msgW (choose v.w s.W n))).put
      (Ring.stepT c s t)
  | .cCas tk =>
    (if s.P % c.L = tk % c.L then x.swapP t else x.see t (x.msgP (choose v.p s.P n))).put
      (Ring.stepT c s t)
  | .rCas tk =>
    (if s.R % c.L = tk % c.L then x.swapR t else x.see t (x.msgR (choose v.r s.R n))).put
      (Ring.stepT c s t)
  -- stores of marks
  | .hMark k _ => (x.store t (k % c.L) .hold).put (Ring.stepT c s t)
  | .pMark k => (x.store t (k % c.L) .ready).put (Ring.stepT c s t)
  | .cClear k => (x.store t (k % c.L) .invalid).put (Ring.stepT c s t)
  -- accesses to the record
  | .fInit k _ => (x.touch t (k % c.L)).put (Ring.stepT c s t)
  | .fill k (_ :: _) => (x.touch t (k % c.L)).put (Ring.stepT c s t)
  | .pSeal k => (x.touch t (k % c.L)).put (Ring.stepT c s t)
  | .cDisp k => (x.touch t (k % c.L)).put (Ring.stepT c s t)
  -- tests of `channel_state_`
  | .hChk i body => x.put (if b then s.go t (.hLoad i body) else s.go t (.hOut body))
  | .hOut body => x.put (if b then s.go t (.hSleep body) else s.go t .idle)
  | .pChk k => x.put (if b then s.go t (.pSeal k) else { s with lost := k :: s.lost }.go t .idle)
  | .wCond => x.put (if b then s.go t .wLoad else s.go t .wExit)
  | .wExit => x.put (if c.async = false ∧ b = true then s.go t .cLoad else s.go t .idle)
  | .cEnd => x.put (if b then s.go t .cSet else s.go t .cLoop)
  | .cLoop => x.put (if c.async = false then s.go t .idle
      else if b then s.go t .cLoad else s.go t .cLoopW)
  -- the rest touches neither the ring nor `channel_state_` of others
  | _ => x.put (Ring.stepT c s t)

/-- What can happen.  `call` is a log statement that passed BlockInput. -/
inductive WEv (α : Type) where
  | call (t : Nat) (body : List α)
  | run (t n : Nat) (b : Bool)

/-- One event. -/
def step (c : Cfg α) (x : WSt α) : WEv α → WSt α
  | .call t body =>
    match x.s.pc t with
    | .idle => x.put ({ x.s with calls := x.s.calls ++ [(t, body)] }.go t (.hChk 0 body))
    | _ => x
  | .run t n b => stepT c x t n b

/-- Run a schedule. -/
def run (c : Cfg α) (x : WSt α) (es : List (WEv α)) : WSt α := es.foldl (step c) x

/-- The start as in `Ring.init`; everybody knows the initial values (thread creation orders them). -/
def init (c : Cfg α) : WSt α where
  s := Ring.init c
  msgH := fun _ => View.none
  msgW := fun _ => View.none
  msgP := fun _ => View.none
  msgR := fun _ => View.none
  vals := fun _ _ => .invalid
  mlen := fun _ => 0
  msgM := fun _ _ => View.none
  acc := fun _ => 0
  view := fun _ => View.none
  race := false
  unordered := false

/-- No compare-and-swap succeeds although the index went round the ring since it was loaded
(`Ring.timelyAt`). -/
def Timely (c : Cfg α) : WSt α → List (WEv α) → Prop
  | _, [] => True
  | x, .call t body :: es => Timely c (step c x (.call t body)) es
  | x, .run t n b :: es => timelyAt c x.s t ∧ Timely c (step c x (.run t n b)) es

instance Timely.dec (c : Cfg α) : (x : WSt α) → (es : List (WEv α)) → Decidable (Timely c x es)
  | _, [] => inferInstanceAs (Decidable True)
  | x, .call t body :: es => Timely.dec c (step c x (.call t body)) es
  | x, .run t n b :: es =>
    haveI := Timely.dec c (step c x (.run t n b)) es
    inferInstanceAs (Decidable (timelyAt c x.s t ∧ Timely c (step c x (.run t n b)) es))

end FNLog.Weak
