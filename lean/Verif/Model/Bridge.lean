import Verif.Model.Statement

/-!
# Channels that forward their records

A hook may pass the records it is called with to another channel (`VirtualDevice` of tests/test_trans_log.cpp 48-52 calls `TransmitChannel`, with
the category and identify of the record).  Transcribed: the destructor of fn_stream.h 176-200 and `EnterProcOutVirtualDevice`
(fn_out_virtual_device.h 34-69) with this hook, put together from `Verif/Model/Statement.lean`.

Simplifications: one thread and sync channels, as there.  The devices of the target have files of their own (see C86), so that each channel has
its own `OutSt`; the date cache is common to all channels of the thread.
-/

namespace FNLog

/-- A log statement: the number of the source channel, the statement, and what is in the slot of the target that a copy will use. -/
structure Item where
  src : Nat
  call : Call
  ops : List StreamOp
  junk : List Char

/-- The source channels, the target, the date cache of the thread. -/
structure Web where
  a : Nat → Sys
  b : Sys
  cache : DateCache

/-- The destructor with a record, the hook being `TransmitChannel` to `B` (fn_stream.h 178-199, fn_out_virtual_device.h 34-69, test_trans_log.cpp 51). -/
def destructVia (A B : Setup) (junk : List Char) (h : Head) (r : Rec) (sa sb : Sys) : Option (Sys × Sys) := do
  let fires ← hookFires A.hook A.channel h
  if fires then do
    let r ← hookNul A.env.N r
    let sa ← callHook A h r sa
    let sb ← transmit B h.category h.identify junk h r sb
    let sa ← pushRecord A h r sa
    some (sa, sb)
  else do
    let sa ← pushRecord A h r sa
    some (sa, sb)

/-- The destructor (fn_stream.h 176-200). -/
def destructWith (A B : Setup) (junk : List Char) (t : Stmt) (sa sb : Sys) : Option (Sys × Sys) :=
  match t.head, t.strm.data with
  | some h, some r => destructVia A B junk h r { sa with cache := t.strm.cache } sb
  | _, _ => some ({ sa with cache := t.strm.cache }, sb)

/-- One log statement on a source. -/
def bridgeStatement (src : Nat → Setup) (B : Setup) (x : Item) (w : Web) : Option Web := do
  let t ← construct (src x.src).env (src x.src).names (src x.src).lg x.call w.cache
  let t ← operateAll (src x.src).env t x.ops
  let (sa, sb) ← destructWith (src x.src) B x.junk t (w.a x.src) w.b
  some ⟨fun j => if j = x.src then sa else w.a j, sb, sa.cache⟩

/-- A sequence of log statements on the sources. -/
def bridge (src : Nat → Setup) (B : Setup) : List Item → Web → Option Web
  | [], w => some w
  | x :: rest, w => do
    let w ← bridgeStatement src B x w
    bridge src B rest w

end FNLog
