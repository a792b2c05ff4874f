import Verif.Model.Device
import Verif.Model.Stream
import Verif.Model.Ring

/-!
# A log statement from its call to the devices

Transcribed from `/repo/src/include`: the constructor and the destructor of `LogStream` (fn_stream.h 86-200) with
`set_category` (205), `InitLogData` (fn_channel.h 274-324), `EnterProcOutVirtualDevice` (fn_out_virtual_device.h 32-71),
and `TransmitChannel` (fn_channel.h 528-562), put together from the models of `BlockInput`, of the stream operations, of
the ring (`HoldChannel`, `PushChannel`, `EnterProcChannel`) and of the devices.

One thread logs to one channel and no other thread is active; the configuration does not change.

Simplifications: the fields of a record other than its text are written into the slot as one piece; the hook
(`VirtualDevicePtr`) gets the record by `const` reference, it is noted with the record it gets and has no other effect.
-/

namespace FNLog
open Ring (Cfg St)

/-- The fields of `LogData` other than the text (fn_data.h 129-141). -/
structure Head where
  channelId : Int
  priority : Int
  category : Int
  identify : Int
  line : Int
  func : Option (List Char)
  file : Option (List Char)
  ts : Int
  precise : Nat
  thread : Nat
  prefixLen : Nat
deriving DecidableEq, Repr

/-- The arguments of the constructor, what the clock and the thread id were at the call, and the old content of the slot. -/
structure Call where
  channelId : Int
  priority : Int
  category : Int
  identify : Int
  file : Option (List Char)
  line : Int
  func : Option (List Char)
  mask : Nat
  ts : Int
  precise : Nat
  thread : Nat
  junk : List Char

/-- `logger.name_` and `logger.desc_`. -/
structure Names where
  name : List Char
  desc : List Char

/-- What is done with a stream. -/
inductive StreamOp where
  /-- `operator<<` -/
  | put (v : Val)
  /-- `set_category` (fn_stream.h 204) -/
  | setCategory (category : Int)

/-- A stream under construction: the fields and the text of its record (`none`: `log_data_` is null), the date cache. -/
structure Stmt where
  head : Option Head
  strm : Strm

/-- The record after InitLogData (fn_channel.h 274-324) and lines 110-114 of fn_stream.h. -/
def Call.head (a : Call) : Head :=
  ⟨a.channelId, a.priority, a.category, a.identify, a.line, a.func, a.file, a.ts, a.precise, a.thread, 0⟩

/-- The arguments of the prefix. -/
def Call.prefixArgs (a : Call) (nm : Names) : PrefixArgs :=
  ⟨a.mask, a.ts, a.precise, a.priority, a.thread, nm.name, nm.desc, a.file, a.line, a.func⟩

/-- Length of the text of a stream. -/
def Strm.len (s : Strm) : Nat := match s.data with
  | none => 0
  | some r => r.len

/-- Line 173 of fn_stream.h: `prefix_len_` stays 0 without a prefix (115-118). -/
def Call.headAfter (a : Call) (s : Strm) : Head := { a.head with prefixLen := if a.mask = 0 then 0 else s.len }

/-- The constructor of an admitted log statement (fn_stream.h 97-174). -/
def constructOk (E : Env) (nm : Names) (a : Call) (cache : DateCache) : Option Stmt := do
  let r ← initRec a.junk
  let s ← ctorPrefix E (a.prefixArgs nm) ⟨some r, cache⟩
  some ⟨some (a.headAfter s), s⟩

/-- The constructor (fn_stream.h 86-174). -/
def construct (E : Env) (nm : Names) (lg : LoggerView) (a : Call) (cache : DateCache) : Option Stmt := do
  let blocked ← blockInput lg a.channelId a.priority a.category a.identify
  if blocked then some ⟨none, ⟨none, cache⟩⟩ else constructOk E nm a cache

/-- One operation on a stream. -/
def operate (E : Env) (s : Stmt) : StreamOp → Option Stmt
  | .put v => (streamAll E s.strm [v]).map fun t => { s with strm := t }
  | .setCategory c => match s.strm.data with
    | none => some s
    | some _ => some { s with head := s.head.map fun h => { h with category := c } }

/-- The operations of a statement. -/
def operateAll (E : Env) : Stmt → List StreamOp → Option Stmt
  | s, [] => some s
  | s, o :: os => do
    let s ← operate E s o
    operateAll E s os

/-! ## The hook -/

/-- The device at `virtual_device_id_`: entries of `devices_` behind `device_size_` are all zero (memset). -/
def hookDevice (ch : Channel) : Option Device :=
  if ch.virtualDeviceId < MAX_DEVICE_SIZE then some (ch.devices.getD ch.virtualDeviceId.toNat {}) else none

/-- Lines 180-194 of fn_stream.h and 34-61 of fn_out_virtual_device.h: `true` = the hook is called. -/
def hookFires (hook : Bool) (ch : Channel) (h : Head) : Option Bool :=
  if hook = false then some false
  else if ch.virtualDeviceId ≥ 0 then do
    let d ← hookDevice ch
    if h.priority ≥ d.cfg.priority then virtualTakes d h.category h.identify else some false
  else some false

/-- Lines 63-64 of fn_out_virtual_device.h: a NUL behind the text. -/
def hookNul (N : Nat) (r : Rec) : Option Rec := do
  let c ← writeAt r.content (min r.len (N - 1)) ['\x00']
  some { r with content := c }

/-! ## The system -/

/-- A piece of what is written into a slot: the fields of the record, or a byte of its text. -/
inductive Piece where
  | head (h : Head)
  | byte (c : Char)
deriving DecidableEq, Repr

/-- The fields and the text found in a slot. -/
def decode : List Piece → Option (Head × List Char)
  | .head h :: r => some (h, r.filterMap fun
    | .byte c => some c
    | .head _ => none)
  | _ => none

/-- A channel of a logger, with everything that does not change. -/
structure Setup where
  env : Env
  fenv : FileEnv
  names : Names
  lg : LoggerView
  channel : Channel
  /-- `RefVirtualDevice() != NULL` -/
  hook : Bool
  /-- the thread -/
  thread : Nat
  cfg : Cfg Piece
  /-- answers of the operating system, by number of the record and device -/
  os : Nat → Nat → Os

/-- What changes. -/
structure Sys where
  ring : St Piece
  out : OutSt
  cache : DateCache
  /-- the records the hook was called with -/
  hooked : List (Head × List Char)

/-- The part of a record that the devices use; `content_[content_len_]` is NUL. -/
def devLog (h : Head) (text : List Char) : DevLog := ⟨h.ts, h.priority, text, text.takeWhile (· ≠ '\x00')⟩

/-- DispatchLog (fn_channel.h 124) of the record number `n`. -/
def deliver (S : Setup) (n : Nat) (cell : List Piece) (o : OutSt) : Option OutSt := do
  let (h, text) ← decode cell
  dispatchOut S.fenv S.channel.id (S.os n) (devLog h text) h.category h.identify 0 S.channel.devices o

/-- The records dispatched, in this order. -/
def deliverAll (S : Setup) : List (Nat × List Piece) → OutSt → Option OutSt
  | [], o => some o
  | (n, cell) :: rest, o => do
    let o ← deliver S n cell o
    deliverAll S rest o

/-- The steps granted to a log statement. -/
def stepsFor (c : Cfg Piece) (body : List Piece) : Nat := 100 * c.L + 204 + body.length

/-- HoldChannel, writing the record, PushChannel with EnterProcChannel: the thread runs alone; `none` if it has not
returned within the granted steps. -/
def publish (c : Cfg Piece) (t : Nat) (body : List Piece) (s : St Piece) : Option (St Piece) :=
  let s' := Ring.run c s (.call t body :: List.replicate (stepsFor c body) (.run t))
  match s'.pc t with
  | .idle => some s'
  | _ => none

/-- The pieces of a record whose text is given without its end of line. -/
def pieces (h : Head) (text : List Char) : List Piece := .head h :: text.map .byte

/-- PushLog of a record with text `r` (fn_channel.h 477-525): the text is cut at `LOG_SIZE - 2`, the line end is added by
the ring (`Cfg.nl`). -/
def pushRecord (S : Setup) (h : Head) (r : Rec) (s : Sys) : Option Sys := do
  let sealed ← sealRec S.env.N r
  let ring ← publish S.cfg S.thread (pieces h (sealed.content.take (sealed.len - 1))) s.ring
  let out ← deliverAll S (ring.out.drop s.ring.out.length) s.out
  some { s with ring := ring, out := out }

/-- Statistics of the hook's device (fn_out_virtual_device.h 66-68) and the call of the hook (69). -/
def callHook (S : Setup) (h : Head) (r : Rec) (s : Sys) : Option Sys := do
  let k := S.channel.virtualDeviceId.toNat
  let logs ← accountDevice (s.out.dev k).logs h.priority r.len
  some { s with out := s.out.setDev k { s.out.dev k with logs := logs }, hooked := s.hooked ++ [(h, r.content.take r.len)] }

/-- The destructor with a record (fn_stream.h 178-199). -/
def destructOk (S : Setup) (h : Head) (r : Rec) (s : Sys) : Option Sys := do
  let fires ← hookFires S.hook S.channel h
  if fires then do
    let r ← hookNul S.env.N r
    let s ← callHook S h r s
    pushRecord S h r s
  else pushRecord S h r s

/-- The destructor (fn_stream.h 176-200). -/
def destruct (S : Setup) (t : Stmt) (s : Sys) : Option Sys :=
  match t.head, t.strm.data with
  | some h, some r => destructOk S h r { s with cache := t.strm.cache }
  | _, _ => some { s with cache := t.strm.cache }

/-- A log statement: `LogStream(…) << … << …`. -/
def statement (S : Setup) (a : Call) (ops : List StreamOp) (s : Sys) : Option Sys := do
  let t ← construct S.env S.names S.lg a s.cache
  let t ← operateAll S.env t ops
  destruct S t s

/-- A sequence of log statements. -/
def statements (S : Setup) : List (Call × List StreamOp) → Sys → Option Sys
  | [], s => some s
  | (a, ops) :: rest, s => do
    let s ← statement S a ops s
    statements S rest s

/-! ## Transmission -/

/-- The fields of a transmitted record (fn_channel.h 543-556). -/
def transHead (channelId category identify : Int) (h : Head) : Head :=
  { h with channelId := channelId, category := category, identify := identify }

/-- The content of a transmitted record (fn_channel.h 557-558): `content_len_` bytes over the old content of the slot. -/
def transRec (junk : List Char) (r : Rec) : Option Rec := do
  let c ← writeAt junk 0 (r.content.take r.len)
  some ⟨c, r.len⟩

/-- TransmitChannel (fn_channel.h 528-562) to the channel of `S`. -/
def transmit (S : Setup) (category identify : Int) (junk : List Char) (h : Head) (r : Rec) (s : Sys) : Option Sys :=
  if h.channelId = S.channel.id then some s
  else do
    let blocked ← blockInput S.lg S.channel.id h.priority category identify
    if blocked then some s
    else do
      let r ← transRec junk r
      pushRecord S (transHead S.channel.id category identify h) r s

end FNLog
