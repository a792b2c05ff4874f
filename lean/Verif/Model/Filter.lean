import Verif.Model.Types

/-!
# Admission and dispatch filters

Transcribed from `/repo/src/include/fn_channel.h`: `BlockInput` (329-426), `DispatchLog` (53-95) and
`EnterProcDevice` (23-50), and from `fn_out_virtual_device.h` (32-71) the filter of the log hook.
`none` = undefined behaviour (shift by 64 or more, signed overflow).
-/

namespace FNLog

/-- The C++ expression `count > 0 && (v < begin || v >= begin + count)`
(fn_channel.h 77, 81, 361, 365, 401, 405; fn_out_virtual_device.h 45, 50). -/
def rangeFails (begin_ count v : Int) : Option Bool :=
  if count > 0 then
    if v < begin_ then some true
    else (addLL begin_ count).map (fun e => decide (v ≥ e))
  else some false

/-- The C++ expression `1ULL << (unsigned int)v`; a shift count of 64 or more is undefined. -/
def shl1 (v : Int) : Option (BitVec 64) :=
  let s := (v % 2 ^ 32).toNat
  if s < 64 then some (1#64 <<< s) else none

/-- The C++ expression `mask && (mask & (1ULL << (unsigned int)v)) == 0` where `mask` is the
`unsigned long long` conversion of the configuration field
(fn_channel.h 85, 89, 369, 373, 409, 413; fn_out_virtual_device.h 54, 58). -/
def maskFails (field v : Int) : Option Bool :=
  let mask := BitVec.ofInt 64 field
  if mask != 0#64 then (shl1 v).map (fun b => mask &&& b == 0#64) else some false

/-- The device loop of `BlockInput` (fn_channel.h 378-419): result is `need_write`. -/
def blockDevs (priority category identify : Int) : List Device → Option Bool
  | [] => some false
  | d :: ds =>
    let f := d.cfg
    if f.able = 0 ∨ priority < f.priority then blockDevs priority category identify ds
    else if d.inType ≠ .null then blockDevs priority category identify ds
    else do
      if ← rangeFails f.category f.categoryExtend category then
        blockDevs priority category identify ds
      else if ← rangeFails f.identify f.identifyExtend identify then
        blockDevs priority category identify ds
      else if ← maskFails f.categoryMask category then
        blockDevs priority category identify ds
      else if ← maskFails f.identifyMask identify then
        blockDevs priority category identify ds
      else some true

/-- The part of `Logger` that `BlockInput` looks at: `logger_state_` and `shm_` (`none` for NULL)
with its channels `[0, channel_size_)`. -/
structure LoggerView where
  state : LoggerState := .uninit
  shm : Option (List Channel) := none
deriving DecidableEq, Repr

/-- `BlockInput` (fn_channel.h 329-426); `true` = refused. -/
def blockInput (lg : LoggerView) (channelId priority category identify : Int) : Option Bool :=
  match lg.shm with
  | none => some true
  | some channels =>
    if channelId ≥ channels.length ∨ channelId < 0 then some true
    else if lg.state ≠ .running then some true
    else match channels[channelId.toNat]? with
    | none => none
    | some ch =>
      if ch.state ≠ .running then some true
      else if priority < ch.cfg.priority then some true
      else
        let priority := if priority ≥ PRIORITY_MAX then PRIORITY_FATAL else priority
        do
          if ← rangeFails ch.cfg.category ch.cfg.categoryExtend category then return true
          if ← rangeFails ch.cfg.identify ch.cfg.identifyExtend identify then return true
          if ← maskFails ch.cfg.categoryMask category then return true
          if ← maskFails ch.cfg.identifyMask identify then return true
          let needWrite ← blockDevs priority category identify ch.devices
          return !needWrite

/-- The `DispatchLog` loop body's filter (fn_channel.h 58-92): `true` = `EnterProcDevice` is called. -/
def dispatchTakes (d : Device) (priority category identify : Int) : Option Bool :=
  if d.cfg.able = 0 then some false
  else if d.inType ≠ .null then some false
  else if priority < d.cfg.priority then some false
  else do
    if ← rangeFails d.cfg.category d.cfg.categoryExtend category then return false
    if ← rangeFails d.cfg.identify d.cfg.identifyExtend identify then return false
    if ← maskFails d.cfg.categoryMask category then return false
    if ← maskFails d.cfg.identifyMask identify then return false
    return true

/-- `DispatchLog` (fn_channel.h 53-95): the ids of the devices for which `EnterProcDevice` is called,
in call order.  `start` is the loop counter `device_id`. -/
def dispatchFrom (start : Nat) (priority category identify : Int) : List Device → Option (List Nat)
  | [] => some []
  | d :: ds => do
    let t ← dispatchTakes d priority category identify
    let rest ← dispatchFrom (start + 1) priority category identify ds
    return if t then start :: rest else rest

/-- `DispatchLog` starts the loop at device 0 (fn_channel.h 55). -/
def dispatchLog (devices : List Device) (priority category identify : Int) : Option (List Nat) :=
  dispatchFrom 0 priority category identify devices

/-- Filter part of `EnterProcOutVirtualDevice` (fn_out_virtual_device.h 36-61): `true` = the hook is
called.  There is no test of `able` and of the priority. -/
def virtualTakes (d : Device) (category identify : Int) : Option Bool := do
  if ← rangeFails d.cfg.category d.cfg.categoryExtend category then return false
  if ← rangeFails d.cfg.identify d.cfg.identifyExtend identify then return false
  if ← maskFails d.cfg.categoryMask category then return false
  if ← maskFails d.cfg.identifyMask identify then return false
  return true

end FNLog
