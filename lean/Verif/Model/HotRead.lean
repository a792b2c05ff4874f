import Verif.Model.Logger

/-!
# Filters that are read while a hot update writes them

Transcribed from `fn_load.h` 340-380 (the assignments of HotUpdateLogger, one by one) and from `fn_channel.h`:
BlockInput (346-425) and DispatchLog (53-95) with every load of a shared variable numbered.

HotUpdateLogger runs in the thread that outputs (fn_channel.h 257), BlockInput in the threads that log, on a sync
channel DispatchLog too; nothing orders the two (`config_fields_` are plain variables unless
`FN_LOG_USING_ATOM_CFG` is defined).

Simplifications:
* A load of a 64-bit field returns one of the values the field ever had, not a mixture of bytes.
* `out_file_` and `out_path_`, which the filters do not look at, are written at once.
* `channel_state_` and `logger_state_` stay `RUNNING`.
-/

namespace FNLog

/-- What the filters look at: `config_fields_`, the array `devices_` and `device_size_`. -/
structure FilterMem where
  cfg : ChanCfg
  slots : Nat → Device
  size : Nat

/-- The memory of a channel; the array is zero behind `device_size_`. -/
def memOf (c : Channel) : FilterMem :=
  { cfg := c.cfg, slots := fun i => (c.devices[i]?).getD {}, size := c.devices.length }

/-- A running logger with this channel. -/
def soleView (c : Channel) : LoggerView := { state := .running, shm := some [{ c with state := .running }] }

/-! ## The writer -/

/-- One assignment. -/
inductive CfgWrite where
  /-- fn_load.h 353 -/
  | chan (k : Nat) (v : Int)
  /-- one field of `config_fields_` of a device (fn_load.h 371, 378) -/
  | dev (i k : Nat) (v : Int)
  /-- `device_id_` (fn_load.h 378) -/
  | number (i : Nat) (v : Int)
  /-- `in_type_` (fn_load.h 378) -/
  | input (i : Nat) (v : InType)
  /-- `out_type_` (fn_load.h 378) -/
  | output (i : Nat) (v : OutType)
  /-- `out_file_` and `out_path_` (fn_load.h 378) -/
  | names (i : Nat) (file path : List Char)
  /-- `device_size_++` (fn_load.h 378), which is evaluated before `memcpy` is called -/
  | grow
deriving DecidableEq

/-- Change device `i`. -/
def FilterMem.onDev (m : FilterMem) (i : Nat) (f : Device → Device) : FilterMem :=
  { m with slots := fun j => if j = i then f (m.slots j) else m.slots j }

/-- The effect of an assignment. -/
def CfgWrite.apply (m : FilterMem) : CfgWrite → FilterMem
  | .chan k v => { m with cfg := (m.cfg.set v k).getD m.cfg }
  | .dev i k v => m.onDev i fun d => { d with cfg := (d.cfg.set v k).getD d.cfg }
  | .number i v => m.onDev i fun d => { d with id := v }
  | .input i v => m.onDev i fun d => { d with inType := v }
  | .output i v => m.onDev i fun d => { d with outType := v }
  | .names i file path => m.onDev i fun d => { d with file := file, path := path }
  | .grow => { m with size := m.size + 1 }

/-- Assign every field of a device. -/
def devWrites (i : Nat) (f : DevCfg) : List CfgWrite :=
  (List.range DEVICE_CFG_MAX_ID).map fun k => .dev i k ((f.get k).getD 0)

/-- Append a device (fn_load.h 378). -/
def addWrites (i : Nat) (d : Device) : List CfgWrite :=
  [.grow, .number i d.id, .output i d.outType, .input i d.inType, .names i d.file d.path] ++ devWrites i d.cfg

/-- The device loop (fn_load.h 357-380); `dst` are the devices of the channel at this time. -/
def hotDevWrites : Nat → List Device → List Device → List CfgWrite
  | _, [], _ => []
  | i, src :: rest, dst =>
    if src.id ≠ (i : Int) then []
    else match dst[i]? with
      | some d =>
        if d.id ≠ (i : Int) then []
        else devWrites i src.cfg ++ hotDevWrites (i + 1) rest (dst.set i { d with cfg := src.cfg })
      | none =>
        if dst.length ≠ i then []
        else addWrites i src ++ hotDevWrites (i + 1) rest (dst ++ [src])

/-- The loop over the fields of the channel (fn_load.h 350-354). -/
def chanWrites (f : ChanCfg) : List CfgWrite :=
  (List.range CHANNEL_CFG_MAX_ID).map fun k => .chan k ((f.get k).getD 0)

/-- All assignments of a hot update of channel `i` to `src` (fn_load.h 345-380). -/
def hotWrites (i : Nat) (c src : Channel) : List CfgWrite :=
  if c.id ≠ src.id ∨ src.id ≠ (i : Int) then []
  else chanWrites src.cfg ++ hotDevWrites 0 src.devices c.devices

/-- What a load during the update can see: some of the assignments, in any order (`memcpy` and the compiler choose
the order, and without atomics the reader need not see them in that order). -/
def Halfway (i : Nat) (c src : Channel) (m : FilterMem) : Prop :=
  ∃ done later : List CfgWrite, (done ++ later).Perm (hotWrites i c src) ∧ m = done.foldl CfgWrite.apply (memOf c)

/-! ## The readers -/

/-- The device loop of BlockInput (fn_channel.h 378-419) from device `i` on; load number `n` sees `look n`. -/
def blockDevsRead (look : Nat → FilterMem) (p c k : Int) : Nat → Nat → Option Bool
  | 0, _ => none
  | fuel + 1, i =>
    let f := fun j => ((look (7 + 10 * i + j)).slots i).cfg
    if i < (look (7 + 10 * i)).size then
      if (f 1).able = 0 ∨ p < (f 2).priority then blockDevsRead look p c k fuel (i + 1)
      else if ((look (7 + 10 * i + 3)).slots i).inType ≠ .null then blockDevsRead look p c k fuel (i + 1)
      else do
        if ← rangeFails (f 4).category (f 5).categoryExtend c then blockDevsRead look p c k fuel (i + 1)
        else if ← rangeFails (f 7).identify (f 8).identifyExtend k then blockDevsRead look p c k fuel (i + 1)
        else if ← maskFails (f 6).categoryMask c then blockDevsRead look p c k fuel (i + 1)
        else if ← maskFails (f 9).identifyMask k then blockDevsRead look p c k fuel (i + 1)
        else some true
    else some false

/-- BlockInput behind the test of the states (fn_channel.h 346-425); 21 rounds are enough for 20 devices. -/
def blockInputRead (look : Nat → FilterMem) (p c k : Int) : Option Bool :=
  if p < (look 0).cfg.priority then some true
  else
    let p := if p ≥ PRIORITY_MAX then PRIORITY_FATAL else p
    do
      if ← rangeFails (look 1).cfg.category (look 2).cfg.categoryExtend c then return true
      if ← rangeFails (look 4).cfg.identify (look 5).cfg.identifyExtend k then return true
      if ← maskFails (look 3).cfg.categoryMask c then return true
      if ← maskFails (look 6).cfg.identifyMask k then return true
      let needWrite ← blockDevsRead look p c k 21 0
      return !needWrite

/-- The filter of DispatchLog (fn_channel.h 57-92) for device `i`, whose loads begin with number `n`. -/
def dispatchRead (look : Nat → FilterMem) (n i : Nat) (p c k : Int) : Option Bool :=
  let f := fun j => ((look (n + j)).slots i).cfg
  if (f 0).able = 0 then some false
  else if ((look (n + 1)).slots i).inType ≠ .null then some false
  else if p < (f 2).priority then some false
  else do
    if ← rangeFails (f 3).category (f 4).categoryExtend c then return false
    if ← rangeFails (f 6).identify (f 7).identifyExtend k then return false
    if ← maskFails (f 5).categoryMask c then return false
    if ← maskFails (f 8).identifyMask k then return false
    return true

end FNLog
