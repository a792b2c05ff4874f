import Verif.Model.Filter
import Verif.Model.Counters
import Verif.Model.Parse
import Verif.Model.Recover

/-!
# The logger object: loading, life cycle, hot update, setters

Transcribed from `fn_load.h` (InitFromYMAL 161-245, InitFromYMALFile 247-275, HotUpdateLogger 277-383) and
`fn_core.h` (StartChannels 30-72, StopChannels 74-107, StartLogger 109-148, CleanChannels 150-168,
StopLogger 171-212, ParseAndStartLogger 215-240, LoadAndStartLogger 242-262, getters and setters 265-372,
InitLogger 376-390).

Simplifications: console messages are left out; `shm_key_` is passed to `shmget` without the conversion to
`key_t`; the operating system (clock, file, shared memory, thread creation) is an input; `file_handles_` and
`udp_handles_` are not part of this state (see Verif/Model/File.lean).  The functions are those of one
thread holding `state_lock_`; the checks in front of the lock are made on the same state.
-/

namespace FNLog

/-- `Channel` (fn_data.h 300-329): the configuration part and the rest. -/
structure ChanMem where
  chan : Channel := {}
  yamlMtime : Int := 0
  lastHotCheck : Int := 0
  logs : Fields := fun _ => 0
  devLogs : Nat → Fields := fun _ _ => 0

/-- `SHMLogger` (fn_data.h 342-352): indices and queues in `seg` (Verif/Model/Recover.lean), and
`channels_`. -/
structure LgShm where
  seg : Shm
  chans : Nat → ChanMem

/-- The members of `Logger` (fn_data.h 389-436) that the functions below use. -/
structure Lg where
  hotUpdate : Bool := false
  yamlPath : List Char := []
  state : LoggerState := .uninit
  name : List Char := []
  desc : List Char := []
  shmKey : Int := 0
  shm : Option LgShm := none

/-- Return codes. -/
inductive Code where
  | ok
  | parse (e : PErr)
  | load (c : LoadCode)
  | inUse | notInit | notRunning | invalidChannelSize | threadFailed
  | disableHotUpdate | noConfigPath | invalidConfigPath | noChange | versionMismatch
deriving DecidableEq, Repr

/-- Everything the functions get from outside. -/
structure LgEnv where
  dns : List Char → Option Int := fun _ => none
  /-- what was in the memory of the uninitialised `LexState::shm_key_` -/
  garbage : Int := 0
  /-- rounds granted to the loops -/
  fuel : Nat := 0
  /-- `sizeof(SHMLogger)` -/
  shmSize : Int := 0
  /-- shared memory -/
  os : ShmOs := .probeError
  /-- `channels_` of an existing segment -/
  osChans : Nat → ChanMem := fun _ => {}

/-- A queue in zeroed memory. -/
def freshRing : RingMem :=
  { write := 0, hold := 0, read := 0, proc := 0,
    buffer := fun _ => { mark := 0, priority := 0, len := 0, content := List.replicate LOG_SIZE '\x00' } }

/-- `new SHMLogger()` and ResetSHMLogger (fn_load.h 23-36, 43-44). -/
def freshShm : LgShm :=
  { seg := { id := 0, size := 0, channelSize := 0, rings := fun _ => freshRing }, chans := fun _ => {} }

/-- LoadSharedMemory (fn_load.h 38-141).  A new segment has its `channels_` cleared by ResetSHMLogger. -/
def loadShm (e : LgEnv) (l : Lg) : Out (Code × Lg) :=
  if l.shmKey ≤ 0 then .val (.ok, { l with shm := some freshShm })
  else match loadSharedMemory BUFFER_LEN LOG_SIZE MAX_CHANNEL_SIZE e.shmSize e.fuel e.os with
    | .ub => .ub
    | .running => .running
    | .val r =>
      let chans := match e.os with
        | .existing .. => e.osChans
        | _ => fun _ => {}
      match r.attached with
      | none => .val (.load r.code, l)
      | some s => .val (.ok, { l with shm := some { seg := s, chans := chans } })

/-- The new `channels_` (fn_load.h 226-236): the parsed channels with the statistics of the old ones; the
array of the parser is zero behind `channel_size_`. -/
def initChans (g : Config) (old : Nat → ChanMem) : Nat → ChanMem := fun i =>
  match g.channels[i]? with
  | none => {}
  | some c => { chan := c, logs := (old i).logs, devLogs := (old i).devLogs }

/-- Lines 228-244 of fn_load.h. -/
def installConfig (g : Config) (l : Lg) (s : LgShm) : Code × Lg :=
  let s := { seg := { s.seg with channelSize := g.channels.length }, chans := initChans g s.chans }
  let l := { l with shm := some s }
  if s.seg.channelSize > (MAX_CHANNEL_SIZE : Int) ∨ s.seg.channelSize ≤ 0 then (.invalidChannelSize, l) else (.ok, l)

/-- Lines 206-218 of fn_load.h. -/
def takeGlobals (g : Config) (path : List Char) (l : Lg) : Lg :=
  { l with
    name := if g.name.length > 0 then g.name else l.name
    desc := if g.desc.length > 0 then g.desc else l.desc
    yamlPath := path
    hotUpdate := g.hotUpdate
    shmKey := g.shmKey }

/-- The part of InitFromYMAL behind the lock (fn_load.h 198-245). -/
def initLocked (e : LgEnv) (g : Config) (path : List Char) (l : Lg) : Out (Code × Lg) :=
  if l.state ≠ .uninit then .val (.inUse, l)
  else
    let l := takeGlobals g path l
    match l.shm with
    | some s => .val (installConfig g l s)
    | none => match loadShm e l with
      | .ub => .ub
      | .running => .running
      | .val (c, l') => match l'.shm with
        | none => .val (c, l')
        | some s => .val (installConfig g l' s)

/-- InitFromYMAL (fn_load.h 161-245). -/
def initFromYmal (e : LgEnv) (text path : List Char) (l : Lg) : Out (Code × Lg) :=
  if l.state ≠ .uninit then .val (.inUse, l)
  else match parseLogger e.dns e.garbage e.fuel text with
    | .err c => .val (.parse c, l)
    | .ub => .ub
    | .running _ => .running
    | .ok g => initLocked e g path l

/-- InitFromYMALFile (fn_load.h 247-275); `file` is the modification time and content of the file at `path`. -/
def initFromFile (e : LgEnv) (file : Option (Int × List Char)) (path : List Char) (l : Lg) : Out (Code × Lg) :=
  match file with
  | none => .val (.invalidConfigPath, l)
  | some (mtime, text) => match initFromYmal e text path l with
    | .ub => .ub
    | .running => .running
    | .val (c, l) => if c ≠ .ok then .val (c, l)
      else match l.shm with
        | none => .ub
        | some s => .val (.ok, { l with shm := some { s with
            chans := fun i => if (i : Int) < s.seg.channelSize then { s.chans i with yamlMtime := mtime } else s.chans i } })

/-! ## Life cycle -/

/-- What happens to the thread of an async channel (fn_core.h 44-64).  Starting a thread fails with an
exception (`std::thread` never is constructed not joinable), or the thread reaches the end of its first round
(fn_channel.h 187-190) in time, or not within the 100 polls; in the last case it may still do so before
StopChannels looks at the state (92), which then tells it to end. -/
inductive ThreadStart where
  | throws | runs | late | justLate
deriving DecidableEq, Repr

/-- The outcome of starting: a code, an exception, or no return at all. -/
inductive StartOut where
  | ret (c : Code) (l : Lg)
  /-- `std::system_error` leaves StartLogger -/
  | throws (l : Lg)
  /-- never returns -/
  | hangs
  | ub

/-- Set the state of a channel. -/
def setState (i : Nat) (st : ChannelState) (chans : Nat → ChanMem) : Nat → ChanMem := fun j =>
  if j = i then { chans j with chan := { (chans j).chan with state := st } } else chans j

/-- How StartChannels ends. -/
inductive StartEnd where
  /-- returns 0 -/
  | ok
  /-- returns E_CHANNEL_THREAD_FAILED, the thread of the channel is told to end later -/
  | failed
  /-- returns E_CHANNEL_THREAD_FAILED, the thread of the channel is never told to end -/
  | stuck
  | throws
deriving DecidableEq, Repr

/-- StartChannels (fn_core.h 30-72) from channel `i` on, `n` channels left, with the channels afterwards. An
unknown channel type is not possible here. -/
def startChannels (th : Nat → ThreadStart) : Nat → Nat → (Nat → ChanMem) → StartEnd × (Nat → ChanMem)
  | 0, _, chans => (.ok, chans)
  | n + 1, i, chans =>
    match (chans i).chan.type with
    | .sync => startChannels th n (i + 1) (setState i .running chans)
    | .async => match th i with
      | .throws => (.throws, chans)
      | .late => (.stuck, chans)
      | .justLate => (.failed, chans)
      | .runs => startChannels th n (i + 1) (setState i .running chans)

/-- StopChannels (fn_core.h 74-107): every channel ends in state NULL. The threads are joined (`Ring`). -/
def stopChannels : Nat → Nat → (Nat → ChanMem) → (Nat → ChanMem)
  | 0, _, chans => chans
  | n + 1, i, chans => stopChannels n (i + 1) (setState i .null chans)

/-- StartLogger (fn_core.h 109-148).  If a channel times out, StopChannels may join a thread that nobody
tells to end: it hangs (theorem C58). -/
def startLogger (th : Nat → ThreadStart) (l : Lg) : StartOut :=
  if l.state ≠ .uninit then .ret .inUse l
  else match l.shm with
    | none => .ret .notInit l
    | some s =>
      if s.seg.channelSize > (MAX_CHANNEL_SIZE : Int) ∨ s.seg.channelSize ≤ 0 then .ret .invalidChannelSize l
      else match startChannels th s.seg.channelSize.toNat 0 s.chans with
        | (.throws, chans) => .throws { l with state := .initing, shm := some { s with chans := chans } }
        | (.ok, chans) => .ret .ok { l with state := .running, shm := some { s with chans := chans } }
        | (.failed, chans) => .ret .threadFailed
            { l with shm := some { s with chans := stopChannels s.seg.channelSize.toNat 0 chans } }
        | (.stuck, _) => .hangs

/-- The loop of CleanChannels for one queue (fn_core.h 154-164). -/
def cleanRing (L : Nat) : Nat → RingMem → Out RingMem
  | 0, m => if m.read = m.write then .val { m with read := 0, proc := 0, write := 0, hold := 0 } else .running
  | n + 1, m =>
    if m.read = m.write then .val { m with read := 0, proc := 0, write := 0, hold := 0 }
    else if m.read < 0 ∨ m.read ≥ L then .ub
    else cleanRing L n { m with
      buffer := Ring.upd m.buffer m.read.toNat { m.buffer m.read.toNat with mark := 0 }
      read := (m.read + 1) % (L : Int) }

/-- CleanChannels (fn_core.h 150-168), from queue `i` on, `n` left. -/
def cleanRings (L fuel : Nat) : Nat → Nat → (Nat → RingMem) → Out (Nat → RingMem)
  | 0, _, rings => .val rings
  | n + 1, i, rings => match cleanRing L fuel (rings i) with
    | .ub => .ub
    | .running => .running
    | .val m => cleanRings L fuel n (i + 1) (Ring.upd rings i m)

/-- StopLogger (fn_core.h 171-212).  `shm_` is used before it is tested: calling it on a logger that was
never loaded is undefined.  The threads of async channels end (`Ring`, theorem C14). -/
def stopLogger (fuel : Nat) (l : Lg) : Out (Code × Lg) :=
  match l.shm with
  | none => .ub
  | some s =>
    if s.seg.channelSize > (MAX_CHANNEL_SIZE : Int) ∨ s.seg.channelSize ≤ 0 then .val (.invalidChannelSize, l)
    else if l.state ≠ .running then .val (.notRunning, l)
    else match cleanRings BUFFER_LEN fuel s.seg.channelSize.toNat 0 s.seg.rings with
      | .ub => .ub
      | .running => .running
      | .val rings => .val (.ok, { l with
          state := .uninit
          shm := some { seg := { s.seg with rings := rings }
                        chans := stopChannels s.seg.channelSize.toNat 0 s.chans } })

/-- ParseAndStartLogger (fn_core.h 215-240). -/
def parseAndStart (e : LgEnv) (th : Nat → ThreadStart) (text : List Char) (l : Lg) : StartOut :=
  if l.state ≠ .uninit then .ret .inUse l
  else match initFromYmal e text [] l with
    | .ub => .ub
    | .running => .hangs
    | .val (c, l) => if c ≠ .ok then .ret c l else startLogger th l

/-- LoadAndStartLogger (fn_core.h 242-262). -/
def loadAndStart (e : LgEnv) (th : Nat → ThreadStart) (file : Option (Int × List Char)) (path : List Char) (l : Lg) :
    StartOut :=
  if l.state ≠ .uninit then .ret .inUse l
  else match initFromFile e file path l with
    | .ub => .ub
    | .running => .hangs
    | .val (c, l) => if c ≠ .ok then .ret c l else startLogger th l

/-- What BlockInput sees of a logger. -/
def Lg.view (l : Lg) : LoggerView :=
  { state := l.state
    shm := l.shm.map fun s => (List.range s.seg.channelSize.toNat).map fun i => (s.chans i).chan }

/-! ## Hot update -/

/-- The device loop (fn_load.h 357-380) over the parsed devices from `i` on; `false`: version mismatch, with
the devices changed so far. -/
def hotDevices : Nat → List Device → List Device → Bool × List Device
  | _, [], dst => (true, dst)
  | i, src :: rest, dst =>
    if src.id ≠ (i : Int) then (false, dst)
    else match dst[i]? with
      | some d =>
        if d.id ≠ (i : Int) then (false, dst)
        else hotDevices (i + 1) rest (dst.set i { d with cfg := src.cfg })
      | none =>
        if dst.length ≠ i then (false, dst)
        else hotDevices (i + 1) rest (dst ++ [src])

/-- `channels_[channel_id]` of the parser; the array is zero behind `channel_size_`. -/
def srcChannel (g : Config) (i : Nat) : Channel := g.channels[i]?.getD {}

/-- Lines 340-382 of fn_load.h: the channel afterwards and the code. -/
def hotChannel (g : Config) (i : Nat) (c : ChanMem) : Code × ChanMem :=
  let src := srcChannel g i
  if c.chan.id ≠ src.id ∨ src.id ≠ (i : Int) then (.versionMismatch, c)
  else
    let r := hotDevices 0 src.devices c.chan.devices
    let c := { c with chan := { c.chan with cfg := src.cfg, devices := r.2 } }
    if r.1 = false then (.versionMismatch, c)
    else (.ok, { c with logs := fun k => if k = CHANNEL_LOG_HOTUPDATE_CHANGE then c.logs k + 1 else c.logs k })

/-- Replace channel `i`. -/
def Lg.setChan (l : Lg) (s : LgShm) (i : Nat) (c : ChanMem) : Lg :=
  { l with shm := some { s with chans := fun j => if j = i then c else s.chans j } }

/-- Lines 298-299 of fn_load.h: the time and the number of checks. -/
def checked (now : Int) (c : ChanMem) : ChanMem :=
  { c with
    lastHotCheck := now
    logs := fun k => if k = CHANNEL_LOG_HOTUPDATE_CHECK then c.logs k + 1 else c.logs k }

/-- HotUpdateLogger (fn_load.h 277-383).  `now` is the clock, `file` the modification time and content of the
file at `yaml_path_`.  The result also tells if the file was opened. -/
def hotUpdateLogger (e : LgEnv) (now : Int) (file : List Char → Option (Int × List Char)) (i : Nat) (l : Lg) :
    Out (Code × Bool × Lg) :=
  match l.shm with
  | none => .ub
  | some s =>
    if s.seg.channelSize ≤ i then .val (.invalidChannelSize, false, l)
    else if l.hotUpdate = false then .val (.disableHotUpdate, false, l)
    else if l.yamlPath = [] then .val (.noConfigPath, false, l)
    else if now - (s.chans i).lastHotCheck < HOTUPDATE_INTERVEL then .val (.ok, false, l)
    else
      let l1 := l.setChan s i (checked now (s.chans i))
      match file l.yamlPath with
      | none => .val (.invalidConfigPath, true, l1)
      | some (mtime, text) =>
        if mtime = (s.chans i).yamlMtime then .val (.noChange, true, l1)
        else if l.state ≠ .running then .val (.notRunning, true, l1)
        else match parseLogger e.dns e.garbage e.fuel text with
          | .err x => .val (.parse x, true, l1)
          | .ub => .ub
          | .running _ => .running
          | .ok g =>
            -- 325-333: the state is tested again behind the lock
            let r := hotChannel g i { checked now (s.chans i) with yamlMtime := mtime }
            .val (r.1, true, { l with hotUpdate := g.hotUpdate }.setChan s i r.2)

/-! ## Getters and setters -/

/-- `config_fields_[field]` of a channel (fn_data.h 238-248, 306). -/
def ChanCfg.get (c : ChanCfg) : Nat → Option Int
  | 0 => some c.priority
  | 1 => some c.category
  | 2 => some c.categoryExtend
  | 3 => some c.categoryMask
  | 4 => some c.identify
  | 5 => some c.identifyExtend
  | 6 => some c.identifyMask
  | _ => none

/-- Assignment to `config_fields_[field]` of a channel. -/
def ChanCfg.set (c : ChanCfg) (v : Int) : Nat → Option ChanCfg
  | 0 => some { c with priority := v }
  | 1 => some { c with category := v }
  | 2 => some { c with categoryExtend := v }
  | 3 => some { c with categoryMask := v }
  | 4 => some { c with identify := v }
  | 5 => some { c with identifyExtend := v }
  | 6 => some { c with identifyMask := v }
  | _ => none

/-- `config_fields_[field]` of a device (fn_data.h 165-183, 228). -/
def DevCfg.get (c : DevCfg) : Nat → Option Int
  | 0 => some c.able
  | 1 => some c.priority
  | 2 => some c.category
  | 3 => some c.categoryExtend
  | 4 => some c.categoryMask
  | 5 => some c.identify
  | 6 => some c.identifyExtend
  | 7 => some c.identifyMask
  | 8 => some c.limitSize
  | 9 => some c.rollback
  | 10 => some c.rolldaily
  | 11 => some c.rollhourly
  | 12 => some c.stuffUp
  | 13 => some c.udpIp
  | 14 => some c.udpPort
  | _ => none

/-- Assignment to `config_fields_[field]` of a device. -/
def DevCfg.set (c : DevCfg) (v : Int) : Nat → Option DevCfg
  | 0 => some { c with able := v }
  | 1 => some { c with priority := v }
  | 2 => some { c with category := v }
  | 3 => some { c with categoryExtend := v }
  | 4 => some { c with categoryMask := v }
  | 5 => some { c with identify := v }
  | 6 => some { c with identifyExtend := v }
  | 7 => some { c with identifyMask := v }
  | 8 => some { c with limitSize := v }
  | 9 => some { c with rollback := v }
  | 10 => some { c with rolldaily := v }
  | 11 => some { c with rollhourly := v }
  | 12 => some { c with stuffUp := v }
  | 13 => some { c with udpIp := v }
  | 14 => some { c with udpPort := v }
  | _ => none

def CHANNEL_CFG_MAX_ID : Nat := 7
def DEVICE_CFG_MAX_ID : Nat := 15

/-- SetChannelConfig (fn_core.h 278-290).  `none`: undefined behaviour (`shm_` is NULL). -/
def setChannelConfig (l : Lg) (ch : Int) (field : Nat) (v : Int) : Option Lg :=
  match l.shm with
  | none => none
  | some s =>
    if s.seg.channelSize ≤ ch ∨ ch < 0 then some l
    else if field ≥ CHANNEL_CFG_MAX_ID then some l
    else
      let c := s.chans ch.toNat
      (c.chan.cfg.set v field).map fun f => l.setChan s ch.toNat { c with chan := { c.chan with cfg := f } }

/-- SetDeviceConfig (fn_core.h 310-326). -/
def setDeviceConfig (l : Lg) (ch dev : Int) (field : Nat) (v : Int) : Option Lg :=
  match l.shm with
  | none => none
  | some s =>
    if s.seg.channelSize ≤ ch ∨ ch < 0 then some l
    else if field ≥ DEVICE_CFG_MAX_ID then some l
    else
      let c := s.chans ch.toNat
      if (c.chan.devices.length : Int) ≤ dev ∨ dev < 0 then some l
      else match c.chan.devices[dev.toNat]? with
        | none => none
        | some d => (d.cfg.set v field).map fun f =>
          l.setChan s ch.toNat { c with chan := { c.chan with devices := c.chan.devices.set dev.toNat { d with cfg := f } } }

/-- GetDeviceConfig (fn_core.h 328-344). -/
def getDeviceConfig (l : Lg) (ch dev : Int) (field : Nat) : Option Int :=
  match l.shm with
  | none => none
  | some s =>
    if s.seg.channelSize ≤ ch ∨ ch < 0 then some 0
    else if field ≥ DEVICE_CFG_MAX_ID then some 0
    else
      let c := s.chans ch.toNat
      if (c.chan.devices.length : Int) ≤ dev ∨ dev < 0 then some 0
      else match c.chan.devices[dev.toNat]? with
        | none => none
        | some d => d.cfg.get field

/-- GetChannelLog (fn_core.h 264-276). -/
def getChannelLog (l : Lg) (ch : Int) (field : Nat) : Option Int :=
  match l.shm with
  | none => none
  | some s =>
    if s.seg.channelSize ≤ ch ∨ ch < 0 then some 0
    else if field ≥ CHANNEL_LOG_MAX_ID then some 0
    else some ((s.chans ch.toNat).logs field)

/-- GetDeviceLog (fn_core.h 292-308). -/
def getDeviceLog (l : Lg) (ch dev : Int) (field : Nat) : Option Int :=
  match l.shm with
  | none => none
  | some s =>
    if s.seg.channelSize ≤ ch ∨ ch < 0 then some 0
    else if field ≥ DEVICE_LOG_MAX_ID then some 0
    else
      let c := s.chans ch.toNat
      if (c.chan.devices.length : Int) ≤ dev ∨ dev < 0 then some 0
      else some (c.devLogs dev.toNat field)

/-- BatchSetChannelConfig (fn_core.h 346-353), `n` channels left; the field is not checked. -/
def batchChannels (field : Nat) (v : Int) : Nat → Nat → (Nat → ChanMem) → Option (Nat → ChanMem)
  | 0, _, chans => some chans
  | n + 1, i, chans => do
    let f ← (chans i).chan.cfg.set v field
    batchChannels field v n (i + 1) (Ring.upd chans i { chans i with chan := { (chans i).chan with cfg := f } })

def batchSetChannelConfig (l : Lg) (field : Nat) (v : Int) : Option Lg :=
  match l.shm with
  | none => none
  | some s => (batchChannels field v s.seg.channelSize.toNat 0 s.chans).map fun chans =>
      { l with shm := some { s with chans := chans } }

/-- The body of the inner loop of BatchSetDeviceConfig (fn_core.h 362-366). -/
def batchDev (t : OutType) (field : Nat) (v : Int) (d : Device) : Option Device :=
  if d.outType = t ∨ t = .null then (d.cfg.set v field).map fun f => { d with cfg := f } else some d

/-- The inner loop of BatchSetDeviceConfig (fn_core.h 360-367). -/
def batchDevs (t : OutType) (field : Nat) (v : Int) : List Device → Option (List Device)
  | [] => some []
  | d :: ds => (batchDev t field v d).bind fun d' => (batchDevs t field v ds).map fun ds' => d' :: ds'

/-- BatchSetDeviceConfig (fn_core.h 355-369), `n` channels left. -/
def batchDevices (t : OutType) (field : Nat) (v : Int) : Nat → Nat → (Nat → ChanMem) → Option (Nat → ChanMem)
  | 0, _, chans => some chans
  | n + 1, i, chans => do
    let ds ← batchDevs t field v (chans i).chan.devices
    batchDevices t field v n (i + 1) (Ring.upd chans i { chans i with chan := { (chans i).chan with devices := ds } })

def batchSetDeviceConfig (l : Lg) (t : OutType) (field : Nat) (v : Int) : Option Lg :=
  match l.shm with
  | none => none
  | some s => (batchDevices t field v s.seg.channelSize.toNat 0 s.chans).map fun chans =>
      { l with shm := some { s with chans := chans } }

end FNLog
