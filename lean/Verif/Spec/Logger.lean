import Verif.Model.Logger

/-! # What loading, hot update and the setters are supposed to do -/

namespace FNLog.Spec

/-- A channel of a loaded logger at place `i`: numbered without gaps, within the array bounds. -/
structure Numbered (i : Nat) (c : Channel) : Prop where
  id : c.id = i
  count : c.devices.length ≤ 20
  devices : ∀ (j : Nat) (d : Device), c.devices[j]? = some d → d.id = j

/-- The channel `new` is the channel `old` after an update by the configuration `src`. -/
structure Updated (old src new : Channel) : Prop where
  /-- the filter of the channel is the new one -/
  cfg : new.cfg = src.cfg
  id : new.id = old.id
  type : new.type = old.type
  state : new.state = old.state
  virtualDeviceId : new.virtualDeviceId = old.virtualDeviceId
  /-- no device is removed -/
  size : new.devices.length = max old.devices.length src.devices.length
  /-- a device known before has the new settings and keeps its number, types, file and path -/
  known : ∀ (j : Nat) (d s : Device), old.devices[j]? = some d → src.devices[j]? = some s →
    ∃ n : Device, new.devices[j]? = some n ∧ n.cfg = s.cfg ∧ n.id = d.id ∧ n.outType = d.outType ∧ n.inType = d.inType ∧
      n.file = d.file ∧ n.path = d.path
  /-- a device the new configuration does not mention stays -/
  kept : ∀ (j : Nat) (d : Device), old.devices[j]? = some d → src.devices[j]? = none → new.devices[j]? = some d
  /-- a device not known before is added as configured -/
  added : ∀ j : Nat, old.devices[j]? = none → new.devices[j]? = src.devices[j]?

/-- `l'` is `l` except for channel `i`, which has become `c`, and the hot update switch. -/
structure OnlyChannel (l : Lg) (i : Nat) (c : ChanMem) (hot : Bool) (l' : Lg) : Prop where
  hotUpdate : l'.hotUpdate = hot
  yamlPath : l'.yamlPath = l.yamlPath
  state : l'.state = l.state
  name : l'.name = l.name
  desc : l'.desc = l.desc
  shmKey : l'.shmKey = l.shmKey
  shm : ∃ s s', l.shm = some s ∧ l'.shm = some s' ∧ s'.seg = s.seg ∧ s'.chans i = c ∧
    ∀ j, j ≠ i → s'.chans j = s.chans j

/-- All statistics are the same, except those with the given numbers. -/
def SameStats (c c' : ChanMem) (except : List Nat) : Prop :=
  c'.devLogs = c.devLogs ∧ ∀ k, k ∉ except → c'.logs k = c.logs k

/-- `l'` with shared memory `s'` is `l` after loading the configuration `g` of the file `path`. -/
structure LoadedAs (g : Config) (path : List Char) (l l' : Lg) (s' : LgShm) : Prop where
  count : s'.seg.channelSize = g.channels.length
  state : l'.state = .uninit
  yamlPath : l'.yamlPath = path
  hotUpdate : l'.hotUpdate = g.hotUpdate
  /-- an empty name leaves the old one -/
  name : l'.name = if g.name = [] then l.name else g.name
  desc : l'.desc = if g.desc = [] then l.desc else g.desc
  shmKey : l'.shmKey = g.shmKey
  /-- every channel is the parsed one, with the statistics it had -/
  channels : ∀ (i : Nat) (c : Channel), g.channels[i]? = some c → (s'.chans i).chan = c ∧
    ∀ s, l.shm = some s → (s'.chans i).logs = (s.chans i).logs ∧ (s'.chans i).devLogs = (s.chans i).devLogs
  /-- the queues stay -/
  rings : ∀ s, l.shm = some s → s'.seg.rings = s.seg.rings

/-- A call of the hot update check: the channel, the clock, the file system. -/
structure HotCall where
  chan : Nat
  now : Int
  file : List Char → Option (Int × List Char)

/-- A sequence of calls, with the list of channels and times at which the file was opened. -/
def hotRun (e : LgEnv) : List HotCall → Lg → Out (List (Nat × Int) × Lg)
  | [], l => .val ([], l)
  | k :: ks, l => match hotUpdateLogger e k.now k.file k.chan l with
    | .ub => .ub
    | .running => .running
    | .val (_, o, l1) => match hotRun e ks l1 with
      | .ub => .ub
      | .running => .running
      | .val (os, l2) => .val (if o then (k.chan, k.now) :: os else os, l2)

end FNLog.Spec
