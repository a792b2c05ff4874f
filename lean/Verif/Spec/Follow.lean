import Verif.Spec.Logger

/-! # What the author of a configuration file with `hot_update: true` may expect -/

namespace FNLog.Spec

/-- The logger runs, with the file at `path`, and has channel `i`. -/
structure Watching (i : Nat) (path : List Char) (l : Lg) (s : LgShm) : Prop where
  shm : l.shm = some s
  channel : (i : Int) < s.seg.channelSize
  numbered : Numbered i (s.chans i).chan
  running : l.state = .running
  on : l.hotUpdate = true
  yamlPath : l.yamlPath = path
  named : path ≠ []

/-- The channel has the filter of the channel `src` of the file, and every device of `src` has its settings. -/
structure Follows (src c : Channel) : Prop where
  filter : c.cfg = src.cfg
  devices : ∀ (j : Nat) (d : Device), src.devices[j]? = some d → ∃ n, c.devices[j]? = some n ∧ n.cfg = d.cfg

/-- No version of the file that is seen and accepted switches hot update off. -/
def StaysOn (e : LgEnv) (path : List Char) (calls : List HotCall) : Prop :=
  ∀ k ∈ calls, ∀ (m : Int) (t : List Char) (g : Config), k.file path = some (m, t) →
    parseLogger e.dns e.garbage e.fuel t = .ok g → g.hotUpdate = true

/-- The devices of `c` are among those of `src`, apart from the settings: the same numbers, types, files and paths. -/
structure Matches (src c : Channel) : Prop where
  size : c.devices.length ≤ src.devices.length
  same : ∀ (j : Nat) (d s : Device), c.devices[j]? = some d → src.devices[j]? = some s → { d with cfg := s.cfg } = s

/-- All versions of the file that are seen have such devices in channel `i`. -/
def MatchesAll (e : LgEnv) (path : List Char) (i : Nat) (src : Channel) (calls : List HotCall) : Prop :=
  ∀ k ∈ calls, ∀ (m : Int) (t : List Char) (g : Config), k.file path = some (m, t) → parseLogger e.dns e.garbage e.fuel t = .ok g →
    Matches src (srcChannel g i)

end FNLog.Spec
