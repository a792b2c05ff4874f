import Verif.Spec.Logger

/-! # What the life cycle and the setters of a logger are supposed to do -/

namespace FNLog.Spec

/-- A call made on a logger by its owner or its worker threads. -/
inductive Op where
  | init (e : LgEnv) (text path : List Char)
  | initFile (e : LgEnv) (file : Option (Int × List Char)) (path : List Char)
  | start (th : Nat → ThreadStart)
  | stop (fuel : Nat)
  | hot (e : LgEnv) (now : Int) (file : List Char → Option (Int × List Char)) (i : Nat)
  | setChannel (ch : Int) (field : Nat) (v : Int)
  | setDevice (ch dev : Int) (field : Nat) (v : Int)
  | batchChannel (field : Nat) (v : Int)
  | batchDevice (t : OutType) (field : Nat) (v : Int)

/-- The value of a finished computation. -/
def outVal {α β : Type} (f : α → β) : Out α → Option β
  | .val a => some (f a)
  | _ => none

/-- The logger after the call; `none` if it does not return (undefined, exception, endless). -/
def Op.exec : Op → Lg → Option Lg
  | .init e text path, l => outVal Prod.snd (initFromYmal e text path l)
  | .initFile e file path, l => outVal Prod.snd (initFromFile e file path l)
  | .start th, l => match startLogger th l with
    | .ret _ l' => some l'
    | _ => none
  | .stop fuel, l => outVal Prod.snd (stopLogger fuel l)
  | .hot e now file i, l => outVal (fun r => r.2.2) (hotUpdateLogger e now file i l)
  | .setChannel ch field v, l => setChannelConfig l ch field v
  | .setDevice ch dev field v, l => setDeviceConfig l ch dev field v
  | .batchChannel field v, l => batchSetChannelConfig l field v
  | .batchDevice t field v, l => batchSetDeviceConfig l t field v

/-- A sequence of calls. -/
def execAll : List Op → Lg → Option Lg
  | [], l => some l
  | o :: os, l => (o.exec l).bind (execAll os)

/-- Logger state and channel states agree, and a running logger is loaded with 1 or 2 channels. -/
structure Consistent (l : Lg) : Prop where
  state : l.state = .uninit ∨ l.state = .running
  loaded : l.state = .running → ∃ s, l.shm = some s ∧ 1 ≤ s.seg.channelSize
  size : ∀ s, l.shm = some s → 0 ≤ s.seg.channelSize ∧ s.seg.channelSize ≤ 2
  channels : ∀ s, l.shm = some s → ∀ i : Nat, (i : Int) < s.seg.channelSize →
    Numbered i (s.chans i).chan ∧ (s.chans i).chan.state = if l.state = .running then .running else .null

/-- Configuration field `k` of channel `i`. -/
def chanCfgOf (l : Lg) (i k : Nat) : Option Int := l.shm.bind fun s => (s.chans i).chan.cfg.get k

/-- Device `j` of channel `i`. -/
def deviceOf (l : Lg) (i j : Nat) : Option Device := l.shm.bind fun s => (s.chans i).chan.devices[j]?

/-- Configuration field `k` of device `j` of channel `i`. -/
def devCfgOf (l : Lg) (i j k : Nat) : Option Int := (deviceOf l i j).bind fun d => d.cfg.get k

/-- The number of channels. -/
def channelCount (l : Lg) : Int := match l.shm with
  | none => 0
  | some s => s.seg.channelSize

/-- A channel without its configuration fields. -/
def eraseChan (c : ChanMem) : ChanMem :=
  { c with chan := { c.chan with cfg := {}, devices := c.chan.devices.map fun d => { d with cfg := {} } } }

/-- A logger without its configuration fields. -/
def eraseCfg (l : Lg) : Lg :=
  { l with shm := l.shm.map fun s => { s with chans := fun i => eraseChan (s.chans i) } }

end FNLog.Spec
