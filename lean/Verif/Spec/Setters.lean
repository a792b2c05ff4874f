import Verif.Spec.Life
import Verif.Spec.Filter

/-!
# What the functions of fn_log.h are for

The logger after the call, given what happens to one device (or one channel) of the kind meant.
-/

namespace FNLog.Spec

/-- The configuration of channel `i`. -/
def channelCfg (l : Lg) (i : Nat) : Option ChanCfg := l.shm.map fun s => (s.chans i).chan.cfg

/-- All devices of one output type, in all channels, have changed their configuration by `f`; nothing else has changed. -/
def DevicesChanged (t : OutType) (f : DevCfg → DevCfg) (l l' : Lg) : Prop :=
  eraseCfg l' = eraseCfg l ∧ (∀ i, channelCfg l' i = channelCfg l i) ∧
  ∀ i j, deviceOf l' i j = (deviceOf l i j).map fun d =>
    if (i : Int) < channelCount l ∧ d.outType = t then { d with cfg := f d.cfg } else d

/-- All channels have changed their configuration by `f`; nothing else has changed. -/
def ChannelsChanged (f : ChanCfg → ChanCfg) (l l' : Lg) : Prop :=
  eraseCfg l' = eraseCfg l ∧ (∀ i j, deviceOf l' i j = deviceOf l i j) ∧
  ∀ i, channelCfg l' i = (channelCfg l i).map fun c => if (i : Int) < channelCount l then f c else c

end FNLog.Spec
