import Verif.Model.HotRead

/-!
# Specification of filters read during a hot update
-/

namespace FNLog.Spec

/-- Device `i` of a channel; the array is zero behind the last device. -/
def devAt (c : Channel) (i : Nat) : Device := c.devices[i]?.getD {}

/-- Every field of the channel filter `m` is the one of `a` or the one of `b`. -/
def MixChan (a b m : ChanCfg) : Prop := ∀ k, m.get k = a.get k ∨ m.get k = b.get k

/-- Every field of the device `m` is the one of `a` or the one of `b`. -/
structure MixDev (a b m : Device) : Prop where
  cfg : ∀ k, m.cfg.get k = a.cfg.get k ∨ m.cfg.get k = b.cfg.get k
  inType : m.inType = a.inType ∨ m.inType = b.inType
  outType : m.outType = a.outType ∨ m.outType = b.outType

/-- The filters of `m` are put together from the ones of `a` and `b`, field by field. -/
structure Mixture (a b m : Channel) : Prop where
  cfg : MixChan a.cfg b.cfg m.cfg
  lower : a.devices.length ≤ m.devices.length
  upper : m.devices.length ≤ b.devices.length
  devices : ∀ (i : Nat) (d : Device), m.devices[i]? = some d → MixDev (devAt a i) (devAt b i) d

/-- One of the two halves of a range does not change. -/
def RangeStays (b c b' c' : Int) : Prop := b = b' ∨ c = c'

/-- No range of a channel filter changes both halves. -/
def ChanStays (a b : ChanCfg) : Prop :=
  RangeStays a.category a.categoryExtend b.category b.categoryExtend ∧
  RangeStays a.identify a.identifyExtend b.identify b.identifyExtend

/-- No range of a device filter changes both halves. -/
def DevStays (a b : DevCfg) : Prop :=
  RangeStays a.category a.categoryExtend b.category b.categoryExtend ∧
  RangeStays a.identify a.identifyExtend b.identify b.identifyExtend

/-- Ranges far away from the limits of `long long`. -/
def Tame (begin_ count : Int) : Prop := -2 ^ 62 ≤ begin_ ∧ begin_ < 2 ^ 62 ∧ count ≤ 2 ^ 62

instance (b c : Int) : Decidable (Tame b c) := inferInstanceAs (Decidable (_ ∧ _ ∧ _))

def ChanTame (a : ChanCfg) : Prop := Tame a.category a.categoryExtend ∧ Tame a.identify a.identifyExtend

def DevTame (a : DevCfg) : Prop := Tame a.category a.categoryExtend ∧ Tame a.identify a.identifyExtend

/-- A mask is zero or the value is a legal number of a bit. -/
def MaskDefined (mask v : Int) : Prop := mask % 2 ^ 64 = 0 ∨ (0 ≤ v ∧ v < 64)

/-- No filter of the channel meets undefined behaviour, whichever of the fields are old or new. -/
structure Safe (c : Channel) (cat ident : Int) : Prop where
  chan : ChanTame c.cfg ∧ MaskDefined c.cfg.categoryMask cat ∧ MaskDefined c.cfg.identifyMask ident
  devices : ∀ d ∈ c.devices, DevTame d.cfg ∧ MaskDefined d.cfg.categoryMask cat ∧ MaskDefined d.cfg.identifyMask ident

/-- A variable of the filters. -/
inductive Place where
  | chan (k : Nat)
  | dev (i k : Nat)
deriving DecidableEq

/-- The value of a variable. -/
def Place.value (c : Channel) : Place → Option Int
  | .chan k => c.cfg.get k
  | .dev i k => (devAt c i).cfg.get k

/-- The two channels have the same devices, and at most the variable `x` differs. -/
structure DifferAt (x : Place) (a b : Channel) : Prop where
  size : a.devices.length = b.devices.length
  inType : ∀ i, (devAt a i).inType = (devAt b i).inType
  value : ∀ y, y ≠ x → y.value a = y.value b

/-- `b` lets more pass than `a`: the priorities are lower or equal, more devices are switched on, and nothing else
differs. -/
structure Looser (a b : Channel) : Prop where
  size : a.devices.length = b.devices.length
  priority : b.cfg.priority ≤ a.cfg.priority
  cfg : ∀ k, k ≠ 0 → b.cfg.get k = a.cfg.get k
  able : ∀ i, (devAt a i).cfg.able ≠ 0 → (devAt b i).cfg.able ≠ 0
  devPriority : ∀ i, (devAt b i).cfg.priority ≤ (devAt a i).cfg.priority
  devCfg : ∀ i k, k ≠ 0 → k ≠ 1 → (devAt b i).cfg.get k = (devAt a i).cfg.get k
  inType : ∀ i, (devAt b i).inType = (devAt a i).inType

end FNLog.Spec
