import Verif.Model.Types

/-!
# Specification of the filters, as the manual words them

Written without reference to the model functions of `Verif/Model/Filter.lean`.
-/

namespace FNLog.Spec

/-- A (begin, count) range accepts `v`: no count means no restriction. -/
def RangeOk (begin_ count v : Int) : Prop := count ≤ 0 ∨ (begin_ ≤ v ∧ v < begin_ + count)

/-- A 64-bit mask accepts `v`: an all-zero mask means no restriction. -/
def MaskOk (mask v : Int) : Prop :=
  mask % 2 ^ 64 = 0 ∨ (mask % 2 ^ 64) / 2 ^ (v % 2 ^ 32).toNat % 2 = 1

/-- A device takes a log of the given priority, category and identify. -/
def DeviceTakes (d : Device) (priority category identify : Int) : Prop :=
  d.cfg.able ≠ 0 ∧ d.inType = .null ∧ d.cfg.priority ≤ priority ∧
  RangeOk d.cfg.category d.cfg.categoryExtend category ∧
  RangeOk d.cfg.identify d.cfg.identifyExtend identify ∧
  MaskOk d.cfg.categoryMask category ∧ MaskOk d.cfg.identifyMask identify

/-- A channel's own filter accepts the log. -/
def ChannelOk (c : ChanCfg) (priority category identify : Int) : Prop :=
  c.priority ≤ priority ∧
  RangeOk c.category c.categoryExtend category ∧
  RangeOk c.identify c.identifyExtend identify ∧
  MaskOk c.categoryMask category ∧ MaskOk c.identifyMask identify

/-- Priorities above FATAL count as FATAL for the devices. -/
def clampPriority (p : Int) : Int := min p 6

/-- Configuration and arguments for which the C++ filter expressions are defined: no overflow in
`begin + count`, and if a mask is set, the filtered value is a legal shift count. -/
def FilterDefined (category categoryExtend categoryMask identify identifyExtend identifyMask : Int)
    (cat ident : Int) : Prop :=
  (categoryExtend > 0 → category + categoryExtend < 2 ^ 63) ∧ -2 ^ 63 ≤ category ∧
  (identifyExtend > 0 → identify + identifyExtend < 2 ^ 63) ∧ -2 ^ 63 ≤ identify ∧
  (categoryMask % 2 ^ 64 = 0 ∨ (0 ≤ cat ∧ cat < 64)) ∧
  (identifyMask % 2 ^ 64 = 0 ∨ (0 ≤ ident ∧ ident < 64))

def DevDefined (d : Device) (cat ident : Int) : Prop :=
  FilterDefined d.cfg.category d.cfg.categoryExtend d.cfg.categoryMask
    d.cfg.identify d.cfg.identifyExtend d.cfg.identifyMask cat ident

def ChanDefined (c : Channel) (cat ident : Int) : Prop :=
  FilterDefined c.cfg.category c.cfg.categoryExtend c.cfg.categoryMask
    c.cfg.identify c.cfg.identifyExtend c.cfg.identifyMask cat ident ∧
  ∀ d ∈ c.devices, DevDefined d cat ident

end FNLog.Spec
