import Verif.Model.Start

/-!
# The functions of fn_log.h

Changes of the configuration of all channels, or of all devices of one output type (fn_log.h 24-47).  The overloads of
`SetAllFilePriority` are `setAllFilePriority` (a priority) and `setAllFilePriorityRange` (two numbers, which are the
category range in spite of the name, fn_log.h 42).
-/

namespace FNLog

/-- Members of `DeviceConfigEnum` (fn_data.h 165-183; `DEVICE_CFG_PRIORITY` is in `Verif/Model/Start.lean`). -/
def DEVICE_CFG_ABLE : Nat := 0
def DEVICE_CFG_CATEGORY : Nat := 2
def DEVICE_CFG_CATEGORY_EXTEND : Nat := 3
def DEVICE_CFG_FILE_LIMIT_SIZE : Nat := 8
def DEVICE_CFG_FILE_ROLLBACK : Nat := 9

/-- Members of `ChannelConfigEnum` (fn_data.h 238-248). -/
def CHANNEL_CFG_PRIORITY : Nat := 0
def CHANNEL_CFG_CATEGORY : Nat := 1
def CHANNEL_CFG_CATEGORY_EXTEND : Nat := 2

/-- fn_log.h 24: `enable` is converted to 0 or 1. -/
def enableAllFileDevice (l : Lg) (enable : Bool) : Option Lg := batchSetDeviceConfig l .file DEVICE_CFG_ABLE enable.toInt
/-- fn_log.h 25. -/
def enableAllScreenDevice (l : Lg) (enable : Bool) : Option Lg := batchSetDeviceConfig l .screen DEVICE_CFG_ABLE enable.toInt
/-- fn_log.h 26. -/
def enableAllUDPDevice (l : Lg) (enable : Bool) : Option Lg := batchSetDeviceConfig l .udp DEVICE_CFG_ABLE enable.toInt

/-- fn_log.h 28. -/
def setAllChannelPriority (l : Lg) (priority : Int) : Option Lg := batchSetChannelConfig l CHANNEL_CFG_PRIORITY priority
/-- fn_log.h 29. -/
def setAllFilePriority (l : Lg) (priority : Int) : Option Lg := batchSetDeviceConfig l .file DEVICE_CFG_PRIORITY priority
/-- fn_log.h 30. -/
def setAllScreenPriority (l : Lg) (priority : Int) : Option Lg := batchSetDeviceConfig l .screen DEVICE_CFG_PRIORITY priority
/-- fn_log.h 31. -/
def setAllUDPPriority (l : Lg) (priority : Int) : Option Lg := batchSetDeviceConfig l .udp DEVICE_CFG_PRIORITY priority

/-- BatchSetChannelCategoryMacro (fn_log.h 33-35). -/
def batchSetChannelCategory (l : Lg) (begin_ count : Int) : Option Lg := do
  let l ← batchSetChannelConfig l CHANNEL_CFG_CATEGORY begin_
  batchSetChannelConfig l CHANNEL_CFG_CATEGORY_EXTEND count

/-- BatchSetDeviceCategoryMacro (fn_log.h 36-38). -/
def batchSetDeviceCategory (l : Lg) (t : OutType) (begin_ count : Int) : Option Lg := do
  let l ← batchSetDeviceConfig l t DEVICE_CFG_CATEGORY begin_
  batchSetDeviceConfig l t DEVICE_CFG_CATEGORY_EXTEND count

/-- fn_log.h 41. -/
def setAllChannelCategory (l : Lg) (begin_ count : Int) : Option Lg := batchSetChannelCategory l begin_ count
/-- fn_log.h 42. -/
def setAllFilePriorityRange (l : Lg) (begin_ count : Int) : Option Lg := batchSetDeviceCategory l .file begin_ count
/-- fn_log.h 43. -/
def setAllScreenCategory (l : Lg) (begin_ count : Int) : Option Lg := batchSetDeviceCategory l .screen begin_ count
/-- fn_log.h 44. -/
def setAllUDPCategory (l : Lg) (begin_ count : Int) : Option Lg := batchSetDeviceCategory l .udp begin_ count

/-- fn_log.h 46. -/
def setAllFileLimitSize (l : Lg) (limit : Int) : Option Lg := batchSetDeviceConfig l .file DEVICE_CFG_FILE_LIMIT_SIZE limit
/-- fn_log.h 47. -/
def setAllFileRollbackCount (l : Lg) (count : Int) : Option Lg := batchSetDeviceConfig l .file DEVICE_CFG_FILE_ROLLBACK count

end FNLog
