import Verif.Model.Types

/-!
# Statistics arrays

`Channel::channel_log_fields_` (`std::array<std::atomic_llong, CHANNEL_LOG_MAX_ID>`) and
`Channel::device_log_fields_[device]` (`std::array<.., DEVICE_LOG_MAX_ID>`), fn_data.h 185-200,
251-270, 309-311, 327-328, 455-485.  `operator[]` of `std::array` does not check the index, so an
index outside the array is undefined behaviour (`none`).
-/

namespace FNLog

/-- An array of 64-bit counters. Wrap-around of the counters is not modelled. -/
abbrev Fields := Nat → Int

/-- `DeviceLogEnum` (fn_data.h 185-200). -/
def DEVICE_LOG_CUR_FILE_SIZE : Nat := 0
def DEVICE_LOG_CUR_FILE_CREATE_TIMESTAMP : Nat := 1
def DEVICE_LOG_CUR_FILE_CREATE_DAY : Nat := 2
def DEVICE_LOG_CUR_FILE_CREATE_HOUR : Nat := 3
def DEVICE_LOG_LAST_TRY_CREATE_TIMESTAMP : Nat := 4
def DEVICE_LOG_LAST_TRY_CREATE_ERROR : Nat := 5
def DEVICE_LOG_LAST_TRY_CREATE_CNT : Nat := 6
def DEVICE_LOG_PRIORITY : Nat := 7
def DEVICE_LOG_PRIORITY_MAX : Nat := 14
def DEVICE_LOG_TOTAL_WRITE_LINE : Nat := 15
def DEVICE_LOG_TOTAL_WRITE_BYTE : Nat := 16
def DEVICE_LOG_TOTAL_LOSE_LINE : Nat := 17
def DEVICE_LOG_MAX_ID : Nat := 18

/-- `ChannelLogEnum` (fn_data.h 251-270). -/
def CHANNEL_LOG_WAIT_COUNT : Nat := 0
def CHANNEL_LOG_HOLD : Nat := 1
def CHANNEL_LOG_PUSH : Nat := 2
def CHANNEL_LOG_PRIORITY : Nat := 3
def CHANNEL_LOG_PRIORITY_MAX : Nat := 10
def CHANNEL_LOG_BOUND : Nat := 18
def CHANNEL_LOG_PROCESSED : Nat := 19
def CHANNEL_LOG_PROCESSED_BYTES : Nat := 20
def CHANNEL_LOG_MAX_PROC_QUE_SIZE : Nat := 21
def CHANNEL_LOG_MAX_DELAY_TIME_S : Nat := 22
def CHANNEL_LOG_HOTUPDATE_CHECK : Nat := 23
def CHANNEL_LOG_HOTUPDATE_CHANGE : Nat := 24
def CHANNEL_LOG_MAX_ID : Nat := 25

/-- `fields[eid].fetch_add(v)` on an array of `size` counters (fn_data.h 460-463, 477-480).
`eid` is computed as an `unsigned`, so a negative index becomes a huge one. -/
def incField (size : Nat) (f : Fields) (eid v : Int) : Option Fields :=
  let e := (eid % 2 ^ 32).toNat
  if e < size then some (fun k => if k = e then f k + v else f k) else none

/-- The per-priority byte counter of `PushChannel` (fn_channel.h 500). -/
def accountPush (f : Fields) (priority len : Int) : Option Fields :=
  incField CHANNEL_LOG_MAX_ID f (CHANNEL_LOG_PRIORITY + priority) len

/-- The accounting of an output device (fn_out_empty_device.h 22-24, fn_out_screen_device.h 24-26,
fn_out_udp_device.h 42-44, fn_out_virtual_device.h 66-68): lines, bytes, bytes by priority. -/
def accountDevice (f : Fields) (priority len : Int) : Option Fields := do
  let f ← incField DEVICE_LOG_MAX_ID f DEVICE_LOG_TOTAL_WRITE_LINE 1
  let f ← incField DEVICE_LOG_MAX_ID f DEVICE_LOG_TOTAL_WRITE_BYTE len
  incField DEVICE_LOG_MAX_ID f (DEVICE_LOG_PRIORITY + priority) len

end FNLog
