/-!
# Data types of the logger

Transcribed from `/repo/src/include/fn_data.h`.  Integers of type `int` / `long long` are modelled by
`Int`; the places where C++ arithmetic could overflow are checked explicitly (see `addLL`).
Bytes are `Char`s with code below 256.
-/

namespace FNLog

/-- `FN_LOG_MAX_LOG_SIZE`, `LogData::LOG_SIZE` (fn_data.h 55-57, 128). -/
def LOG_SIZE : Nat := 10000
/-- `FN_LOG_MAX_LOG_QUEUE_SIZE`, `RingBuffer::BUFFER_LEN` (fn_data.h 59-61, 283). -/
def BUFFER_LEN : Nat := 1000
/-- `FN_LOG_MAX_DEVICE_SIZE` (fn_data.h 47-49, 310). -/
def MAX_DEVICE_SIZE : Nat := 20
/-- `FN_LOG_MAX_CHANNEL_SIZE` (fn_data.h 51-53, 344). -/
def MAX_CHANNEL_SIZE : Nat := 2
/-- `FN_LOG_HOTUPDATE_INTERVEL` (fn_data.h 76-78, 393). -/
def HOTUPDATE_INTERVEL : Int := 5

/-- `LogPriority` (fn_data.h 85-95). -/
def PRIORITY_TRACE : Int := 0
def PRIORITY_DEBUG : Int := 1
def PRIORITY_INFO : Int := 2
def PRIORITY_WARN : Int := 3
def PRIORITY_ERROR : Int := 4
def PRIORITY_ALARM : Int := 5
def PRIORITY_FATAL : Int := 6
def PRIORITY_MAX : Int := 7

/-- `DeviceInType` (fn_data.h 148-152). -/
inductive InType where
  | null | udp
deriving DecidableEq, Repr

/-- `DeviceOutType` (fn_data.h 154-162). -/
inductive OutType where
  | null | screen | file | udp | virtual | empty
deriving DecidableEq, Repr

/-- `ChannelType` (fn_data.h 232-236). -/
inductive ChannelType where
  | async | sync
deriving DecidableEq, Repr

/-- `ChannelState` (fn_data.h 272-278). -/
inductive ChannelState where
  | null | running | waitingFinish | finish
deriving DecidableEq, Repr

/-- `LoggerState` (fn_data.h 332-338). -/
inductive LoggerState where
  | uninit | initing | running | closing
deriving DecidableEq, Repr

/-- `Device::config_fields_`, one field per `DeviceConfigEnum` member (fn_data.h 165-183, 219, 228). -/
structure DevCfg where
  able : Int := 0
  priority : Int := 0
  category : Int := 0
  categoryExtend : Int := 0
  categoryMask : Int := 0
  identify : Int := 0
  identifyExtend : Int := 0
  identifyMask : Int := 0
  limitSize : Int := 0
  rollback : Int := 0
  rolldaily : Int := 0
  rollhourly : Int := 0
  stuffUp : Int := 0
  udpIp : Int := 0
  udpPort : Int := 0
deriving DecidableEq, Repr

/-- `Device` (fn_data.h 205-229). `out_file_`/`out_path_` hold the C string up to its NUL. -/
structure Device where
  id : Int := 0
  outType : OutType := .null
  inType : InType := .null
  file : List Char := []
  path : List Char := []
  cfg : DevCfg := {}
deriving DecidableEq, Repr

/-- `Channel::config_fields_`, one field per `ChannelConfigEnum` member (fn_data.h 238-248, 306). -/
structure ChanCfg where
  priority : Int := 0
  category : Int := 0
  categoryExtend : Int := 0
  categoryMask : Int := 0
  identify : Int := 0
  identifyExtend : Int := 0
  identifyMask : Int := 0
deriving DecidableEq, Repr

/-- The configuration part of `Channel` (fn_data.h 300-329). `devices_[0..device_size_)` is the list
`devices`; `device_size_` is its length. Default type is `CHANNEL_ASYNC = 0` (memset). -/
structure Channel where
  id : Int := 0
  type : ChannelType := .async
  virtualDeviceId : Int := 0
  state : ChannelState := .null
  cfg : ChanCfg := {}
  devices : List Device := []
deriving DecidableEq, Repr

/-- Bounds of `long long`. -/
def LLONG_MIN : Int := -(2^63)
def LLONG_MAX : Int := 2^63 - 1

/-- Signed addition on `long long`; overflow is undefined behaviour (`none`). -/
def addLL (a b : Int) : Option Int :=
  if LLONG_MIN ≤ a + b ∧ a + b ≤ LLONG_MAX then some (a + b) else none

end FNLog
