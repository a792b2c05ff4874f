import Verif.Model.Parse

/-!
# Lines of a configuration file and what is wrong with them

Specification for C118.
-/

namespace FNLog.Spec

/-- The lines of a text, each with its end: a line feed, a carriage return, or one of each. -/
def configLines : List Char → List (List Char)
  | [] => []
  | '\r' :: '\n' :: s => ['\r', '\n'] :: configLines s
  | '\n' :: '\r' :: s => ['\n', '\r'] :: configLines s
  | c :: s =>
    if c = '\r' ∨ c = '\n' then [c] :: configLines s
    else match configLines s with
      | [] => [[c]]
      | l :: ls => (c :: l) :: ls

/-- Line number `n`, counted from 1, begins at `pos`; the number behind the last line belongs to the end of the text. -/
def LineAt (t : List Char) (n pos : Nat) : Prop :=
  1 ≤ n ∧ n ≤ (configLines t).length + 1 ∧ pos = ((configLines t).take (n - 1)).flatten.length

/-- Why a readable line with key `k` and value `v` is refused with error `e`; `tail` is the text behind the value. -/
inductive Refuses (dns : List Char → Option Int) (t : List Char) (off : Nat) (k : Key) (v tail : List Char) : PErr → Prop where
  /-- a setting of the device `d` -/
  | device (d : Device) (e : PErr) : devField dns k v tail d = .err e → Refuses dns t off k v tail e
  /-- a setting of the channel `c` -/
  | channel (c : Channel) (e : PErr) : k ≠ .device → chanField k v tail c = .err e → Refuses dns t off k v tail e
  /-- one device too many -/
  | devices : k = .device → Refuses dns t off k v tail .outOfDeviceSize
  /-- not the next number `n` of a device -/
  | deviceNumber (n : Nat) : k = .device → n < 20 → atoi (v ++ tail) ≠ n → Refuses dns t off k v tail .deviceNotSequence
  /-- one channel too many -/
  | channels : k = .channel → Refuses dns t off k v tail .invalidChannelSize
  /-- not the next number `n` of a channel -/
  | channelNumber (n : Nat) : k = .channel → n < 2 → atoi (v ++ tail) ≠ n → Refuses dns t off k v tail .channelNotSequence
  /-- a macro -/
  | define (fuel : Nat) (e : PErr) : k = .define → predefinedMacro fuel t v off = .err e → Refuses dns t off k v tail e
  /-- a variable -/
  | variables (fuel : Nat) (e : PErr) : k = .variable → predefinedVar fuel t v off = .err e → Refuses dns t off k v tail e
  /-- no setting of the logger -/
  | global : k ≠ .hotUpdate → k ≠ .define → k ≠ .variable → k ≠ .loggerName → k ≠ .loggerDesc → k ≠ .shmKey →
      k ≠ .channel → Refuses dns t off k v tail .undefinedGlobalKey

/-- The line that begins at `pos` is the reason for error `e`: it can not be read, or what it says is refused. -/
def Blames (dns : List Char → Option Int) (t : List Char) (pos : Nat) (e : PErr) : Prop :=
  lex t t.length pos = .err e ∨
  ∃ ln c k, lex t t.length pos = .ok (ln, c) ∧ ln.key = some k ∧
    Refuses dns t ln.valEnd k (lineVal t ln).1 (lineVal t ln).2 e

/-- Reading `t` line by line from its beginning, and replacing macros and variables, one gets to `pos` with text `w`. -/
inductive Reached (t : List Char) : List Char → Nat → Prop where
  | start : Reached t t 0
  | line {w : List Char} {q c : Nat} {ln : Line} : Reached t w q → lex w w.length q = .ok (ln, c) →
      ln.key ≠ some .define → ln.key ≠ some .variable → Reached t w c
  | define {w w' : List Char} {q c : Nat} {ln : Line} (fuel : Nat) : Reached t w q → lex w w.length q = .ok (ln, c) →
      ln.key = some .define → predefinedMacro fuel w (lineVal w ln).1 ln.valEnd = .ok w' → Reached t w' c
  | variables {w w' : List Char} {q c : Nat} {ln : Line} (fuel : Nat) : Reached t w q → lex w w.length q = .ok (ln, c) →
      ln.key = some .variable → predefinedVar fuel w (lineVal w ln).1 ln.valEnd = .ok w' → Reached t w' c

/-- Errors for keys that are not known in their place. -/
def unknownKey (e : PErr) : Bool :=
  e = .undefinedDeviceKey || e = .undefinedChannelKey || e = .undefinedGlobalKey

/-- The enumerators of `ErrNo` and, from its `E_BASE_ERRNO_MAX` on, of `ParseErrorCode`, in the order of their declaration
(fn_data.h 488-527, fn_parse.h 18-36): the number of one is its place. -/
def errorEnum : List String :=
  ["E_SUCCESS", "E_LOGGER_IN_USE", "E_LOGGER_NOT_INIT", "E_LOGGER_NOT_RUNNING", "E_INVALID_CONFIG_PATH",
   "E_INVALID_CHANNEL_SIZE", "E_INVALID_CHANNEL_SYNC", "E_INVALID_CHANNEL_STATE", "E_CHANNEL_THREAD_FAILED",
   "E_CHANNEL_NOT_SEQUENCE", "E_OUT_OF_DEVICE_SIZE", "E_DEVICE_NOT_SEQUENCE", "E_SHMGET_PROBE_ERROR",
   "E_SHMGET_CREATE_ERROR", "E_SHMAT_ERROR", "E_SHM_VERSION_WRONG", "E_VERSION_MISMATCH", "E_DISABLE_HOTUPDATE",
   "E_NO_CONFIG_PATH", "E_CONFIG_NO_CHANGE", "E_OUT_RINGBUFFER", "PEC_ERROR", "PEC_NONSUPPORT_SYNTAX", "PEC_ILLEGAL_KEY",
   "PEC_ILLEGAL_VAR_NAME", "PEC_ILLEGAL_VAR_VALUE", "PEC_NOT_CLOSURE", "PEC_ILLEGAL_ADDR_IP", "PEC_ILLEGAL_ADDR_PORT",
   "PEC_DEFINED_TARGET_TOO_LONG", "PEC_UNDEFINED_DEVICE_KEY", "PEC_UNDEFINED_DEVICE_TYPE", "PEC_UNDEFINED_CHANNEL_KEY",
   "PEC_UNDEFINED_GLOBAL_KEY"]

/-- Kinds of errors a user tells apart. -/
def errorKinds : List (List String × String) :=
  [(["E_SUCCESS"], "success"), (["E_LOGGER_IN_USE"], "logger alread in use"), (["E_LOGGER_NOT_INIT"], "logger not init"),
   (["E_LOGGER_NOT_RUNNING"], "logger not running"), (["E_INVALID_CONFIG_PATH"], "invalid config path"),
   (["E_INVALID_CHANNEL_SIZE"], "invalid channel size"), (["E_INVALID_CHANNEL_SYNC"], "invalid channel sync"),
   (["E_INVALID_CHANNEL_STATE"], "invalid channel state"), (["E_CHANNEL_THREAD_FAILED"], "create thread faield"),
   (["E_CHANNEL_NOT_SEQUENCE"], "channel index need sequence."), (["E_OUT_OF_DEVICE_SIZE"], "out of device size(20)"),
   (["E_DEVICE_NOT_SEQUENCE"], "device index need sequence."),
   (["E_SHMGET_PROBE_ERROR", "E_SHMGET_CREATE_ERROR", "E_SHMAT_ERROR", "E_SHM_VERSION_WRONG", "E_VERSION_MISMATCH"], "shm error"),
   (["E_DISABLE_HOTUPDATE", "E_NO_CONFIG_PATH", "E_CONFIG_NO_CHANGE", "E_OUT_RINGBUFFER"], "some warn"),
   (["PEC_ERROR"], "syntax error"), (["PEC_NONSUPPORT_SYNTAX"], "unsupport syntax"), (["PEC_ILLEGAL_KEY"], "unknown key"),
   (["PEC_ILLEGAL_VAR_NAME"], "name or key invalid"), (["PEC_NOT_CLOSURE"], "not closure line "),
   (["PEC_ILLEGAL_ADDR_IP", "PEC_ILLEGAL_ADDR_PORT"], "udp addr error"),
   (["PEC_DEFINED_TARGET_TOO_LONG"], "var/macro name len must longger than/equal new name."),
   (["PEC_UNDEFINED_DEVICE_KEY", "PEC_UNDEFINED_DEVICE_TYPE", "PEC_UNDEFINED_CHANNEL_KEY", "PEC_UNDEFINED_GLOBAL_KEY"],
    "undefined type")]

end FNLog.Spec
