/-! # The numbers of enumerators -/

namespace FNLog.Spec

/-- The values of the enumerators of an enumeration in C++: an enumerator without initializer is one more than the one before
it, the first is 0.  An initializer refers to an earlier enumerator (by its place in the list) plus a constant. -/
def enumerate : List (Option (Nat × Nat)) → List Nat → List Nat
  | [], done => done
  | none :: r, done => enumerate r (done ++ [match done.getLast? with | none => 0 | some n => n + 1])
  | some (place, plus) :: r, done => enumerate r (done ++ [done.getD place 0 + plus])

/-- `DeviceLogEnum` (fn_data.h 185-200): only DEVICE_LOG_PRIORITY_MAX, at place 8, has an initializer: DEVICE_LOG_PRIORITY, at
place 7, plus PRIORITY_MAX (7, fn_data.h 85-95). -/
def deviceLogEnum : List Nat :=
  enumerate (List.replicate 8 none ++ [some (7, 7)] ++ List.replicate 4 none) []

/-- `ChannelLogEnum` (fn_data.h 251-270): CHANNEL_LOG_PRIORITY_MAX, at place 4, is CHANNEL_LOG_PRIORITY, at place 3, plus
PRIORITY_MAX; CHANNEL_LOG_BOUND, at place 5, is CHANNEL_LOG_PRIORITY_MAX plus 8. -/
def channelLogEnum : List Nat :=
  enumerate (List.replicate 4 none ++ [some (3, 7), some (4, 8)] ++ List.replicate 7 none) []

end FNLog.Spec
