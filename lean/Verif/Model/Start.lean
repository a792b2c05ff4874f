import Verif.Model.Logger
import Verif.Model.Texts

/-!
# Starting the default logger

Transcribed from `fn_macro.h`: FastStartDefaultLogger (39-48, 51-104) and FastStartDebugLogger (106-116).  The
logger of GetDefaultLogger (22-26) is the argument.  Printing the error is left out.
-/

namespace FNLog

/-- FastStartDefaultLogger (fn_macro.h 39-48, 51-104). -/
def fastStartDefault (e : LgEnv) (th : Nat → ThreadStart) (l : Lg) : StartOut := parseAndStart e th defaultText l

/-- DEVICE_CFG_PRIORITY (fn_data.h 168). -/
def DEVICE_CFG_PRIORITY : Nat := 1

/-- Lines 111-113 of fn_macro.h with PRIORITY_TRACE 0, PRIORITY_ERROR 4, PRIORITY_DEBUG 1 (fn_data.h 87-93). -/
def debugPriorities (l : Lg) : Option Lg := do
  let l ← batchSetDeviceConfig l .file DEVICE_CFG_PRIORITY 0
  let l ← setDeviceConfig l 0 1 DEVICE_CFG_PRIORITY 4
  batchSetDeviceConfig l .screen DEVICE_CFG_PRIORITY 1

/-- What FastStartDebugLogger does with the outcome of FastStartDefaultLogger (fn_macro.h 109-115). -/
def afterStart : StartOut → StartOut
  | .ret .ok l => match debugPriorities l with
    | some l => .ret .ok l
    | none => .ub
  | o => o

/-- FastStartDebugLogger (fn_macro.h 106-116). -/
def fastStartDebug (e : LgEnv) (th : Nat → ThreadStart) (l : Lg) : StartOut := afterStart (fastStartDefault e th l)

end FNLog
