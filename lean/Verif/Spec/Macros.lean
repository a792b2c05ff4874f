import Verif.Spec.Statement
import Verif.Model.Macros

/-!
# What the macros are called, and what they should do
-/

namespace FNLog.Spec

/-- The priorities as they occur in the names of the macros. -/
def levelWords : List (String × String × String) :=
  [("Trace", "TRACE", "T"), ("Debug", "DEBUG", "D"), ("Info", "INFO", "I"), ("Warn", "WARN", "W"), ("Error", "ERROR", "E"),
   ("Alarm", "ALARM", "A"), ("Fatal", "FATAL", "F")]

/-- The macros with a channel, a category and an identify, of a priority. -/
def fullNames (k : Nat) : List String := match levelWords[k]? with
  | none => []
  | some (w, u, _) => ["Log" ++ w ++ "Stream", "Log" ++ w ++ "Pack", "LOG_" ++ u, "LOGFMT_" ++ u]

/-- The macros for channel 0, category 0 and identify 0, of a priority. -/
def shortNames (k : Nat) : List String := match levelWords[k]? with
  | none => []
  | some (w, _, l) => ["Log" ++ w, "Pack" ++ w, "LOG" ++ l, "LOGFMT" ++ l]

/-- The priority in the lines of a level. -/
def levelText : Nat → List Char
  | 0 => "[TRACE]".toList
  | 1 => "[DEBUG]".toList
  | 2 => "[INFO ]".toList
  | 3 => "[WARN ]".toList
  | 4 => "[ERROR]".toList
  | 5 => "[ALARM]".toList
  | _ => "[FATAL]".toList

/-- The beginning of every line of a macro: date and time, priority, place and function. -/
def macroPrefix (z : Zone) (k : Nat) (w : Site) (file : List Char) : List Char :=
  localDate z w.ts w.precise ++ levelText k ++ ['['] ++ file ++ [':'] ++ numeral 10 w.line.toNat ++ [']'] ++
    ['('] ++ funcField (some w.func) ++ [')'] ++ [' ']

end FNLog.Spec
