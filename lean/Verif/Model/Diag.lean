import Verif.Model.Logger

/-!
# What is reported about a refused configuration

Transcribed from `fn_parse.h` (the numbers of the errors 18-36, DebugErrno 39-119, and once more Lex, ParseDevice,
ParseChannel and ParseLogger 934-1512 with `line_no_` and with `current_` at the time of an error), from `fn_data.h`
(the numbers of the errors 488-527) and from `fn_load.h` (the message of InitFromYMAL, 169-196).

`line_no_` is set to 1 (1419), incremented by Lex at the end of each line (998, 1005) and decremented where a line is
given back or found wrong.  What the functions compute is taken from `Verif/Model/Parse.lean`; that the functions here
give the same results is theorem `parseLoggerD_erase`.
-/

namespace FNLog

/-! ## Numbers and names of the errors -/

/-- Error numbers of the parser (fn_parse.h 18-36, fn_data.h 488-527). -/
def PErr.number : PErr → Int
  | .invalidChannelSize => 5 | .channelNotSequence => 9 | .outOfDeviceSize => 10 | .deviceNotSequence => 11
  | .nonsupportSyntax => 22 | .illegalKey => 23 | .illegalVarName => 24 | .illegalVarValue => 25 | .notClosure => 26
  | .illegalAddrIp => 27 | .illegalAddrPort => 28 | .definedTargetTooLong => 29 | .undefinedDeviceKey => 30
  | .undefinedDeviceType => 31 | .undefinedChannelKey => 32 | .undefinedGlobalKey => 33

/-- Error numbers of LoadSharedMemory (fn_load.h 38-141, fn_data.h 512-515). -/
def LoadCode.number : LoadCode → Int
  | .ok => 0 | .probeError => 12 | .createError => 13 | .attachError => 14 | .versionWrong => 15 | .badRead => -10

/-- Error numbers (fn_data.h 488-527). -/
def Code.number : Code → Int
  | .ok => 0 | .parse e => e.number | .load c => c.number
  | .inUse => 1 | .notInit => 2 | .notRunning => 3 | .invalidConfigPath => 4 | .invalidChannelSize => 5
  | .threadFailed => 8 | .versionMismatch => 16 | .disableHotUpdate => 17 | .noConfigPath => 18 | .noChange => 19

/-- DebugErrno (fn_parse.h 39-119). -/
def debugErrno (n : Int) : String :=
  match n with
  | 0 => "success"
  | 1 => "logger alread in use"
  | 2 => "logger not init"
  | 3 => "logger not running"
  | 4 => "invalid config path"
  | 5 => "invalid channel size"
  | 6 => "invalid channel sync"
  | 7 => "invalid channel state"
  | 8 => "create thread faield"
  | 9 => "channel index need sequence."
  | 10 => "out of device size(20)"
  | 11 => "device index need sequence."
  | 12 => "shm error" | 13 => "shm error" | 14 => "shm error" | 15 => "shm error" | 16 => "shm error"
  | 17 => "some warn" | 18 => "some warn" | 19 => "some warn" | 20 => "some warn"
  | 21 => "syntax error"
  | 22 => "unsupport syntax"
  | 23 => "unknown key"
  | 24 => "name or key invalid"
  | 26 => "not closure line "
  | 27 => "udp addr error" | 28 => "udp addr error"
  | 29 => "var/macro name len must longger than/equal new name."
  | 30 => "undefined type" | 31 => "undefined type" | 32 => "undefined type" | 33 => "undefined type"
  | _ => "unknown error."

/-! ## The parser with its place -/

/-- What a function of the parser leaves behind: after an error, `line_no_`, `current_` and the text with the replacements
made so far. -/
inductive DRes (α : Type) where
  | ok (a : α)
  | err (e : PErr) (line pos : Nat) (text : List Char)
  | ub
  | running (who : Option (List Char × List Char))
deriving DecidableEq, Repr

/-- Sequential composition. -/
def DRes.bind {α β : Type} (r : DRes α) (f : α → DRes β) : DRes β :=
  match r with
  | .ok a => f a
  | .err e l p t => .err e l p t
  | .ub => .ub
  | .running w => .running w

/-- Without the place. -/
def DRes.erase {α β : Type} (f : α → β) : DRes α → PRes β
  | .ok a => .ok (f a)
  | .err e _ _ _ => .err e
  | .ub => .ub
  | .running w => .running w

/-- The result of a part that does not move, with the place where an error is reported. -/
def PRes.at {α : Type} (line pos : Nat) (t : List Char) : PRes α → DRes α
  | .ok a => .ok a
  | .err e => .err e line pos t
  | .ub => .ub
  | .running w => .running w

/-- `Lex` (934-1134) with `line_no_`; if it fails the callers set `current_` back (1144, 1299, 1428). -/
def lexD (t : List Char) (en cur line : Nat) : DRes (Line × Nat × Nat) :=
  ((lex t en cur).at line cur t).bind fun (ln, c) => .ok (ln, c, if cur ≥ en then line else line + 1)

/-- Errors of a line of a device: 1176-1178, 1266-1280 go back to its beginning, `default` (1286) does not. -/
def devFieldD (t : List Char) (current line cur line' : Nat) : PRes Device → DRes Device
  | .err .undefinedDeviceKey => .err .undefinedDeviceKey line' cur t
  | r => r.at line current t

/-- `ParseDevice` (1136-1290): the device, `current_` and `line_no_`. -/
def parseDeviceD (dns : List Char → Option Int) (t : List Char) (en indent : Nat) :
    Nat → Nat → Nat → Device → DRes (Device × Nat × Nat)
  | 0, _, _, _ => .running none
  | fuel + 1, current, line, d =>
    (lexD t en current line).bind fun (ln, cur, line') =>
      match ln.key with
      | none => if cur ≥ en then .ok (d, cur, line') else parseDeviceD dns t en indent fuel cur line' d
      | some k =>
        -- 1161-1162
        if ln.blank ≤ indent then .ok (d, current, line' - 1)
        else
          (devFieldD t current (line' - 1) cur line' (devField dns k (lineVal t ln).1 (lineVal t ln).2 d)).bind fun d =>
            if cur < en then parseDeviceD dns t en indent fuel cur line' d else .ok (d, cur, line')

/-- `ParseChannel` (1291-1400). -/
def parseChannelD (dns : List Char → Option Int) (t : List Char) (en indent : Nat) :
    Nat → Nat → Nat → Channel → DRes (Channel × Nat × Nat)
  | 0, _, _, _ => .running none
  | fuel + 1, current, line, c =>
    (lexD t en current line).bind fun (ln, cur, line') =>
      match ln.key with
      | none => if cur ≥ en then .ok (c, cur, line') else parseChannelD dns t en indent fuel cur line' c
      | some k =>
        if ln.blank ≤ indent then .ok (c, current, line' - 1)
        else if k = .device then
          let id := atoi ((lineVal t ln).1 ++ (lineVal t ln).2)
          -- 1366-1379
          if c.devices.length ≥ MAX_DEVICE_SIZE then .err .outOfDeviceSize (line' - 1) current t
          else if id ≠ c.devices.length then .err .deviceNotSequence (line' - 1) current t
          else
            (parseDeviceD dns t en ln.blank fuel cur line' { id := id }).bind fun (d, cur, line') =>
              if cur < en then parseChannelD dns t en indent fuel cur line' (addDevice c d)
              else .ok (addDevice c d, cur, line')
        else
          -- 1395: the only error of the other lines does not go back
          ((chanField k (lineVal t ln).1 (lineVal t ln).2 c).at line' cur t).bind fun c =>
            if cur < en then parseChannelD dns t en indent fuel cur line' c else .ok (c, cur, line')

/-- One assignment of `PredefinedVar` (858-922); the replacement of `${name}` stays when that of `$name` fails. -/
def varItemD (line pos fuel : Nat) (t item : List Char) (valEnd : Nat) : DRes (List Char) :=
  if '=' ∉ item then .err .illegalVarValue line pos t
  else
    let name := dropBack (item.takeWhile (· != '='))
    match name with
    | [] => .err .definedTargetTooLong line pos t
    | c :: _ =>
      if isValidNameFirst c = false then .err .illegalVarName line pos t
      else
        let val := (item.dropWhile (· != '=')).drop 1
        let val := if isBlank c then [] else val
        let val := dropBack val
        ((predefinedInplace fuel t valEnd ("${".toList ++ name ++ "}".toList) val false false).at line pos t).bind fun t =>
          (predefinedInplace fuel t valEnd ("$".toList ++ name) val false true).at line pos t

/-- The loop of `PredefinedVar` (852-923). -/
def varLoopD (line pos fuel : Nat) (valEnd : Nat) : Nat → List Char → List Char → DRes (List Char)
  | 0, t, _ => .ok t
  | n + 1, t, text =>
    match text with
    | [] => .ok t
    | c :: cs =>
      if c = ' ' ∨ c = '\t' then varLoopD line pos fuel valEnd n t cs
      else
        let item := text.takeWhile (· != ',')
        (varItemD line pos fuel t item valEnd).bind fun t =>
          varLoopD line pos fuel valEnd n t (text.drop (item.length + 1))

/-- The loop of `ParseLogger` (1423-1512). -/
def loggerLoopD (dns : List Char → Option Int) (en : Nat) : Nat → List Char → Nat → Nat → Config → DRes Config
  | 0, _, _, _, _ => .running none
  | fuel + 1, t, current, line, g =>
    (lexD t en current line).bind fun (ln, cur, line') =>
      let again := fun (t : List Char) (cur line' : Nat) (g : Config) =>
        if cur < en then loggerLoopD dns en fuel t cur line' g
        else if g.channels.length = 0 then .err .invalidChannelSize line' cur t
        else .ok g
      match ln.key with
      | none => if cur ≥ en then .ok g else loggerLoopD dns en fuel t cur line' g
      | some .hotUpdate => again t cur line' { g with hotUpdate := parseBool (lineVal t ln).1 }
      -- 1449-1454, 1460-1465
      | some .define => ((predefinedMacro fuel t (lineVal t ln).1 ln.valEnd).at (line' - 1) current t).bind fun t =>
          again t cur line' g
      | some .variable => (varLoopD (line' - 1) current fuel ln.valEnd (lineVal t ln).1.length t (lineVal t ln).1).bind
          fun t => again t cur line' g
      | some .loggerName => again t cur line' { g with name := parseString LOGGER_NAME_LEN (lineVal t ln).1 }
      | some .loggerDesc => again t cur line' { g with desc := parseString LOGGER_DESC_LEN (lineVal t ln).1 }
      | some .shmKey => again t cur line' { g with shmKey := parseNumber (lineVal t ln).1 }
      | some .channel =>
        let id := atoi ((lineVal t ln).1 ++ (lineVal t ln).2)
        -- 1480-1492
        if g.channels.length ≥ MAX_CHANNEL_SIZE then .err .invalidChannelSize (line' - 1) current t
        else if id ≠ g.channels.length then .err .channelNotSequence (line' - 1) current t
        else
          (parseChannelD dns t en ln.blank fuel cur line' { id := id }).bind fun (c, cur, line') =>
            again t cur line' { g with channels := g.channels ++ [c] }
      -- 1504: `default` does not go back
      | some _ => .err .undefinedGlobalKey line' cur t

/-- `ParseLogger` (1402-1512). -/
def parseLoggerD (dns : List Char → Option Int) (garbage : Int) (fuel : Nat) (t : List Char) : DRes Config :=
  let first := if hasBom t then 3 else 0
  loggerLoopD dns (first + t.length) fuel t first 1 { shmKey := garbage }

/-! ## The message -/

/-- The loop of fn_load.h 179-191 on the text from `current_` on; `limit` is the number of characters taken.  The text ends
with a NUL, at `end_` or before. -/
def excerptFrom : Nat → List Char → List Char
  | _, [] => []
  | limit, c :: cs =>
    if c = '\x00' then []
    else if limit < 380 then c :: excerptFrom (limit + 1) cs
    else if c = '\n' then []
    else c :: excerptFrom (limit + 1) cs

/-- Lines 178-192 of fn_load.h. -/
def excerpt (text : List Char) (pos : Nat) : List Char := excerptFrom 0 (text.drop pos)

/-- What InitFromYMAL prints about a refused text (fn_load.h 173-194). -/
def refusal (e : PErr) (line pos : Nat) (text : List Char) : List Char :=
  "ParseLogger has error:<".toList ++ (toString e.number).toList ++ [' '] ++ (debugErrno e.number).toList ++
  "> in line:[".toList ++ (toString line).toList ++ "] ".toList ++ " before:\n".toList ++ excerpt text pos ++ ['\n']

end FNLog
