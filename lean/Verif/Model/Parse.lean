import Verif.Model.Scan

/-!
# The configuration parser

Transcribed from `/repo/src/include/fn_parse.h` 750-1512.  The text is a list of bytes; `std::string`
keeps a NUL behind it.  Pointers into the text are positions; positions are only compared and
dereferenced as in the code.  The line number is not modelled (it is used in messages only).
-/

namespace FNLog

/-- Error codes (fn_parse.h 18-36, fn_data.h error enum). -/
inductive PErr where
  | nonsupportSyntax | illegalKey | illegalVarName | illegalVarValue | notClosure | illegalAddrIp
  | illegalAddrPort | definedTargetTooLong | undefinedDeviceKey | undefinedDeviceType
  | undefinedChannelKey | undefinedGlobalKey | invalidChannelSize | channelNotSequence
  | outOfDeviceSize | deviceNotSequence
deriving DecidableEq, Repr

/-- The outcome of a function of the parser. -/
inductive PRes (α : Type) where
  | ok (a : α)
  | err (e : PErr)
  /-- undefined behaviour -/
  | ub
  /-- the fuel is used up: `none` in one of the loops over the lines, `some (key, val)` in the
  replacement loop of `PredefinedInplace` for that key and padded value -/
  | running (who : Option (List Char × List Char))
deriving DecidableEq, Repr

/-- Sequential composition. -/
def PRes.bind {α β : Type} (r : PRes α) (f : α → PRes β) : PRes β :=
  match r with
  | .ok a => f a
  | .err e => .err e
  | .ub => .ub
  | .running w => .running w

/-- `none` is undefined behaviour. -/
def PRes.ofOption {α : Type} : Option α → PRes α
  | some a => .ok a
  | none => .ub

/-! ## Lexer -/

/-- `BlockType` (119-127). -/
inductive Block where
  | none | key | preSep | preVal | val | clean
deriving DecidableEq, Repr

/-- `Line` (171-182); null pointers are 0, `block_stack_` 0 is `none`, `RK_NULL` is `none`. -/
structure Line where
  blank : Nat := 0
  chars : Nat := 0
  block : Block := .none
  stack : Option Char := none
  key : Option Key := none
  keyBegin : Nat := 0
  keyEnd : Nat := 0
  valBegin : Nat := 0
  valEnd : Nat := 0
deriving DecidableEq, Repr

/-- What one round of the loop of `Lex` does. -/
inductive LexAct where
  /-- `return PEC_NONE` with `current_` -/
  | done (ln : Line) (cur : Nat)
  | fail (e : PErr)
  | ub
  /-- next round -/
  | next (ln : Line)
deriving DecidableEq, Repr

/-- The characters from position `a` to position `b`. -/
def slice (t : List Char) (a b : Nat) : List Char := (t.drop a).take (b - a)

/-- Trim blanks before `val_end_` (981-990); `n` is `val_end_ - val_begin_`. -/
def trimEnd (t : List Char) (b : Nat) : Nat → Nat
  | 0 => b
  | n + 1 =>
    match t[b + n]? with
    | some c => if isBlank c then trimEnd t b n else b + n + 1
    | none => b + n + 1

/-- 960-979 at the end of a line or of its content: close the value. -/
def closeVal (ln : Line) (cur : Nat) : Except PErr Line :=
  match ln.block with
  | .val => if ln.stack ≠ none then .error .notClosure else .ok { ln with block := .clean, valEnd := cur - 1 }
  | .preVal => .ok { ln with block := .clean, valBegin := cur - 1, valEnd := cur - 1 }
  | .none => .ok ln
  | .clean => .ok ln
  | _ => .error .notClosure

/-- The rest of a round for a value character (1111-1131). -/
def lexVal (ln : Line) (ch : Char) (cur : Nat) : Line :=
  if ln.valBegin = cur - 1 ∧ isBlank ch then { ln with valBegin := cur }
  else if ln.stack = some ch then { ln with block := .clean, valEnd := cur - 1 }
  else ln

/-- A character between the separator and the value (1077-1108). -/
def lexPreVal (ln : Line) (ch : Char) (cur : Nat) : Line :=
  if isBlank ch then ln
  else if ch = '"' then { ln with stack := some '"', block := .val, valBegin := cur }
  else if ch = '[' then { ln with stack := some ']', block := .val, valBegin := cur }
  else if ch = '{' then { ln with stack := some '}', block := .val, valBegin := cur }
  else lexVal { ln with stack := none, block := .val, valBegin := cur - 1 } ch cur

/-- A character after the key (1062-1074). -/
def lexPreSep (ln : Line) (ch : Char) : LexAct :=
  if ch = ':' then .next { ln with block := .preVal }
  else if ch ≠ ' ' ∧ ch ≠ '\t' then .fail .nonsupportSyntax
  else .next ln

/-- Characters of keys (1046). -/
def isKeyChar (ch : Char) : Bool := ('a' ≤ ch && ch ≤ 'z') || ch == '_' || ('0' ≤ ch && ch ≤ '9')

/-- A character of the key (1044-1059). -/
def lexKey (t : List Char) (ln : Line) (ch : Char) (cur : Nat) : LexAct :=
  if isKeyChar ch then .next ln
  else
    match parseReserve (slice t ln.keyBegin (cur - 1)) with
    | none => .ub
    | some none => .fail .illegalKey
    | some (some k) => lexPreSep { ln with block := .preSep, keyEnd := cur - 1, key := some k } ch

/-- A character before the key (1018-1041). -/
def lexNone (t : List Char) (ln : Line) (ch : Char) (cur : Nat) : LexAct :=
  if isBlank ch then
    .next (if ln.blank = ln.chars - 1 then { ln with blank := ln.blank + 1 } else ln)
  else if ch = '-' then .next ln
  else if ch < 'a' ∨ ch > 'z' then .fail .illegalKey
  else lexKey t { ln with block := .key, keyBegin := cur - 1 } ch cur

/-- The end of a line (992-1007); `nxt` is the next character. -/
def lexEnd (t : List Char) (ln : Line) (ch nxt : Char) (cur : Nat) : LexAct :=
  let ln := { ln with valEnd := trimEnd t ln.valBegin (ln.valEnd - ln.valBegin) }
  if ch = '\r' ∨ ch = '\n' then
    if (nxt = '\r' ∨ nxt = '\n') ∧ nxt ≠ ch then .done ln (cur + 1) else .done ln cur
  else if ch = '\x00' then .done ln (cur - 1)
  else .next { ln with block := .clean }

/-- One round of the loop of `Lex` (941-1132).  `ch` is the character read, `cur` the position behind it. -/
def lexChar (t : List Char) (ln : Line) (ch nxt : Char) (cur : Nat) : LexAct :=
  let ln := { ln with chars := ln.chars + 1 }
  if ln.block = .clean ∧ isLineBound ch = false then .next ln
  else if isSoftLineBound ch then
    match closeVal ln cur with
    | .error e => .fail e
    | .ok ln => lexEnd t ln ch nxt cur
  else
    match ln.block with
    | .none => lexNone t ln ch cur
    | .key => lexKey t ln ch cur
    | .preSep => lexPreSep ln ch
    | .preVal => .next (lexPreVal ln ch cur)
    | .val => .next (lexVal ln ch cur)
    | .clean => .next ln

/-- The loop of `Lex` (941-1133): `cs` is the text from position `cur` on.  Each round reads one
character; reading on behind the NUL at the end of the text is undefined. -/
def lexLoop (t : List Char) : List Char → Nat → Line → PRes (Line × Nat)
  | [], cur, ln =>
    match lexChar t ln '\x00' '\x00' (cur + 1) with
    | .done ln c => .ok (ln, c)
    | .fail e => .err e
    | .ub => .ub
    | .next _ => .ub
  | ch :: cs, cur, ln =>
    match lexChar t ln ch (cs.headD '\x00') (cur + 1) with
    | .done ln c => .ok (ln, c)
    | .fail e => .err e
    | .ub => .ub
    | .next ln => lexLoop t cs (cur + 1) ln

/-- `Lex` (934-1134). -/
def lex (t : List Char) (en cur : Nat) : PRes (Line × Nat) :=
  if cur ≥ en then .ok ({}, cur) else lexLoop t (t.drop cur) cur {}

/-! ## Lines of a device -/

/-- `Device::MAX_PATH_LEN`, `Device::MAX_LOGGER_NAME_LEN` (fn_data.h 209-210), `Logger::MAX_LOGGER_NAME_LEN`,
`Logger::MAX_LOGGER_DESC_LEN` (fn_data.h 394-395). -/
def DEV_PATH_LEN : Nat := 200
def DEV_FILE_LEN : Nat := 50
def LOGGER_NAME_LEN : Nat := 250
def LOGGER_DESC_LEN : Nat := 50

/-- Conversion `unsigned long long` to `long long`. -/
def maskLL (m : BitVec 64) : Int := m.toInt

/-- `~` on `long long`. -/
def notLL (n : Int) : Int := -n - 1

/-- 1163-1284, the `switch` of `ParseDevice`: `v` is the value, `tail` the text behind it. -/
def devField (dns : List Char → Option Int) (k : Key) (v tail : List Char) (d : Device) : PRes Device :=
  let num := atoll (v ++ tail)
  let list := PRes.ofOption (parseBitArray v tail)
  match k with
  | .inType => .ok { d with inType := parseInType v }
  | .outType => if parseOutType v = .null then .err .undefinedDeviceType else .ok { d with outType := parseOutType v }
  | .disable => .ok { d with cfg.able := boolLL (!parseBool v) }
  | .priority => .ok { d with cfg.priority := parsePriority v }
  | .category => .ok { d with cfg.category := num }
  | .categoryExtend => .ok { d with cfg.categoryExtend := num }
  | .categoryWlist => list.bind fun m => .ok { d with cfg.categoryMask := maskLL m }
  | .categoryBlist => list.bind fun m => .ok { d with cfg.categoryMask := maskLL (~~~ m) }
  | .categoryWmask => .ok { d with cfg.categoryMask := num }
  | .categoryBmask => .ok { d with cfg.categoryMask := notLL num }
  | .identify => .ok { d with cfg.identify := num }
  | .identifyExtend => .ok { d with cfg.identifyExtend := num }
  | .identifyWlist => list.bind fun m => .ok { d with cfg.identifyMask := maskLL m }
  | .identifyBlist => list.bind fun m => .ok { d with cfg.identifyMask := maskLL (~~~ m) }
  | .identifyWmask => .ok { d with cfg.identifyMask := num }
  | .identifyBmask => .ok { d with cfg.identifyMask := notLL num }
  | .limitSize =>
    (PRes.ofOption (do let a ← mulLL num 1000; mulLL a 1000)).bind fun n => .ok { d with cfg.limitSize := n }
  | .rollback => .ok { d with cfg.rollback := num }
  | .rolldaily => .ok { d with cfg.rolldaily := boolLL (parseBool v) }
  | .rollhourly => .ok { d with cfg.rollhourly := boolLL (parseBool v) }
  | .stuffUp => .ok { d with cfg.stuffUp := boolLL (parseBool v) }
  | .path => .ok (if v.length < DEV_PATH_LEN - 1 ∧ v.length ≥ 1 then { d with path := v } else d)
  | .file => .ok (if v.length < DEV_FILE_LEN - 1 ∧ v.length ≥ 1 then { d with file := v } else d)
  | .udpAddr =>
    let a := parseAddres dns (d.cfg.able != 0) v
    let d := { d with cfg.udpIp := a.1, cfg.udpPort := a.2 }
    if d.cfg.able ≠ 0 then
      if d.inType = .null ∧ d.cfg.udpIp = 0 then .err .illegalAddrIp
      else if d.cfg.udpPort = 0 then .err .illegalAddrPort
      else .ok d
    else .ok d
  | _ => .err .undefinedDeviceKey

/-- The value of a line and the text behind it. -/
def lineVal (t : List Char) (ln : Line) : List Char × List Char :=
  (slice t ln.valBegin ln.valEnd, t.drop (max ln.valBegin ln.valEnd))

/-- `ParseDevice` (1136-1290): the device and `current_`. -/
def parseDevice (dns : List Char → Option Int) (t : List Char) (en indent : Nat) :
    Nat → Nat → Device → PRes (Device × Nat)
  | 0, _, _ => .running none
  | fuel + 1, current, d =>
    (lex t en current).bind fun (ln, cur) =>
      match ln.key with
      -- `key_end_ - key_begin_ == 0`
      | none => if cur ≥ en then .ok (d, cur) else parseDevice dns t en indent fuel cur d
      | some k =>
        if ln.blank ≤ indent then .ok (d, current)
        else
          (devField dns k (lineVal t ln).1 (lineVal t ln).2 d).bind fun d =>
            if cur < en then parseDevice dns t en indent fuel cur d else .ok (d, cur)

/-! ## Lines of a channel -/

/-- 1318-1360, the lines of a channel except `device`. -/
def chanField (k : Key) (v tail : List Char) (c : Channel) : PRes Channel :=
  let num := atoll (v ++ tail)
  let int := atoi (v ++ tail)
  let list := PRes.ofOption (parseBitArray v tail)
  match k with
  | .sync => .ok { c with type := parseChannelType v }
  | .priority => .ok { c with cfg.priority := parsePriority v }
  | .category => .ok { c with cfg.category := int }
  | .categoryExtend => .ok { c with cfg.categoryExtend := int }
  | .categoryWlist => list.bind fun m => .ok { c with cfg.categoryMask := maskLL m }
  | .categoryBlist => list.bind fun m => .ok { c with cfg.categoryMask := maskLL (~~~ m) }
  | .categoryWmask => .ok { c with cfg.categoryMask := num }
  | .categoryBmask => .ok { c with cfg.categoryMask := notLL num }
  | .identify => .ok { c with cfg.identify := int }
  | .identifyExtend => .ok { c with cfg.identifyExtend := int }
  | .identifyWlist => list.bind fun m => .ok { c with cfg.identifyMask := maskLL m }
  | .identifyBlist => list.bind fun m => .ok { c with cfg.identifyMask := maskLL (~~~ m) }
  | .identifyWmask => .ok { c with cfg.identifyMask := num }
  | .identifyBmask => .ok { c with cfg.identifyMask := notLL num }
  | _ => .err .undefinedChannelKey

/-- `channel.devices_[channel.device_size_++]` filled by `ParseDevice`, and 1385-1388. -/
def addDevice (c : Channel) (d : Device) : Channel :=
  { c with devices := c.devices ++ [d], virtualDeviceId := if d.outType = .virtual then d.id else c.virtualDeviceId }

/-- `ParseChannel` (1291-1400); `case RK_DEVICE` is 1362-1393. -/
def parseChannel (dns : List Char → Option Int) (t : List Char) (en indent : Nat) :
    Nat → Nat → Channel → PRes (Channel × Nat)
  | 0, _, _ => .running none
  | fuel + 1, current, c =>
    (lex t en current).bind fun (ln, cur) =>
      match ln.key with
      | none => if cur ≥ en then .ok (c, cur) else parseChannel dns t en indent fuel cur c
      | some k =>
        if ln.blank ≤ indent then .ok (c, current)
        else if k = .device then
          let id := atoi ((lineVal t ln).1 ++ (lineVal t ln).2)
          if c.devices.length ≥ MAX_DEVICE_SIZE then .err .outOfDeviceSize
          else if id ≠ c.devices.length then .err .deviceNotSequence
          else
            (parseDevice dns t en ln.blank fuel cur { id := id }).bind fun (d, cur) =>
              if cur < en then parseChannel dns t en indent fuel cur (addDevice c d) else .ok (addDevice c d, cur)
        else
          (chanField k (lineVal t ln).1 (lineVal t ln).2 c).bind fun c =>
            if cur < en then parseChannel dns t en indent fuel cur c else .ok (c, cur)

/-! ## Macros and variables -/

/-- `std::string::find(key, off)`: `n` bounds the number of positions looked at. -/
def findFrom (key : List Char) : List Char → Nat → Option Nat
  | [], off => if key = [] then some off else none
  | c :: cs, off => if key.isPrefixOf (c :: cs) then some off else findFrom key cs (off + 1)

/-- `text.find(key, off)`. -/
def find (t key : List Char) (off : Nat) : Option Nat :=
  if off ≤ t.length then findFrom key (t.drop off) off else none

/-- `memcpy(&text[o], val, val.length())`. -/
def overwrite (t val : List Char) (o : Nat) : List Char := t.take o ++ val ++ t.drop (o + val.length)

/-- The bounds checks of 774-801: may the occurrence at `o` be replaced? -/
def boundsOk (t : List Char) (len : Nat) (pre suf : Bool) (o : Nat) : Bool :=
  !(pre && o != 0 && ((t[o - 1]?).map isValidName).getD false) &&
  !(suf && o + len != t.length && ((t[o + len]?).map isValidName).getD false)

/-- The loop of `PredefinedInplace` (764-809); `val` is padded. -/
def inplaceLoop (key val : List Char) (pre suf : Bool) : Nat → List Char → Nat → PRes (List Char)
  | 0, _, _ => .running (some (key, val))
  | fuel + 1, t, off =>
    match find t key off with
    | none => .ok t
    | some o =>
      if boundsOk t val.length pre suf o then inplaceLoop key val pre suf fuel (overwrite t val o) o
      else inplaceLoop key val pre suf fuel t (o + 1)

/-- Padding with blanks (758-761). -/
def padTo (n : Nat) (v : List Char) : List Char := v ++ List.replicate (n - v.length) ' '

/-- `PredefinedInplace` (750-811). -/
def predefinedInplace (fuel : Nat) (t : List Char) (off : Nat) (key val : List Char) (pre suf : Bool) :
    PRes (List Char) :=
  if val.length > key.length then .err .definedTargetTooLong
  else inplaceLoop key (padTo key.length val) pre suf fuel t off

/-- `PredefinedMacro` (812-844): the changed text.  `line` is the value, `valEnd` its end. -/
def predefinedMacro (fuel : Nat) (t line : List Char) (valEnd : Nat) : PRes (List Char) :=
  if ' ' ∈ line then
    let symbol := line.takeWhile (· != ' ')
    if symbol = [] then .err .notClosure
    else predefinedInplace fuel t valEnd symbol ((line.drop symbol.length).dropWhile isBlank) true true
  else .err .notClosure

/-- Remove blanks at the end (`while (!s.empty() && IsBlank(s.back())) s.pop_back()`). -/
def dropBack (s : List Char) : List Char := (s.reverse.dropWhile isBlank).reverse

/-- One assignment of `PredefinedVar` (858-922): `item` is the line from `offset` to the next comma (or the
end), its first character is neither a blank nor a tab.  `valEnd` is where the replacement starts. -/
def varItem (fuel : Nat) (t item : List Char) (valEnd : Nat) : PRes (List Char) :=
  if '=' ∉ item then .err .illegalVarValue
  else
    let name := dropBack (item.takeWhile (· != '='))
    match name with
    | [] => .err .definedTargetTooLong
    | c :: _ =>
      if isValidNameFirst c = false then .err .illegalVarName
      else
        let val := (item.dropWhile (· != '=')).drop 1
        -- 895: the test looks at `offset`, the first character of the name, so nothing is skipped
        -- unless that is blank
        let val := if isBlank c then [] else val
        let val := dropBack val
        (predefinedInplace fuel t valEnd ("${".toList ++ name ++ "}".toList) val false false).bind fun t =>
          predefinedInplace fuel t valEnd ("$".toList ++ name) val false true

/-- The loop of `PredefinedVar` (852-923); `line` is the rest from `offset` on. -/
def varLoop (fuel : Nat) (valEnd : Nat) : Nat → List Char → List Char → PRes (List Char)
  | 0, t, _ => .ok t
  | n + 1, t, line =>
    match line with
    | [] => .ok t
    | c :: cs =>
      if c = ' ' ∨ c = '\t' then varLoop fuel valEnd n t cs
      else
        let item := line.takeWhile (· != ',')
        (varItem fuel t item valEnd).bind fun t => varLoop fuel valEnd n t (line.drop (item.length + 1))

/-- `PredefinedVar` (846-926). -/
def predefinedVar (fuel : Nat) (t line : List Char) (valEnd : Nat) : PRes (List Char) :=
  varLoop fuel valEnd line.length t line

/-! ## The whole file -/

/-- The result part of `LexState` (184-202).  `name`, `desc` are the texts of length `name_len_`,
`desc_len_`. -/
structure Config where
  channels : List Channel := []
  hotUpdate : Bool := false
  shmKey : Int := 0
  name : List Char := []
  desc : List Char := []
deriving DecidableEq, Repr

/-- The loop of `ParseLogger` (1423-1506).  `t` is the text with the replacements made so far. -/
def loggerLoop (dns : List Char → Option Int) (en : Nat) : Nat → List Char → Nat → Config → PRes Config
  | 0, _, _, _ => .running none
  | fuel + 1, t, current, g =>
    (lex t en current).bind fun (ln, cur) =>
      -- 1506-1511: the `while` condition and the code behind the loop
      let again := fun (t : List Char) (cur : Nat) (g : Config) =>
        if cur < en then loggerLoop dns en fuel t cur g
        else if g.channels.length = 0 then .err .invalidChannelSize
        else .ok g
      match ln.key with
      | none => if cur ≥ en then .ok g else loggerLoop dns en fuel t cur g
      | some .hotUpdate => again t cur { g with hotUpdate := parseBool (lineVal t ln).1 }
      | some .define => (predefinedMacro fuel t (lineVal t ln).1 ln.valEnd).bind fun t => again t cur g
      | some .variable => (predefinedVar fuel t (lineVal t ln).1 ln.valEnd).bind fun t => again t cur g
      | some .loggerName => again t cur { g with name := parseString LOGGER_NAME_LEN (lineVal t ln).1 }
      | some .loggerDesc => again t cur { g with desc := parseString LOGGER_DESC_LEN (lineVal t ln).1 }
      | some .shmKey => again t cur { g with shmKey := parseNumber (lineVal t ln).1 }
      | some .channel =>
        let id := atoi ((lineVal t ln).1 ++ (lineVal t ln).2)
        if g.channels.length ≥ MAX_CHANNEL_SIZE then .err .invalidChannelSize
        else if id ≠ g.channels.length then .err .channelNotSequence
        else
          (parseChannel dns t en ln.blank fuel cur { id := id }).bind fun (c, cur) =>
            again t cur { g with channels := g.channels ++ [c] }
      | some _ => .err .undefinedGlobalKey

/-- Does the text begin with a UTF-8 byte order mark (1405-1412)? -/
def hasBom (t : List Char) : Bool := ['\xef', '\xbb', '\xbf'].isPrefixOf t

/-- `ParseLogger` (1402-1512).  `garbage` is the content of `shm_key_` before the call: it is not
initialised here nor by the callers (fn_load.h 169-170). -/
def parseLogger (dns : List Char → Option Int) (garbage : Int) (fuel : Nat) (t : List Char) : PRes Config :=
  let first := if hasBom t then 3 else 0
  loggerLoop dns (first + t.length) fuel t first { shmKey := garbage }

end FNLog
