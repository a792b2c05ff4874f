import Verif.Model.Types

/-!
# Reading values of the configuration file

Transcribed from `/repo/src/include/fn_parse.h` 203-749.  A value is given by the characters between
`val_begin_` and `val_end_` (`v`) and, where a libc function reads on behind `val_end_`, by the rest of
the text (`tail`); the text ends with a NUL, `[]` stands for that.  `none` = undefined behaviour.

libc: `atoi`/`atoll`/`strtoll` are those of glibc (they saturate, `atoi` keeps the low 32 bits).
-/

namespace FNLog

/-! ## Character classes -/

/-- `IsNumber` (203-206). -/
def isNumber (ch : Char) : Bool := '0' ≤ ch && ch ≤ '9'

/-- `IsBlank` (207-221). -/
def isBlank (ch : Char) : Bool := ch == ' ' || ch == '\t' || ch == '\x0b' || ch == '\x0c'

/-- `IsSoftLineBound` (222-236). -/
def isSoftLineBound (ch : Char) : Bool := ch == '\x00' || ch == '\r' || ch == '\n' || ch == '#'

/-- `IsLineBound` (237-250). -/
def isLineBound (ch : Char) : Bool := ch == '\x00' || ch == '\r' || ch == '\n'

/-- `IsValidName` (252-271). -/
def isValidName (ch : Char) : Bool :=
  ('a' ≤ ch && ch ≤ 'z') || ('A' ≤ ch && ch ≤ 'Z') || ('0' ≤ ch && ch ≤ '9') || ch == '_'

/-- `IsValidNameFirst` (273-288). -/
def isValidNameFirst (ch : Char) : Bool :=
  ('a' ≤ ch && ch ≤ 'z') || ('A' ≤ ch && ch ≤ 'Z') || ch == '_'

/-- `isspace` in the C locale. -/
def isSpace (ch : Char) : Bool := isBlank ch || ch == '\n' || ch == '\r'

/-! ## Numbers (libc) -/

/-- Value of a digit. -/
def digitVal (ch : Char) : Nat := ch.toNat - '0'.toNat

/-- The digits at the beginning of a string. -/
def decPrefix (cs : List Char) : Nat := (cs.takeWhile isNumber).foldl (fun n c => n * 10 + digitVal c) 0

/-- Saturation to `long long`. -/
def saturate (n : Int) : Int := max LLONG_MIN (min LLONG_MAX n)

/-- `atoll` / `strtoll(…, 10)`: blanks, an optional sign, digits. -/
def atoll (cs : List Char) : Int :=
  match cs.dropWhile isSpace with
  | '-' :: ds => saturate (-(decPrefix ds : Int))
  | '+' :: ds => saturate (decPrefix ds)
  | ds => saturate (decPrefix ds)

/-- Conversion to a 32-bit `int`. -/
def toInt32 (n : Int) : Int := (n + 2 ^ 31) % 2 ^ 32 - 2 ^ 31

/-- `atoi` = `(int) strtol(…, 10)`. -/
def atoi (cs : List Char) : Int := toInt32 (atoll cs)

/-- Value of a digit in bases up to 16; 99 if the character is none. -/
def hexVal (ch : Char) : Nat :=
  if isNumber ch then digitVal ch
  else if 'a' ≤ ch && ch ≤ 'f' then ch.toNat - 'a'.toNat + 10
  else if 'A' ≤ ch && ch ≤ 'F' then ch.toNat - 'A'.toNat + 10
  else 99

/-- The digits of the given base at the beginning. -/
def basePrefix (base : Nat) (cs : List Char) : Nat :=
  (cs.takeWhile (fun c => hexVal c < base)).foldl (fun n c => n * base + hexVal c) 0

/-- Unsigned part of `strtoll(…, 0)`: `0x` hexadecimal (if a digit follows), `0` octal, else decimal. -/
def autoPrefix (cs : List Char) : Nat :=
  match cs with
  | '0' :: x :: d :: ds =>
    if (x == 'x' || x == 'X') && hexVal d < 16 then basePrefix 16 (d :: ds) else basePrefix 8 (x :: d :: ds)
  | '0' :: ds => basePrefix 8 ds
  | ds => basePrefix 10 ds

/-- `strtoll(…, NULL, 0)`. -/
def strtoll0 (cs : List Char) : Int :=
  match cs.dropWhile isSpace with
  | '-' :: ds => saturate (-(autoPrefix ds : Int))
  | '+' :: ds => saturate (autoPrefix ds)
  | ds => saturate (autoPrefix ds)

/-- Signed multiplication on `long long`; overflow is undefined behaviour. -/
def mulLL (a b : Int) : Option Int :=
  if LLONG_MIN ≤ a * b ∧ a * b ≤ LLONG_MAX then some (a * b) else none

/-! ## Keys -/

/-- `ReseveKey` (129-164). -/
inductive Key where
  | shmKey | channel | define | variable | device | sync | disable | hotUpdate | loggerName | loggerDesc
  | priority | category | categoryExtend | categoryWlist | categoryBlist | categoryWmask | categoryBmask
  | identify | identifyExtend | identifyWlist | identifyBlist | identifyWmask | identifyBmask
  | inType | outType | file | path | limitSize | rollback | rolldaily | rollhourly | stuffUp | udpAddr
deriving DecidableEq, Repr

/-- Result of a step that may read outside of the key: `none` = out of bounds, `some none` = RK_NULL. -/
abbrev KeyRes := Option (Option Key)

/-- The common tests of 306-331 and 366-391 on characters 9 and 10. -/
def parseReserveExt (k : List Char) (ext wl wm bl bm : Key) : KeyRes := do
  let c9 ← k[9]?
  if c9 = 'e' then some (some ext)
  else if c9 = 'w' then do
    let c10 ← k[10]?
    some (if c10 = 'l' then some wl else if c10 = 'm' then some wm else none)
  else if c9 = 'b' then do
    let c10 ← k[10]?
    some (if c10 = 'l' then some bl else if c10 = 'm' then some bm else none)
  else some none

/-- `case 'c'` (298-336). -/
def reserveC (k : List Char) (c1 : Char) : KeyRes :=
  if c1 = 'h' then some (some .channel)
  else if c1 = 'a' then
    if k.length > 11 then
      parseReserveExt k .categoryExtend .categoryWlist .categoryWmask .categoryBlist .categoryBmask
    else some (some .category)
  else some none

/-- `case 'd'` (337-354). -/
def reserveD (k : List Char) (c1 : Char) : KeyRes :=
  if k.length < 3 then some none
  else do
    let c2 ← k[2]?
    some (if c2 = 'f' then some .define else if c1 = 'e' then some .device
      else if c1 = 'i' then some .disable else none)

/-- `case 'i'` (359-397). -/
def reserveI (k : List Char) (c1 : Char) : KeyRes :=
  if c1 = 'n' then some (some .inType)
  else if k.length > 11 then
    parseReserveExt k .identifyExtend .identifyWlist .identifyWmask .identifyBlist .identifyBmask
  else some (some .identify)

/-- `case 'l'` (398-414). -/
def reserveL (k : List Char) (c1 : Char) : KeyRes :=
  if c1 = 'i' then some (some .limitSize)
  else if k.length > 8 then do
    let c7 ← k[7]?
    some (if c7 = 'n' then some .loggerName else if c7 = 'd' then some .loggerDesc else none)
  else some none

/-- `case 'r'` (425-441). -/
def reserveR (k : List Char) : KeyRes :=
  if k.length > 6 then do
    let c4 ← k[4]?
    some (if c4 = 'b' then some .rollback else if c4 = 'd' then some .rolldaily
      else if c4 = 'h' then some .rollhourly else none)
  else some none

/-- The `switch` on the first character (296-463); `case 'p'` is 415-424, `case 's'` 444-453. -/
def reserveSwitch (k : List Char) (c0 c1 : Char) : KeyRes :=
  if c0 = 'c' then reserveC k c1
  else if c0 = 'd' then reserveD k c1
  else if c0 = 'f' then some (some .file)
  else if c0 = 'h' then some (some .hotUpdate)
  else if c0 = 'i' then reserveI k c1
  else if c0 = 'l' then reserveL k c1
  else if c0 = 'p' then some (if c1 = 'r' then some .priority else if c1 = 'a' then some .path else none)
  else if c0 = 'r' then reserveR k
  else if c0 = 'o' then some (some .outType)
  else if c0 = 's' then some (some (if c1 = 'y' then .sync else if c1 = 't' then .stuffUp else .shmKey))
  else if c0 = 'u' then some (some .udpAddr)
  else if c0 = 'v' then some (some .variable)
  else some none

/-- `ParseReserve` (290-465). -/
def parseReserve (k : List Char) : KeyRes :=
  if k.length < 2 then some none
  else do
    let c0 ← k[0]?
    let c1 ← k[1]?
    reserveSwitch k c0 c1

/-! ## Values -/

/-- `ParsePriority` (467-492). -/
def parsePriority (v : List Char) : Int :=
  match v with
  | [] => PRIORITY_TRACE
  | c :: _ =>
    if c = 'd' ∨ c = 'D' then PRIORITY_DEBUG
    else if c = 'i' ∨ c = 'I' then PRIORITY_INFO
    else if c = 'w' ∨ c = 'W' then PRIORITY_WARN
    else if c = 'e' ∨ c = 'E' then PRIORITY_ERROR
    else if c = 'a' ∨ c = 'A' then PRIORITY_ALARM
    else if c = 'f' ∨ c = 'F' then PRIORITY_FATAL
    else PRIORITY_TRACE

/-- `ParseBool` (494-505). -/
def parseBool (v : List Char) : Bool :=
  match v with
  | [] => false
  | c :: _ => !(c == '0' || c == 'f' || c == 'F')

/-- `bool` stored in a `long long`. -/
def boolLL (b : Bool) : Int := if b then 1 else 0

/-- `ParseNumber` (507-523): the value is copied into a buffer of 50 bytes. -/
def parseNumber (v : List Char) : Int :=
  if v = [] then 0 else if v.length > 40 then 0 else strtoll0 v

/-- `ParseString` (525-540): the text left in the buffer of `size` bytes; `none` for an empty value, the
length is 0 then. -/
def parseString (size : Nat) (v : List Char) : List Char := v.take (size - 1)

/-- `ParseChannelType` (541-548). -/
def parseChannelType (v : List Char) : ChannelType :=
  match v with
  | 's' :: _ => .sync
  | _ => .async

/-- `ParseInType` (550-562). -/
def parseInType (v : List Char) : InType :=
  match v with
  | [] => .null
  | c :: _ => if c = 'u' ∨ c = 'U' then .udp else .null

/-- `ParseOutType` (564-586). -/
def parseOutType (v : List Char) : OutType :=
  match v with
  | [] => .null
  | c :: _ =>
    if c = 'e' ∨ c = 'E' then .empty
    else if c = 'f' ∨ c = 'F' then .file
    else if c = 'u' ∨ c = 'U' then .udp
    else if c = 's' ∨ c = 'S' then .screen
    else if c = 'v' ∨ c = 'V' then .virtual
    else .null

/-- Number of one part of an address (`strtoul(…, 0)` on digits): octal after a leading 0; `none` if a
character is left over. -/
def inetPart (p : List Char) : Option Nat :=
  match p with
  | [] => none
  | '0' :: ds => if ds.all (fun c => hexVal c < 8) then some (basePrefix 8 ds) else none
  | ds => some (basePrefix 10 ds)

/-- Split at dots. -/
def splitDots (cs : List Char) : List (List Char) :=
  match cs with
  | [] => [[]]
  | c :: cs =>
    if c = '.' then [] :: splitDots cs
    else match splitDots cs with
      | [] => [[c]]
      | p :: ps => (c :: p) :: ps

/-- `INADDR_NONE`. -/
def INADDR_NONE : Nat := 0xFFFFFFFF

/-- `inet_addr` (libc) for strings of digits and dots, on a little-endian machine: first byte lowest. -/
def inetAddr (cs : List Char) : Nat :=
  match (splitDots cs).mapM inetPart with
  | some [a] => if a < 2 ^ 32 then
      a / 2 ^ 24 + a / 2 ^ 16 % 256 * 2 ^ 8 + a / 2 ^ 8 % 256 * 2 ^ 16 + a % 256 * 2 ^ 24 else INADDR_NONE
  | some [a, b] => if a < 256 ∧ b < 2 ^ 24 then
      a + b / 2 ^ 16 * 2 ^ 8 + b / 2 ^ 8 % 256 * 2 ^ 16 + b % 256 * 2 ^ 24 else INADDR_NONE
  | some [a, b, c] => if a < 256 ∧ b < 256 ∧ c < 2 ^ 16 then
      a + b * 2 ^ 8 + c / 2 ^ 8 * 2 ^ 16 + c % 256 * 2 ^ 24 else INADDR_NONE
  | some [a, b, c, d] => if a < 256 ∧ b < 256 ∧ c < 256 ∧ d < 256 then
      a + b * 2 ^ 8 + c * 2 ^ 16 + d * 2 ^ 24 else INADDR_NONE
  | _ => INADDR_NONE

/-- `ParseAddresIP` (588-667): the address and the value from the returned position on.  `dns` stands for
`gethostbyname` (`none`: no IPv4 address found). -/
def parseAddresIP (dns : List Char → Option Int) (parseDn : Bool) (v : List Char) : Int × List Char :=
  if v = [] then (0, [])
  else
    let v := v.dropWhile isBlank
    let stop := fun c => isBlank c || c == ':'
    let ip := v.takeWhile (fun c => !stop c)
    let rest := v.dropWhile (fun c => !stop c)
    if ip = [] then (0, [])
    else if ip.any (fun c => !isNumber c && c != '.') then
      if parseDn then
        match dns ip with
        | none => (0, [])
        | some a => (a, rest)
      else (0, [])
    else (inetAddr ip, rest)

/-- `htons` on a little-endian machine. -/
def htons (p : Nat) : Nat := p / 256 % 256 + p % 256 * 256

/-- `ParseAddres` (670-698): address and port. -/
def parseAddres (dns : List Char → Option Int) (parseDn : Bool) (v : List Char) : Int × Int :=
  if v = [] then (0, 0)
  else
    let r := parseAddresIP dns parseDn v
    let p := r.2.dropWhile (fun c => c < '1' || c > '9')
    if p = [] then (0, 0)
    else if p.length ≥ 40 then (0, 0)
    else (r.1, htons (atoi p % 2 ^ 16).toNat)

/-! ## Bit lists -/

/-- `1ULL << n`; a shift of 64 or more is undefined. -/
def bitAt (n : Int) : Option (BitVec 64) := if 0 ≤ n ∧ n < 64 then some (1#64 <<< n.toNat) else none

/-- `for (i = lo; i <= hi; i++) bitmap |= 1ULL << i` (741-744), `n` rounds. -/
def bitRange (lo : Int) : Nat → BitVec 64 → Option (BitVec 64)
  | 0, m => some m
  | n + 1, m => do
    let b ← bitAt lo
    bitRange (lo + 1) n (m ||| b)

/-- The loop of `ParseBitArray` (708-746).  `v` is the part of the value from `offset` on.  `none` for
undefined behaviour (and if the fuel does not suffice; `v.length + 1` suffices, each round consumes a
digit). -/
def bitLoop (tail : List Char) : Nat → List Char → BitVec 64 → Option (BitVec 64)
  | 0, _, _ => none
  | fuel + 1, v, m =>
    if v = [] then some m
    else
      let v := v.dropWhile (fun c => !isNumber c)
      if v = [] then some m
      else
        let first := atoi (v ++ tail)
        let v := v.dropWhile (fun c => isNumber c || isBlank c)
        if v.head? ≠ some '-' then do
          let b ← bitAt first
          bitLoop tail fuel v (m ||| b)
        else
          let v := v.dropWhile (fun c => !isNumber c && c != ',')
          if (v.head?.map isNumber) ≠ some true then do
            let b ← bitAt first
            bitLoop tail fuel v (m ||| b)
          else do
            let last := atoi (v ++ tail)
            let m ← bitRange (min first last) (max first last - min first last + 1).toNat m
            bitLoop tail fuel v m

/-- `ParseBitArray` (700-749). -/
def parseBitArray (v tail : List Char) : Option (BitVec 64) := bitLoop tail (v.length + 1) v 0#64

end FNLog
