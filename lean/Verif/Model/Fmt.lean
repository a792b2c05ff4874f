import Verif.Model.Mem

/-!
# Number, date and pointer formatting

Transcribed from `/repo/src/include/fn_fmt.h`.  Every `write_*_unsafe(dst, …)` becomes a function on
the buffer `b` that contains `dst` (at offset `dst`); the result is the new buffer and the returned
number of bytes, `none` is undefined behaviour (a store outside of `b`, a read outside of a table, an
uninitialised read, signed overflow, `__builtin_clzll(0)`).

`unsigned long long` values are `Nat`s below `2 ^ 64`, `long long` values are `Int`s in range.
The non-Windows branches are modelled.
-/

namespace FNLog

/-- `dec_lut` (fn_fmt.h 95-105). -/
def decLut : List Char :=
  ['0', '0', '0', '1', '0', '2', '0', '3', '0', '4', '0', '5', '0', '6', '0', '7', '0', '8', '0', '9'] ++
  ['1', '0', '1', '1', '1', '2', '1', '3', '1', '4', '1', '5', '1', '6', '1', '7', '1', '8', '1', '9'] ++
  ['2', '0', '2', '1', '2', '2', '2', '3', '2', '4', '2', '5', '2', '6', '2', '7', '2', '8', '2', '9'] ++
  ['3', '0', '3', '1', '3', '2', '3', '3', '3', '4', '3', '5', '3', '6', '3', '7', '3', '8', '3', '9'] ++
  ['4', '0', '4', '1', '4', '2', '4', '3', '4', '4', '4', '5', '4', '6', '4', '7', '4', '8', '4', '9'] ++
  ['5', '0', '5', '1', '5', '2', '5', '3', '5', '4', '5', '5', '5', '6', '5', '7', '5', '8', '5', '9'] ++
  ['6', '0', '6', '1', '6', '2', '6', '3', '6', '4', '6', '5', '6', '6', '6', '7', '6', '8', '6', '9'] ++
  ['7', '0', '7', '1', '7', '2', '7', '3', '7', '4', '7', '5', '7', '6', '7', '7', '7', '8', '7', '9'] ++
  ['8', '0', '8', '1', '8', '2', '8', '3', '8', '4', '8', '5', '8', '6', '8', '7', '8', '8', '8', '9'] ++
  ['9', '0', '9', '1', '9', '2', '9', '3', '9', '4', '9', '5', '9', '6', '9', '7', '9', '8', '9', '9']

/-- The `do … while (number)` loop (fn_fmt.h 112-121).  `room` is `write_index`, `t` the initialised
part `buf[write_index .. buf_len)` of the local array. -/
def decLoop : Nat → List Char → Nat → Option (List Char)
  | room + 2, t, number => do
    let m1 := number / 100
    let m2 := number % 100 + number % 100
    let c1 ← decLut[m2 + 1]?
    let c0 ← decLut[m2]?
    if m1 ≠ 0 then decLoop room (c0 :: c1 :: t) m1 else some (c0 :: c1 :: t)
  | _, _, _ => none

/-- The padding loop (fn_fmt.h 126-130). -/
def decPad (wide : Int) : Nat → List Char → Option (List Char)
  | 0, t => if (t.length : Int) < wide then none else some t
  | room + 1, t => if (t.length : Int) < wide then decPad wide room ('0' :: t) else some t

/-- `if (buf[write_index] == '0') write_index++` (fn_fmt.h 122-125). -/
def stripZero : List Char → List Char
  | [] => []
  | c :: t => if c = '0' then t else c :: t

/-- The bytes that `write_dec_unsafe<WIDE>` copies to `dst` (fn_fmt.h 107-132), `buf_len = 30`. -/
def decBytes (wide : Int) (number : Nat) : Option (List Char) := do
  let t ← decLoop 30 [] number
  let t := stripZero t
  decPad wide (30 - t.length) t

/-- `memcpy(dst, s, s.length)` followed by `return s.length`. -/
def emit (b : List Char) (dst : Nat) (s : List Char) : Option (List Char × Nat) :=
  (writeAt b dst s).map (·, s.length)

/-- `write_dec_unsafe<WIDE>(char*, unsigned long long)` (fn_fmt.h 92-133). -/
def writeDecU (wide : Int) (b : List Char) (dst : Nat) (number : Nat) : Option (List Char × Nat) := do
  let s ← decBytes wide number
  emit b dst s

/-- `write_dec_unsafe<WIDE>(char*, long long)` (fn_fmt.h 79-89). -/
def writeDecS (wide : Int) (b : List Char) (dst : Nat) (number : Int) : Option (List Char × Nat) :=
  if number < 0 then do
    let b ← writeAt b dst ['-']
    -- 84: `number = -number`
    if number ≤ -(2 ^ 63) then none
    else
      let r ← writeDecU (wide - 1) b (dst + 1) (-number).toNat
      some (r.1, 1 + r.2)
  else writeDecU wide b dst number.toNat

/-- `sizeof(number) * 8 - __builtin_clzll(number)` (fn_fmt.h 163, 228); undefined for 0. -/
def bitWide (number : Nat) : Option Nat := if number = 0 then none else some (Nat.log2 number + 1)

/-- The `switch` of `write_hex_unsafe` (fn_fmt.h 175-193). -/
def hexWide (w : Nat) : Nat :=
  if w = 0 then 0
  else if w ≤ 4 then 1 else if w ≤ 8 then 2 else if w ≤ 12 then 3 else if w ≤ 16 then 4
  else if w ≤ 20 then 5 else if w ≤ 24 then 6 else if w ≤ 28 then 7 else if w ≤ 32 then 8
  else if w ≤ 36 then 9 else if w ≤ 40 then 10 else if w ≤ 44 then 11 else if w ≤ 48 then 12
  else if w ≤ 52 then 13 else if w ≤ 56 then 14 else if w ≤ 60 then 15 else if w ≤ 64 then 16
  else w

/-- `lut` (fn_fmt.h 139-140). -/
def hexLut1 : List Char :=
  ['0', '1', '2', '3', '4', '5', '6', '7', '8', '9', 'A', 'B', 'C', 'D', 'E', 'F', 'G', 'H', 'I']

/-- `hex_lut` (fn_fmt.h 141-157). -/
def hexLut : List Char :=
  ['0', '0', '0', '1', '0', '2', '0', '3', '0', '4', '0', '5', '0', '6', '0', '7', '0', '8', '0', '9', '0', 'A', '0', 'B', '0', 'C', '0', 'D', '0', 'E', '0', 'F'] ++
  ['1', '0', '1', '1', '1', '2', '1', '3', '1', '4', '1', '5', '1', '6', '1', '7', '1', '8', '1', '9', '1', 'A', '1', 'B', '1', 'C', '1', 'D', '1', 'E', '1', 'F'] ++
  ['2', '0', '2', '1', '2', '2', '2', '3', '2', '4', '2', '5', '2', '6', '2', '7', '2', '8', '2', '9', '2', 'A', '2', 'B', '2', 'C', '2', 'D', '2', 'E', '2', 'F'] ++
  ['3', '0', '3', '1', '3', '2', '3', '3', '3', '4', '3', '5', '3', '6', '3', '7', '3', '8', '3', '9', '3', 'A', '3', 'B', '3', 'C', '3', 'D', '3', 'E', '3', 'F'] ++
  ['4', '0', '4', '1', '4', '2', '4', '3', '4', '4', '4', '5', '4', '6', '4', '7', '4', '8', '4', '9', '4', 'A', '4', 'B', '4', 'C', '4', 'D', '4', 'E', '4', 'F'] ++
  ['5', '0', '5', '1', '5', '2', '5', '3', '5', '4', '5', '5', '5', '6', '5', '7', '5', '8', '5', '9', '5', 'A', '5', 'B', '5', 'C', '5', 'D', '5', 'E', '5', 'F'] ++
  ['6', '0', '6', '1', '6', '2', '6', '3', '6', '4', '6', '5', '6', '6', '6', '7', '6', '8', '6', '9', '6', 'A', '6', 'B', '6', 'C', '6', 'D', '6', 'E', '6', 'F'] ++
  ['7', '0', '7', '1', '7', '2', '7', '3', '7', '4', '7', '5', '7', '6', '7', '7', '7', '8', '7', '9', '7', 'A', '7', 'B', '7', 'C', '7', 'D', '7', 'E', '7', 'F'] ++
  ['8', '0', '8', '1', '8', '2', '8', '3', '8', '4', '8', '5', '8', '6', '8', '7', '8', '8', '8', '9', '8', 'A', '8', 'B', '8', 'C', '8', 'D', '8', 'E', '8', 'F'] ++
  ['9', '0', '9', '1', '9', '2', '9', '3', '9', '4', '9', '5', '9', '6', '9', '7', '9', '8', '9', '9', '9', 'A', '9', 'B', '9', 'C', '9', 'D', '9', 'E', '9', 'F'] ++
  ['A', '0', 'A', '1', 'A', '2', 'A', '3', 'A', '4', 'A', '5', 'A', '6', 'A', '7', 'A', '8', 'A', '9', 'A', 'A', 'A', 'B', 'A', 'C', 'A', 'D', 'A', 'E', 'A', 'F'] ++
  ['B', '0', 'B', '1', 'B', '2', 'B', '3', 'B', '4', 'B', '5', 'B', '6', 'B', '7', 'B', '8', 'B', '9', 'B', 'A', 'B', 'B', 'B', 'C', 'B', 'D', 'B', 'E', 'B', 'F'] ++
  ['C', '0', 'C', '1', 'C', '2', 'C', '3', 'C', '4', 'C', '5', 'C', '6', 'C', '7', 'C', '8', 'C', '9', 'C', 'A', 'C', 'B', 'C', 'C', 'C', 'D', 'C', 'E', 'C', 'F'] ++
  ['D', '0', 'D', '1', 'D', '2', 'D', '3', 'D', '4', 'D', '5', 'D', '6', 'D', '7', 'D', '8', 'D', '9', 'D', 'A', 'D', 'B', 'D', 'C', 'D', 'D', 'D', 'E', 'D', 'F'] ++
  ['E', '0', 'E', '1', 'E', '2', 'E', '3', 'E', '4', 'E', '5', 'E', '6', 'E', '7', 'E', '8', 'E', '9', 'E', 'A', 'E', 'B', 'E', 'C', 'E', 'D', 'E', 'E', 'E', 'F'] ++
  ['F', '0', 'F', '1', 'F', '2', 'F', '3', 'F', '4', 'F', '5', 'F', '6', 'F', '7', 'F', '8', 'F', '9', 'F', 'A', 'F', 'B', 'F', 'C', 'F', 'D', 'F', 'E', 'F', 'F']

/-- The loop `while (number && cur_wide >= 2)` (fn_fmt.h 199-206): buffer, `cur_wide`, `number`. -/
def hexPairs (b : List Char) (dst : Nat) : Nat → Nat → Option (List Char × Nat × Nat)
  | cur + 2, number =>
    if number ≠ 0 then do
      let m2 := (number % 256) * 2
      let c1 ← hexLut[m2 + 1]?
      let c0 ← hexLut[m2]?
      let b ← writeAt b (dst + cur + 1) [c1]
      let b ← writeAt b (dst + cur) [c0]
      hexPairs b dst cur (number / 256)
    else some (b, cur + 2, number)
  | cur, number => some (b, cur, number)

/-- The loop `while (cur_wide-- != 0)` (fn_fmt.h 212-215). -/
def zeroFill (b : List Char) (dst : Nat) : Nat → Option (List Char)
  | 0 => some b
  | cur + 1 => do
    let b ← writeAt b (dst + cur) ['0']
    zeroFill b dst cur

/-- `write_hex_unsafe<WIDE>` (fn_fmt.h 136-217). -/
def writeHex (wide : Int) (b : List Char) (dst : Nat) (number : Nat) : Option (List Char × Nat) := do
  let w ← bitWide number
  let w := hexWide w
  let w := if (w : Int) < wide then wide.toNat else w
  let (b, cur, number) ← hexPairs b dst w number
  if number ≠ 0 then
    let c ← hexLut1[number % 16]?
    let b ← writeAt b dst [c]
    -- `cur_wide--` wraps for 0 and the next loop would run away
    if cur = 0 then none
    else
      let b ← zeroFill b dst (cur - 1)
      some (b, w)
  else
    let b ← zeroFill b dst cur
    some (b, w)

/-- The `do … while (number)` loop of `write_bin_unsafe` (fn_fmt.h 239-245). -/
def binLoop (b : List Char) (dst : Nat) : Nat → Nat → Option (List Char)
  | 0, _ => none
  | cur + 1, number => do
    -- lut[number & 1], lut = "0123456789abcdefghijk"
    let c := if number % 2 = 1 then '1' else '0'
    let b ← writeAt b (dst + cur) [c]
    if number / 2 ≠ 0 then binLoop b dst cur (number / 2) else some b

/-- `write_bin_unsafe<WIDE>` (fn_fmt.h 220-247). -/
def writeBin (wide : Int) (b : List Char) (dst : Nat) (number : Nat) : Option (List Char × Nat) := do
  let w ← bitWide number
  let w := if (w : Int) < wide then wide.toNat else w
  let b ← binLoop b dst w number
  some (b, w)

/-- `write_pointer_unsafe` (fn_fmt.h 388-399); `none` is `nullptr`. -/
def writePointer (b : List Char) (dst : Nat) : Option Nat → Option (List Char × Nat)
  | none => emit b dst "null".toList
  | some p => do
    let b ← writeAt b dst "0x".toList
    let r ← writeHex 0 b (dst + 2) p
    some (r.1, 2 + r.2)

/-- `PRIORITY_RENDER[i].priority_name_` (fn_fmt.h 27-33, Linux branch; 45-53 has the same names). -/
def priorityNames : List String :=
  ["[TRACE]", "[DEBUG]", "[INFO ]", "[WARN ]", "[ERROR]", "[ALARM]", "[FATAL]"]

/-- `write_log_priority_unsafe` (fn_fmt.h 370-375): `priority % PRIORITY_MAX` of C++ keeps the sign. -/
def writePriority (b : List Char) (dst : Nat) (priority : Int) : Option (List Char × Nat) :=
  let p := priority.tmod 7
  if p < 0 then none
  else do
    let name ← priorityNames[p.toNat]?
    emit b dst name.toList

/-- `write_log_thread_unsafe` (fn_fmt.h 377-386). -/
def writeThread (b : List Char) (dst : Nat) (tid : Nat) : Option (List Char × Nat) := do
  let b ← writeAt b dst ['[']
  let r ← writeDecU 0 b (dst + 1) tid
  let b ← writeAt r.1 (dst + 1 + r.2) [']']
  some (b, 1 + r.2 + 1)

/-! ## Doubles -/

/-- A `double`: the finite ones as sign, `m` and `e` with magnitude `m * 2 ^ e`, `m < 2 ^ 53`. -/
inductive Dbl where
  | nan
  | inf (neg : Bool)
  | fin (neg : Bool) (m : Nat) (e : Int)
deriving DecidableEq, Repr

/-- Exact comparison `m1 * 2 ^ e1 < m2 * 2 ^ e2`. -/
def dyLt (m1 : Nat) (e1 : Int) (m2 : Nat) (e2 : Int) : Bool :=
  m1 * 2 ^ (e1 - min e1 e2).toNat < m2 * 2 ^ (e2 - min e1 e2).toNat

/-- The literal `0.0001` as a binary64 number (fn_fmt.h 272, 274). -/
def lit1em4 : Nat × Int := (7378697629483821, -66)
/-- The literal `0.0000001` (fn_fmt.h 274). -/
def lit1em7 : Nat × Int := (7555786372591432, -76)
/-- The literal `0.000001` (fn_stream.h 437). -/
def lit1em6 : Nat × Int := (4722366482869645, -72)

/-- `v_ < 0.000001` (fn_stream.h 437); the comparison with a nan is false. -/
def Dbl.below1em6 : Dbl → Bool
  | .nan => false
  | .inf neg => neg
  | .fin neg m e => neg || dyLt m e lit1em6.1 lit1em6.2

/-- `v_ * 100.0` of a `float` (fn_stream.h 443): the product is exact, a `float` has 24 bits. -/
def Dbl.times100 : Dbl → Dbl
  | .fin neg m e => .fin neg (m * 100) e
  | d => d

/-- What the C library writes for `gcvt(number, 16, dst)` and `snprintf(dst, 30, "%.08lf", number)`
(fn_fmt.h 276, 280). -/
structure Libc where
  gcvt16 : Dbl → List Char
  fixed8 : Dbl → List Char

/-- Round `n` (an integer, scaled by a power of two elsewhere) to 53 significant bits, nearest, ties to
even: the multiplication of the binary64 arithmetic. -/
def round53 (n : Nat) : Nat :=
  if n < 2 ^ 53 then n
  else
    let s := Nat.log2 n - 52
    let q := n / 2 ^ s
    let r := n % 2 ^ s
    let up := r > 2 ^ (s - 1) ∨ (r = 2 ^ (s - 1) ∧ q % 2 = 1)
    (if up then q + 1 else q) * 2 ^ s

/-- `(unsigned long long)intpart` of `modf(m * 2 ^ e, &intpart)` (fn_fmt.h 294-295). -/
def dblInt (m : Nat) (e : Int) : Nat :=
  if e ≥ 0 then m * 2 ^ e.toNat else m / 2 ^ (-e).toNat

/-- `(unsigned long long)(modf(m * 2 ^ e, &intpart) * 10000)` (fn_fmt.h 294): the fraction is exact,
the product is rounded to 53 bits, the cast truncates. -/
def dblFrac (m : Nat) (e : Int) : Nat :=
  if e ≥ 0 then 0
  else round53 (m % 2 ^ (-e).toNat * 10000) / 2 ^ (-e).toNat

/-- The loop that drops trailing zeros (fn_fmt.h 300-308): `i` counts down to `lo`, `off` is
`fractpat_offset`; `n` bounds the number of rounds. -/
def trimZeros (b : List Char) (lo : Nat) : Nat → Nat → Option Nat
  | i + 1, off =>
    if i + 1 > lo then
      match b[i + 1]? with
      | none => none
      | some c => if c = '0' then trimZeros b lo i (off - 1) else some off
    else some off
  | 0, off => some off

/-- Lines 286-291. -/
def writeSign (b : List Char) (dst : Nat) (neg : Bool) : Option (List Char) :=
  if neg then writeAt b dst ['-'] else some b

/-- `write_double_unsafe` (fn_fmt.h 249-312). The class FP_SUBNORMAL is `m * 2 ^ e < 2 ^ -1022`. -/
def writeDouble (lib : Libc) (b : List Char) (dst : Nat) : Dbl → Option (List Char × Nat)
  | .nan => emit b dst "nan".toList
  | .inf _ => emit b dst "inf".toList
  | .fin neg m e =>
    if m = 0 ∨ dyLt m e 1 (-1022) then emit b dst ['0']
    else if dyLt m e lit1em4.1 lit1em4.2 ∨ dyLt 1 60 m e then
      if dyLt m e lit1em4.1 lit1em4.2 ∧ dyLt lit1em7.1 lit1em7.2 m e then do
        let s := lib.fixed8 (.fin false m e)
        let b ← writeAt b dst (s ++ ['\x00'])
        some (b, s.length)
      else do
        let s := lib.gcvt16 (.fin neg m e)
        let b ← writeAt b dst (s ++ ['\x00'])
        some (b, s.length)
    else do
      let b ← writeSign b dst neg
      let negOff := if neg then 1 else 0
      let fract := dblFrac m e
      let r ← writeDecU 0 b (dst + negOff) (dblInt m e)
      let base := r.2
      if fract > 0 then
        let b ← writeAt r.1 (dst + negOff + base) ['.']
        let r ← writeDecU 4 b (dst + negOff + base + 1) fract
        let off := 1 + r.2
        let off ← trimZeros r.1 (dst + negOff + base + 2) (dst + negOff + base + off - 1) off
        some (r.1, negOff + base + off)
      else some (r.1, negOff + base)

/-! ## Dates -/

/-- The members of `struct tm` that are used; `year` counts from 1900, `mon` from 0. -/
structure Tm where
  year : Int
  mon : Int
  mday : Int
  hour : Int
  min : Int
  sec : Int
deriving DecidableEq, Repr

/-- The C library's local time: `localtime_r` (through `FileHandler::time_to_tm`) and `mktime`.  The member `tm_isdst` is kept
apart: `isdst` is what `localtime_r` stores there, and the second argument of `mktime`. -/
structure Zone where
  localtime : Int → Tm
  isdst : Int → Bool
  mktime : Tm → Bool → Int

/-- The `thread_local` variables of `write_date_unsafe` (fn_fmt.h 321-322). -/
structure DateCache where
  date : Tm
  timestamp : Int
deriving DecidableEq, Repr

/-- Their initial values. -/
def DateCache.zero : DateCache := ⟨⟨0, 0, 0, 0, 0, 0⟩, 0⟩

/-- Lines 324-334: the cache after the refresh, and `day_second`. -/
def refreshDate (z : Zone) (c : DateCache) (timestamp : Int) : DateCache × Int :=
  let d := timestamp - c.timestamp
  if d < 0 ∨ d ≥ 24 * 60 * 60 then
    let date := z.localtime timestamp
    -- 328: `daytm` is a copy, with `tm_isdst`
    let ts := z.mktime { date with hour := 0, min := 0, sec := 0 } (z.isdst timestamp)
    (⟨date, ts⟩, timestamp - ts)
  else (c, d)

/-- The conversion `(unsigned long long)x`. -/
def toULL (x : Int) : Nat := (x % 2 ^ 64).toNat

/-- A sequence of `write_bytes += …` statements: decimal fields and single characters. -/
def datePieces (b : List Char) (dst : Nat) : List (Char ⊕ (Int × Nat)) → Option (List Char × Nat)
  | [] => some (b, 0)
  | .inl c :: rest => do
    let b ← writeAt b dst [c]
    let r ← datePieces b (dst + 1) rest
    some (r.1, 1 + r.2)
  | .inr (w, n) :: rest => do
    let r1 ← writeDecU w b dst n
    let r ← datePieces r1.1 (dst + r1.2) rest
    some (r.1, r1.2 + r.2)

/-- `write_date_unsafe` (fn_fmt.h 319-368). `precise` is an `unsigned int`. The fields are written in
the order of the source. -/
def writeDate (z : Zone) (c : DateCache) (b : List Char) (dst : Nat) (timestamp : Int) (precise : Nat) :
    Option (List Char × Nat × DateCache) := do
  let (c, d) := refreshDate z c timestamp
  let d1 := d.tmod 3600
  let d2 := d1.tmod 60
  let (b, n) ← datePieces b dst
    [.inl '[', .inr (4, (toULL c.date.year + 1900) % 2 ^ 64), .inr (2, (toULL c.date.mon + 1) % 2 ^ 64),
     .inr (2, toULL c.date.mday), .inl ' ', .inr (2, toULL d / 3600), .inl ':',
     .inr (2, toULL d1 / 60), .inl ':', .inr (2, toULL d2), .inl '.',
     .inr (3, if precise ≥ 1000 then 999 else precise), .inl ']']
  -- 362: `sizeof("[20190412 13:05:35.417]") - 1`
  some (b, if n ≠ 23 then 0 else n, c)

end FNLog
