import Verif.Model.Stream

/-!
# The arguments of LogPercent and LogTimestamp

Transcribed from `/repo/src/include/fn_stream.h`: the constructors of `LogPercent` (27-32) and of `LogTimestamp` (56-65)
and what `operator<<` (450-458) takes from it.

Simplification: the conversion of a `double` to a `float` is the one of IEEE 754 in the default rounding mode.
-/

namespace FNLog

/-- `n / 2 ^ s` rounded to the nearest integer, ties to even. -/
def roundShift (n s : Nat) : Nat :=
  let q := n / 2 ^ s
  let r := n % 2 ^ s
  if s = 0 then n
  else if r > 2 ^ (s - 1) ∨ (r = 2 ^ (s - 1) ∧ q % 2 = 1) then q + 1 else q

/-- A `float` of magnitude `m * 2 ^ e`, `m ≤ 2 ^ 24`; too large a one is infinite. -/
def packFloat (neg : Bool) (m : Nat) (e : Int) : Dbl :=
  if m ≠ 0 ∧ 128 ≤ Nat.log2 m + e then .inf neg
  else if m = 2 ^ 24 then .fin neg (2 ^ 23) (e + 1)
  else .fin neg m e

/-- Number of bits of `m * 2 ^ e` that do not fit into a `float`: it has 24 significant bits and none below `2 ^ -149`. -/
def floatShift (m : Nat) (e : Int) : Nat := (max (Nat.log2 m + e - 23) (-149) - e).toNat

/-- `static_cast<float>(v)` (fn_stream.h 30). -/
def toFloat : Dbl → Dbl
  | .fin neg m e => packFloat neg (roundShift m (floatShift m e)) (e + floatShift m e)
  | d => d

/-- `LogPercent(double)` (fn_stream.h 30) as an operand. -/
def percentOf (d : Dbl) : Val := .percent (toFloat d)

/-- The conversion `(unsigned int)x` of an `int`: `date.precise_` becomes the parameter of `write_date_unsafe`
(fn_stream.h 454, fn_fmt.h 319). -/
def toUInt (x : Int) : Nat := (x % 2 ^ 32).toNat

/-- `LogTimestamp(long long ts, int precise)` (fn_stream.h 56-60) as an operand. -/
def stampOf (ts precise : Int) : Val := .stamp ts (toUInt precise)

/-- `LogTimestamp(long long ts_ms)` (fn_stream.h 61-65) as an operand: both operators round towards zero. -/
def stampMs (ms : Int) : Val := stampOf (ms.tdiv 1000) (ms.tmod 1000)

end FNLog
