import Verif.Model.Stream

/-!
# `write_binary` with the arithmetic of its `int` (fn_stream.h 268-312)

`Model/Stream` has the dump of a list of bytes.  Here `len` is any `int`, positions are computed in `int` (an overflow is undefined, `none`), and memory may
not be readable (undefined, too).

Simplifications: the two loops over a row (280-292 and 299-308) read the same bytes; they are read once here.  That the second one stops early in a full
record is in `Prim.hexRow`.  `isprint` is that of the C locale.
-/

namespace FNLog.Dump

/-- A value computed in `int`. -/
def int32 (x : Int) : Option Int := if -2147483648 ≤ x ∧ x ≤ 2147483647 then some x else none

/-- The bytes of a row (fn_stream.h 280, 299): from `j` while below `hi` and below `len`; the number bounds the rounds. -/
def rowLoop (mem : Int → Option Nat) (len hi : Int) : Nat → Int → Option (List Nat)
  | 0, _ => some []
  | n + 1, j =>
    if j < hi ∧ j < len then do
      let x ← mem j
      let xs ← rowLoop mem len hi n (j + 1)
      some (x :: xs)
    else some []

/-- 282-291: one byte as a character. -/
def shown (x : Nat) : List Prim := if isPrint x then [.buf [' '], .buf [Char.ofNat x], .buf [' ']] else [.buf " . ".toList]

/-- One round (277-308). -/
def row (addr : Nat) (mem : Int → Option Nat) (len : Int) (i : Nat) : Option (List Prim) := do
  let lo ← int32 (i * 32)
  let hi ← int32 ((i + 1) * 32)
  let bs ← rowLoop mem len hi 32 lo
  some ([.buf "\r\n\t[".toList, .ptr (addr + i * 32), .buf ": ".toList] ++ bs.flatMap shown ++
    [.buf "\r\n\t[".toList, .ptrIf8 (addr + i * 32), .buf ": ".toList, .hexRow bs])

/-- The loop over the rows (275), the number of rounds left first. -/
def rows (addr : Nat) (mem : Int → Option Nat) (len : Int) : Nat → Nat → Option (List Prim)
  | 0, _ => some []
  | n + 1, i => do
    let p ← row addr mem len i
    let ps ← rows addr mem len n (i + 1)
    some (p ++ ps)

/-- `write_binary(dst, len)` (268-312): `dst` is at `addr` and `mem j` is `dst[j]`. -/
def dump (addr : Nat) (mem : Int → Option Nat) (len : Int) : Option (List Prim) := do
  let ps ← rows addr mem len (len.tdiv 32 + 1).toNat 0
  some ([.buf "\r\n\t[".toList] ++ ps ++ [.buf "\r\n\t]\r\n\t".toList])

end FNLog.Dump
