/-!
# What numbers and dates look like, independently of the code
-/

namespace FNLog.Spec

/-- The digits up to base 16. -/
def digits : List Char := ['0', '1', '2', '3', '4', '5', '6', '7', '8', '9', 'A', 'B', 'C', 'D', 'E', 'F']

/-- The character of one digit (upper case). -/
def digit (d : Nat) : Char := digits.getD d '?'

/-- The value of a digit character. -/
def digitVal (c : Char) : Nat := digits.idxOf c

/-- The canonical numeral of `n` in base `b`. -/
def numeral (b n : Nat) : List Char :=
  if _h : 2 ≤ b ∧ b ≤ n then numeral b (n / b) ++ [digit (n % b)] else [digit n]
termination_by n
decreasing_by exact Nat.div_lt_self (by omega) (by omega)

/-- The number that a string of digits denotes. -/
def value (b : Nat) (s : List Char) : Nat := s.foldl (fun a c => a * b + digitVal c) 0

/-- Left-padding with zeros to `w` characters. -/
def padLeft (w : Nat) (s : List Char) : List Char := List.replicate (w - s.length) '0' ++ s

/-- `m * 2 ^ e < 10 ^ -k`, exactly. -/
def below (m : Nat) (e : Int) (k : Nat) : Bool := m * 10 ^ k * 2 ^ e.toNat < 2 ^ (-e).toNat

/-- `10 ^ -k < m * 2 ^ e`, exactly. -/
def above (m : Nat) (e : Int) (k : Nat) : Bool := 2 ^ (-e).toNat < m * 10 ^ k * 2 ^ e.toNat

/-- `m * 2 ^ e ≤ 2 ^ k`, exactly. -/
def upTo2 (m : Nat) (e : Int) (k : Nat) : Bool := m * 2 ^ e.toNat ≤ 2 ^ k * 2 ^ (-e).toNat

/-- The canonical decimal numeral of an integer. -/
def decimal (n : Int) : List Char :=
  if n < 0 then '-' :: numeral 10 (-n).toNat else numeral 10 n.toNat

/-- Remove trailing zeros of a four-digit fraction, but keep the first `keep` digits. -/
def dropZeros (keep : Nat) (s : List Char) : List Char :=
  s.take keep ++ ((s.drop keep).reverse.dropWhile (· = '0')).reverse

/-- Sign, integer part and a four-digit fraction `f` (below 10000). -/
def fixedPoint (neg : Bool) (i f : Nat) : List Char :=
  (if neg then ['-'] else []) ++ numeral 10 i ++
    (if f = 0 then [] else '.' :: dropZeros 2 (padLeft 4 (numeral 10 f)))

/-- A local date and time of day. -/
structure Civil where
  year : Nat
  month : Nat
  day : Nat
  hour : Nat
  minute : Nat
  second : Nat
deriving DecidableEq, Repr

/-- `[YYYYMMDD hh:mm:ss.mmm]`. -/
def dateText (c : Civil) (ms : Nat) : List Char :=
  ['['] ++ padLeft 4 (numeral 10 c.year) ++ padLeft 2 (numeral 10 c.month) ++
    padLeft 2 (numeral 10 c.day) ++ [' '] ++ padLeft 2 (numeral 10 c.hour) ++ [':'] ++
    padLeft 2 (numeral 10 c.minute) ++ [':'] ++ padLeft 2 (numeral 10 c.second) ++ ['.'] ++
    padLeft 3 (numeral 10 ms) ++ [']']

/-- The computation `r` on buffer `b` at offset `dst` is defined, leaves `b[0, dst)` alone, leaves `text`
at `dst` and returns its length.  What lies behind the text may have changed. -/
def Emits (r : Option (List Char × Nat)) (b : List Char) (dst : Nat) (text : List Char) : Prop :=
  ∃ b', r = some (b', text.length) ∧ b'.length = b.length ∧
    b'.take (dst + text.length) = b.take dst ++ text

/-- `y` is the natural number `x` rounded to 53 significant bits: to the nearest, of two nearest to the even one. -/
def Rounded (x y : Nat) : Prop :=
  (x < 2 ^ 53 ∧ y = x) ∨
  ∃ q s, y = q * 2 ^ s ∧ 2 ^ 52 ≤ q ∧ q ≤ 2 ^ 53 ∧ 2 * y ≤ 2 * x + 2 ^ s ∧ 2 * x ≤ 2 * y + 2 ^ s ∧
    (2 * y = 2 * x + 2 ^ s ∨ 2 * x = 2 * y + 2 ^ s → q % 2 = 0)

end FNLog.Spec
