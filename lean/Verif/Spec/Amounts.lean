import Verif.Model.Stream
import Verif.Spec.Fmt

/-! # What is to be printed for LogPercent -/

namespace FNLog.Spec

/-- `text` is a percentage with up to four decimals of the number `m / 2 ^ k`: it shows `P` ten-thousandths of a percent, and `P` is
what remains when a number that differs from `m / 2 ^ k` by one part in `2 ^ 24` at most is cut to millionths. A number that is cut to zero
is shown with two decimals. -/
def PercentOf (m k : Nat) (text : List Char) : Prop :=
  (text = "00.00%".toList ∧ m * 10 ^ 6 * (2 ^ 24 - 1) < 2 ^ 24 * 2 ^ k) ∨
  ∃ P, text = fixedPoint false (P / 10000) (P % 10000) ++ ['%'] ∧
    P * 2 ^ k * 2 ^ 24 ≤ m * 10 ^ 6 * (2 ^ 24 + 1) ∧ m * 10 ^ 6 * (2 ^ 24 - 1) < (P + 1) * 2 ^ k * 2 ^ 24

/-- `q` is `n / 2 ^ s` rounded to the nearest integer, the even one of two. -/
def NearestEven (n s q : Nat) : Prop :=
  2 * q * 2 ^ s ≤ 2 * n + 2 ^ s ∧ 2 * n ≤ 2 * q * 2 ^ s + 2 ^ s ∧
  ((2 * q * 2 ^ s = 2 * n + 2 ^ s ∨ 2 * n = 2 * q * 2 ^ s + 2 ^ s) → q % 2 = 0)

/-- `d` is the `float` (24 significant bits, none below `2 ^ -149`, below `2 ^ 128`) next to `m * 2 ^ e` with the given sign: `p` is the exponent of
the last bit of the floats of this magnitude, `q` the multiple of `2 ^ p`. -/
def FloatOf (neg : Bool) (m : Nat) (e : Int) (d : Dbl) : Prop :=
  let p := max (Nat.log2 m + e - 23) (-149)
  ∃ q, (if p ≤ e then q = m * 2 ^ (e - p).toNat else NearestEven m (p - e).toNat q) ∧
    if q ≠ 0 ∧ 128 ≤ Nat.log2 q + p then d = .inf neg
    else ∃ m' e', d = .fin neg m' e' ∧ m' < 2 ^ 24 ∧ p ≤ e' ∧ m' * 2 ^ (e' - p).toNat = q

/-- Streaming the value `v` into the record `r` works and gives the line: what was in the record, `text`, and a newline. -/
def Prints (E : Env) (r : Rec) (c : DateCache) (v : Val) (text : List Char) : Prop :=
  ∃ r' c' r'', streamAll E ⟨some r, c⟩ [v] = some ⟨some r', c'⟩ ∧ sealRec E.N r' = some r'' ∧
    r''.content.take r''.len = r.content.take r.len ++ text ++ ['\n']

end FNLog.Spec
