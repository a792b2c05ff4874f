import Verif.Proof.FmtDbl
import Verif.Proof.FmtDate

/-!
# Properties of the formatting functions (C31 - C36, C65)

`Emits r b dst text` (Verif/Spec/Fmt.lean): the writer is defined, leaves the bytes in front of `dst`
alone, leaves `text` at `dst` and returns its length.
-/

namespace FNLog
open Spec

/-! ## C31 -/

/-- **C31.** An unsigned number is printed as its canonical decimal numeral, left-padded with zeros to
the width; exactly these bytes of the buffer change; reading the digits back gives the number, and
without a width there is no leading zero. -/
theorem C31_unsigned_decimal (wide : Int) (hw : wide ≤ 30) (n : Nat) (hn : n < 2 ^ 64) (b : List Char)
    (dst : Nat) (text : List Char) (ht : text = padLeft wide.toNat (numeral 10 n))
    (hf : dst + text.length ≤ b.length) :
    writeDecU wide b dst n =
        some (b.take dst ++ text ++ b.drop (dst + text.length), text.length) ∧
      value 10 text = n ∧
      text.length = max wide.toNat (numeral 10 n).length ∧
      (wide ≤ 1 → text.head? = some '0' → n = 0) := by
  subst ht
  refine ⟨writeDecU_put wide hw b dst n hn hf, ?_, padLeft_length _ _, ?_⟩
  · rw [value_padLeft, value_numeral 10 (by omega) (by omega)]
  · intro h1 h2
    rw [padLeft_of_le (by have := numeral_length_pos 10 n; omega)] at h2
    exact numeral_head 10 (by omega) (by omega) n h2

/-- The largest value, printed at offset 3 of a buffer of 24 bytes. -/
example : padLeft (0 : Int).toNat (numeral 10 18446744073709551615) = "18446744073709551615".toList ∧
    3 + 20 ≤ (List.replicate 24 'x').length := by decide +kernel

example : writeDecU 4 "........".toList 2 42 = some ("..0042..".toList, 4) := by decide +kernel

/-- The width limit is needed: with `WIDE = 31` the local buffer of 30 bytes is underrun. -/
theorem C31_width_limit (n : Nat) (hn : n < 2 ^ 64) (b : List Char) (dst : Nat) :
    writeDecU 31 b dst n = none := by
  obtain ⟨p, hp, hd⟩ := decLoop_spec 14 30 [] n (by omega) (by omega)
  have hs : stripZero p = numeral 10 n := by
    rcases hd with ⟨rfl, hd⟩ | rfl
    · rcases hh : numeral 10 n with _ | ⟨c, r⟩
      · rfl
      · rw [hh] at hd
        rw [stripZero, if_neg (by intro hc; rw [hc] at hd; exact hd rfl)]
    · rfl
  have hpad : ∀ room (t : List Char), room + t.length = 30 → decPad 31 room t = none := by
    intro room
    induction room with
    | zero => intro t ht; rw [decPad, if_pos (by omega)]
    | succ r ih =>
      intro t ht
      rw [decPad, if_pos (by omega)]
      exact ih _ (by simp only [List.length_cons]; omega)
  have hl := numeral_length_u64 n hn
  unfold writeDecU decBytes
  rw [hp]
  simp only [List.append_nil, Option.bind_eq_bind, Option.bind_some]
  rw [hs, hpad _ _ (by omega)]
  rfl

/-! ## C32 -/

/-- **C32**, without the smallest value: a signed number is printed as its canonical decimal numeral.
Missing: `LLONG_MIN`, see `C32_counterexample`. -/
theorem C32_signed_decimal_partial (n : Int) (h0 : -(2 ^ 63) < n) (h1 : n < 2 ^ 63) (b : List Char)
    (dst : Nat) (hf : dst + (decimal n).length ≤ b.length) :
    writeDecS 0 b dst n =
      some (b.take dst ++ decimal n ++ b.drop (dst + (decimal n).length), (decimal n).length) := by
  apply writeDecS_put 0 (by omega) b dst n h0 h1 (decimal n) _ hf
  unfold decimal
  have hp : ∀ k : Nat, padLeft (-1 : Int).toNat (numeral 10 k) = numeral 10 k :=
    fun k => padLeft_of_le (by show 0 ≤ _; omega)
  have hp0 : ∀ k : Nat, padLeft (0 : Int).toNat (numeral 10 k) = numeral 10 k :=
    fun k => padLeft_of_le (by show 0 ≤ _; omega)
  rw [show (0 : Int) - 1 = -1 from rfl]
  rw [hp, hp0]

example : (decimal (-9223372036854775807)) = "-9223372036854775807".toList := by decide +kernel

/-- **C32 is false** for the smallest 64-bit value: `-number` overflows. -/
theorem C32_counterexample (b : List Char) (dst : Nat) : writeDecS 0 b dst (-(2 ^ 63)) = none := by
  unfold writeDecS
  rw [if_pos (by omega)]
  cases writeAt b dst ['-'] with
  | none => rfl
  | some b' => rfl

/-! ## C33 -/

/-- **C33**, for non-zero values: the upper-case hexadecimal numeral, left-padded with zeros to the width;
exactly these bytes change.  Missing: the value 0, see `C33_counterexample`. -/
theorem C33_hexadecimal_partial (wide : Int) (n : Nat) (h0 : 0 < n) (hn : n < 2 ^ 64) (b : List Char)
    (dst : Nat) (text : List Char) (ht : text = padLeft wide.toNat (numeral 16 n))
    (hf : dst + text.length ≤ b.length) :
    writeHex wide b dst n =
        some (b.take dst ++ text ++ b.drop (dst + text.length), text.length) ∧
      value 16 text = n ∧ text.length = max wide.toNat (numeral 16 n).length := by
  subst ht
  refine ⟨writeHex_put wide b dst n h0 hn hf, ?_, padLeft_length _ _⟩
  rw [value_padLeft, value_numeral 16 (by omega) (by omega)]

example : writeHex 5 "........".toList 1 0xABC = some (".00ABC..".toList, 5) := by decide +kernel

/-- **C33 is false** for 0: `__builtin_clzll(0)` is undefined. `write_binary` (fn_stream.h 289) calls it
for every zero byte. -/
theorem C33_counterexample (wide : Int) (b : List Char) (dst : Nat) : writeHex wide b dst 0 = none := rfl

/-! ## C34 -/

/-- **C34**, for non-zero values and widths up to the number of digits: the binary numeral.
Missing: larger widths and the value 0, see the counterexamples. -/
theorem C34_binary_partial (wide : Int) (n : Nat) (h0 : 0 < n) (hn : n < 2 ^ 64)
    (hw : wide ≤ (numeral 2 n).length) (b : List Char) (dst : Nat)
    (hf : dst + (numeral 2 n).length ≤ b.length) :
    writeBin wide b dst n = some (b.take dst ++ numeral 2 n ++ b.drop (dst + (numeral 2 n).length),
      (numeral 2 n).length) ∧ value 2 (numeral 2 n) = n := by
  refine ⟨?_, value_numeral 2 (by omega) (by omega) n⟩
  rw [writeBin_put wide b dst n h0 hn (by omega)]
  have e1 : wide.toNat - (numeral 2 n).length = 0 := by omega
  have e2 : max wide.toNat (numeral 2 n).length = (numeral 2 n).length := by omega
  rw [e1, e2]; rfl

example : numeral 2 10 = "1010".toList ∧ (3 : Int) ≤ (numeral 2 10).length := by decide +kernel

/-- **C34 is false** for a width above the number of digits: the columns in front of the digits are
counted but not written, for every value and every old content of the buffer. -/
theorem C34_padding_not_written (wide : Nat) (n : Nat) (h0 : 0 < n) (hn : n < 2 ^ 64)
    (hw : (numeral 2 n).length < wide) (b : List Char) (dst : Nat) (hf : dst + wide ≤ b.length) :
    ∃ b', writeBin wide b dst n = some (b', wide) ∧
      b'.take (dst + (wide - (numeral 2 n).length)) = b.take (dst + (wide - (numeral 2 n).length)) := by
  rw [writeBin_put wide b dst n h0 hn (by omega)]
  refine ⟨_, by congr 2; omega, ?_⟩
  unfold put
  rw [List.append_assoc, List.take_append_of_le_length (by rw [List.length_take]; omega), List.take_take,
    show (wide : Int).toNat = wide by omega, Nat.min_self]

/-- A witness: `write_bin_unsafe<4>(dst, 1)` on a buffer with other text. -/
theorem C34_counterexample : writeBin 4 "abcd".toList 0 1 = some ("abc1".toList, 4) ∧
    padLeft 4 (numeral 2 1) = "0001".toList ∧ (∀ wide b dst, writeBin wide b dst 0 = none) := by
  refine ⟨by decide +kernel, by decide +kernel, fun _ _ _ => rfl⟩

/-! ## C35 -/

/-- **C35.** A double with magnitude `m * 2 ^ e` between `0.0001` and `2 ^ 60`,
given 30 bytes of room, is printed as sign, integer part `i` and decimals `f` (nothing if `f = 0`), in
at most 25 bytes.  `i` is the exact integer part; `f` is the exact truncated four-digit fraction, or the
next one if the value is closer to it than one part in `2 ^ 53`: the product with 10000 is rounded before it is truncated. -/
theorem C35_double (lib : Libc) (hlib : lib.Sane) (neg : Bool) (m : Nat) (e : Int) (hm : m < 2 ^ 53)
    (hlo : below m e 4 = false) (hhi : upTo2 m e 60 = true)
    (b : List Char) (dst : Nat) (hf : dst + 30 ≤ b.length) :
    ∃ i f, Emits (writeDouble lib b dst (.fin neg m e)) b dst (fixedPoint neg i f) ∧
      (fixedPoint neg i f).length ≤ 25 ∧ f < 10000 ∧
      (0 ≤ e → i = m * 2 ^ e.toNat ∧ f = 0) ∧
      (∀ k : Nat, e = -(k : Int) → 0 < k → i = m / 2 ^ k ∧
        ∃ x, x = (m - i * 2 ^ k) * 10000 ∧ (∃ y, Rounded x y ∧ f = y / 2 ^ k) ∧
          (f = x / 2 ^ k ∨ (f = x / 2 ^ k + 1 ∧ ((x / 2 ^ k + 1) * 2 ^ k - x) * 2 ^ 53 ≤ x))) := by
  have hE := writeDouble_emits lib hlib (.fin neg m e) hm b dst hf
  have ht := doubleText_fixed lib neg hm hlo hhi
  replace hhi : dyLt 1 60 m e = false := by rw [dyLt_60, hhi]; rfl
  rw [ht] at hE
  refine ⟨_, _, hE, fixedPoint_length neg _ _ (dblInt_le m e hhi) (dblFrac_lt m e hm), dblFrac_lt m e hm, ?_, ?_⟩
  · intro he
    exact ⟨by rw [dblInt, if_pos he], by rw [dblFrac, if_pos he]⟩
  · intro k hk hk0
    subst hk
    obtain ⟨x, hx, _, h⟩ := dblFrac_spec m k hm hk0
    have hi : dblInt m (-(k : Int)) = m / 2 ^ k := by
      rw [dblInt, if_neg (by omega), show (-(-(k : Int))).toNat = k by omega]
    have hy : ∃ y, Rounded x y ∧ dblFrac m (-(k : Int)) = y / 2 ^ k := by
      refine ⟨round53 x, round53_rounded x, ?_⟩
      rw [dblFrac, if_neg (by omega), show (-(-(k : Int))).toNat = k by omega, hx]
    refine ⟨hi, x, ?_, hy, h⟩
    rw [hx, hi]
    have := Nat.div_add_mod m (2 ^ k)
    rw [Nat.mul_comm] at this
    congr 1; omega

/-- **C35**, the other doubles: zero and the subnormal ones are `0`, the ones between `10 ^ -7` and `10 ^ -4` are what the C library
prints for the magnitude with `%.08lf`, and the smaller and the larger ones are what `gcvt` prints with 16 digits. -/
theorem C35_extremes (lib : Libc) (hlib : lib.Sane) (neg : Bool) (m : Nat) (e : Int) (hm : m < 2 ^ 53)
    (b : List Char) (dst : Nat) (hf : dst + 30 ≤ b.length) :
    (m = 0 ∨ dyLt m e 1 (-1022) = true → Emits (writeDouble lib b dst (.fin neg m e)) b dst ['0']) ∧
    (below m e 4 = true → above m e 7 = true →
      Emits (writeDouble lib b dst (.fin neg m e)) b dst (lib.fixed8 (.fin false m e))) ∧
    (m ≠ 0 → dyLt m e 1 (-1022) = false → (above m e 7 = false ∨ upTo2 m e 60 = false) →
      Emits (writeDouble lib b dst (.fin neg m e)) b dst (lib.gcvt16 (.fin neg m e))) := by
  have hE := writeDouble_emits lib hlib (.fin neg m e) hm b dst hf
  have hsub : dyLt m e 1 (-1022) = true → above m e 7 = false := by
    intro h
    rw [← dyLt_1em7 hm, ← Bool.not_eq_true]
    intro h'
    have hc1 : min e (-1100) ≤ e := by omega
    rw [dyLt_iff _ _ _ _ (min e (-1100)) hc1 (by omega)] at h
    rw [dyLt_iff _ _ _ _ (min e (-1100)) (by show _ ≤ (-76 : Int); omega) hc1] at h'
    refine absurd (Nat.lt_trans h' h) (Nat.not_lt.mpr ?_)
    exact Nat.mul_le_mul (by decide) (Nat.pow_le_pow_right (by omega) (by
      show (-1022 - min e (-1100)).toNat ≤ (-76 - min e (-1100)).toNat; omega))
  have hlow : above m e 7 = false → below m e 4 = true := by
    intro h
    have : m * 10 ^ 7 * 2 ^ e.toNat ≤ 2 ^ (-e).toNat := by
      unfold above at h
      exact Nat.not_lt.mp (of_decide_eq_false h)
    unfold below
    rw [decide_eq_true_iff]
    have hp : 0 < 2 ^ (-e).toNat := Nat.pow_pos (by omega)
    have e1 : m * 10 ^ 7 * 2 ^ e.toNat = m * 10 ^ 4 * 2 ^ e.toNat * 1000 := by
      rw [show (10 : Nat) ^ 7 = 10 ^ 4 * 1000 from rfl, ← Nat.mul_assoc, Nat.mul_right_comm]
    omega
  unfold doubleText at hE
  simp only [dyLt_1em4 hm, dyLt_1em7 hm, dyLt_60] at hE
  refine ⟨fun h => ?_, fun h4 h7 => ?_, fun h0 h1 h => ?_⟩
  · rwa [if_pos h] at hE
  · rw [if_neg, if_pos (Or.inl h4), if_pos ⟨h4, h7⟩] at hE
    · exact hE
    · rintro (rfl | h)
      · unfold above at h7
        simp only [Nat.zero_mul] at h7
        exact absurd (of_decide_eq_true h7) (Nat.not_lt_zero _)
      · rw [hsub h] at h7
        cases h7
  · rw [if_neg (by rw [h1]; simpa using h0)] at hE
    rcases h with h | h
    · rw [if_pos (Or.inl (hlow h)), if_neg (by rw [h]; simp)] at hE
      exact hE
    · rw [if_pos (Or.inr (by rw [h]; rfl)), if_neg] at hE
      · exact hE
      · rintro ⟨h4, _⟩
        have a1 := of_decide_eq_true h4
        have a2 := of_decide_eq_false h
        have hp : 0 < 2 ^ (-e).toNat := Nat.pow_pos (by omega)
        have a3 : 2 ^ (-e).toNat ≤ 2 ^ 60 * 2 ^ (-e).toNat := Nat.le_mul_of_pos_left _ (by decide)
        have a4 : m * 2 ^ e.toNat ≤ m * 10 ^ 4 * 2 ^ e.toNat := Nat.mul_le_mul_right _ (Nat.le_mul_of_pos_right _ (by decide))
        omega

/-- A number of each kind: the smallest subnormal one, `2 ^ -14`, `2 ^ -1022` and `2 ^ 61`. -/
example : dyLt 1 (-1074) 1 (-1022) = true ∧ (below 1 (-14) 4 = true ∧ above 1 (-14) 7 = true) ∧
    (dyLt 1 (-1022) 1 (-1022) = false ∧ above 1 (-1022) 7 = false) ∧ (dyLt 1 61 1 (-1022) = false ∧ upTo2 1 61 60 = false) := by
  decide +kernel

/-- 0.5 = 2^52 * 2^-53, and -1234.0625. -/
example : below (2 ^ 52) (-53) 4 = false ∧ upTo2 (2 ^ 52) (-53) 60 = true ∧
    writeDouble ⟨fun _ => [], fun _ => []⟩ (List.replicate 32 '.') 1 (.fin false (2 ^ 52) (-53)) =
      some (".0.5000.........................".toList, 4) ∧
    (writeDouble ⟨fun _ => [], fun _ => []⟩ (List.replicate 32 '.') 0 (.fin true 19745 (-4))).map
      (fun r => r.1.take r.2) = some "-1234.0625".toList := by decide +kernel

/-- The value 0.29 lies a little below 0.29 but is printed as 0.29: the product with 10000 is rounded. -/
example : dblFrac 5224175567749775 (-54) = 2900 ∧ 5224175567749775 * 10000 / 2 ^ 54 = 2899 := by
  decide +kernel

/-! ## C65: the sign of a double -/

/-- **C65**, for magnitudes of at least `0.0001` and at most `2 ^ 60`: the text starts with `-` exactly
for negative values.  Missing: see `C65_counterexample`. -/
theorem C65_sign_partial (lib : Libc) (hlib : lib.Sane) (neg : Bool) (m : Nat) (e : Int) (hm : m < 2 ^ 53)
    (hlo : below m e 4 = false) (hhi : upTo2 m e 60 = true)
    (b : List Char) (dst : Nat) (hf : dst + 30 ≤ b.length) :
    ∃ text, Emits (writeDouble lib b dst (.fin neg m e)) b dst text ∧
      (text.head? = some '-' ↔ neg = true) := by
  obtain ⟨i, f, h, _⟩ := C35_double lib hlib neg m e hm hlo hhi b dst hf
  refine ⟨_, h, ?_⟩
  unfold fixedPoint
  cases neg
  · simp only [Bool.false_eq_true, if_false, List.nil_append, iff_false]
    rw [head?_append_numeral]
    intro hd
    have hmem : '-' ∈ numeral 10 i := List.mem_of_mem_head? (by rw [hd]; rfl)
    have hdig : ∀ n c, c ∈ numeral 10 n → ∃ d, d < 10 ∧ c = digit d := by
      intro n
      induction n using Nat.strongRecOn with
      | ind n ih =>
        intro c hc
        by_cases hn : n < 10
        · rw [numeral_lt hn] at hc
          exact ⟨n, hn, by simpa using hc⟩
        · rw [numeral_ge (by omega) (by omega)] at hc
          rcases List.mem_append.mp hc with hc | hc
          · exact ih _ (by omega) c hc
          · exact ⟨n % 10, by omega, by simpa using hc⟩
    obtain ⟨d, hd1, hd2⟩ := hdig i '-' hmem
    exact absurd hd2 (by revert d; decide)
  · simp

/-- **C65 is false** in general: negative infinity and negative numbers between `1e-7` and `1e-4` in
magnitude are printed exactly like their absolute values. -/
theorem C65_counterexample (lib : Libc) (b : List Char) (dst : Nat) :
    writeDouble lib b dst (.inf true) = writeDouble lib b dst (.inf false) ∧
    ∀ m e, m < 2 ^ 53 → below m e 4 = true → above m e 7 = true →
      writeDouble lib b dst (.fin true m e) = writeDouble lib b dst (.fin false m e) := by
  refine ⟨rfl, ?_⟩
  intro m e hm h1 h2
  rw [← dyLt_1em4 hm] at h1
  rw [← dyLt_1em7 hm] at h2
  unfold writeDouble
  simp only [h1, h2, true_or, and_self, if_true]

/-- -2^-14 (about -0.00006) is such a number. -/
example : below 1 (-14) 4 = true ∧ above 1 (-14) 7 = true := by decide +kernel

/-! ## C36 -/

/-- **C36**, for local time without daylight-saving changes and timestamps outside of the first day of
1970: whatever timestamps `ts` the thread formatted before, the date text is that of `t`'s own local
date and time.  Missing: the first day, see the counterexample; for zones with clock changes see `Verif/Props/FmtDays.lean`. -/
theorem C36_date_partial (z : Zone) (hu : z.Uniform) (hc : z.Covers) (ts : List Int) (t : Int)
    (ht : t < 0 ∨ 86400 ≤ t) (hd : (z.localtime t).Sane) (ms : Nat) (hms : ms < 1000)
    (b : List Char) (dst : Nat) (hf : dst + 23 ≤ b.length) :
    ∃ b' c', writeDate z (cacheAfter z ts) b dst t ms = some (b', 23, c') ∧ b'.length = b.length ∧
      b'.take (dst + 23) = b.take dst ++ dateText
        ⟨((z.localtime t).year + 1900).toNat, ((z.localtime t).mon + 1).toNat, (z.localtime t).mday.toNat,
          (z.localtime t).hour.toNat, (z.localtime t).min.toNat, (z.localtime t).sec.toNat⟩ ms := by
  obtain ⟨c', s, hr, s0, s1, hy, hm, hdd, hs⟩ :=
    refreshDate_correct z hu hc (cacheAfter z ts) t (cacheAfter_ok z ts) ht
  have hsane : c'.date.Sane := ⟨by rw [hy]; exact hd.year, by rw [hm]; exact hd.mon, by rw [hdd]; exact hd.mday⟩
  obtain ⟨h1, h2⟩ := parts_text c'.date hsane s s0 s1 ms hms
  have hout : dateOut c'.date s ms = dateText (civilOf c'.date s) ms := by
    unfold dateOut; rw [if_pos h2, h1]
  have hlen : (dateText (civilOf c'.date s) ms).length = 23 := by rw [← h1, h2]
  obtain ⟨b', hb, hbl, hbt⟩ := writeDate_emits z (cacheAfter z ts) b dst t ms _ _ s c' hr rfl hout.symm
    (by rw [h2]; exact hf)
  rw [hlen] at hb hbt
  refine ⟨b', c', hb, hbl, ?_⟩
  rw [hbt]
  have hcu := hc t
  have huu := hu t t hcu.1 hcu.2
  obtain ⟨_, _, _, _, q1, q2, q3, q4, q5⟩ := huu
  have e : civilOf c'.date s = ⟨((z.localtime t).year + 1900).toNat, ((z.localtime t).mon + 1).toNat,
      (z.localtime t).mday.toNat, (z.localtime t).hour.toNat, (z.localtime t).min.toNat,
      (z.localtime t).sec.toNat⟩ := by
    unfold civilOf
    rw [hy, hm, hdd]
    have e1 : s / 3600 = (z.localtime t).hour := by omega
    have e2 : s % 3600 / 60 = (z.localtime t).min := by omega
    have e3 : s % 60 = (z.localtime t).sec := by omega
    rw [e1, e2, e3]
  rw [e]

/-- The hypotheses hold for the Gregorian calendar with any fixed offset from UTC; a timestamp of 2026
in UTC+8, after a later and an earlier one. -/
example : (fixedZone 28800).Uniform ∧ (fixedZone 28800).Covers ∧
    ((writeDate (fixedZone 28800) (cacheAfter (fixedZone 28800) [1800000000, 1000000000])
        (List.replicate 30 '.') 0 1794800000 417).map (fun r => r.1.take r.2.1)) =
      some "[20261116 11:33:20.417]".toList := by
  refine ⟨fixedZone_uniform _, fixedZone_covers _, by decide +kernel⟩

/-- **C36 is false on days with a clock change**, for a thread that has logged before the change: in a zone that goes from UTC+2
to UTC+1 on 2023-10-29 at 01:00 UTC, after a line of 01:00 local time, 12:00 is printed as 13:00.  Without that line it is right. -/
theorem C36_dst_counterexample :
    let z := changeZone 1698541200 7200 3600
    z.localtime 1698534000 = ⟨123, 9, 29, 1, 0, 0⟩ ∧ z.localtime 1698577200 = ⟨123, 9, 29, 12, 0, 0⟩ ∧
    (writeDate z (cacheAfter z [1698534000]) (List.replicate 30 '.') 0 1698577200 0).map (fun r => r.1.take r.2.1) =
      some "[20231029 13:00:00.000]".toList ∧
    (writeDate z (cacheAfter z []) (List.replicate 30 '.') 0 1698577200 0).map (fun r => r.1.take r.2.1) =
      some "[20231029 12:00:00.000]".toList := by decide +kernel

/-- On a 23-hour day the date itself is wrong if a line from before the change was the last that was looked up: 00:30 of the
next day is printed as 23:30 of the old day (zone UTC+1 to UTC+2 on 2023-03-26 at 01:00 UTC). -/
theorem C36_dst_cache_counterexample :
    let z := changeZone 1679792400 3600 7200
    z.localtime 1679790600 = ⟨123, 2, 26, 1, 30, 0⟩ ∧ z.localtime 1679869800 = ⟨123, 2, 27, 0, 30, 0⟩ ∧
    (writeDate z (cacheAfter z [1679790600]) (List.replicate 30 '.') 0 1679869800 0).map
      (fun r => r.1.take r.2.1) = some "[20230326 23:30:00.000]".toList ∧
    (writeDate z (cacheAfter z []) (List.replicate 30 '.') 0 1679869800 0).map
      (fun r => r.1.take r.2.1) = some "[20230327 00:30:00.000]".toList := by decide +kernel

/-- **C36 is false on the first day of 1970** for a thread that has not formatted a date yet: the zero
cache is taken for valid (in every zone). -/
theorem C36_epoch_counterexample (z : Zone) :
    (writeDate z (cacheAfter z []) (List.replicate 30 '.') 0 0 0).map (fun r => r.1.take r.2.1) =
      some "[19000100 00:00:00.000]".toList := by
  have : refreshDate z DateCache.zero 0 = (DateCache.zero, 0) := by
    unfold refreshDate DateCache.zero
    rw [if_neg (by decide)]; rfl
  unfold writeDate cacheAfter
  rw [List.foldl_nil, this]
  decide +kernel

end FNLog
