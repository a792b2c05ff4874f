import Verif.Proof.FloatOf
import Verif.Proof.Amounts
import Verif.Spec.Amounts
import Verif.Props.Stream

/-! # Property theorems C116: percentages and points in time -/

namespace FNLog
open Spec

theorem percent_prints (E : Env) (hlib : E.lib.Sane) (hz : E.zone.Sane) (hu : E.zone.Uniform)
    (hc : E.zone.Covers) (r : Rec) (hr : r.content.length = E.N) (hroom : r.len + 70 < E.N) (dates : List Int) (d : Dbl) :
    Prints E r (cacheAfter E.zone dates) (percentOf d) (percentText ⟨doubleText E.lib, localDate E.zone⟩ (toFloat d)) := by
  have hfine := toFloat_fine d (fun _ _ => True) (fun _ => True)
  have hok : (Prim.percent (toFloat d)).Ok := by
    cases hd : toFloat d with
    | fin neg m e => rw [hd] at hfine; exact hfine
    | _ => trivial
  have hlen : (percentText ⟨doubleText E.lib, localDate E.zone⟩ (toFloat d)).length ≤ 30 := by
    rw [percentText_eq _ hok]
    split
    · decide
    · rw [List.length_append]
      have := doubleText_length E.lib hlib _ (times100_ok hok)
      simp only [List.length_cons, List.length_nil]
      omega
  have ht : percentText ⟨doubleText E.lib, localDate E.zone⟩ (toFloat d) =
      lineText ⟨doubleText E.lib, localDate E.zone⟩ r.len [percentOf d] := by
    simp only [lineText, percentOf, Val.text, List.append_nil]
  exact C25_line_is_the_text_partial E hlib hz hu hc r hr dates [percentOf d] _ ht (by omega) (by
    intro v hv
    rw [List.mem_singleton] at hv
    subst hv
    exact toFloat_fine d _ _)

/-- **C116**, the conversion of the argument (fn_stream.h 30) as modelled is the one of IEEE 754: the nearest `float`, the even one of two. -/
theorem C116_float (neg : Bool) (m : Nat) (e : Int) : FloatOf neg m e (toFloat (.fin neg m e)) := toFloat_floatOf neg m e

/-- One more than `2 ^ 24` is half way between two floats, the even one is below; three more, above. The largest float, and the first number
that is rounded to infinity. -/
example : toFloat (.fin false (2 ^ 24 + 1) 0) = .fin false (2 ^ 23) 1 ∧ toFloat (.fin false (2 ^ 24 + 3) 0) = .fin false (2 ^ 23 + 2) 1 ∧
    toFloat (.fin true (2 ^ 25 - 2) 103) = .fin true (2 ^ 24 - 1) 104 ∧ toFloat (.fin true (2 ^ 25 - 1) 103) = .inf true := by decide +kernel

/-- **C116**, percentages.  `LogPercent(v)` of a number that is not negative prints the percentage with four decimals, cut off, of a
number that is within one part in `2 ^ 24` of `v`.  Missing: the percentage of `v` itself, of numbers below zero, and of infinite ones. -/
theorem C116_percent_partial (E : Env) (hlib : E.lib.Sane) (hz : E.zone.Sane) (hu : E.zone.Uniform)
    (hc : E.zone.Covers) (r : Rec) (hr : r.content.length = E.N) (hroom : r.len + 70 < E.N) (dates : List Int)
    (m k : Nat) (hm : m < 2 ^ 53) :
    ∃ text, PercentOf m k text ∧ Prints E r (cacheAfter E.zone dates) (percentOf (.fin false m (-(k : Int)))) text :=
  ⟨_, percent_text ⟨doubleText E.lib, localDate E.zone⟩ E.lib rfl m k hm, percent_prints E hlib hz hu hc r hr hroom dates _⟩

/-- Three quarters, and a number with more than 24 bits. -/
example : let T : Texts := ⟨doubleText (demoEnv 200).lib, localDate (demoEnv 200).zone⟩
    percentText T (toFloat (.fin false 3 (-2))) = "75%".toList ∧ PercentOf 3 2 "75%".toList ∧
    percentText T (toFloat (.fin false (2 ^ 52 + 12345678901) (-48))) = "1600.0043%".toList := by
  refine ⟨by decide +kernel, Or.inr ⟨750000, ?_⟩, by decide +kernel⟩
  decide +kernel

/-- **C116 is false in general**: `LogPercent(0.29)` prints `28.9999%`, `LogPercent(-0.5)` prints `00.00%`, and so do `0.000001` and minus
infinity. -/
theorem C116_percent_counterexample (E : Env) (hlib : E.lib.Sane) (hz : E.zone.Sane) (hu : E.zone.Uniform)
    (hc : E.zone.Covers) (r : Rec) (hr : r.content.length = E.N) (hroom : r.len + 70 < E.N) (dates : List Int) :
    Prints E r (cacheAfter E.zone dates) (percentOf (.fin false 5224175567749775 (-54))) "28.9999%".toList ∧
    Prints E r (cacheAfter E.zone dates) (percentOf (.fin true 1 (-1))) "00.00%".toList ∧
    Prints E r (cacheAfter E.zone dates) (percentOf (.fin false 4722366482869645 (-72))) "00.00%".toList ∧
    Prints E r (cacheAfter E.zone dates) (percentOf (.inf true)) "00.00%".toList := by
  refine ⟨?_, ?_, ?_, ?_⟩
  · have h := percent_prints E hlib hz hu hc r hr hroom dates (.fin false 5224175567749775 (-54))
    have e := percent_fixed ⟨doubleText E.lib, localDate E.zone⟩ E.lib rfl (m := 9730785) (a := 0) (k := 25) (by decide) (by decide)
      (by decide) 289999 (by decide +kernel)
    rw [show toFloat (.fin false 5224175567749775 (-54)) = .fin false 9730785 (((0 : Nat) : Int) - (25 : Nat)) by decide +kernel, e,
      show fixedPoint false (289999 / 10000) (289999 % 10000) ++ ['%'] = "28.9999%".toList by decide +kernel] at h
    exact h
  · have h := percent_prints E hlib hz hu hc r hr hroom dates (.fin true 1 (-1))
    rw [show toFloat (.fin true 1 (-1)) = .fin true 1 (-1) by decide +kernel] at h
    exact h
  · have h := percent_prints E hlib hz hu hc r hr hroom dates (.fin false 4722366482869645 (-72))
    rw [show toFloat (.fin false 4722366482869645 (-72)) = .fin false 8796093 (-43) by decide +kernel] at h
    simp only [percentText] at h
    rw [if_pos (by decide)] at h
    exact h
  · exact percent_prints E hlib hz hu hc r hr hroom dates (.inf true)

/-- The first of these numbers is the double next to 0.29. -/
example : 5224175567749775 * 100 < 29 * 2 ^ 54 ∧ 29 * 2 ^ 54 < (5224175567749775 + 1) * 100 := by decide

/-! ## Points in time -/

theorem date_cap (E : Env) (s : Strm) (t : Int) {p : Nat} (hp : 1000 ≤ p) :
    streamAll E s [.stamp t p] = streamAll E s [.stamp t 999] := by
  have hw : ∀ c b d, writeDate E.zone c b d t p = writeDate E.zone c b d t 999 := by
    intro c b d
    unfold writeDate
    rw [if_pos hp, if_neg (by decide)]
  simp only [streamAll, List.flatMap_cons, List.flatMap_nil, Val.prims, List.append_nil, execAll, exec, hw]

theorem date_prints (E : Env) (hlib : E.lib.Sane) (hz : E.zone.Sane) (hu : E.zone.Uniform)
    (hc : E.zone.Covers) (r : Rec) (hr : r.content.length = E.N) (hroom : r.len + 70 < E.N) (dates : List Int) (t : Int) (p : Nat)
    (h : E.zone.Plain t p) : Prints E r (cacheAfter E.zone dates) (.stamp t p) (localDate E.zone t p) := by
  have hlen := (dateOut_plain hu hc h (Or.inl rfl : CacheFrom E.zone .zero)).2
  have ht : localDate E.zone t p = lineText ⟨doubleText E.lib, localDate E.zone⟩ r.len [.stamp t p] := by
    simp only [lineText, Val.text, List.append_nil]
  exact C25_line_is_the_text_partial E hlib hz hu hc r hr dates [.stamp t p] _ ht (by omega) (by
    intro v hv
    rw [List.mem_singleton] at hv
    subst hv
    exact h)

/-- **C116**, points in time.  `LogTimestamp(ms)` prints the local date and time of the point `ms` milliseconds after 1970, if that is not
before 1970 or if it is a whole second.  Missing: the others, see below. -/
theorem C116_time_partial (E : Env) (hlib : E.lib.Sane) (hz : E.zone.Sane) (hu : E.zone.Uniform)
    (hc : E.zone.Covers) (r : Rec) (hr : r.content.length = E.N) (hroom : r.len + 70 < E.N) (dates : List Int) (ms : Int)
    (hms : 0 ≤ ms ∨ ms % 1000 = 0) (s : Int) (p : Nat) (he : ms = s * 1000 + p) (h : E.zone.Plain s p) :
    Prints E r (cacheAfter E.zone dates) (stampMs ms) (localDate E.zone s p) := by
  have hp : p < 1000 := h.2.2
  have e1 : ms.tdiv 1000 = s := by
    rcases hms with h | h
    · rw [Int.tdiv_eq_ediv_of_nonneg h]; omega
    · rw [Int.tdiv_eq_ediv_of_dvd (by omega)]; omega
  have e2 : toUInt (ms.tmod 1000) = p := by
    have := Int.mul_tdiv_add_tmod ms 1000
    rw [e1] at this
    unfold toUInt
    rw [show ms.tmod 1000 = (p : Int) by omega]
    omega
  unfold stampMs stampOf
  rw [e1, e2]
  exact date_prints E hlib hz hu hc r hr hroom dates s p h

/-- **C116**, `LogTimestamp(s, p)`: the local date and time of the second `s` with `p` behind the point; anything but 0 to 999 becomes 999. -/
theorem C116_parts (E : Env) (hlib : E.lib.Sane) (hz : E.zone.Sane) (hu : E.zone.Uniform)
    (hc : E.zone.Covers) (r : Rec) (hr : r.content.length = E.N) (hroom : r.len + 70 < E.N) (dates : List Int) (s p : Int)
    (hp : -(2 ^ 31) ≤ p ∧ p < 2 ^ 31) (q : Nat) (hq : (q : Int) = if 0 ≤ p ∧ p < 1000 then p else 999) (h : E.zone.Plain s q) :
    Prints E r (cacheAfter E.zone dates) (stampOf s p) (localDate E.zone s q) := by
  have hd := date_prints E hlib hz hu hc r hr hroom dates s q h
  unfold stampOf
  by_cases hin : 0 ≤ p ∧ p < 1000
  · rw [if_pos hin] at hq
    have : toUInt p = q := by unfold toUInt; omega
    rw [this]
    exact hd
  · rw [if_neg hin] at hq
    have hbig : 1000 ≤ toUInt p := by unfold toUInt; omega
    unfold Prints at hd ⊢
    rw [date_cap E _ s hbig, show (999 : Nat) = q by omega]
    exact hd

/-- **C116 is false in general**: every point before 1970 that is not a whole second is shown as the last millisecond of the second
*after* it. -/
theorem C116_time_counterexample (E : Env) (hlib : E.lib.Sane) (hz : E.zone.Sane) (hu : E.zone.Uniform)
    (hc : E.zone.Covers) (r : Rec) (hr : r.content.length = E.N) (hroom : r.len + 70 < E.N) (dates : List Int) (ms : Int)
    (hneg : ms < 0) (hms : ms % 1000 ≠ 0) (s : Int) (p : Nat) (he : ms = s * 1000 + p) (hp : p < 1000) (h : E.zone.Plain (s + 1) 999) :
    Prints E r (cacheAfter E.zone dates) (stampMs ms) (localDate E.zone (s + 1) 999) := by
  have e0 := Int.mul_tdiv_add_tmod ms 1000
  have e1 : ms.tdiv 1000 = s + 1 := by
    have h1 : ms.tdiv 1000 = -((-ms) / 1000) := by
      rw [← Int.tdiv_eq_ediv_of_nonneg (by omega), Int.neg_tdiv, Int.neg_neg]
    omega
  have h2 : -1000 < ms.tmod 1000 ∧ ms.tmod 1000 < 0 := by omega
  exact (show Prints E r _ (stampOf (ms.tdiv 1000) (ms.tmod 1000)) _ by
    rw [e1]
    exact C116_parts E hlib hz hu hc r hr hroom dates (s + 1) (ms.tmod 1000) (by omega) 999 (by rw [if_neg (by omega)]; rfl) h)

/-- One millisecond before the end of the 30th of December 1969 in a zone of UTC is shown as a point of the 31st. -/
example : localDate (fixedZone 0) (-86401) 999 = "[19691230 23:59:59.999]".toList ∧
    localDate (fixedZone 0) (-86401 + 1) 999 = "[19691231 00:00:00.999]".toList ∧
    (fixedZone 0).Plain (-86401 + 1) 999 ∧ (-86400001 : Int) = -86401 * 1000 + 999 := by
  refine ⟨by decide +kernel, by decide +kernel, ⟨by decide, ⟨?_, ?_, ?_⟩, by decide⟩, by decide⟩ <;> decide +kernel

end FNLog
