import Verif.Props.PrefixDays
import Verif.Props.Amounts

/-!
# C25 and C116 in any zone
-/

namespace FNLog
open Spec

/-- **C25**, for dates of which it is known that they are printed right with every cache. -/
theorem line_of_dates (E : Env) (hlib : E.lib.Sane) (hz : E.zone.Sane) {S : Int → Nat → Prop}
    (hS : ∀ t ms, S t ms → ∀ c, CacheFrom E.zone c →
      dateOut (refreshDate E.zone c t).1.date (refreshDate E.zone c t).2 ms = localDate E.zone t ms)
    (r : Rec) (hr : r.content.length = E.N) (dates : List Int) (vs : List Val)
    (text : List Char) (ht : text = lineText ⟨doubleText E.lib, localDate E.zone⟩ r.len vs)
    (hroom : r.len + text.length + 40 < E.N)
    (hv : ∀ v ∈ vs, Val.All (Val.Fine S (fun n => r.len + text.length + n < E.N)) v) :
    ∃ r' c' r'', streamAll E ⟨some r, cacheAfter E.zone dates⟩ vs = some ⟨some r', c'⟩ ∧
      sealRec E.N r' = some r'' ∧ r''.content.take r''.len = r.content.take r.len ++ text ++ ['\n'] := by
  have hfine := line_fine hv
  have hcc := cacheAfter_ok E.zone dates
  obtain ⟨r', c', e, _, w⟩ := execAll_wrote E hlib hz (vs.flatMap Val.prims) r (cacheAfter E.zone dates) hr
    (by omega) hcc (fun p hp => (hfine p hp).1)
  have hT := lineText_prims ⟨doubleText E.lib, localDate E.zone⟩ vs r.len
  rw [← ht] at hT
  have hfull := putAll_full E ⟨doubleText E.lib, localDate E.zone⟩ (vs.flatMap Val.prims) (cacheAfter E.zone dates)
    r.len hcc ⟨rfl, fun ts ms hm c hc' => hS ts ms ((hfine _ hm).2.1 ts ms rfl) c hc'⟩
    (fun p hp => (hfine p hp).1) (by rw [← hT]; exact hroom)
    (fun n hn => by rw [← hT]; exact (hfine _ hn).2.2 n rfl)
  rw [hfull, ← hT] at w
  obtain ⟨r'', s1, s2, s3, s4, s5⟩ := seal_line (by omega) r' w.size
  refine ⟨r', c', r'', e, s1, ?_⟩
  have hmin : min r'.len (E.N - 2) = r'.len := by have := w.len; omega
  rw [s4, hmin, w.text]

/-- **C25** without timestamps among the values: in every zone. -/
theorem C25_any_zone_partial (E : Env) (hlib : E.lib.Sane) (hz : E.zone.Sane) (r : Rec) (hr : r.content.length = E.N) (dates : List Int)
    (vs : List Val) (text : List Char) (ht : text = lineText ⟨doubleText E.lib, localDate E.zone⟩ r.len vs)
    (hroom : r.len + text.length + 40 < E.N)
    (hv : ∀ v ∈ vs, Val.All (Val.Fine (fun _ _ => False) (fun n => r.len + text.length + n < E.N)) v) :
    ∃ r' c' r'', streamAll E ⟨some r, cacheAfter E.zone dates⟩ vs = some ⟨some r', c'⟩ ∧
      sealRec E.N r' = some r'' ∧ r''.content.take r''.len = r.content.take r.len ++ text ++ ['\n'] :=
  line_of_dates E hlib hz (fun _ _ h => absurd h id) r hr dates vs text ht hroom hv

/-- A point in time on a day without a clock change: in the 24 hours after a midnight only if the clock was the same there. -/
def Zone.Steady (z : Zone) (off : Int → Int) (t : Int) (ms : Nat) : Prop :=
  z.Plain t ms ∧ ∀ x, z.midnight x ≤ t → t < z.midnight x + 86400 → off x = off t

theorem dateOut_steady {z : Zone} {off : Int → Int} (hb : ByOffset z off) {t : Int} {ms : Nat} (h : z.Steady off t ms)
    {c : DateCache} (hc : CacheFrom z c) :
    dateOut (refreshDate z c t).1.date (refreshDate z c t).2 ms = localDate z t ms := by
  obtain ⟨⟨ht, hd, hms⟩, hst⟩ := h
  have hin := fixedZone_covers (off t) t
  have key : ∃ c' s, refreshDate z c t = (c', s) ∧ 0 ≤ s ∧ s < 86400 ∧ c'.date.year = (z.localtime t).year ∧
      c'.date.mon = (z.localtime t).mon ∧ c'.date.mday = (z.localtime t).mday ∧
      s = (z.localtime t).hour * 3600 + (z.localtime t).min * 60 + (z.localtime t).sec := by
    unfold refreshDate
    simp only
    by_cases hn : t - c.timestamp < 0 ∨ t - c.timestamp ≥ 24 * 60 * 60
    · rw [if_pos hn]
      have h1 := hin
      have h2 := fixedZone_uniform (off t) t t h1.1 h1.2
      rw [← hb.begins t] at h1
      refine ⟨_, _, rfl, ?_, ?_, rfl, rfl, rfl, ?_⟩
      · show 0 ≤ t - z.midnight t; omega
      · show t - z.midnight t < 86400; omega
      · show t - z.midnight t = _
        rw [hb.begins t, hb.clock t]
        exact h2.2.2.2.1.symm
    · rw [if_neg hn]
      rcases hc with rfl | ⟨x, hx1, hx2⟩
      · simp only [DateCache.zero] at hn; omega
      · have hw : z.midnight x ≤ t ∧ t < z.midnight x + 86400 := ⟨by omega, by omega⟩
        have hox := hst x hw.1 hw.2
        have hw' := hw
        rw [hb.begins x] at hw'
        have h2 := fixedZone_uniform (off x) x t hw'.1 hw'.2
        refine ⟨_, _, rfl, by omega, by omega, ?_, ?_, ?_, ?_⟩
        · rw [hx1, hb.clock x, hb.clock t, ← hox]; exact h2.1.symm
        · rw [hx1, hb.clock x, hb.clock t, ← hox]; exact h2.2.1.symm
        · rw [hx1, hb.clock x, hb.clock t, ← hox]; exact h2.2.2.1.symm
        · rw [hx2, hb.begins x, hb.clock t, ← hox]; exact h2.2.2.2.1.symm
  obtain ⟨c', s, hr, s0, s1, hy, hm, hdd, hs⟩ := key
  have hsane : c'.date.Sane := ⟨by rw [hy]; exact hd.year, by rw [hm]; exact hd.mon, by rw [hdd]; exact hd.mday⟩
  obtain ⟨h1, h2⟩ := parts_text c'.date hsane s s0 s1 ms hms
  rw [hr]
  obtain ⟨_, _, _, _, q1, q2, q3, q4, q5⟩ := fixedZone_uniform (off t) t t hin.1 hin.2
  rw [← hb.clock t] at q1 q2 q3 q4 q5
  have e : civilOf c'.date s = localCivil z t := by
    unfold civilOf localCivil
    rw [hy, hm, hdd]
    have e1 : s / 3600 = (z.localtime t).hour := by omega
    have e2 : s % 3600 / 60 = (z.localtime t).min := by omega
    have e3 : s % 60 = (z.localtime t).sec := by omega
    rw [e1, e2, e3]
  unfold dateOut
  simp only
  rw [if_pos h2, h1, e]
  rfl

/-- **C25** in zones with clock changes: the timestamps among the values are of days without a change. -/
theorem C25_changes_partial (E : Env) (hlib : E.lib.Sane) {off : Int → Int} (hb : ByOffset E.zone off) (r : Rec) (hr : r.content.length = E.N)
    (dates : List Int) (vs : List Val) (text : List Char) (ht : text = lineText ⟨doubleText E.lib, localDate E.zone⟩ r.len vs)
    (hroom : r.len + text.length + 40 < E.N)
    (hv : ∀ v ∈ vs, Val.All (Val.Fine (E.zone.Steady off) (fun n => r.len + text.length + n < E.N)) v) :
    ∃ r' c' r'', streamAll E ⟨some r, cacheAfter E.zone dates⟩ vs = some ⟨some r', c'⟩ ∧
      sealRec E.N r' = some r'' ∧ r''.content.take r''.len = r.content.take r.len ++ text ++ ['\n'] :=
  line_of_dates E hlib hb.sane (fun _ _ h _ hc => dateOut_steady hb h hc) r hr dates vs text ht hroom hv

/-- **C116**, percentages, in every zone. -/
theorem C116_percent_any_zone_partial (E : Env) (hlib : E.lib.Sane) (hz : E.zone.Sane) (r : Rec) (hr : r.content.length = E.N)
    (hroom : r.len + 70 < E.N) (dates : List Int) (m k : Nat) (hm : m < 2 ^ 53) :
    ∃ text, PercentOf m k text ∧ Prints E r (cacheAfter E.zone dates) (percentOf (.fin false m (-(k : Int)))) text := by
  refine ⟨_, percent_text ⟨doubleText E.lib, localDate E.zone⟩ E.lib rfl m k hm, ?_⟩
  generalize (Dbl.fin false m (-(k : Int))) = d
  have hfine := toFloat_fine d (fun _ _ => True) (fun _ => True)
  have hok : (Prim.percent (toFloat d)).Ok := by
    cases hd : toFloat d with
    | fin neg m e => rw [hd] at hfine; exact hfine
    | _ => trivial
  have hlen : (percentText ⟨doubleText E.lib, localDate E.zone⟩ (toFloat d)).length ≤ 30 := by
    rw [percentText_eq _ hok]
    split
    · decide
    · rw [List.length_append]
      have := doubleText_length E.lib hlib _ (times100_ok hok)
      simp only [List.length_cons, List.length_nil]
      omega
  have ht : percentText ⟨doubleText E.lib, localDate E.zone⟩ (toFloat d) =
      lineText ⟨doubleText E.lib, localDate E.zone⟩ r.len [percentOf d] := by
    simp only [lineText, percentOf, Val.text, List.append_nil]
  exact C25_any_zone_partial E hlib hz r hr dates [percentOf d] _ ht (by omega) (by
    intro v hv
    rw [List.mem_singleton] at hv
    subst hv
    exact toFloat_fine d _ _)

/-- **C116**, points in time, in zones with clock changes, on days without one. -/
theorem C116_time_changes_partial (E : Env) (hlib : E.lib.Sane) {off : Int → Int} (hb : ByOffset E.zone off) (r : Rec)
    (hr : r.content.length = E.N) (hroom : r.len + 70 < E.N) (dates : List Int) (ms : Int)
    (hms : 0 ≤ ms ∨ ms % 1000 = 0) (s : Int) (p : Nat) (he : ms = s * 1000 + p) (h : E.zone.Steady off s p) :
    Prints E r (cacheAfter E.zone dates) (stampMs ms) (localDate E.zone s p) := by
  have hp : p < 1000 := h.1.2.2
  have e1 : ms.tdiv 1000 = s := by
    rcases hms with h | h
    · rw [Int.tdiv_eq_ediv_of_nonneg h]; omega
    · rw [Int.tdiv_eq_ediv_of_dvd (by omega)]; omega
  have e2 : toUInt (ms.tmod 1000) = p := by
    have := Int.mul_tdiv_add_tmod ms 1000
    rw [e1] at this
    unfold toUInt
    rw [show ms.tmod 1000 = (p : Int) by omega]
    omega
  have hlen : (localDate E.zone s p).length ≤ 29 := by
    have := (dateOut_clock hb [] s h.1.1 (by
      intro x hx
      rw [List.mem_singleton] at hx
      subst hx
      rw [← hb.clock]; exact h.1.2.1) p hp)
    obtain ⟨x, _, hx, hl⟩ := this
    rw [dateOut_steady hb h (cacheAfter_ok E.zone [])] at hx
    rw [hx, hl]
    omega
  unfold stampMs stampOf
  rw [e1, e2]
  have ht : localDate E.zone s p = lineText ⟨doubleText E.lib, localDate E.zone⟩ r.len [.stamp s p] := by
    simp only [lineText, Val.text, List.append_nil]
  exact C25_changes_partial E hlib hb r hr dates [.stamp s p] _ ht (by omega) (by
    intro v hv
    rw [List.mem_singleton] at hv
    subst hv
    exact h)

/-- Every point in time more than a day away from the clock change is of a day without one. -/
theorem changeZone_steady {at_ o1 o2 t : Int} {ms : Nat} (h : t + 86400 ≤ at_ ∨ at_ + 86400 ≤ t) (hp : (changeZone at_ o1 o2).Plain t ms) :
    (changeZone at_ o1 o2).Steady (fun t => if t < at_ then o1 else o2) t ms := by
  refine ⟨hp, fun x h1 h2 => ?_⟩
  have hb := (changeZone_byOffset at_ o1 o2).begins x
  rw [hb, fixedZone_midnight] at h1 h2
  generalize (if x < at_ then o1 else o2) = o at h1 h2
  have hx : t - 86400 < x ∧ x < t + 86400 := by omega
  show (if x < at_ then o1 else o2) = if t < at_ then o1 else o2
  rcases h with h | h
  · rw [if_pos (by omega), if_pos (by omega)]
  · rw [if_neg (by omega), if_neg (by omega)]

/-- A case: winter and summer of central European time, around the change of 2023. -/
theorem C25_case_changes : (changeZone 1698541200 7200 3600).Steady (fun t => if t < 1698541200 then 7200 else 3600) 1700000000 417 ∧
    (changeZone 1698541200 7200 3600).Steady (fun t => if t < 1698541200 then 7200 else 3600) 1697000000 417 ∧
    localDate (changeZone 1698541200 7200 3600) 1700000000 417 = "[20231114 23:13:20.417]".toList ∧
    localDate (changeZone 1698541200 7200 3600) 1697000000 417 = "[20231011 06:53:20.417]".toList := by
  refine ⟨changeZone_steady (.inr (by omega)) ⟨.inr (by omega), ⟨?_, ?_, ?_⟩, by omega⟩,
    changeZone_steady (.inl (by omega)) ⟨.inr (by omega), ⟨?_, ?_, ?_⟩, by omega⟩, ?_, ?_⟩ <;> decide +kernel

end FNLog
