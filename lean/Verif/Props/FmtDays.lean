import Verif.Props.Fmt

/-!
# C36 in zones with clock changes

`C36_date_partial` asks for a zone in which every day has 24 hours.  Here the zone is one with any changes of its offset from
UTC, in which `mktime` respects `tm_isdst`: local midnight of a time is computed by the clock of that time.
-/

namespace FNLog
open Spec

/-- At each time `t` the clocks are `off t` seconds ahead of UTC, and `mktime` finds the beginning of the day by the same offset. -/
structure ByOffset (z : Zone) (off : Int → Int) : Prop where
  clock : ∀ t, z.localtime t = (fixedZone (off t)).localtime t
  begins : ∀ t, z.midnight t = (fixedZone (off t)).midnight t

/-- `mktime` with the `tm_isdst` of `t` uses the offset of `t`. -/
theorem changeZone_offset (at_ o1 o2 t : Int) :
    (if (changeZone at_ o1 o2).isdst t then max o1 o2 else min o1 o2) = if t < at_ then o1 else o2 := by
  simp only [changeZone]
  by_cases h : o1 < o2
  · by_cases h' : t < at_
    · have : ¬ at_ ≤ t := by omega
      simp only [if_pos h, if_pos h', this, decide_false, Bool.false_eq_true, if_false]; omega
    · have : at_ ≤ t := by omega
      simp only [if_pos h, if_neg h', this, decide_true, if_true]; omega
  · by_cases h' : t < at_
    · simp only [if_neg h, h', decide_true, if_true]; omega
    · simp only [if_neg h, h', decide_false, Bool.false_eq_true, if_false]; omega

/-- A zone with one clock change is such a zone. -/
theorem changeZone_byOffset (at_ o1 o2 : Int) : ByOffset (changeZone at_ o1 o2) (fun t => if t < at_ then o1 else o2) := by
  refine ⟨fun t => rfl, fun t => ?_⟩
  show (fixedZone (if (changeZone at_ o1 o2).isdst t then max o1 o2 else min o1 o2)).mktime
    { (fixedZone (if t < at_ then o1 else o2)).localtime t with hour := 0, min := 0, sec := 0 }
    ((changeZone at_ o1 o2).isdst t) = _
  rw [changeZone_offset]
  rfl

/-- The cache is empty or was filled from one of the times. -/
theorem cacheAfter_from (z : Zone) (ts : List Int) : cacheAfter z ts = DateCache.zero ∨
    ∃ x ∈ ts, (cacheAfter z ts).date = z.localtime x ∧ (cacheAfter z ts).timestamp = z.midnight x := by
  have key : ∀ (ts : List Int) (c : DateCache) (P : Int → Prop),
      (c = DateCache.zero ∨ ∃ x, P x ∧ c.date = z.localtime x ∧ c.timestamp = z.midnight x) → (∀ x ∈ ts, P x) →
      (ts.foldl (fun c t => (refreshDate z c t).1) c = DateCache.zero ∨
        ∃ x, P x ∧ (ts.foldl (fun c t => (refreshDate z c t).1) c).date = z.localtime x ∧
          (ts.foldl (fun c t => (refreshDate z c t).1) c).timestamp = z.midnight x) := by
    intro ts
    induction ts with
    | nil => intro c P h _; exact h
    | cons t ts ih =>
      intro c P h hP
      refine ih _ P ?_ fun x hx => hP x (List.mem_cons_of_mem _ hx)
      unfold refreshDate
      simp only
      split
      · exact Or.inr ⟨t, hP t (List.mem_cons_self ..), rfl, rfl⟩
      · exact h
  rcases key ts DateCache.zero (· ∈ ts) (Or.inl rfl) fun _ h => h with h | ⟨x, h1, h2, h3⟩
  · exact Or.inl h
  · exact Or.inr ⟨x, h1, h2, h3⟩

/-- After the refresh the cached date and `day_second` are those of `t` by the clock of `t` or of one of the times before. -/
theorem refreshDate_clock {z : Zone} {off : Int → Int} (hb : ByOffset z off) (ts : List Int) (t : Int) (ht : t < 0 ∨ 86400 ≤ t) :
    ∃ x c' s, (x = t ∨ x ∈ ts ∧ z.midnight x ≤ t ∧ t < z.midnight x + 86400) ∧
      refreshDate z (cacheAfter z ts) t = (c', s) ∧ 0 ≤ s ∧ s < 86400 ∧
      c'.date.year = ((fixedZone (off x)).localtime t).year ∧ c'.date.mon = ((fixedZone (off x)).localtime t).mon ∧
      c'.date.mday = ((fixedZone (off x)).localtime t).mday ∧
      s = ((fixedZone (off x)).localtime t).hour * 3600 + ((fixedZone (off x)).localtime t).min * 60 +
        ((fixedZone (off x)).localtime t).sec := by
  have hok := cacheAfter_from z ts
  generalize cacheAfter z ts = c at hok
  unfold refreshDate
  simp only
  by_cases hn : t - c.timestamp < 0 ∨ t - c.timestamp ≥ 24 * 60 * 60
  · rw [if_pos hn]
    have h1 := fixedZone_covers (off t) t
    have h2 := fixedZone_uniform (off t) t t h1.1 h1.2
    rw [← hb.begins t] at h1
    refine ⟨t, _, _, Or.inl rfl, rfl, ?_, ?_, ?_, ?_, ?_, ?_⟩
    · show 0 ≤ t - z.midnight t; omega
    · show t - z.midnight t < 86400; omega
    · rw [hb.clock t]
    · rw [hb.clock t]
    · rw [hb.clock t]
    · show t - z.midnight t = _
      rw [hb.begins t]
      exact h2.2.2.2.1.symm
  · rw [if_neg hn]
    rcases hok with rfl | ⟨x, hx, hx1, hx2⟩
    · simp only [DateCache.zero] at hn; omega
    · have hw : z.midnight x ≤ t ∧ t < z.midnight x + 86400 := ⟨by omega, by omega⟩
      have hw' := hw
      rw [hb.begins x] at hw'
      have h2 := fixedZone_uniform (off x) x t hw'.1 hw'.2
      refine ⟨x, _, _, Or.inr ⟨hx, hw⟩, rfl, by omega, by omega, ?_, ?_, ?_, ?_⟩
      · rw [hx1, hb.clock x]; exact h2.1.symm
      · rw [hx1, hb.clock x]; exact h2.2.1.symm
      · rw [hx1, hb.clock x]; exact h2.2.2.1.symm
      · rw [hx2, hb.begins x]; exact h2.2.2.2.1.symm

/-- The text of the date and time of `t` on a clock that is `o` seconds ahead of UTC. -/
def clockText (o t : Int) (ms : Nat) : List Char :=
  dateText ⟨(((fixedZone o).localtime t).year + 1900).toNat, (((fixedZone o).localtime t).mon + 1).toNat,
    ((fixedZone o).localtime t).mday.toNat, ((fixedZone o).localtime t).hour.toNat, ((fixedZone o).localtime t).min.toNat,
    ((fixedZone o).localtime t).sec.toNat⟩ ms

/-- **C36**, what is printed in any zone with clock changes, outside of the first day of 1970, whatever timestamps `ts` the thread
formatted before: the date and time of `t`, by the clock of `t` itself or by the clock of one of the `ts` whose 24 hours
`t` is in. -/
theorem C36_some_clock {z : Zone} {off : Int → Int} (hb : ByOffset z off) (ts : List Int) (t : Int)
    (ht : t < 0 ∨ 86400 ≤ t) (hd : ∀ x ∈ t :: ts, ((fixedZone (off x)).localtime t).Sane) (ms : Nat) (hms : ms < 1000)
    (b : List Char) (dst : Nat) (hf : dst + 23 ≤ b.length) :
    ∃ x b' c', (x = t ∨ x ∈ ts ∧ z.midnight x ≤ t ∧ t < z.midnight x + 86400) ∧
      writeDate z (cacheAfter z ts) b dst t ms = some (b', 23, c') ∧ b'.length = b.length ∧
      b'.take (dst + 23) = b.take dst ++ clockText (off x) t ms := by
  obtain ⟨x, c', s, hx, hr, s0, s1, hy, hm, hdd, hs⟩ := refreshDate_clock hb ts t ht
  have hd' : ((fixedZone (off x)).localtime t).Sane := by
    rcases hx with rfl | ⟨hx, _⟩
    · exact hd _ (List.mem_cons_self ..)
    · exact hd x (List.mem_cons_of_mem _ hx)
  have hsane : c'.date.Sane := ⟨by rw [hy]; exact hd'.year, by rw [hm]; exact hd'.mon, by rw [hdd]; exact hd'.mday⟩
  obtain ⟨h1, h2⟩ := parts_text c'.date hsane s s0 s1 ms hms
  have hout : dateOut c'.date s ms = dateText (civilOf c'.date s) ms := by
    unfold dateOut; rw [if_pos h2, h1]
  have hlen : (dateText (civilOf c'.date s) ms).length = 23 := by rw [← h1, h2]
  obtain ⟨b', hb', hbl, hbt⟩ := writeDate_emits z (cacheAfter z ts) b dst t ms _ _ s c' hr rfl hout.symm
    (by rw [h2]; exact hf)
  rw [hlen] at hb' hbt
  refine ⟨x, b', c', hx, hb', hbl, ?_⟩
  rw [hbt]
  have hin := fixedZone_covers (off x) t
  obtain ⟨_, _, _, _, q1, q2, q3, q4, q5⟩ := fixedZone_uniform (off x) t t hin.1 hin.2
  have e : civilOf c'.date s = ⟨(((fixedZone (off x)).localtime t).year + 1900).toNat,
      (((fixedZone (off x)).localtime t).mon + 1).toNat, ((fixedZone (off x)).localtime t).mday.toNat,
      ((fixedZone (off x)).localtime t).hour.toNat, ((fixedZone (off x)).localtime t).min.toNat,
      ((fixedZone (off x)).localtime t).sec.toNat⟩ := by
    unfold civilOf
    rw [hy, hm, hdd]
    have e1 : s / 3600 = ((fixedZone (off x)).localtime t).hour := by omega
    have e2 : s % 3600 / 60 = ((fixedZone (off x)).localtime t).min := by omega
    have e3 : s % 60 = ((fixedZone (off x)).localtime t).sec := by omega
    rw [e1, e2, e3]
  rw [e]
  rfl

/-- **C36** in any zone with clock changes: the date text is that of the local date and time of `t`, unless the thread has formatted
another time on the other side of a clock change, with `t` in the 24 hours after its midnight. -/
theorem C36_changes_partial {z : Zone} {off : Int → Int} (hb : ByOffset z off) (ts : List Int) (t : Int)
    (hts : ∀ x ∈ ts, z.midnight x ≤ t → t < z.midnight x + 86400 → off x = off t)
    (ht : t < 0 ∨ 86400 ≤ t) (hd : ∀ x ∈ t :: ts, ((fixedZone (off x)).localtime t).Sane) (ms : Nat) (hms : ms < 1000)
    (b : List Char) (dst : Nat) (hf : dst + 23 ≤ b.length) :
    ∃ b' c', writeDate z (cacheAfter z ts) b dst t ms = some (b', 23, c') ∧ b'.length = b.length ∧
      b'.take (dst + 23) = b.take dst ++ dateText
        ⟨((z.localtime t).year + 1900).toNat, ((z.localtime t).mon + 1).toNat, (z.localtime t).mday.toNat,
          (z.localtime t).hour.toNat, (z.localtime t).min.toNat, (z.localtime t).sec.toNat⟩ ms := by
  obtain ⟨x, b', c', hx, h1, h2, h3⟩ := C36_some_clock hb ts t ht hd ms hms b dst hf
  have e : off x = off t := by
    rcases hx with rfl | ⟨hx, h4, h5⟩
    · rfl
    · exact hts x hx h4 h5
  refine ⟨b', c', h1, h2, ?_⟩
  rw [h3, e, hb.clock t]
  rfl

/-- The exception is one: after a time `x` in whose 24 hours `t` is, `t` is printed by the clock of `x`. -/
theorem C36_old_clock {z : Zone} {off : Int → Int} (hb : ByOffset z off) (x t : Int) (hx : x < 0 ∨ 86400 ≤ x)
    (h1 : z.midnight x ≤ t) (h2 : t < z.midnight x + 86400)
    (hd : ((fixedZone (off x)).localtime t).Sane) (ms : Nat) (hms : ms < 1000)
    (b : List Char) (dst : Nat) (hf : dst + 23 ≤ b.length) :
    ∃ b' c', writeDate z (cacheAfter z [x]) b dst t ms = some (b', 23, c') ∧ b'.length = b.length ∧
      b'.take (dst + 23) = b.take dst ++ clockText (off x) t ms := by
  have hcache : cacheAfter z [x] = ⟨z.localtime x, z.midnight x⟩ := by
    simp only [cacheAfter, List.foldl_cons, List.foldl_nil, refreshDate, DateCache.zero]
    rw [if_pos (by omega)]
    rfl
  have hr : refreshDate z (cacheAfter z [x]) t = (⟨z.localtime x, z.midnight x⟩, t - z.midnight x) := by
    rw [hcache]
    simp only [refreshDate]
    rw [if_neg (by omega)]
  have hw : (fixedZone (off x)).midnight x ≤ t ∧ t < (fixedZone (off x)).midnight x + 86400 := by
    rw [← hb.begins x]; exact ⟨h1, h2⟩
  obtain ⟨hy, hm, hdd, hs, q1, q2, q3, q4, q5⟩ := fixedZone_uniform (off x) x t hw.1 hw.2
  have hsane : (z.localtime x).Sane := by
    rw [hb.clock x]
    exact ⟨by rw [← hy]; exact hd.year, by rw [← hm]; exact hd.mon, by rw [← hdd]; exact hd.mday⟩
  obtain ⟨p1, p2⟩ := parts_text (z.localtime x) hsane (t - z.midnight x) (by omega) (by omega) ms hms
  have hout : dateOut (z.localtime x) (t - z.midnight x) ms = dateText (civilOf (z.localtime x) (t - z.midnight x)) ms := by
    unfold dateOut; rw [if_pos p2, p1]
  have hlen : (dateText (civilOf (z.localtime x) (t - z.midnight x)) ms).length = 23 := by rw [← p1, p2]
  obtain ⟨b', hb', hbl, hbt⟩ := writeDate_emits z (cacheAfter z [x]) b dst t ms _ _ _ _ hr rfl hout.symm
    (by rw [p2]; exact hf)
  rw [hlen] at hb' hbt
  refine ⟨b', _, hb', hbl, ?_⟩
  rw [hbt]
  have e : civilOf (z.localtime x) (t - z.midnight x) = ⟨(((fixedZone (off x)).localtime t).year + 1900).toNat,
      (((fixedZone (off x)).localtime t).mon + 1).toNat, ((fixedZone (off x)).localtime t).mday.toNat,
      ((fixedZone (off x)).localtime t).hour.toNat, ((fixedZone (off x)).localtime t).min.toNat,
      ((fixedZone (off x)).localtime t).sec.toNat⟩ := by
    unfold civilOf
    rw [hb.clock x, hb.begins x, ← hy, ← hm, ← hdd, ← hs]
    generalize (fixedZone (off x)).localtime t = l at *
    have e1 : (l.hour * 3600 + l.min * 60 + l.sec) / 3600 = l.hour := by omega
    have e2 : (l.hour * 3600 + l.min * 60 + l.sec) % 3600 / 60 = l.min := by omega
    have e3 : (l.hour * 3600 + l.min * 60 + l.sec) % 60 = l.sec := by omega
    rw [e1, e2, e3]
  rw [e]
  rfl

/-- Non-trivial case of `C36_changes_partial`: central European time in 2023, on the day of the change from summer time, after a
line of the evening before; and on the day after it. -/
theorem C36_case_change :
    (∀ x ∈ [(1698500000 : Int)], (changeZone 1698541200 7200 3600).midnight x ≤ 1698600000 →
      1698600000 < (changeZone 1698541200 7200 3600).midnight x + 86400 →
      (if x < 1698541200 then (7200 : Int) else 3600) = if (1698600000 : Int) < 1698541200 then 7200 else 3600) ∧
    ((changeZone 1698541200 7200 3600).localtime 1698600000).Sane ∧
    (writeDate (changeZone 1698541200 7200 3600) (cacheAfter (changeZone 1698541200 7200 3600) [1698500000])
        (List.replicate 30 '.') 0 1698600000 5).map (fun r => r.1.take r.2.1) = some "[20231029 18:20:00.005]".toList ∧
    (writeDate (changeZone 1698541200 7200 3600) (cacheAfter (changeZone 1698541200 7200 3600) [1698500000, 1698600000])
        (List.replicate 30 '.') 0 1698670000 5).map (fun r => r.1.take r.2.1) = some "[20231030 13:46:40.005]".toList := by
  refine ⟨by decide +kernel, ⟨by decide +kernel, by decide +kernel, by decide +kernel⟩, by decide +kernel, by decide +kernel⟩

end FNLog
