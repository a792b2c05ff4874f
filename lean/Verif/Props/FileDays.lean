import Verif.Props.File
import Verif.Props.FmtDays
import Verif.Model.FileTime

/-!
# C50 in zones with clock changes

`C50_period_partial` is about zones with a fixed offset.  Here the offset from UTC may change at any times.
-/

namespace FNLog
open Spec

/-- At the time `ts` the clocks are `off ts` seconds ahead of UTC, and `mktime`, which gets the `tm_isdst` of `ts`
(fn_out_file_device.h 256-261), goes back to the beginning of the hour and of the day by this offset.  `wholeHours_changing` says which zones are of
this kind. -/
def ChangingOffset (E : FileEnv) (off : Int → Int) : Prop :=
  ∀ ts, E.createDay ts = ts - (ts + off ts) % 86400 ∧ E.createHour ts = ts - (ts + off ts) % 3600

/-- The open file was created by one of the logs that satisfy `P`. -/
def CreatedBy (P : FileLog → Prop) (s : FileSt) : Prop :=
  ∀ p, s.handle = some p → ∃ l, P l ∧ s.logs DEVICE_LOG_CUR_FILE_CREATE_TIMESTAMP = l.ts

theorem createdBy_step {P : FileLog → Prop} {E : FileEnv} {ch : Int} {d : Device} {log : FileLog} {s s' : FileSt}
    (ho : CreatedBy P s) (hp : P log) (hv : Valid log) (h : fileDevice E ch d log s = some s') : CreatedBy P s' := by
  cases fileDevice_cases h with
  | skipped _ _ _ => exact ho
  | stays path l hh hs hl =>
    intro p hp
    obtain ⟨x, hx, h1⟩ := ho p (writeFile_handle hp).1
    rw [accountFile_eq hv] at hl
    obtain rfl := Option.some.inj hl
    exact ⟨x, hx, (accounted_other (by decide) (by decide)).trans h1⟩
  | long path _ _ _ => intro p hp; exact absurd hp (by nofun)
  | refused path _ _ _ _ => intro p hp; exact absurd hp (by nofun)
  | opens path s1 l ht hf hlen hop hs1 hl =>
    intro p _
    obtain ⟨c, _, _, _, _, f4, _⟩ := openFile_fs hop hs1
    rw [accountFile_eq hv] at hl
    obtain rfl := Option.some.inj hl
    exact ⟨log, hp, (accounted_other (by decide) (by decide)).trans f4⟩

/-- **C50**, where a line goes in any zone with clock changes: to a file whose name was generated from the time of this line
or of an earlier one, and by the clock of that time both are of the same day (with `rolldaily`) or hour (with `rollhourly` alone). -/
theorem C50_creators_clock {E : FileEnv} {ch : Int} {d : Device} {off : Int → Int} (hz : ChangingOffset E off)
    {logs t : List FileLog} {s s' s'' : FileSt} {log : FileLog} (hs : s.handle = none) (hv : ∀ log ∈ logs, Valid log)
    (hv' : Valid log) (h : Runs E ch d s logs t s') (h' : fileDevice E ch d log s' = some s'') (hk : Taken E ch d s' log) :
    ∃ F c, ∃ l ∈ logs ++ [log], fullPath E.proc (E.tm l.ts) E.fuel d ch = some F ∧ s''.fs F = some (c ++ block log) ∧
      (log.short = none → s''.handle = some F) ∧
      (d.cfg.rolldaily ≠ 0 → (l.ts + off l.ts) / 86400 = (log.ts + off l.ts) / 86400) ∧
      (d.cfg.rolldaily = 0 → d.cfg.rollhourly ≠ 0 → (l.ts + off l.ts) / 3600 = (log.ts + off l.ts) / 3600) := by
  obtain ⟨ho, hcr⟩ : Opened E ch d s' ∧ CreatedBy (· ∈ logs) s' :=
    runs_induct (P := fun s => Opened E ch d s ∧ CreatedBy (· ∈ logs) s)
      (fun log hl s s' ho h => ⟨opened_step ho.1 (hv log hl) h, createdBy_step ho.2 hl (hv log hl) h⟩) h
      ⟨opened_closed hs, fun p hp => by rw [hs] at hp; exact absurd hp (by nofun)⟩
  rcases taken_cases h' hv' with ⟨_, hst, path, hh, rfl⟩ | ⟨_, _, path, s1, hf, _, hop, hs1, rfl⟩ | ⟨hn, _⟩
  · obtain ⟨c, ts, hc, _, ht, hf, hd, hh'⟩ := ho path hh
    obtain ⟨l, hl, hlt⟩ := hcr path hh
    obtain rfl : ts = l.ts := ht.symm.trans hlt
    refine ⟨path, c, l, List.mem_append_left _ hl, hf, ?_, fun e => ?_, fun e => ?_, fun e1 e2 => ?_⟩
    · show (writeFile log path s').fs path = _
      rw [writeFile_fs hc, Fs.set_self]
    · exact (writeFile_handle_full e).trans hh
    · have : ¬ ¬ (s'.logs DEVICE_LOG_CUR_FILE_CREATE_DAY ≤ log.ts ∧
          log.ts < s'.logs DEVICE_LOG_CUR_FILE_CREATE_DAY + 86400) := fun x => hst.2.2 (Or.inl ⟨e, x⟩)
      rw [hd, (hz l.ts).1] at this
      omega
    · have : ¬ ¬ (s'.logs DEVICE_LOG_CUR_FILE_CREATE_HOUR ≤ log.ts ∧
          log.ts < s'.logs DEVICE_LOG_CUR_FILE_CREATE_HOUR + 3600) := fun x => hst.2.2 (Or.inr ⟨e1, e2, x⟩)
      rw [hh', (hz l.ts).2] at this
      omega
  · obtain ⟨c, _, f1, f2, _⟩ := openFile_fs hop hs1
    have hc : s1.fs path = some c := by rw [f1, Fs.set_self]
    refine ⟨path, c, log, by simp, hf, ?_, fun e => ?_, fun _ => rfl, fun _ _ => rfl⟩
    · show (writeFile log path s1).fs path = _
      rw [writeFile_fs hc, Fs.set_self]
    · exact (writeFile_handle_full e).trans f2
  · exact absurd hk hn

/-- **C50** in any zone with clock changes: the local day (or hour) of the line is that of the time the name of its file was
generated from, unless a clock change lies between this line and an earlier one less than a day (an hour) apart.
Missing: that case, see `C50_short_day_counterexample`. -/
theorem C50_changes_partial {E : FileEnv} {ch : Int} {d : Device} {off : Int → Int} (hz : ChangingOffset E off)
    {logs t : List FileLog} {s s' s'' : FileSt} {log : FileLog} (hs : s.handle = none) (hv : ∀ log ∈ logs, Valid log)
    (hv' : Valid log) (h : Runs E ch d s logs t s') (h' : fileDevice E ch d log s' = some s'') (hk : Taken E ch d s' log)
    (hd : d.cfg.rolldaily ≠ 0 → ∀ l ∈ logs, l.ts < log.ts + 86400 → log.ts < l.ts + 86400 → off l.ts = off log.ts)
    (hh : d.cfg.rolldaily = 0 → d.cfg.rollhourly ≠ 0 →
      ∀ l ∈ logs, l.ts < log.ts + 3600 → log.ts < l.ts + 3600 → off l.ts = off log.ts) :
    ∃ F c, ∃ l ∈ logs ++ [log], fullPath E.proc (E.tm l.ts) E.fuel d ch = some F ∧ s''.fs F = some (c ++ block log) ∧
      (log.short = none → s''.handle = some F) ∧
      (d.cfg.rolldaily ≠ 0 → (l.ts + off l.ts) / 86400 = (log.ts + off log.ts) / 86400) ∧
      (d.cfg.rolldaily = 0 → d.cfg.rollhourly ≠ 0 → (l.ts + off l.ts) / 3600 = (log.ts + off log.ts) / 3600) := by
  obtain ⟨F, c, l, hl, h1, h2, h3, h4, h5⟩ := C50_creators_clock hz hs hv hv' h h' hk
  refine ⟨F, c, l, hl, h1, h2, h3, fun e => ?_, fun e1 e2 => ?_⟩
  · have g := h4 e
    rcases List.mem_append.mp hl with hl | hl
    · rw [← hd e l hl (by omega) (by omega)]; exact g
    · rw [List.mem_singleton.mp hl] at g ⊢
  · have g := h5 e1 e2
    rcases List.mem_append.mp hl with hl | hl
    · rw [← hh e1 e2 l hl (by omega) (by omega)]; exact g
    · rw [List.mem_singleton.mp hl] at g ⊢

/-- Non-trivial case: the zone of `C50_short_day_counterexample`, on the day of its change, with lines only after the change. -/
theorem C50_case_changes :
    ChangingOffset Demo.spring Demo.springOff ∧
    (∀ l ∈ [Demo.line 8000 "a"], l.ts < (Demo.line 84000 "b").ts + 86400 → (Demo.line 84000 "b").ts < l.ts + 86400 →
      Demo.springOff l.ts = Demo.springOff (Demo.line 84000 "b").ts) ∧
    (fileDeviceAll Demo.spring 0 Demo.daily [Demo.line 8000 "a", Demo.line 84000 "b"] Demo.start).map
      (fun s => (s.handle, s.fs "01.log".toList, s.fs "02.log".toList)) =
      some (some "02.log".toList, some [['a']], some [['b']]) := by
  refine ⟨fun ts => ⟨rfl, rfl⟩, ?_, by kernel_rfl⟩
  intro l hl _ _
  rw [List.mem_singleton.mp hl]
  decide

/-! ## Time zones -/

/-- At the time `t` the clocks are `off t` seconds ahead of UTC, `mktime` takes other times of the same date with the same
`tm_isdst` by the same offset, and the offset does not change inside an hour of the clock. -/
structure WholeHours (z : Zone) (off : Int → Int) : Prop where
  clock : ∀ t, z.localtime t = (fixedZone (off t)).localtime t
  back : ∀ t h m s, z.mktime { z.localtime t with hour := h, min := m, sec := s } (z.isdst t) =
    (fixedZone (off t)).mktime { z.localtime t with hour := h, min := m, sec := s } false
  hours : ∀ t, off (t - (t + off t) % 3600) = off t

theorem fixedZone_back (o t h m s : Int) :
    (fixedZone o).mktime { (fixedZone o).localtime t with hour := h, min := m, sec := s } false =
      (t + o) / 86400 * 86400 + h * 3600 + m * 60 + s - o := by
  unfold fixedZone
  simp only
  rw [show (dateOfDays ((t + o) / 86400)).1 - 1900 + 1900 = (dateOfDays ((t + o) / 86400)).1 by omega,
    show (dateOfDays ((t + o) / 86400)).2.1 - 1 + 1 = (dateOfDays ((t + o) / 86400)).2.1 by omega,
    daysOfDate_dateOfDays]

theorem wholeHours_hour {z : Zone} {off : Int → Int} (h : WholeHours z off) (ts : Int) :
    z.createHour ts = ts - (ts + off ts) % 3600 := by
  have e := h.back ts (z.localtime ts).hour 0 0
  have e' : z.createHour ts = z.mktime { z.localtime ts with hour := (z.localtime ts).hour, min := 0, sec := 0 } (z.isdst ts) := rfl
  rw [e', e, h.clock ts, fixedZone_back]
  have : ((fixedZone (off ts)).localtime ts).hour = (ts + off ts) % 86400 / 3600 := rfl
  rw [this]
  omega

/-- Lines 251-262 in such zones. -/
theorem wholeHours_changing {z : Zone} {off : Int → Int} (h : WholeHours z off) (proc : Proc) (fuel : Nat) :
    ChangingOffset (zoneEnv z proc fuel) off := by
  intro ts
  have e1 := wholeHours_hour h ts
  refine ⟨?_, e1⟩
  show z.createDay ts = _
  have ho := h.hours ts
  obtain ⟨x, hx⟩ : ∃ x, x = ts - (ts + off ts) % 3600 := ⟨_, rfl⟩
  rw [← hx] at ho e1
  have e2 : z.createDay ts = z.mktime { z.localtime x with hour := 0 } (z.isdst x) := by
    unfold Zone.createDay; rw [e1]
  have hm : (z.localtime x).min = 0 := by
    rw [h.clock x, ho]
    show (x + off ts) % 86400 % 3600 / 60 = 0
    omega
  have hs : (z.localtime x).sec = 0 := by
    rw [h.clock x, ho]
    show (x + off ts) % 86400 % 60 = 0
    omega
  have e3 : { z.localtime x with hour := 0 } = { z.localtime x with hour := 0, min := 0, sec := 0 } := by
    generalize z.localtime x = l at hm hs
    cases l
    simp only at hm hs
    rw [hm, hs]
  rw [e2, e3, h.back x 0 0 0, h.clock x, fixedZone_back, ho]
  omega

/-- A zone with one clock change at a full hour and by full hours is of this kind. -/
theorem changeZone_wholeHours (at_ o1 o2 : Int) (h1 : (at_ + o1) % 3600 = 0) (h2 : (at_ + o2) % 3600 = 0) :
    WholeHours (changeZone at_ o1 o2) (fun t => if t < at_ then o1 else o2) := by
  refine ⟨fun t => rfl, fun t h m s => ?_, fun t => ?_⟩
  · have e : (if (changeZone at_ o1 o2).isdst t then max o1 o2 else min o1 o2) = if t < at_ then o1 else o2 :=
      changeZone_offset at_ o1 o2 t
    show (fixedZone (if (changeZone at_ o1 o2).isdst t then max o1 o2 else min o1 o2)).mktime
      { (changeZone at_ o1 o2).localtime t with hour := h, min := m, sec := s } ((changeZone at_ o1 o2).isdst t) = _
    rw [e]
    rfl
  · by_cases h : t < at_
    · rw [if_pos h, if_pos (by omega)]
    · rw [if_neg h, if_neg (by omega)]

/-- The same day number by the offsets of the two times: the same local date. -/
theorem same_date {z : Zone} {off : Int → Int} (h : ∀ t, z.localtime t = (fixedZone (off t)).localtime t) {x y : Int}
    (e : (x + off x) / 86400 = (y + off y) / 86400) : (z.localtime x).year = (z.localtime y).year ∧
      (z.localtime x).mon = (z.localtime y).mon ∧ (z.localtime x).mday = (z.localtime y).mday := by
  rw [h x, h y]
  unfold fixedZone
  simp only [e]
  exact ⟨trivial, trivial, trivial⟩

/-- **C50** for a process in a time zone that changes its clocks by whole hours: the line and the time the name of its file was
generated from have the same local date (with `rolldaily`), and also the same hour (with `rollhourly` alone), unless a clock
change lies between this line and an earlier one less than a day (an hour) apart. -/
theorem C50_zone_partial {z : Zone} {off : Int → Int} (hz : WholeHours z off) {proc : Proc} {fuel : Nat} {ch : Int} {d : Device}
    {logs t : List FileLog} {s s' s'' : FileSt} {log : FileLog} (hs : s.handle = none) (hv : ∀ log ∈ logs, Valid log)
    (hv' : Valid log) (h : Runs (zoneEnv z proc fuel) ch d s logs t s')
    (h' : fileDevice (zoneEnv z proc fuel) ch d log s' = some s'') (hk : Taken (zoneEnv z proc fuel) ch d s' log)
    (hd : d.cfg.rolldaily ≠ 0 → ∀ l ∈ logs, l.ts < log.ts + 86400 → log.ts < l.ts + 86400 → off l.ts = off log.ts)
    (hh : d.cfg.rolldaily = 0 → d.cfg.rollhourly ≠ 0 →
      ∀ l ∈ logs, l.ts < log.ts + 3600 → log.ts < l.ts + 3600 → off l.ts = off log.ts) :
    ∃ F c, ∃ l ∈ logs ++ [log], fullPath proc (z.localtime l.ts) fuel d ch = some F ∧ s''.fs F = some (c ++ block log) ∧
      (log.short = none → s''.handle = some F) ∧
      (d.cfg.rolldaily ≠ 0 ∨ d.cfg.rollhourly ≠ 0 → (z.localtime l.ts).year = (z.localtime log.ts).year ∧
        (z.localtime l.ts).mon = (z.localtime log.ts).mon ∧ (z.localtime l.ts).mday = (z.localtime log.ts).mday) ∧
      (d.cfg.rolldaily = 0 → d.cfg.rollhourly ≠ 0 → (z.localtime l.ts).hour = (z.localtime log.ts).hour) := by
  obtain ⟨F, c, l, hl, h1, h2, h3, h4, h5⟩ :=
    C50_changes_partial (wholeHours_changing hz proc fuel) hs hv hv' h h' hk hd hh
  refine ⟨F, c, l, hl, h1, h2, h3, fun e => same_date hz.clock ?_, fun e1 e2 => ?_⟩
  · by_cases e1 : d.cfg.rolldaily = 0
    · have := h5 e1 (e.resolve_left (fun x => x e1))
      omega
    · exact h4 e1
  · have g := h5 e1 e2
    rw [hz.clock l.ts, hz.clock log.ts]
    show (l.ts + off l.ts) % 86400 / 3600 = (log.ts + off log.ts) % 86400 / 3600
    omega

/-- **C50** is false in zones that change their clocks by half an hour, even if nothing is logged before the change: on Lord
Howe Island the clocks went from 02:00 to 02:30 on 2023-10-01.  For a line of 02:40 the first `mktime` finds 01:30, and with the
30 minutes left in `day` the second one 00:30 instead of midnight; a line of 00:30 of the next day goes into the old file. -/
theorem C50_half_hour_counterexample :
    let z := changeZone 1696087800 37800 39600
    let E := zoneEnv z { name := "test".toList, pid := 1 } 20
    z.localtime 1696088400 = ⟨123, 9, 1, 2, 40, 0⟩ ∧ z.localtime 1696167000 = ⟨123, 9, 2, 0, 30, 0⟩ ∧
    z.localtime (z.createDay 1696088400) = ⟨123, 9, 1, 0, 30, 0⟩ ∧
    (fileDeviceAll E 0 Demo.daily [Demo.line 1696088400 "a", Demo.line 1696167000 "b"] Demo.start).map
      (fun s => (s.handle, s.fs "01.log".toList, s.fs "02.log".toList)) =
      some (some "01.log".toList, some [['a'], ['b']], none) := by
  refine ⟨by decide +kernel, by decide +kernel, by decide +kernel, by kernel_rfl⟩

/-- Non-trivial case of `C50_zone_partial`: central European time, the day after the change to summer time of 2023. -/
theorem C50_case_zone :
    WholeHours (changeZone 1679792400 3600 7200) (fun t => if t < 1679792400 then 3600 else 7200) ∧
    (fileDeviceAll (zoneEnv (changeZone 1679792400 3600 7200) { name := "test".toList, pid := 1 } 20) 0 Demo.daily
      [Demo.line 1679800000 "a", Demo.line 1679869800 "b"] Demo.start).map
      (fun s => (s.handle, s.fs "26.log".toList, s.fs "27.log".toList)) =
      some (some "27.log".toList, some [['a']], some [['b']]) :=
  ⟨changeZone_wholeHours _ _ _ (by decide) (by decide), by kernel_rfl⟩

end FNLog
