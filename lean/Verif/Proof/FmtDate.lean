import Verif.Proof.Fmt

/-! # `write_date_unsafe` and local time -/

namespace FNLog
open Spec

/-- The text of a sequence of date pieces. -/
def piecesText : List (Char ⊕ (Int × Nat)) → List Char
  | [] => []
  | .inl c :: rest => c :: piecesText rest
  | .inr (w, n) :: rest => padLeft w.toNat (numeral 10 n) ++ piecesText rest

/-- All numbers are 64-bit and all widths at most 30. -/
def PiecesOk (l : List (Char ⊕ (Int × Nat))) : Prop :=
  ∀ w n, .inr (w, n) ∈ l → w ≤ 30 ∧ n < 2 ^ 64

theorem datePieces_put (l : List (Char ⊕ (Int × Nat))) : ∀ (b : List Char) (dst : Nat), PiecesOk l →
    dst + (piecesText l).length ≤ b.length →
    datePieces b dst l = some (put b dst (piecesText l), (piecesText l).length) := by
  induction l with
  | nil => intro b dst _ _; simp [datePieces, piecesText, put_nil]
  | cons x rest ih =>
    intro b dst hok hf
    have hok' : PiecesOk rest := fun w n h => hok w n (List.mem_cons_of_mem _ h)
    rcases x with c | ⟨w, n⟩
    · simp only [piecesText, List.length_cons] at hf
      rw [datePieces, writeAt_put (by simp only [List.length_cons, List.length_nil]; omega)]
      simp only [Option.bind_eq_bind, Option.bind_some]
      rw [ih _ _ hok' (by rw [put_length (by simp only [List.length_cons, List.length_nil]; omega)]; omega)]
      simp only [Option.bind_some, piecesText, Option.some.injEq, Prod.mk.injEq]
      constructor
      · exact put_put_right (s := [c]) (by simp only [List.length_append, List.length_cons, List.length_nil]; omega)
      · simp only [List.length_cons]; omega
    · simp only [piecesText, List.length_append] at hf
      obtain ⟨hw, hn⟩ := hok w n (List.mem_cons_self ..)
      rw [datePieces, writeDecU_put w hw b dst n hn (by omega)]
      simp only [Option.bind_eq_bind, Option.bind_some]
      rw [ih _ _ hok' (by rw [put_length (by omega)]; omega)]
      simp only [Option.bind_some, piecesText, Option.some.injEq, Prod.mk.injEq]
      constructor
      · exact put_put_right (by simp only [List.length_append]; omega)
      · simp only [List.length_append]

/-- The pieces written for cached date `d`, second of the day `s` and milliseconds `ms`. -/
def dateParts (d : Tm) (s : Int) (ms : Nat) : List (Char ⊕ (Int × Nat)) :=
  [.inl '[', .inr (4, (toULL d.year + 1900) % 2 ^ 64), .inr (2, (toULL d.mon + 1) % 2 ^ 64),
     .inr (2, toULL d.mday), .inl ' ', .inr (2, toULL s / 3600), .inl ':',
     .inr (2, toULL (s.tmod 3600) / 60), .inl ':', .inr (2, toULL ((s.tmod 3600).tmod 60)), .inl '.',
     .inr (3, if ms ≥ 1000 then 999 else ms), .inl ']']

theorem toULL_lt (x : Int) : toULL x < 2 ^ 64 := by
  unfold toULL
  have h1 := Int.emod_nonneg x (b := 2 ^ 64) (by omega)
  have h2 := Int.emod_lt_of_pos x (b := 2 ^ 64) (by omega)
  omega

theorem toULL_nonneg {x : Int} (h0 : 0 ≤ x) (h1 : x < 2 ^ 64) : toULL x = x.toNat := by
  unfold toULL; rw [Int.emod_eq_of_lt h0 h1]

theorem dateParts_ok (d : Tm) (s : Int) (ms : Nat) : PiecesOk (dateParts d s ms) := by
  intro w n h
  have h3 := toULL_lt s
  have h4 := toULL_lt (s.tmod 3600)
  simp only [dateParts, List.mem_cons, reduceCtorEq, Sum.inr.injEq, Prod.mk.injEq, List.not_mem_nil,
    or_false, false_or] at h
  rcases h with h | h | h | h | h | h | h <;> obtain ⟨hw, hn⟩ := h <;>
    refine ⟨by rw [hw]; decide, ?_⟩ <;> rw [hn]
  · exact Nat.mod_lt _ (by omega)
  · exact Nat.mod_lt _ (by omega)
  · exact toULL_lt _
  · exact Nat.lt_of_le_of_lt (Nat.div_le_self _ _) h3
  · exact Nat.lt_of_le_of_lt (Nat.div_le_self _ _) h4
  · exact toULL_lt _
  · split <;> omega

/-- What `write_date_unsafe` leaves in the buffer: the text of the parts if it has 23 characters, nothing
otherwise. -/
def dateOut (d : Tm) (s : Int) (ms : Nat) : List Char :=
  if (piecesText (dateParts d s ms)).length = 23 then piecesText (dateParts d s ms) else []

/-- With enough room `write_date_unsafe` is defined, whatever the C library answers. -/
theorem writeDate_emits (z : Zone) (c : DateCache) (b : List Char) (dst : Nat) (t : Int) (ms : Nat)
    (text : List Char) (d : Tm) (s : Int) (c' : DateCache) (hr : refreshDate z c t = (c', s))
    (hd : d = c'.date) (ht : text = dateOut d s ms)
    (hf : dst + (piecesText (dateParts d s ms)).length ≤ b.length) :
    ∃ b', writeDate z c b dst t ms = some (b', text.length, c') ∧ b'.length = b.length ∧
      b'.take (dst + text.length) = b.take dst ++ text := by
  subst hd
  unfold writeDate
  rw [hr]
  simp only
  have := datePieces_put _ b dst (dateParts_ok c'.date s ms) hf
  unfold dateParts at this
  rw [this]
  simp only [Option.bind_eq_bind, Option.bind_some]
  have e : [Sum.inl '[', Sum.inr (4, (toULL c'.date.year + 1900) % 2 ^ 64), .inr (2, (toULL c'.date.mon + 1) % 2 ^ 64),
     .inr (2, toULL c'.date.mday), .inl ' ', .inr (2, toULL s / 3600), .inl ':',
     .inr (2, toULL (s.tmod 3600) / 60), .inl ':', .inr (2, toULL ((s.tmod 3600).tmod 60)), .inl '.',
     .inr (3, if ms ≥ 1000 then 999 else ms), .inl ']'] = dateParts c'.date s ms := rfl
  rw [e]
  unfold dateOut at ht
  by_cases hl : (piecesText (dateParts c'.date s ms)).length = 23
  · rw [if_pos hl] at ht
    rw [if_neg (by omega), ht]
    exact ⟨_, rfl, put_length hf, put_take hf⟩
  · rw [if_neg hl] at ht
    rw [if_pos hl, ht]
    refine ⟨_, rfl, put_length hf, ?_⟩
    have h := congrArg (List.take dst) (put_take hf)
    rw [List.take_take, Nat.min_eq_left (by omega)] at h
    simp only [List.length_nil, Nat.add_zero, List.append_nil]
    rw [h, List.take_append_of_le_length (by rw [List.length_take]; omega), List.take_take, Nat.min_self]

theorem padLeft_len_le (w n k : Nat) (hw : w ≤ k + 1) (h : n < 10 ^ (k + 1)) :
    (padLeft w (numeral 10 n)).length ≤ k + 1 := by
  rw [padLeft_length]
  have := numeral_length_le 10 (by omega) k n h
  omega

/-- The local calendar fields lie in their ranges and the year has at most four digits. -/
structure Tm.Sane (d : Tm) : Prop where
  year : -1900 ≤ d.year ∧ d.year < 8100
  mon : 0 ≤ d.mon ∧ d.mon < 12
  mday : 1 ≤ d.mday ∧ d.mday ≤ 31

/-- The local date and time in the terms of the specification. -/
def civilOf (d : Tm) (s : Int) : Civil where
  year := (d.year + 1900).toNat
  month := (d.mon + 1).toNat
  day := d.mday.toNat
  hour := (s / 3600).toNat
  minute := (s % 3600 / 60).toNat
  second := (s % 60).toNat

theorem parts_text (d : Tm) (hd : d.Sane) (s : Int) (h0 : 0 ≤ s) (h1 : s < 86400) (ms : Nat) (hms : ms < 1000) :
    piecesText (dateParts d s ms) = dateText (civilOf d s) ms ∧
      (piecesText (dateParts d s ms)).length = 23 := by
  have ey : (toULL d.year + 1900) % 2 ^ 64 = (d.year + 1900).toNat := by
    have := hd.year
    unfold toULL
    omega
  have em : (toULL d.mon + 1) % 2 ^ 64 = (d.mon + 1).toNat := by
    have := hd.mon
    rw [toULL_nonneg this.1 (by omega)]; omega
  have ed : toULL d.mday = d.mday.toNat := toULL_nonneg (by have := hd.mday; omega) (by have := hd.mday; omega)
  have t1 : s.tmod 3600 = s % 3600 := Int.tmod_eq_emod_of_nonneg h0
  have t2 : (s % 3600).tmod 60 = s % 3600 % 60 := Int.tmod_eq_emod_of_nonneg (by omega)
  have eh : toULL s / 3600 = (s / 3600).toNat := by rw [toULL_nonneg h0 (by omega)]; omega
  have emn : toULL (s.tmod 3600) / 60 = (s % 3600 / 60).toNat := by
    rw [t1, toULL_nonneg (by omega) (by omega)]; omega
  have es : toULL ((s.tmod 3600).tmod 60) = (s % 60).toNat := by
    rw [t1, t2, toULL_nonneg (by omega) (by omega)]; omega
  have ems : (if ms ≥ 1000 then 999 else ms) = ms := if_neg (by omega)
  have hy := hd.year
  have hmo := hd.mon
  have hda := hd.mday
  have heq : piecesText (dateParts d s ms) = dateText (civilOf d s) ms := by
    unfold dateParts
    rw [ey, em, ed, eh, emn, es, ems]
    simp only [piecesText, dateText, civilOf, List.append_assoc, List.cons_append, List.nil_append]
    rfl
  refine ⟨heq, ?_⟩
  rw [heq]
  unfold dateText
  simp only [List.length_append, padLeft_length, List.length_cons, List.length_nil, civilOf]
  have l1 := numeral_length_le 10 (by omega) 3 (d.year + 1900).toNat (by omega)
  have l2 := numeral_length_le 10 (by omega) 1 (d.mon + 1).toNat (by omega)
  have l3 := numeral_length_le 10 (by omega) 1 d.mday.toNat (by omega)
  have l4 := numeral_length_le 10 (by omega) 1 (s / 3600).toNat (by omega)
  have l5 := numeral_length_le 10 (by omega) 1 (s % 3600 / 60).toNat (by omega)
  have l6 := numeral_length_le 10 (by omega) 1 (s % 60).toNat (by omega)
  have l7 := numeral_length_le 10 (by omega) 2 ms (by omega)
  omega

/-! ## Which caches can arise -/

/-- The cache of a thread after writing dates for the timestamps `ts`, in order. -/
def cacheAfter (z : Zone) (ts : List Int) : DateCache :=
  ts.foldl (fun c t => (refreshDate z c t).1) DateCache.zero

/-- Local midnight of the day of `t`, as the code computes it. -/
def Zone.midnight (z : Zone) (t : Int) : Int :=
  z.mktime { z.localtime t with hour := 0, min := 0, sec := 0 } (z.isdst t)

/-- Every local day has 24 hours and `mktime` finds its beginning: no daylight-saving changes. -/
def Zone.Uniform (z : Zone) : Prop :=
  ∀ t u, z.midnight t ≤ u → u < z.midnight t + 86400 →
    (z.localtime u).year = (z.localtime t).year ∧ (z.localtime u).mon = (z.localtime t).mon ∧
    (z.localtime u).mday = (z.localtime t).mday ∧
    (z.localtime u).hour * 3600 + (z.localtime u).min * 60 + (z.localtime u).sec = u - z.midnight t ∧
    0 ≤ (z.localtime u).hour ∧ 0 ≤ (z.localtime u).min ∧ (z.localtime u).min < 60 ∧
    0 ≤ (z.localtime u).sec ∧ (z.localtime u).sec < 60

/-- Every instant lies in its own day. -/
def Zone.Covers (z : Zone) : Prop := ∀ t, z.midnight t ≤ t ∧ t < z.midnight t + 86400

/-- A cache that was filled from some timestamp. -/
def CacheOk (z : Zone) (c : DateCache) : Prop :=
  ∃ t, c.date = z.localtime t ∧ c.timestamp = z.midnight t

theorem refreshDate_ok (z : Zone) (c : DateCache) (t : Int) (h : c = DateCache.zero ∨ CacheOk z c) :
    (refreshDate z c t).1 = DateCache.zero ∨ CacheOk z (refreshDate z c t).1 := by
  unfold refreshDate
  simp only
  split
  · exact Or.inr ⟨t, rfl, rfl⟩
  · exact h

theorem cacheAfter_ok (z : Zone) (ts : List Int) : cacheAfter z ts = DateCache.zero ∨ CacheOk z (cacheAfter z ts) := by
  unfold cacheAfter
  have : ∀ (ts : List Int) (c : DateCache), c = DateCache.zero ∨ CacheOk z c →
      ts.foldl (fun c t => (refreshDate z c t).1) c = DateCache.zero ∨
        CacheOk z (ts.foldl (fun c t => (refreshDate z c t).1) c) := by
    intro ts
    induction ts with
    | nil => intro c h; exact h
    | cons t ts ih => intro c h; exact ih _ (refreshDate_ok z c t h)
  exact this ts _ (Or.inl rfl)

/-- After the refresh the cached date is that of `t` and `day_second` is its second of the day. -/
theorem refreshDate_correct (z : Zone) (hu : z.Uniform) (hc : z.Covers) (c : DateCache) (t : Int)
    (h : c = DateCache.zero ∨ CacheOk z c) (ht : t < 0 ∨ 86400 ≤ t) :
    ∃ c' s, refreshDate z c t = (c', s) ∧ 0 ≤ s ∧ s < 86400 ∧
      c'.date.year = (z.localtime t).year ∧ c'.date.mon = (z.localtime t).mon ∧
      c'.date.mday = (z.localtime t).mday ∧
      s = (z.localtime t).hour * 3600 + (z.localtime t).min * 60 + (z.localtime t).sec := by
  unfold refreshDate
  simp only
  by_cases hd : t - c.timestamp < 0 ∨ t - c.timestamp ≥ 24 * 60 * 60
  · rw [if_pos hd]
    have h1 := hc t
    have h2 := hu t t h1.1 h1.2
    refine ⟨_, _, rfl, ?_, ?_, rfl, rfl, rfl, ?_⟩
    · show 0 ≤ t - z.midnight t; omega
    · show t - z.midnight t < 86400; omega
    · exact h2.2.2.2.1.symm
  · rw [if_neg hd]
    rcases h with rfl | ⟨u, hu1, hu2⟩
    · simp only [DateCache.zero] at hd; omega
    · have h2 := hu u t (by omega) (by omega)
      refine ⟨_, _, rfl, by omega, by omega, ?_, ?_, ?_, ?_⟩
      · rw [hu1]; exact h2.1.symm
      · rw [hu1]; exact h2.2.1.symm
      · rw [hu1]; exact h2.2.2.1.symm
      · rw [hu2]; exact h2.2.2.2.1.symm

/-! ## The proleptic Gregorian calendar with a fixed or varying offset from UTC -/

/-- Year (from March) of a 400-year era and day of that year. -/
def doeSplit (doe : Int) : Int × Int :=
  let c := min (doe / 36524) 3
  let r := doe - c * 36524
  let q := r / 1461
  let r2 := r - q * 1461
  let y := min (r2 / 365) 3
  (100 * c + 4 * q + y, r2 - y * 365)

theorem doeSplit_spec (doe : Int) (h0 : 0 ≤ doe) (h1 : doe < 146097) :
   0 ≤ (doeSplit doe).1 ∧ (doeSplit doe).1 < 400 ∧ 0 ≤ (doeSplit doe).2 ∧ (doeSplit doe).2 ≤ 365 ∧
   (doeSplit doe).1 * 365 + (doeSplit doe).1 / 4 - (doeSplit doe).1 / 100 + (doeSplit doe).2 = doe := by
  unfold doeSplit
  simp only
  generalize hc : min (doe / 36524) 3 = c
  have hc1 : 0 ≤ c ∧ c ≤ 3 := by omega
  have hr : 0 ≤ doe - c * 36524 ∧ doe - c * 36524 ≤ 36524 := by omega
  generalize hre : doe - c * 36524 = r at *
  generalize hq : r / 1461 = q
  have hq1 : 0 ≤ q ∧ q ≤ 24 := by omega
  have hr2 : 0 ≤ r - q * 1461 ∧ r - q * 1461 ≤ 1460 := by omega
  generalize hy : min ((r - q * 1461) / 365) 3 = y
  have hy1 : 0 ≤ y ∧ y ≤ 3 := by omega
  have e1 : (100 * c + 4 * q + y) / 4 = 25 * c + q := by omega
  have e2 : (100 * c + 4 * q + y) / 100 = c := by omega
  rw [e1, e2]
  omega

/-- Calendar date of a day number (days since 1970-01-01). -/
def dateOfDays (n : Int) : Int × Int × Int :=
  let z := n + 719468
  let era := z / 146097
  let ys := doeSplit (z % 146097)
  let mp := (5 * ys.2 + 2) / 153
  let d := ys.2 - (153 * mp + 2) / 5 + 1
  let m := if mp < 10 then mp + 3 else mp - 9
  (ys.1 + era * 400 + (if m ≤ 2 then 1 else 0), m, d)

/-- Day number of a calendar date. -/
def daysOfDate (y m d : Int) : Int :=
  let y := if m ≤ 2 then y - 1 else y
  let era := y / 400
  let yoe := y % 400
  let doy := (153 * (if m > 2 then m - 3 else m + 9) + 2) / 5 + d - 1
  era * 146097 + (yoe * 365 + yoe / 4 - yoe / 100 + doy) - 719468

theorem daysOfDate_dateOfDays (n : Int) :
    daysOfDate (dateOfDays n).1 (dateOfDays n).2.1 (dateOfDays n).2.2 = n := by
  have hz1 := Int.emod_nonneg (n + 719468) (b := 146097) (by omega)
  have hz2 := Int.emod_lt_of_pos (n + 719468) (b := 146097) (by omega)
  have hz3 := Int.mul_ediv_add_emod (n + 719468) 146097
  unfold daysOfDate dateOfDays
  simp only
  obtain ⟨h1, h2, h3, h4, h5⟩ := doeSplit_spec _ hz1 hz2
  generalize (n + 719468) % 146097 = doe at *
  generalize (n + 719468) / 146097 = era at *
  generalize (doeSplit doe).1 = yoe at *
  generalize (doeSplit doe).2 = doy at *
  generalize hmp : (5 * doy + 2) / 153 = mp
  have hmp1 : 0 ≤ mp ∧ mp ≤ 11 := by omega
  by_cases hm : mp < 10
  · simp only [if_pos hm]
    rw [if_neg (by omega), if_neg (by omega), if_pos (by omega)]
    have e1 : (yoe + era * 400 + 0) / 400 = era := by omega
    have e2 : (yoe + era * 400 + 0) % 400 = yoe := by omega
    rw [e1, e2, show mp + 3 - 3 = mp by omega]; omega
  · simp only [if_neg hm]
    rw [if_pos (by omega), if_pos (by omega), if_neg (by omega)]
    have e1 : (yoe + era * 400 + 1 - 1) / 400 = era := by omega
    have e2 : (yoe + era * 400 + 1 - 1) % 400 = yoe := by omega
    rw [e1, e2, show mp - 9 + 9 = mp by omega]; omega

/-- Local time with a fixed offset `o` (seconds east of UTC). -/
def fixedZone (o : Int) : Zone where
  localtime t :=
    let l := t + o
    let d := dateOfDays (l / 86400)
    let s := l % 86400
    ⟨d.1 - 1900, d.2.1 - 1, d.2.2, s / 3600, s % 3600 / 60, s % 60⟩
  isdst _ := false
  mktime tm _ := daysOfDate (tm.year + 1900) (tm.mon + 1) tm.mday * 86400 + tm.hour * 3600 + tm.min * 60 + tm.sec - o

theorem fixedZone_midnight (o t : Int) : (fixedZone o).midnight t = (t + o) / 86400 * 86400 - o := by
  unfold Zone.midnight fixedZone
  simp only
  rw [show (dateOfDays ((t + o) / 86400)).1 - 1900 + 1900 = (dateOfDays ((t + o) / 86400)).1 by omega,
    show (dateOfDays ((t + o) / 86400)).2.1 - 1 + 1 = (dateOfDays ((t + o) / 86400)).2.1 by omega,
    daysOfDate_dateOfDays]
  omega

theorem fixedZone_covers (o : Int) : (fixedZone o).Covers := by
  intro t; rw [fixedZone_midnight]; omega

theorem fixedZone_uniform (o : Int) : (fixedZone o).Uniform := by
  intro t u h1 h2
  rw [fixedZone_midnight] at h1 h2 ⊢
  have : (u + o) / 86400 = (t + o) / 86400 := by omega
  unfold fixedZone
  simp only [this]
  refine ⟨trivial, trivial, trivial, ?_⟩
  omega

/-- A zone that changes its offset from `o1` to `o2` at the instant `at_`; the greater offset is summer time.  `mktime` takes the
time as summer time or not, as `tm_isdst` says (glibc: if the flag does not fit the time, the offset of the nearest time
with that flag is used). -/
def changeZone (at_ o1 o2 : Int) : Zone where
  localtime t := (fixedZone (if t < at_ then o1 else o2)).localtime t
  isdst t := if o1 < o2 then decide (at_ ≤ t) else decide (t < at_)
  mktime tm dst := (fixedZone (if dst then max o1 o2 else min o1 o2)).mktime tm dst

end FNLog
