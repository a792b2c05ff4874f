import Verif.Props.FmtDays
import Verif.Props.Stream

/-!
# C27 in zones with clock changes
-/

namespace FNLog
open Spec

/-- The date the constructor writes: by the clock of one of the times. -/
theorem dateOut_clock {z : Zone} {off : Int → Int} (hb : ByOffset z off) (ts : List Int) (t : Int)
    (ht : t < 0 ∨ 86400 ≤ t) (hd : ∀ x ∈ t :: ts, ((fixedZone (off x)).localtime t).Sane) (ms : Nat) (hms : ms < 1000) :
    ∃ x, (x = t ∨ x ∈ ts ∧ z.midnight x ≤ t ∧ t < z.midnight x + 86400) ∧
      dateOut (refreshDate z (cacheAfter z ts) t).1.date (refreshDate z (cacheAfter z ts) t).2 ms = clockText (off x) t ms ∧
      (clockText (off x) t ms).length = 23 := by
  obtain ⟨x, c', s, hx, hr, s0, s1, hy, hm, hdd, hs⟩ := refreshDate_clock hb ts t ht
  have hd' : ((fixedZone (off x)).localtime t).Sane := by
    rcases hx with rfl | ⟨hx, _⟩
    · exact hd _ (List.mem_cons_self ..)
    · exact hd x (List.mem_cons_of_mem _ hx)
  have hsane : c'.date.Sane := ⟨by rw [hy]; exact hd'.year, by rw [hm]; exact hd'.mon, by rw [hdd]; exact hd'.mday⟩
  obtain ⟨h1, h2⟩ := parts_text c'.date hsane s s0 s1 ms hms
  have hout : dateOut c'.date s ms = dateText (civilOf c'.date s) ms := by
    unfold dateOut; rw [if_pos h2, h1]
  have hlen : (dateText (civilOf c'.date s) ms).length = 23 := by rw [← h1, h2]
  have hin := fixedZone_covers (off x) t
  obtain ⟨_, _, _, _, q1, q2, q3, q4, q5⟩ := fixedZone_uniform (off x) t t hin.1 hin.2
  have e : dateText (civilOf c'.date s) ms = clockText (off x) t ms := by
    unfold civilOf clockText
    rw [hy, hm, hdd]
    have e1 : s / 3600 = ((fixedZone (off x)).localtime t).hour := by omega
    have e2 : s % 3600 / 60 = ((fixedZone (off x)).localtime t).min := by omega
    have e3 : s % 60 = ((fixedZone (off x)).localtime t).sec := by omega
    rw [e1, e2, e3]
  exact ⟨x, hx, by rw [hr]; exact hout.trans e, by rw [← e]; exact hlen⟩

/-- The constructor, for one cache. -/
theorem ctorPrefix_at {E : Env} (hlib : E.lib.Sane) (hz : E.zone.Sane) (a : PrefixArgs) (ha : a.Ok) (D : List Char) (c : DateCache)
    (hc : CacheFrom E.zone c)
    (hD : dateOut (refreshDate E.zone c a.timestamp).1.date (refreshDate E.zone c a.timestamp).2 a.precise = D) (hl : D.length ≤ 39)
    (hm : a.mask ≠ 0) (r : Rec) (hr : r.content.length = E.N)
    (hroom : r.len + ((fileText a).length + (funcText a).length + 398) ≤ E.N) :
    ∃ r' c', ctorPrefix E a ⟨some r, c⟩ = some ⟨some r', c'⟩ ∧ Wrote E.N r r' (prefixText (prefixFields a D)) := by
  have hpr : ((a.priority.toNat : Nat) : Int) = a.priority := Int.toNat_of_nonneg ha.priority.1
  have hprio := Adds.priority E a.priority.toNat (by have := ha.priority; omega)
  rw [hpr] at hprio
  have rest := (hprio.whenBit a.mask 0x2).comp
    (((Adds.thread E a.thread ha.thread).whenBit a.mask 0x4).comp (((Adds.field E a.name).whenBit a.mask 0x8).comp
    (((Adds.field E a.desc).whenBit a.mask 0x10).comp (((Adds.file hlib hz a ha.line.1 ha.line.2).whenBit a.mask 0x20).comp
    (((Adds.func E a).whenBit a.mask 0x40).comp (Adds.push E [' ']))))))
  have first : ∃ r1 c1, whenBit a.mask 0x1 ⟨some r, c⟩ (prefixDate E a) = some ⟨some r1, c1⟩ ∧ CacheFrom E.zone c1 ∧
      Wrote E.N r r1 (if a.mask &&& 0x1 ≠ 0 then D else []) := by
    unfold FNLog.whenBit
    split
    · obtain ⟨b', e', hbl, ht⟩ := writeDate_emits E.zone c r.content r.len a.timestamp a.precise D _
        (refreshDate E.zone c a.timestamp).2 (refreshDate E.zone c a.timestamp).1 rfl rfl hD.symm (by
          have hb := refreshDate_bounds hz hc a.timestamp
          have := dateParts_length (d := (refreshDate E.zone c a.timestamp).1.date)
            (s := (refreshDate E.zone c a.timestamp).2) a.precise hb.1 hb.2.1 hb.2.2.1 hb.2.2.2.1 hb.2.2.2.2.1 hb.2.2.2.2.2
          omega)
      exact ⟨⟨b', r.len + D.length⟩, (refreshDate E.zone c a.timestamp).1, by simp [prefixDate, e'], refreshDate_ok _ _ _ hc, ⟨by rw [hbl, hr], rfl, by simp only; omega, ht⟩⟩
    · exact ⟨r, c, rfl, hc, .refl hr (by omega)⟩
  obtain ⟨r1, c1, e1, hc1, w1⟩ := first
  have hlen1 : r1.len ≤ r.len + 39 := by
    rw [w1.len]
    split <;> simp <;> omega
  obtain ⟨r2, c2, e2, _, w2⟩ := rest.2 r1 c1 w1.size (by
    have := ha.name; have := ha.desc
    simp only [List.length_cons, List.length_nil]; omega) hc1
  refine ⟨r2, c2, ?_, ?_⟩
  · unfold ctorPrefix
    rw [if_neg hm]
    simp only [Option.bind_eq_bind, e1, Option.bind_some]
    exact e2
  · have ht : prefixText (prefixFields a D) =
        (if a.mask &&& 0x1 ≠ 0 then D else []) ++ ((if a.mask &&& 0x2 ≠ 0 then bracket (priorityText a.priority.toNat) else []) ++
        ((if a.mask &&& 0x4 ≠ 0 then bracket (numeral 10 a.thread) else []) ++
        ((if a.mask &&& 0x8 ≠ 0 then bracket a.name else []) ++ ((if a.mask &&& 0x10 ≠ 0 then bracket a.desc else []) ++
        ((if a.mask &&& 0x20 ≠ 0 then bracket (fileText a ++ [':'] ++ numeral 10 a.line.toNat) else []) ++
        ((if a.mask &&& 0x40 ≠ 0 then ['('] ++ funcText a ++ [')'] else []) ++ [' '])))))) := by
      simp only [prefixText, prefixFields, List.flatMap_cons, List.flatMap_nil, decide_eq_true_eq, List.append_assoc,
        List.append_nil]
    rw [ht]
    exact w1.trans w2

theorem ByOffset.sane {z : Zone} {off : Int → Int} (hb : ByOffset z off) : z.Sane :=
  ⟨fun t => by rw [hb.clock]; exact (fixedZone_sane _).mon t, fun t => by rw [hb.clock]; exact (fixedZone_sane _).mday t,
    fun t => by rw [hb.begins]; exact (fixedZone_sane _).day t⟩

/-- **C27** in any zone with clock changes, whatever times the thread formatted before: the fields selected, in their order; the date and time are
those of the log by the clock of its own time, or by the clock of an earlier line in whose 24 hours it is (see C36). -/
theorem C27_changes (E : Env) (hlib : E.lib.Sane) {off : Int → Int} (hb : ByOffset E.zone off) (dates : List Int)
    (a : PrefixArgs) (ha : a.Ok) (ht : a.timestamp < 0 ∨ 86400 ≤ a.timestamp) (hms : a.precise < 1000)
    (hd : ∀ x ∈ a.timestamp :: dates, ((fixedZone (off x)).localtime a.timestamp).Sane)
    (hm : a.mask ≠ 0) (file : List Char) (hfile : FileField a.file file)
    (hsize : file.length + (funcField a.func).length + 398 ≤ E.N)
    (content : List Char) (hcon : content.length = E.N) :
    ∃ x r c', (x = a.timestamp ∨ x ∈ dates ∧ E.zone.midnight x ≤ a.timestamp ∧ a.timestamp < E.zone.midnight x + 86400) ∧
      ctorPrefix E a ⟨some ⟨content, 0⟩, cacheAfter E.zone dates⟩ = some ⟨some r, c'⟩ ∧
      r.content.length = E.N ∧ r.len ≤ E.N ∧
      r.content.take r.len = prefixText
        [(a.mask.testBit 0, clockText (off x) a.timestamp a.precise),
         (a.mask.testBit 1, bracket (priorityText a.priority.toNat)),
         (a.mask.testBit 2, bracket (numeral 10 a.thread)),
         (a.mask.testBit 3, bracket a.name),
         (a.mask.testBit 4, bracket a.desc),
         (a.mask.testBit 5, bracket (file ++ [':'] ++ numeral 10 a.line.toNat)),
         (a.mask.testBit 6, ['('] ++ funcField a.func ++ [')'])] := by
  obtain ⟨x, hx, hD, hL⟩ := dateOut_clock hb dates a.timestamp ht hd a.precise hms
  have hroom : 0 + ((fileText a).length + (funcText a).length + 398) ≤ E.N := by
    rw [fileText_eq hfile, funcText_eq, Nat.zero_add]; exact hsize
  have hL' : (clockText (off x) a.timestamp a.precise).length ≤ 39 := by rw [hL]; decide
  obtain ⟨r, c', e, w⟩ := ctorPrefix_at hlib hb.sane a ha (clockText (off x) a.timestamp a.precise) (cacheAfter E.zone dates)
    (cacheAfter_ok _ _) hD hL' hm ⟨content, 0⟩ hcon hroom
  refine ⟨x, r, c', hx, e, w.size, w.bound, ?_⟩
  rw [w.text]
  have hbit : ∀ i, decide (a.mask &&& 2 ^ i ≠ 0) = a.mask.testBit i := by
    intro i
    cases hb : a.mask.testBit i with
    | true =>
      refine decide_eq_true fun h0 => ?_
      have h1 : (a.mask &&& 2 ^ i).testBit i = true := by
        rw [Nat.testBit_and, hb, Nat.testBit_two_pow_self]; rfl
      rw [h0, Nat.zero_testBit] at h1
      exact Bool.noConfusion h1
    | false =>
      refine decide_eq_false (fun h0 => h0 (Nat.eq_of_testBit_eq fun j => ?_))
      rw [Nat.testBit_and, Nat.zero_testBit, Nat.testBit_two_pow]
      by_cases hj : i = j
      · rw [← hj, hb]; rfl
      · rw [decide_eq_false hj, Bool.and_false]
  unfold prefixFields
  have b0 := hbit 0; have b1 := hbit 1; have b2 := hbit 2; have b3 := hbit 3
  have b4 := hbit 4; have b5 := hbit 5; have b6 := hbit 6
  simp only [Nat.reducePow] at b0 b1 b2 b3 b4 b5 b6
  rw [b0, b1, b2, b3, b4, b5, b6, fileText_eq hfile, funcText_eq]
  rfl

/-- A case: central European time on the day of the change from summer time in 2023, after a line of the evening before, and after a line of the
same day before the change, whose clock is used. -/
theorem C27_case_change :
    (∀ x ∈ [1698600000, 1698500000, 1698535000],
      ((fixedZone (if x < (1698541200 : Int) then 7200 else 3600)).localtime 1698600000).Sane) ∧
    [[1698500000], [1698535000]].map (fun ts =>
      (ctorPrefix { demoEnv 500 with zone := changeZone 1698541200 7200 3600 } { demoArgs with timestamp := 1698600000 }
        ⟨some ⟨List.replicate 500 '.', 0⟩, cacheAfter (changeZone 1698541200 7200 3600) ts⟩).map
        (fun s => s.data.map fun r => r.content.take r.len)) =
      [some (some "[20231029 18:20:00.417][INFO ][src/net/tcp.cpp:17](send) ".toList),
       some (some "[20231029 19:20:00.417][INFO ][src/net/tcp.cpp:17](send) ".toList)] := by
  refine ⟨?_, by decide +kernel⟩
  intro x hx
  simp only [List.mem_cons, List.not_mem_nil, or_false] at hx
  rcases hx with rfl | rfl | rfl <;> exact ⟨by decide +kernel, by decide +kernel, by decide +kernel⟩

end FNLog
