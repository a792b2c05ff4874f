import Verif.Proof.Stream

/-!
# Days without a clock change
-/

namespace FNLog
open Spec

/-- A point in time on a day of 24 hours: it lies in the 24 hours after the midnight of its day, and in the 24 hours after
another midnight only if that is the midnight of the same day.  In a zone without clock changes this is every point in time. -/
structure Zone.Regular (z : Zone) (t : Int) : Prop where
  own : z.midnight t ≤ t ∧ t < z.midnight t + 86400
  day : ∀ x, z.midnight x ≤ t → t < z.midnight x + 86400 →
    (z.localtime t).year = (z.localtime x).year ∧ (z.localtime t).mon = (z.localtime x).mon ∧
    (z.localtime t).mday = (z.localtime x).mday ∧
    (z.localtime t).hour * 3600 + (z.localtime t).min * 60 + (z.localtime t).sec = t - z.midnight x
  clock : 0 ≤ (z.localtime t).hour ∧ 0 ≤ (z.localtime t).min ∧ (z.localtime t).min < 60 ∧
    0 ≤ (z.localtime t).sec ∧ (z.localtime t).sec < 60

/-- A timestamp that is printed in 23 bytes, of a day without a clock change. -/
def Zone.Printed (z : Zone) (t : Int) (ms : Nat) : Prop := z.Plain t ms ∧ z.Regular t

theorem Zone.Uniform.regular {z : Zone} (hu : z.Uniform) (hc : z.Covers) (t : Int) : z.Regular t := by
  refine ⟨hc t, fun x h1 h2 => ?_, ?_⟩
  · obtain ⟨a, b, c, d, _⟩ := hu x t h1 h2
    exact ⟨a, b, c, d⟩
  · exact (hu t t (hc t).1 (hc t).2).2.2.2.2

theorem dateOut_printed {z : Zone} {t : Int} {ms : Nat} (h : z.Printed t ms) {c : DateCache} (hcc : CacheFrom z c) :
    dateOut (refreshDate z c t).1.date (refreshDate z c t).2 ms = localDate z t ms ∧
      (localDate z t ms).length = 23 := by
  obtain ⟨⟨ht, hd, hms⟩, hreg⟩ := h
  have key : ∃ c' s, refreshDate z c t = (c', s) ∧ 0 ≤ s ∧ s < 86400 ∧ c'.date.year = (z.localtime t).year ∧
      c'.date.mon = (z.localtime t).mon ∧ c'.date.mday = (z.localtime t).mday ∧
      s = (z.localtime t).hour * 3600 + (z.localtime t).min * 60 + (z.localtime t).sec := by
    unfold refreshDate
    simp only
    by_cases hn : t - c.timestamp < 0 ∨ t - c.timestamp ≥ 24 * 60 * 60
    · rw [if_pos hn]
      have h1 := hreg.own
      refine ⟨_, _, rfl, ?_, ?_, rfl, rfl, rfl, ?_⟩
      · show 0 ≤ t - z.midnight t; omega
      · show t - z.midnight t < 86400; omega
      · exact (hreg.day t h1.1 h1.2).2.2.2.symm
    · rw [if_neg hn]
      rcases hcc with rfl | ⟨x, hx1, hx2⟩
      · simp only [DateCache.zero] at hn; omega
      · have h2 := hreg.day x (by omega) (by omega)
        refine ⟨_, _, rfl, by omega, by omega, ?_, ?_, ?_, ?_⟩
        · rw [hx1]; exact h2.1.symm
        · rw [hx1]; exact h2.2.1.symm
        · rw [hx1]; exact h2.2.2.1.symm
        · rw [hx2]; exact h2.2.2.2.symm
  obtain ⟨c', s, hr, s0, s1, hy, hm, hdd, hs⟩ := key
  have hsane : c'.date.Sane := ⟨by rw [hy]; exact hd.year, by rw [hm]; exact hd.mon, by rw [hdd]; exact hd.mday⟩
  obtain ⟨h1, h2⟩ := parts_text c'.date hsane s s0 s1 ms hms
  rw [hr]
  obtain ⟨q1, q2, q3, q4, q5⟩ := hreg.clock
  have e : civilOf c'.date s = localCivil z t := by
    unfold civilOf localCivil
    rw [hy, hm, hdd]
    have e1 : s / 3600 = (z.localtime t).hour := by omega
    have e2 : s % 3600 / 60 = (z.localtime t).min := by omega
    have e3 : s % 60 = (z.localtime t).sec := by omega
    rw [e1, e2, e3]
  have ht : dateText (civilOf c'.date s) ms = localDate z t ms := by rw [e]; rfl
  refine ⟨?_, ?_⟩
  · unfold dateOut; simp only; rw [if_pos h2, h1, ht]
  · rw [← ht, ← h1, h2]

end FNLog
