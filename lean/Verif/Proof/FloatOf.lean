import Verif.Spec.Amounts
import Verif.Model.Amounts

/-! # The conversion of a double to a float -/

namespace FNLog
open Spec

theorem roundShift_nearest (n s : Nat) (hs : s ≠ 0) : NearestEven n s (roundShift n s) := by
  obtain ⟨k, rfl⟩ : ∃ k, s = k + 1 := ⟨s - 1, by omega⟩
  unfold roundShift NearestEven
  simp only [Nat.add_sub_cancel, if_neg hs, Nat.pow_succ]
  have h := Nat.div_add_mod n (2 ^ k * 2)
  have hlt : n % (2 ^ k * 2) < 2 ^ k * 2 := Nat.mod_lt _ (by have := Nat.two_pow_pos k; omega)
  generalize n % (2 ^ k * 2) = r at *
  generalize n / (2 ^ k * 2) = q at *
  generalize 2 ^ k = w at *
  have e1 : 2 * q * (w * 2) = 2 * (w * 2 * q) := by rw [Nat.mul_assoc, Nat.mul_comm q]
  have e2 : 2 * (q + 1) * (w * 2) = 2 * (w * 2 * q) + 2 * (w * 2) := by rw [Nat.mul_assoc, Nat.mul_comm (q + 1), Nat.mul_add]; omega
  split
  · rw [e2]
    refine ⟨by omega, by omega, fun h => by omega⟩
  · rw [e1]
    refine ⟨by omega, by omega, fun h => by omega⟩

theorem log2_lt_pow {m k : Nat} (h : Nat.log2 m < k) : m < 2 ^ k := by
  by_cases hm : m = 0
  · rw [hm]; exact Nat.two_pow_pos k
  · exact (Nat.log2_lt hm).mp h

theorem log2_mul_two_pow {m : Nat} (h : m ≠ 0) (k : Nat) : Nat.log2 (m * 2 ^ k) = Nat.log2 m + k := by
  induction k with
  | zero => simp
  | succ k ih =>
    have h0 : m * 2 ^ k ≠ 0 := Nat.mul_ne_zero h (Nat.pos_iff_ne_zero.mp (Nat.two_pow_pos k))
    rw [Nat.pow_succ, ← Nat.mul_assoc, Nat.mul_comm _ 2, Nat.log2_two_mul h0, ih]
    rfl

theorem roundShift_le24 (n s : Nat) (h : Nat.log2 n ≤ s + 23) : roundShift n s ≤ 2 ^ 24 := by
  have h1 : n < 2 ^ (s + 24) := log2_lt_pow (by omega)
  unfold roundShift
  simp only
  split
  · rename_i hs; subst hs; exact Nat.le_of_lt (by simpa using h1)
  · have : n / 2 ^ s < 2 ^ 24 := by
      rw [Nat.div_lt_iff_lt_mul (Nat.two_pow_pos s), ← Nat.pow_add, Nat.add_comm]
      exact h1
    split <;> omega

theorem toFloat_floatOf (neg : Bool) (m : Nat) (e : Int) : FloatOf neg m e (toFloat (.fin neg m e)) := by
  unfold FloatOf
  simp only
  obtain ⟨p, hp⟩ : ∃ p, p = max (Nat.log2 m + e - 23) (-149) := ⟨_, rfl⟩
  have hs : floatShift m e = (p - e).toNat := by unfold floatShift; rw [hp]
  rw [← hp]
  simp only [toFloat, hs]
  by_cases hle : p ≤ e
  · -- exact
    have h0 : (p - e).toNat = 0 := by omega
    have hm : m < 2 ^ 24 := log2_lt_pow (by omega)
    refine ⟨m * 2 ^ (e - p).toNat, by rw [if_pos hle], ?_⟩
    rw [h0]
    have hr : roundShift m 0 = m := by simp [roundShift]
    rw [hr]
    simp only [Int.natCast_zero, Int.add_zero]
    have hc : (m * 2 ^ (e - p).toNat ≠ 0 ∧ (128 : Int) ≤ (Nat.log2 (m * 2 ^ (e - p).toNat) : Nat) + p) ↔
        (m ≠ 0 ∧ (128 : Int) ≤ (Nat.log2 m : Nat) + e) := by
      by_cases hm0 : m = 0
      · simp [hm0]
      · have h1 : m * 2 ^ (e - p).toNat ≠ 0 := Nat.mul_ne_zero hm0 (Nat.pos_iff_ne_zero.mp (Nat.two_pow_pos _))
        rw [log2_mul_two_pow hm0]
        constructor
        · rintro ⟨_, h⟩; exact ⟨hm0, by omega⟩
        · rintro ⟨_, h⟩; exact ⟨h1, by omega⟩
    unfold packFloat
    by_cases hbig : m ≠ 0 ∧ (128 : Int) ≤ (Nat.log2 m : Nat) + e
    · rw [if_pos hbig, if_pos (hc.mpr hbig)]
    · rw [if_neg hbig, if_neg (fun h => hbig (hc.mp h)), if_neg (by omega)]
      exact ⟨m, e, rfl, hm, hle, rfl⟩
  · -- rounded
    have hs0 : (p - e).toNat ≠ 0 := by omega
    have e1 : e + ((p - e).toNat : Int) = p := by omega
    refine ⟨roundShift m (p - e).toNat, by rw [if_neg hle]; exact roundShift_nearest _ _ hs0, ?_⟩
    rw [e1]
    have hq : roundShift m (p - e).toNat ≤ 2 ^ 24 := roundShift_le24 _ _ (by omega)
    generalize roundShift m (p - e).toNat = q at hq
    unfold packFloat
    split
    · rfl
    · by_cases h24 : q = 2 ^ 24
      · rw [if_pos h24]
        refine ⟨2 ^ 23, p + 1, rfl, by decide, by omega, ?_⟩
        rw [show (p + 1 - p).toNat = 1 by omega, h24]
      · rw [if_neg h24]
        refine ⟨q, p, rfl, by omega, Int.le_refl _, ?_⟩
        rw [Int.sub_self]; simp

end FNLog
