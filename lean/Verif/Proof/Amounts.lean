import Verif.Model.Amounts
import Verif.Proof.Stream

/-! # Conversion of doubles to floats, and the percentages -/

namespace FNLog
open Spec

theorem roundShift_near (n s : Nat) (hs : 0 < s) :
    2 * (roundShift n s * 2 ^ s) ≤ 2 * n + 2 ^ s ∧ 2 * n ≤ 2 * (roundShift n s * 2 ^ s) + 2 ^ s := by
  obtain ⟨t, rfl⟩ : ∃ t, s = t + 1 := ⟨s - 1, by omega⟩
  unfold roundShift
  simp only
  rw [if_neg (by omega), show t + 1 - 1 = t from rfl]
  have hd := Nat.div_add_mod n (2 ^ (t + 1))
  have hl := Nat.mod_lt n (Nat.pow_pos (n := t + 1) (by omega : 0 < 2))
  have hp : 2 ^ (t + 1) = 2 * 2 ^ t := by rw [Nat.pow_succ, Nat.mul_comm]
  rw [hp] at hd hl ⊢
  obtain ⟨q, eq⟩ : ∃ q, q = n / (2 * 2 ^ t) := ⟨_, rfl⟩
  obtain ⟨r, er⟩ : ∃ r, r = n % (2 * 2 ^ t) := ⟨_, rfl⟩
  rw [← eq, ← er] at hd
  rw [← er] at hl
  rw [← eq, ← er]
  split
  · next h =>
    have : (q + 1) * (2 * 2 ^ t) = 2 * 2 ^ t * q + 2 * 2 ^ t := by rw [Nat.add_mul, Nat.one_mul, Nat.mul_comm]
    rw [this]
    rcases h with h | h <;> omega
  · next h =>
    have : q * (2 * 2 ^ t) = 2 * 2 ^ t * q := Nat.mul_comm _ _
    rw [this]
    omega

theorem roundShift_le {n s j : Nat} (h : n ≤ j * 2 ^ s) : roundShift n s ≤ j := by
  by_cases hs : s = 0
  · subst hs
    unfold roundShift
    simp only [if_true]
    omega
  · have := (roundShift_near n s (by omega)).1
    have hlt : roundShift n s < j + 1 := by
      apply Nat.lt_of_mul_lt_mul_right (a := 2 ^ s)
      have hp : 0 < 2 ^ s := Nat.pow_pos (by omega)
      rw [Nat.add_mul, Nat.one_mul]
      omega
    omega

/-- The float that `packFloat` makes has the same value, if it is not infinite. -/
theorem packFloat_fin {neg : Bool} {m : Nat} {a k : Nat} (hm : m ≤ 2 ^ 24) (ha : a < k + 100) :
    ∃ m2 a2 : Nat, packFloat neg m ((a : Int) - k) = .fin neg m2 ((a2 : Int) - k) ∧ m2 < 2 ^ 24 ∧
      m2 * 2 ^ a2 = m * 2 ^ a := by
  unfold packFloat
  have hlog : Nat.log2 m ≤ 24 := by
    by_cases h0 : m = 0
    · subst h0; decide
    · have := (Nat.log2_lt h0 (k := 25)).mpr (by omega)
      omega
  rw [if_neg (by omega)]
  split
  · next h =>
    subst h
    refine ⟨2 ^ 23, a + 1, ?_, by decide, ?_⟩
    · rw [show ((a : Int) - k + 1) = ((a + 1 : Nat) : Int) - k by omega]
    · rw [Nat.pow_succ 2 a, Nat.pow_succ 2 23, Nat.mul_assoc, Nat.mul_comm 2]
  · exact ⟨m, a, rfl, by omega, rfl⟩

theorem below_shift (m a k j : Nat) : below m ((a : Int) - k) j = decide (m * 2 ^ a * 10 ^ j < 2 ^ k) := by
  unfold below
  rw [decide_eq_decide]
  by_cases h : k ≤ a
  · obtain ⟨d, rfl⟩ : ∃ d, a = k + d := ⟨a - k, by omega⟩
    rw [show (((k + d : Nat) : Int) - k).toNat = d by omega, show (-(((k + d : Nat) : Int) - k)).toNat = 0 by omega,
      Nat.pow_zero, Nat.pow_add]
    have : m * (2 ^ k * 2 ^ d) * 10 ^ j = (m * 10 ^ j * 2 ^ d) * 2 ^ k := by ac_rfl
    rw [this]
    have hp : 0 < 2 ^ k := Nat.pow_pos (by omega)
    constructor
    · intro h
      have := (Nat.mul_lt_mul_right hp).mpr h
      rwa [Nat.one_mul] at this
    · intro h
      apply (Nat.mul_lt_mul_right hp).mp
      rwa [Nat.one_mul]
  · obtain ⟨d, rfl⟩ : ∃ d, k = a + d := ⟨k - a, by omega⟩
    rw [show ((a : Int) - (a + d : Nat)).toNat = 0 by omega, show (-((a : Int) - (a + d : Nat))).toNat = d by omega,
      Nat.pow_zero, Nat.pow_add, Nat.mul_one]
    have : m * 2 ^ a * 10 ^ j = 2 ^ a * (m * 10 ^ j) := by ac_rfl
    rw [this]
    exact (Nat.mul_lt_mul_left (Nat.pow_pos (by omega))).symm

theorem upTo2_shift (m a k j : Nat) : upTo2 m ((a : Int) - k) j = decide (m * 2 ^ a ≤ 2 ^ j * 2 ^ k) := by
  unfold upTo2
  rw [decide_eq_decide]
  by_cases h : k ≤ a
  · obtain ⟨d, rfl⟩ : ∃ d, a = k + d := ⟨a - k, by omega⟩
    rw [show (((k + d : Nat) : Int) - k).toNat = d by omega, show (-(((k + d : Nat) : Int) - k)).toNat = 0 by omega,
      Nat.pow_zero, Nat.pow_add, Nat.mul_one]
    have : m * (2 ^ k * 2 ^ d) = (m * 2 ^ d) * 2 ^ k := by ac_rfl
    rw [this]
    exact (Nat.mul_le_mul_right_iff (Nat.pow_pos (by omega))).symm
  · obtain ⟨d, rfl⟩ : ∃ d, k = a + d := ⟨k - a, by omega⟩
    rw [show ((a : Int) - (a + d : Nat)).toNat = 0 by omega, show (-((a : Int) - (a + d : Nat))).toNat = d by omega,
      Nat.pow_zero, Nat.pow_add, Nat.mul_one]
    have : 2 ^ j * (2 ^ a * 2 ^ d) = (2 ^ j * 2 ^ d) * 2 ^ a := by ac_rfl
    rw [this]
    exact (Nat.mul_le_mul_right_iff (Nat.pow_pos (by omega))).symm

theorem dblInt_shift (m a k : Nat) : dblInt m ((a : Int) - k) = m * 2 ^ a / 2 ^ k := by
  unfold dblInt
  by_cases h : k ≤ a
  · obtain ⟨d, rfl⟩ : ∃ d, a = k + d := ⟨a - k, by omega⟩
    rw [if_pos (by omega), show (((k + d : Nat) : Int) - k).toNat = d by omega, Nat.pow_add]
    have : m * (2 ^ k * 2 ^ d) = (m * 2 ^ d) * 2 ^ k := by ac_rfl
    rw [this, Nat.mul_div_cancel _ (Nat.pow_pos (by omega))]
  · obtain ⟨d, rfl⟩ : ∃ d, k = a + d := ⟨k - a, by omega⟩
    rw [if_neg (by omega), show (-((a : Int) - (a + d : Nat))).toNat = d by omega, Nat.pow_add, Nat.mul_comm (2 ^ a),
      Nat.mul_div_mul_right _ _ (Nat.pow_pos (by omega))]

theorem dblFrac_shift {m : Nat} (a k : Nat) (hm : m * 10000 < 2 ^ 53) :
    dblFrac m ((a : Int) - k) = m * 2 ^ a % 2 ^ k * 10000 / 2 ^ k := by
  unfold dblFrac
  by_cases h : k ≤ a
  · obtain ⟨d, rfl⟩ : ∃ d, a = k + d := ⟨a - k, by omega⟩
    rw [if_pos (by omega), Nat.pow_add]
    have : m * (2 ^ k * 2 ^ d) = (m * 2 ^ d) * 2 ^ k := by ac_rfl
    rw [this, Nat.mul_mod_left, Nat.zero_mul, Nat.zero_div]
  · obtain ⟨d, rfl⟩ : ∃ d, k = a + d := ⟨k - a, by omega⟩
    rw [if_neg (by omega), show (-((a : Int) - (a + d : Nat))).toNat = d by omega, Nat.pow_add, Nat.mul_comm (2 ^ a),
      Nat.mul_mod_mul_right, Nat.mul_right_comm, Nat.mul_div_mul_right _ _ (Nat.pow_pos (by omega))]
    congr 1
    unfold round53
    have hx : m % 2 ^ d * 10000 < 2 ^ 53 :=
      Nat.lt_of_le_of_lt (Nat.mul_le_mul_right _ (Nat.mod_le m (2 ^ d))) hm
    rw [if_pos hx]

/-- What is printed for a float that is not below a millionth and not above `2 ^ 53`: its value in millionths,
rounded towards zero. -/
theorem percent_fixed (T : Texts) (lib : Libc) (hT : T.dbl = doubleText lib) {m a k : Nat} (hm : m < 2 ^ 24)
    (hlo : 2 ^ k ≤ m * 2 ^ a * 10 ^ 6) (hhi : m * 2 ^ a * 100 ≤ 2 ^ 60 * 2 ^ k) (P : Nat) (hP : P = m * 2 ^ a * 10 ^ 6 / 2 ^ k) :
    percentText T (.fin false m ((a : Int) - k)) = fixedPoint false (P / 10000) (P % 10000) ++ ['%'] := by
  have h6 : below m ((a : Int) - k) 6 = false := by rw [below_shift]; simp only [decide_eq_false_iff_not]; omega
  have h4 : below (m * 100) ((a : Int) - k) 4 = false := by
    rw [below_shift, decide_eq_false_iff_not]
    have : m * 100 * 2 ^ a * 10 ^ 4 = m * 2 ^ a * 10 ^ 6 := by
      rw [show 10 ^ 6 = 100 * 10 ^ 4 from rfl]; ac_rfl
    omega
  have h60 : upTo2 (m * 100) ((a : Int) - k) 60 = true := by
    rw [upTo2_shift, decide_eq_true_iff, Nat.mul_right_comm]
    exact hhi
  simp only [percentText]
  rw [if_neg (by rw [h6]; simp), hT, doubleText_fixed lib false (by omega) h4 h60, dblInt_shift, dblFrac_shift a k (by omega)]
  have hp : 0 < 2 ^ k := Nat.pow_pos (by omega)
  obtain ⟨x, ex⟩ : ∃ x, x = m * 100 * 2 ^ a := ⟨_, rfl⟩
  have hPx : P = x * 10000 / 2 ^ k := by
    have : m * 2 ^ a * 10 ^ 6 = x * 10000 := by
      rw [ex, show 10 ^ 6 = 100 * 10000 from rfl]; ac_rfl
    rw [hP, this]
  rw [← ex]
  have hf : x % 2 ^ k * 10000 / 2 ^ k < 10000 := by
    rw [Nat.div_lt_iff_lt_mul hp, Nat.mul_comm 10000]
    exact (Nat.mul_lt_mul_right (by omega)).mpr (Nat.mod_lt _ hp)
  have hsum : P = x / 2 ^ k * 10000 + x % 2 ^ k * 10000 / 2 ^ k := by
    rw [hPx]
    have hd := Nat.div_add_mod x (2 ^ k)
    obtain ⟨q, eq⟩ : ∃ q, q = x / 2 ^ k := ⟨_, rfl⟩
    obtain ⟨r, er⟩ : ∃ r, r = x % 2 ^ k := ⟨_, rfl⟩
    rw [← eq, ← er] at hd ⊢
    rw [← hd, Nat.add_mul, Nat.mul_assoc, Nat.mul_comm (2 ^ k), Nat.add_comm, Nat.add_mul_div_right _ _ hp, Nat.add_comm]
  obtain ⟨f, ef⟩ : ∃ f, f = x % 2 ^ k * 10000 / 2 ^ k := ⟨_, rfl⟩
  obtain ⟨i, ei⟩ : ∃ i, i = x / 2 ^ k := ⟨_, rfl⟩
  rw [← ef] at hf hsum ⊢
  rw [← ei] at hsum ⊢
  rw [show P / 10000 = i by omega, show P % 10000 = f by omega]

/-- The shift of a number that is not too small. -/
theorem floatShift_normal {m k : Nat} (h : k ≤ Nat.log2 m + 126) :
    floatShift m (-(k : Int)) = Nat.log2 m - 23 := by
  unfold floatShift
  omega

theorem floatShift_small {m k : Nat} (h : Nat.log2 m + 126 < k) :
    (floatShift m (-(k : Int)) = k - 149) := by
  unfold floatShift
  omega

/-- A float that is not too small is off by one part in `2 ^ 24` at most. -/
theorem round_rel (m : Nat) :
    roundShift m (Nat.log2 m - 23) * 2 ^ (Nat.log2 m - 23) * 2 ^ 24 ≤ m * (2 ^ 24 + 1) ∧
    m * (2 ^ 24 - 1) ≤ roundShift m (Nat.log2 m - 23) * 2 ^ (Nat.log2 m - 23) * 2 ^ 24 := by
  by_cases hs : Nat.log2 m - 23 = 0
  · rw [hs]
    unfold roundShift
    simp only [if_true, Nat.pow_zero, Nat.mul_one]
    omega
  · have hn := roundShift_near m (Nat.log2 m - 23) (by omega)
    have h0 : m ≠ 0 := by rintro rfl; exact hs (by decide)
    have hl : 2 ^ (Nat.log2 m - 23) * 2 ^ 23 ≤ m := by
      rw [← Nat.pow_add, show Nat.log2 m - 23 + 23 = Nat.log2 m by omega]
      exact Nat.log2_self_le h0
    obtain ⟨y, ey⟩ : ∃ y, y = roundShift m (Nat.log2 m - 23) * 2 ^ (Nat.log2 m - 23) := ⟨_, rfl⟩
    obtain ⟨u, eu⟩ : ∃ u, u = 2 ^ (Nat.log2 m - 23) := ⟨_, rfl⟩
    rw [← ey] at hn ⊢
    rw [← eu] at hn hl
    omega

theorem numLo {m y w : Nat} (h : m * (2 ^ 24 - 1) ≤ y * 2 ^ 24) (hb : y * 10 ^ 6 < w) :
    m * 10 ^ 6 * (2 ^ 24 - 1) < 2 ^ 24 * w := by
  rw [Nat.mul_right_comm]
  have h1 := Nat.mul_le_mul_right (10 ^ 6) h
  refine Nat.lt_of_le_of_lt h1 ?_
  rw [Nat.mul_right_comm, Nat.mul_comm (2 ^ 24)]
  exact (Nat.mul_lt_mul_right (by decide)).mpr hb

theorem numUp {m y w : Nat} (h : y * 2 ^ 24 ≤ m * (2 ^ 24 + 1)) (hb : w ≤ y * 10 ^ 6) :
    w * 2 ^ 24 ≤ m * 10 ^ 6 * (2 ^ 24 + 1) := by
  rw [Nat.mul_right_comm m]
  refine Nat.le_trans (Nat.mul_le_mul_right (2 ^ 24) hb) ?_
  rw [Nat.mul_right_comm]
  exact Nat.mul_le_mul_right (10 ^ 6) h

/-- The percentage printed for a double that is not negative. -/
theorem percent_text (T : Texts) (lib : Libc) (hT : T.dbl = doubleText lib) (m k : Nat) (hm : m < 2 ^ 53) :
    (percentText T (toFloat (.fin false m (-(k : Int)))) = "00.00%".toList ∧ m * 10 ^ 6 * (2 ^ 24 - 1) < 2 ^ 24 * 2 ^ k) ∨
    ∃ P, percentText T (toFloat (.fin false m (-(k : Int)))) = fixedPoint false (P / 10000) (P % 10000) ++ ['%'] ∧
      P * 2 ^ k * 2 ^ 24 ≤ m * 10 ^ 6 * (2 ^ 24 + 1) ∧ m * 10 ^ 6 * (2 ^ 24 - 1) < (P + 1) * 2 ^ k * 2 ^ 24 := by
  have hp : 0 < 2 ^ k := Nat.pow_pos (by omega)
  simp only [toFloat]
  obtain ⟨s, es⟩ : ∃ s, s = floatShift m (-(k : Int)) := ⟨_, rfl⟩
  rw [← es, show (-(k : Int) + s) = (s : Int) - k by omega]
  have hlog : Nat.log2 m < 53 := by
    by_cases h0 : m = 0
    · subst h0; decide
    · exact (Nat.log2_lt h0).mpr hm
  have hup : m < 2 ^ (Nat.log2 m + 1) := Nat.lt_log2_self
  by_cases hnorm : k ≤ Nat.log2 m + 126
  · have hs := es.trans (floatShift_normal hnorm)
    obtain ⟨m2, a2, e1, h1, h2⟩ := packFloat_fin (neg := false) (m := roundShift m s) (a := s) (k := k)
      (roundShift_le (by
        rw [← Nat.pow_add]
        exact Nat.le_of_lt (Nat.lt_of_lt_of_le hup (Nat.pow_le_pow_right (by omega) (by omega))))) (by omega)
    rw [e1]
    have hr := round_rel m
    rw [← hs, ← h2] at hr
    obtain ⟨y, ey⟩ : ∃ y, y = m2 * 2 ^ a2 := ⟨_, rfl⟩
    by_cases hb : y * 10 ^ 6 < 2 ^ k
    · left
      constructor
      · simp only [percentText]
        rw [below_shift, if_pos (by rw [← ey, decide_eq_true hb]; simp)]
      · rw [← ey] at hr
        exact numLo hr.2 hb
    · right
      rw [ey] at hb
      refine ⟨m2 * 2 ^ a2 * 10 ^ 6 / 2 ^ k, percent_fixed T lib hT h1 (by omega) (by
        have : 2 ^ 60 * 1 ≤ 2 ^ 60 * 2 ^ k := Nat.mul_le_mul_left _ hp
        omega) _ rfl, ?_, ?_⟩
      · have := Nat.div_mul_le_self (m2 * 2 ^ a2 * 10 ^ 6) (2 ^ k)
        rw [← ey] at hr this ⊢
        exact numUp hr.1 this
      · have := Nat.lt_succ_self (m2 * 2 ^ a2 * 10 ^ 6 / 2 ^ k)
        rw [Nat.div_lt_iff_lt_mul hp] at this
        rw [← ey] at hr this ⊢
        obtain ⟨z, ez⟩ : ∃ z, z = (y * 10 ^ 6 / 2 ^ k + 1) * 2 ^ k := ⟨_, rfl⟩
        have hz : y * 10 ^ 6 < z := by rw [ez]; exact this
        rw [← ez]
        have := numLo hr.2 hz
        rwa [Nat.mul_comm (2 ^ 24) z] at this
  · have hs := es.trans (floatShift_small (by omega))
    left
    have hm' : m * 2 ^ 125 < 2 ^ k := by
      refine Nat.lt_of_lt_of_le ((Nat.mul_lt_mul_right (by decide)).mpr hup) ?_
      rw [← Nat.pow_add]
      exact Nat.pow_le_pow_right (by omega) (by omega)
    have hmk : m ≤ 2 ^ 24 * 2 ^ s := by
      rw [← Nat.pow_add]
      exact Nat.le_of_lt (Nat.lt_of_lt_of_le hup (Nat.pow_le_pow_right (by omega) (by omega)))
    obtain ⟨m2, a2, e1, h1, h2⟩ := packFloat_fin (neg := false) (m := roundShift m s) (a := s) (k := k)
      (roundShift_le hmk) (by omega)
    rw [e1]
    have hy : m2 * 2 ^ a2 * 10 ^ 6 < 2 ^ k := by
      rw [h2]
      by_cases h0 : s = 0
      · rw [h0]
        unfold roundShift
        simp only [if_true, Nat.pow_zero, Nat.mul_one]
        exact Nat.lt_of_le_of_lt (Nat.mul_le_mul_left m (by decide)) hm'
      · have hn := (roundShift_near m s (by omega)).1
        have hsk : 2 ^ s * 2 ^ 149 = 2 ^ k := by rw [← Nat.pow_add, show s + 149 = k by omega]
        obtain ⟨z, ez⟩ : ∃ z, z = roundShift m s * 2 ^ s := ⟨_, rfl⟩
        obtain ⟨u, eu⟩ : ∃ u, u = 2 ^ s := ⟨_, rfl⟩
        obtain ⟨w, ew⟩ : ∃ w, w = 2 ^ k := ⟨_, rfl⟩
        rw [← ez] at hn ⊢
        rw [← eu] at hn hsk
        rw [← ew] at hsk hm' ⊢
        have h3 : z * 2 ≤ m * 2 + u := by omega
        have h4 : z * 2 * 2 ^ 124 ≤ m * 2 * 2 ^ 124 + u * 2 ^ 124 := by
          rw [← Nat.add_mul]; exact Nat.mul_le_mul_right _ h3
        have h5 : u * 2 ^ 124 * 2 ^ 25 = w := by rw [Nat.mul_assoc, ← Nat.pow_add]; exact hsk
        have h6 : m * 2 * 2 ^ 124 = m * 2 ^ 125 := by rw [Nat.mul_assoc]
        have h7 : z * 10 ^ 6 * 2 ^ 100 ≤ z * 2 * 2 ^ 124 := by
          rw [Nat.mul_assoc, Nat.mul_assoc]; exact Nat.mul_le_mul_left _ (by decide)
        rw [h6] at h4
        obtain ⟨v, ev⟩ : ∃ v, v = u * 2 ^ 124 := ⟨_, rfl⟩
        obtain ⟨x, ex⟩ : ∃ x, x = m * 2 ^ 125 := ⟨_, rfl⟩
        obtain ⟨t, et⟩ : ∃ t, t = z * 10 ^ 6 := ⟨_, rfl⟩
        rw [← ev] at h4 h5
        rw [← ex] at h4 hm'
        rw [← et] at h7 ⊢
        have h8 : t * 2 ^ 2 ≤ t * 2 ^ 100 := Nat.mul_le_mul_left _ (by decide)
        have h9 := Nat.le_trans h8 (Nat.le_trans h7 h4)
        have hw : 0 < w := Nat.lt_of_le_of_lt (Nat.zero_le _) hm'
        clear h8 h7 h4 hsk
        omega
    constructor
    · simp only [percentText]
      rw [below_shift, if_pos (by rw [decide_eq_true hy]; simp)]
    · obtain ⟨w, ew⟩ : ∃ w, w = 2 ^ k := ⟨_, rfl⟩
      rw [← ew] at hm' ⊢
      refine Nat.lt_of_le_of_lt (m := m * 2 ^ 125) ?_ (Nat.lt_of_lt_of_le hm' (Nat.le_mul_of_pos_left _ (by decide)))
      rw [Nat.mul_assoc]
      exact Nat.mul_le_mul_left _ (by decide)

/-- The operand is one that can be printed. -/
theorem toFloat_fine (d : Dbl) (S : Int → Nat → Prop) (B : Nat → Prop) :
    Val.All (Val.Fine S B) (.percent (toFloat d)) := by
  cases d with
  | nan => trivial
  | inf neg => trivial
  | fin neg m e =>
    simp only [Val.All, toFloat]
    have hup : m < 2 ^ (Nat.log2 m + 1) := Nat.lt_log2_self
    have hle : roundShift m (floatShift m e) ≤ 2 ^ 24 := roundShift_le (by
      rw [← Nat.pow_add]
      exact Nat.le_of_lt (Nat.lt_of_lt_of_le hup (Nat.pow_le_pow_right (by omega) (by unfold floatShift; omega))))
    unfold packFloat
    split
    · trivial
    · split
      · show (2 ^ 23 : Nat) < 2 ^ 24; decide
      · show roundShift m (floatShift m e) < 2 ^ 24; omega

end FNLog
