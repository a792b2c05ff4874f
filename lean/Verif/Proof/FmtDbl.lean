import Verif.Proof.Fmt

/-! # `write_double_unsafe` -/

namespace FNLog
open Spec

theorem round53_near (n : Nat) :
    round53 n * 2 ^ 53 ≤ n * 2 ^ 53 + n ∧ n * 2 ^ 53 ≤ round53 n * 2 ^ 53 + n := by
  unfold round53
  split
  · omega
  · next h =>
    have hn : 2 ^ 53 ≤ n := Nat.le_of_not_lt h
    have hn0 : n ≠ 0 := by intro h0; rw [h0] at hn; exact absurd hn (by decide)
    have h53 : 53 ≤ Nat.log2 n := (Nat.le_log2 hn0).mpr hn
    have hlo : 2 ^ Nat.log2 n ≤ n := Nat.log2_self_le hn0
    obtain ⟨s, hs⟩ : ∃ s, Nat.log2 n = 53 + s := ⟨Nat.log2 n - 53, by omega⟩
    have hs1 : Nat.log2 n - 52 = s + 1 := by omega
    simp only [hs1, Nat.add_sub_cancel]
    rw [hs, Nat.pow_add] at hlo
    have hp : 2 ^ (s + 1) = 2 ^ s + 2 ^ s := by rw [Nat.pow_succ]; omega
    have hd := Nat.div_add_mod n (2 ^ (s + 1))
    have hm := Nat.mod_lt n (show 0 < 2 ^ (s + 1) from Nat.pow_pos (by omega))
    generalize n / 2 ^ (s + 1) = q at *
    generalize n % 2 ^ (s + 1) = r at *
    rw [hp] at hd hm ⊢
    generalize 2 ^ s = p at *
    rw [Nat.mul_comm] at hd
    split
    · next hu =>
      have hr : p ≤ r := by rcases hu with h | h <;> omega
      rw [Nat.add_mul, Nat.one_mul]
      generalize q * (p + p) = x at *
      omega
    · next hu =>
      have hr : r ≤ p := by
        rcases Nat.lt_or_ge p r with h | h
        · exact absurd (Or.inl h) hu
        · exact h
      generalize q * (p + p) = x at *
      omega

theorem round53_rounded (n : Nat) : Rounded n (round53 n) := by
  unfold round53
  split
  · next h => exact Or.inl ⟨h, rfl⟩
  · next h =>
    refine Or.inr ?_
    have hn : 2 ^ 53 ≤ n := Nat.le_of_not_lt h
    have hn0 : n ≠ 0 := by intro h0; rw [h0] at hn; exact absurd hn (by decide)
    have h53 : 53 ≤ Nat.log2 n := (Nat.le_log2 hn0).mpr hn
    have hlo : 2 ^ Nat.log2 n ≤ n := Nat.log2_self_le hn0
    have hhi : n < 2 ^ (Nat.log2 n + 1) := (Nat.log2_lt hn0).1 (Nat.lt_succ_self _)
    obtain ⟨s, hs⟩ : ∃ s, Nat.log2 n = 53 + s := ⟨Nat.log2 n - 53, by omega⟩
    have hs1 : Nat.log2 n - 52 = s + 1 := by omega
    simp only [hs1, Nat.add_sub_cancel]
    rw [hs, show 53 + s = 52 + (s + 1) by omega, Nat.pow_add] at hlo
    rw [hs, show 53 + s + 1 = 53 + (s + 1) by omega, Nat.pow_add] at hhi
    have hp : 2 ^ (s + 1) = 2 ^ s + 2 ^ s := by rw [Nat.pow_succ]; omega
    have hpos : 0 < 2 ^ (s + 1) := Nat.pow_pos (by omega)
    have hq1 : 2 ^ 52 ≤ n / 2 ^ (s + 1) := (Nat.le_div_iff_mul_le hpos).2 hlo
    have hq2 : n / 2 ^ (s + 1) < 2 ^ 53 := (Nat.div_lt_iff_lt_mul hpos).2 hhi
    have hd := Nat.div_add_mod n (2 ^ (s + 1))
    have hm := Nat.mod_lt n hpos
    generalize n / 2 ^ (s + 1) = q at *
    generalize n % 2 ^ (s + 1) = r at *
    rw [Nat.mul_comm] at hd
    refine ⟨_, s + 1, rfl, ?_⟩
    rw [hp] at hd hm ⊢
    generalize 2 ^ s = p at *
    split
    · next hu =>
      rw [Nat.add_mul, Nat.one_mul]
      generalize q * (p + p) = x at *
      refine ⟨by omega, by omega, ?_, ?_, ?_⟩ <;> rcases hu with h | h <;> omega
    · next hu =>
      have hr : r ≤ p := by
        rcases Nat.lt_or_ge p r with h | h
        · exact absurd (Or.inl h) hu
        · exact h
      have he : r = p → q % 2 = 0 := by
        intro e
        have : ¬ q % 2 = 1 := fun k => hu (Or.inr ⟨e, k⟩)
        omega
      generalize q * (p + p) = x at *
      refine ⟨by omega, by omega, by omega, by omega, fun h => he ?_⟩
      omega

/-- Rounding does not cross a representable number from above. -/
theorem le_round53 {n j k : Nat} (hj : j < 2 ^ 52) (h : j * 2 ^ k ≤ n) : j * 2 ^ k ≤ round53 n := by
  unfold round53
  split
  · exact h
  · next h' =>
    have hn : 2 ^ 53 ≤ n := Nat.le_of_not_lt h'
    have hn0 : n ≠ 0 := by intro h0; rw [h0] at hn; exact absurd hn (by decide)
    have h53 : 53 ≤ Nat.log2 n := (Nat.le_log2 hn0).mpr hn
    have hlo : 2 ^ Nat.log2 n ≤ n := Nat.log2_self_le hn0
    generalize hs : Nat.log2 n - 52 = s
    have hl : Nat.log2 n = 52 + s := by omega
    rw [hl, Nat.pow_add] at hlo
    have hq : j * 2 ^ k ≤ n / 2 ^ s * 2 ^ s := by
      by_cases hk : s ≤ k
      · obtain ⟨t, rfl⟩ : ∃ t, k = t + s := ⟨k - s, by omega⟩
        rw [Nat.pow_add, ← Nat.mul_assoc] at h ⊢
        exact Nat.mul_le_mul_right _ ((Nat.le_div_iff_mul_le (Nat.pow_pos (by omega))).mpr h)
      · have h1 : j * 2 ^ k ≤ 2 ^ 52 * 2 ^ s :=
          Nat.mul_le_mul (Nat.le_of_lt hj) (Nat.pow_le_pow_right (by omega) (by omega))
        have h2 : 2 ^ 52 ≤ n / 2 ^ s := (Nat.le_div_iff_mul_le (Nat.pow_pos (by omega))).mpr hlo
        exact Nat.le_trans h1 (Nat.mul_le_mul_right _ h2)
    simp only
    split
    · exact Nat.le_trans hq (Nat.mul_le_mul_right _ (by omega))
    · exact hq

/-- Rounding does not cross a representable number from below. -/
theorem round53_le {n j k : Nat} (hj : j < 2 ^ 52) (h : n ≤ j * 2 ^ k) : round53 n ≤ j * 2 ^ k := by
  unfold round53
  split
  · exact h
  · next h' =>
    have hn : 2 ^ 53 ≤ n := Nat.le_of_not_lt h'
    have hn0 : n ≠ 0 := by intro h0; rw [h0] at hn; exact absurd hn (by decide)
    have h53 : 53 ≤ Nat.log2 n := (Nat.le_log2 hn0).mpr hn
    have hlo : 2 ^ Nat.log2 n ≤ n := Nat.log2_self_le hn0
    generalize hs : Nat.log2 n - 52 = s
    have hl : Nat.log2 n = 52 + s := by omega
    rw [hl, Nat.pow_add] at hlo
    have hk : s ≤ k := by
      rcases Nat.lt_or_ge k s with hk | hk
      · exfalso
        have h1 : j * 2 ^ k < 2 ^ 52 * 2 ^ k := Nat.mul_lt_mul_of_pos_right hj (Nat.pow_pos (by omega))
        have h2 : 2 ^ 52 * 2 ^ k ≤ 2 ^ 52 * 2 ^ s :=
          Nat.mul_le_mul_left _ (Nat.pow_le_pow_right (by omega) (by omega))
        omega
      · exact hk
    obtain ⟨t, rfl⟩ : ∃ t, k = t + s := ⟨k - s, by omega⟩
    rw [Nat.pow_add, ← Nat.mul_assoc] at h ⊢
    have hd := Nat.div_add_mod n (2 ^ s)
    have hp : 0 < 2 ^ s := Nat.pow_pos (by omega)
    simp only
    split
    · next hu =>
      apply Nat.mul_le_mul_right
      have hr : 0 < n % 2 ^ s := by
        have : 0 < 2 ^ (s - 1) := Nat.pow_pos (by omega)
        rcases hu with h | h <;> omega
      rw [Nat.mul_comm] at hd
      have : n / 2 ^ s * 2 ^ s < j * 2 ^ t * 2 ^ s := by omega
      exact Nat.lt_of_mul_lt_mul_right this
    · refine Nat.le_trans ?_ h
      rw [Nat.mul_comm] at hd; omega

theorem near_aux {R x y : Nat} (h : R * 2 ^ 53 ≤ x * 2 ^ 53 + x) (h2 : y ≤ R) :
    (y - x) * 2 ^ 53 ≤ x := by
  rw [Nat.sub_mul]
  have := Nat.mul_le_mul_right (2 ^ 53) h2
  exact Nat.sub_le_of_le_add (by rw [Nat.add_comm]; exact Nat.le_trans this h)

/-- The four decimals are the exact truncated ones, or one more when the value is within one part in
2^53 of the next one. -/
theorem dblFrac_spec (m k : Nat) (hm : m < 2 ^ 53) (hk : 0 < k) :
    ∃ x, x = m % 2 ^ k * 10000 ∧ dblFrac m (-(k : Int)) < 10000 ∧
      (dblFrac m (-(k : Int)) = x / 2 ^ k ∨
        (dblFrac m (-(k : Int)) = x / 2 ^ k + 1 ∧
          ((x / 2 ^ k + 1) * 2 ^ k - x) * 2 ^ 53 ≤ x)) := by
  refine ⟨_, rfl, ?_⟩
  unfold dblFrac
  rw [if_neg (by omega)]
  have e : (-(-(k : Int))).toNat = k := by omega
  rw [e]
  have hf : m % 2 ^ k < 2 ^ k := Nat.mod_lt _ (Nat.pow_pos (by omega))
  have hf' : m % 2 ^ k < 2 ^ 53 := Nat.lt_of_le_of_lt (Nat.mod_le _ _) hm
  have hkk : 2 ^ k ≤ 2 ^ 53 ∨ 2 ^ 54 ≤ 2 ^ k := by
    rcases Nat.lt_or_ge 53 k with h | h
    · right; exact Nat.pow_le_pow_right (by omega) h
    · left; exact Nat.pow_le_pow_right (by omega) h
  have hpos : 0 < 2 ^ k := Nat.pow_pos (by omega)
  obtain ⟨hn1, hn2⟩ := round53_near (m % 2 ^ k * 10000)
  have hlt : round53 (m % 2 ^ k * 10000) < 10000 * 2 ^ k := by
    obtain ⟨R, eR⟩ : ∃ R, R = round53 (m % 2 ^ k * 10000) := ⟨_, rfl⟩
    rw [← eR] at hn1 hn2 ⊢
    obtain ⟨f, ef⟩ : ∃ f, f = m % 2 ^ k := ⟨_, rfl⟩
    rw [← ef] at hn1 hn2 hf hf'
    rcases hkk with h | h <;> omega
  have hx : m % 2 ^ k * 10000 / 2 ^ k < 10000 := by
    rw [Nat.div_lt_iff_lt_mul hpos, Nat.mul_comm]
    exact (Nat.mul_lt_mul_left (by omega)).mpr hf
  have hlow := le_round53 (n := m % 2 ^ k * 10000) (j := m % 2 ^ k * 10000 / 2 ^ k) (k := k) (by omega)
    (Nat.div_mul_le_self _ _)
  have hup := round53_le (n := m % 2 ^ k * 10000) (j := m % 2 ^ k * 10000 / 2 ^ k + 1) (k := k) (by omega)
    (by
      have h9 := Nat.lt_div_mul_add (a := m % 2 ^ k * 10000) hpos
      rw [Nat.add_mul, Nat.one_mul]; exact Nat.le_of_lt h9)
  obtain ⟨x, ex⟩ : ∃ x, x = m % 2 ^ k * 10000 := ⟨_, rfl⟩
  rw [← ex] at hn1 hn2 hlt hx hlow hup ⊢
  obtain ⟨R, eR⟩ : ∃ R, R = round53 x := ⟨_, rfl⟩
  rw [← eR] at hn1 hn2 hlt hlow hup ⊢
  refine ⟨by rw [Nat.div_lt_iff_lt_mul hpos]; exact hlt, ?_⟩
  have h1 : x / 2 ^ k ≤ R / 2 ^ k := (Nat.le_div_iff_mul_le hpos).mpr hlow
  have h2 : R / 2 ^ k ≤ x / 2 ^ k + 1 := by
    have := Nat.div_le_div_right (c := 2 ^ k) hup
    rwa [Nat.mul_div_cancel _ hpos] at this
  rcases Nat.lt_or_ge (x / 2 ^ k) (R / 2 ^ k) with h | h
  · right
    have he : R / 2 ^ k = x / 2 ^ k + 1 := by omega
    refine ⟨he, ?_⟩
    have hRR : (x / 2 ^ k + 1) * 2 ^ k ≤ R := by rw [← he]; exact Nat.div_mul_le_self _ _
    exact near_aux hn1 hRR
  · left; omega

theorem dblFrac_lt (m : Nat) (e : Int) (hm : m < 2 ^ 53) : dblFrac m e < 10000 := by
  by_cases he : e ≥ 0
  · rw [dblFrac, if_pos he]; omega
  · obtain ⟨k, hk⟩ : ∃ k : Nat, e = -(k : Int) := ⟨(-e).toNat, by omega⟩
    rw [hk]
    obtain ⟨_, _, h, _⟩ := dblFrac_spec m k hm (by omega)
    exact h

/-- `dyLt` compares the numbers `m1 * 2 ^ e1` and `m2 * 2 ^ e2`: scaling both by any common power of
two that makes them integers gives the same answer. -/
theorem dyLt_iff (m1 m2 : Nat) (e1 e2 c : Int) (h1 : c ≤ e1) (h2 : c ≤ e2) :
    dyLt m1 e1 m2 e2 = true ↔ m1 * 2 ^ (e1 - c).toNat < m2 * 2 ^ (e2 - c).toNat := by
  unfold dyLt
  rw [decide_eq_true_iff]
  have ha : (e1 - c).toNat = (e1 - min e1 e2).toNat + (min e1 e2 - c).toNat := by omega
  have hb : (e2 - c).toNat = (e2 - min e1 e2).toNat + (min e1 e2 - c).toNat := by omega
  rw [ha, hb, Nat.pow_add, Nat.pow_add, ← Nat.mul_assoc, ← Nat.mul_assoc]
  exact (Nat.mul_lt_mul_right (Nat.pow_pos (by omega))).symm

theorem dblInt_le (m : Nat) (e : Int) (h : dyLt 1 60 m e = false) : dblInt m e ≤ 2 ^ 60 := by
  have h : ¬ dyLt 1 60 m e = true := by rw [h]; decide
  unfold dblInt
  split
  · next he =>
    rw [dyLt_iff 1 m 60 e 0 (by omega) he] at h
    simp only [Int.sub_zero] at h
    have : (60 : Int).toNat = 60 := rfl
    rw [this, Nat.one_mul] at h
    exact Nat.le_of_not_lt h
  · next he =>
    rw [dyLt_iff 1 m 60 e e (by omega) (by omega)] at h
    rw [Int.sub_self] at h
    have e2 : (60 - e).toNat = 60 + (-e).toNat := by omega
    rw [e2, Nat.pow_add, Nat.one_mul] at h
    simp only [Int.toNat_zero, Nat.pow_zero, Nat.mul_one] at h
    have h := Nat.le_of_not_lt h
    exact Nat.div_le_of_le_mul (by rw [Nat.mul_comm]; exact h)

/-! The literals: comparing a `double` with the literal is comparing it with the decimal fraction, although the literal is not
exactly this fraction. -/

theorem dyLt_grid (m M : Nat) (e : Int) (j : Nat) (hm : m < 2 ^ 53) (hM : 2 ^ 52 ≤ M) :
    (dyLt m e M (-(j : Int)) = true ↔ (e < -j ∨ ∃ i : Nat, e = (i : Int) - j ∧ m * 2 ^ i < M)) ∧
    (dyLt M (-(j : Int)) m e = true ↔ ∃ i : Nat, e = (i : Int) - j ∧ M < m * 2 ^ i) := by
  by_cases he : e < -(j : Int)
  · obtain ⟨x, hx, rfl⟩ : ∃ x : Nat, 1 ≤ x ∧ e = -(j : Int) - x := ⟨(-j - e).toNat, by omega, by omega⟩
    have h2 : 2 ^ 1 ≤ 2 ^ x := Nat.pow_le_pow_right (by omega) hx
    have h3 : M * 2 ^ 1 ≤ M * 2 ^ x := Nat.mul_le_mul_left _ h2
    rw [dyLt_iff _ _ _ _ (-(j : Int) - x) (by omega) (by omega), dyLt_iff _ _ _ _ (-(j : Int) - x) (by omega) (by omega)]
    rw [show (-(j : Int) - x - (-(j : Int) - x)).toNat = 0 by omega, show (-(j : Int) - (-(j : Int) - x)).toNat = x by omega]
    refine ⟨⟨fun _ => Or.inl he, fun _ => by omega⟩, ⟨fun h => by omega, ?_⟩⟩
    rintro ⟨i, hi, _⟩
    omega
  · obtain ⟨i, rfl⟩ : ∃ i : Nat, e = (i : Int) - j := ⟨(e + j).toNat, by omega⟩
    rw [dyLt_iff _ _ _ _ (-(j : Int)) (by omega) (by omega), dyLt_iff _ _ _ _ (-(j : Int)) (by omega) (by omega)]
    rw [show ((i : Int) - j - -(j : Int)).toNat = i by omega, show (-(j : Int) - -(j : Int)).toNat = 0 by omega,
      Nat.pow_zero, Nat.mul_one]
    refine ⟨⟨fun h => Or.inr ⟨i, rfl, h⟩, ?_⟩, ⟨fun h => ⟨i, rfl, h⟩, ?_⟩⟩
    · rintro (h | ⟨i', h1, h2⟩)
      · omega
      · rwa [show i = i' by omega]
    · rintro ⟨i', h1, h2⟩
      rwa [show i = i' by omega]

theorem below_grid (m k : Nat) (e : Int) (j : Nat) :
    (∀ x : Nat, e = -(j : Int) - x → (below m e k = true ↔ m * 10 ^ k < 2 ^ j * 2 ^ x)) ∧
    (∀ x : Nat, e = -(j : Int) - x → (above m e k = true ↔ 2 ^ j * 2 ^ x < m * 10 ^ k)) ∧
    (∀ i : Nat, e = (i : Int) - j → (below m e k = true ↔ m * 2 ^ i * 10 ^ k < 2 ^ j)) ∧
    (∀ i : Nat, e = (i : Int) - j → (above m e k = true ↔ 2 ^ j < m * 2 ^ i * 10 ^ k)) := by
  have key : ∀ i : Nat, e = (i : Int) - j → ∃ a b c, 2 ^ e.toNat = a ∧ 2 ^ (-e).toNat = b ∧ 2 ^ i = a * c ∧ 2 ^ j = b * c ∧ 0 < c := by
    intro i hi
    refine ⟨_, _, 2 ^ min i j, rfl, rfl, ?_, ?_, Nat.pow_pos (by omega)⟩
    · rw [← Nat.pow_add]; congr 1; omega
    · rw [← Nat.pow_add]; congr 1; omega
  refine ⟨fun x hx => ?_, fun x hx => ?_, fun i hi => ?_, fun i hi => ?_⟩
  · unfold below
    rw [decide_eq_true_iff, hx, show (-(j : Int) - x).toNat = 0 by omega, show (-(-(j : Int) - x)).toNat = j + x by omega,
      Nat.pow_zero, Nat.mul_one, Nat.pow_add]
  · unfold above
    rw [decide_eq_true_iff, hx, show (-(j : Int) - x).toNat = 0 by omega, show (-(-(j : Int) - x)).toNat = j + x by omega,
      Nat.pow_zero, Nat.mul_one, Nat.pow_add]
  · obtain ⟨a, b, c, h1, h2, h3, h4, h5⟩ := key i hi
    unfold below
    rw [decide_eq_true_iff, h1, h2, h3, h4, Nat.mul_right_comm m (a * c), ← Nat.mul_assoc (m * 10 ^ k)]
    exact (Nat.mul_lt_mul_right h5).symm
  · obtain ⟨a, b, c, h1, h2, h3, h4, h5⟩ := key i hi
    unfold above
    rw [decide_eq_true_iff, h1, h2, h3, h4, Nat.mul_right_comm m (a * c), ← Nat.mul_assoc (m * 10 ^ k)]
    exact (Nat.mul_lt_mul_right h5).symm

theorem below_lit {m M j k : Nat} {e : Int} (hm : m < 2 ^ 53) (hM : 2 ^ 52 ≤ M) (hk : 2 ^ 53 * 10 ^ k ≤ 2 ^ j * 2)
    (h1 : (M - 1) * 10 ^ k < 2 ^ j) (h2 : 2 ^ j ≤ M * 10 ^ k) : dyLt m e M (-(j : Int)) = below m e k := by
  rw [Bool.eq_iff_iff, (dyLt_grid m M e j hm hM).1]
  obtain ⟨g1, _, g3, _⟩ := below_grid m k e j
  by_cases he : e < -(j : Int)
  · obtain ⟨x, hx, he'⟩ : ∃ x : Nat, 1 ≤ x ∧ e = -(j : Int) - x := ⟨(-j - e).toNat, by omega, by omega⟩
    rw [g1 x he']
    have : 2 ^ j * 2 ^ 1 ≤ 2 ^ j * 2 ^ x := Nat.mul_le_mul_left _ (Nat.pow_le_pow_right (by omega) hx)
    have : m * 10 ^ k < 2 ^ 53 * 10 ^ k := (Nat.mul_lt_mul_right (Nat.pow_pos (by omega))).mpr hm
    exact ⟨fun _ => by omega, fun _ => Or.inl he⟩
  · obtain ⟨i, he'⟩ : ∃ i : Nat, e = (i : Int) - j := ⟨(e + j).toNat, by omega⟩
    rw [g3 i he']
    constructor
    · rintro (h | ⟨i', h, hlt⟩)
      · omega
      · rw [show i = i' by omega]
        exact Nat.lt_of_le_of_lt (Nat.mul_le_mul_right _ (by omega : m * 2 ^ i' ≤ M - 1)) h1
    · intro h
      refine Or.inr ⟨i, he', ?_⟩
      exact (Nat.mul_lt_mul_right (Nat.pow_pos (by omega : 0 < 10))).mp (Nat.lt_of_lt_of_le h h2)

theorem above_lit {m M j k : Nat} {e : Int} (hm : m < 2 ^ 53) (hM : 2 ^ 52 ≤ M) (hk : 2 ^ 53 * 10 ^ k ≤ 2 ^ j * 2)
    (h1 : 2 ^ j < (M + 1) * 10 ^ k) (h2 : M * 10 ^ k ≤ 2 ^ j) : dyLt M (-(j : Int)) m e = above m e k := by
  rw [Bool.eq_iff_iff, (dyLt_grid m M e j hm hM).2]
  obtain ⟨_, g2, _, g4⟩ := below_grid m k e j
  by_cases he : e < -(j : Int)
  · obtain ⟨x, hx, he'⟩ : ∃ x : Nat, 1 ≤ x ∧ e = -(j : Int) - x := ⟨(-j - e).toNat, by omega, by omega⟩
    rw [g2 x he']
    have : 2 ^ j * 2 ^ 1 ≤ 2 ^ j * 2 ^ x := Nat.mul_le_mul_left _ (Nat.pow_le_pow_right (by omega) hx)
    have : m * 10 ^ k < 2 ^ 53 * 10 ^ k := (Nat.mul_lt_mul_right (Nat.pow_pos (by omega))).mpr hm
    exact ⟨fun ⟨i, hi, _⟩ => by omega, fun h => by omega⟩
  · obtain ⟨i, he'⟩ : ∃ i : Nat, e = (i : Int) - j := ⟨(e + j).toNat, by omega⟩
    rw [g4 i he']
    constructor
    · rintro ⟨i', h, hlt⟩
      rw [show i = i' by omega]
      exact Nat.lt_of_lt_of_le h1 (Nat.mul_le_mul_right _ (by omega : M + 1 ≤ m * 2 ^ i'))
    · intro h
      refine ⟨i, he', ?_⟩
      exact (Nat.mul_lt_mul_right (Nat.pow_pos (by omega : 0 < 10))).mp (Nat.lt_of_le_of_lt h2 h)

theorem dyLt_1em4 {m : Nat} {e : Int} (hm : m < 2 ^ 53) : dyLt m e lit1em4.1 lit1em4.2 = below m e 4 :=
  below_lit (j := 66) hm (by decide) (by decide) (by decide) (by decide)

theorem dyLt_1em7 {m : Nat} {e : Int} (hm : m < 2 ^ 53) : dyLt lit1em7.1 lit1em7.2 m e = above m e 7 :=
  above_lit (j := 76) hm (by decide) (by decide) (by decide) (by decide)

/-- The literal `0.000001` is a little less than a millionth, but a `float` is not between the two. -/
theorem dyLt_1em6 {m : Nat} {e : Int} (hm : m < 2 ^ 24) : dyLt m e lit1em6.1 lit1em6.2 = below m e 6 := by
  have e1 : dyLt m e lit1em6.1 lit1em6.2 = dyLt m e (lit1em6.1 + 1) (-(72 : Nat)) := by
    rw [Bool.eq_iff_iff, show lit1em6.2 = -((72 : Nat) : Int) from rfl,
      (dyLt_grid m lit1em6.1 e 72 (Nat.lt_trans hm (by decide)) (by decide)).1,
      (dyLt_grid m (lit1em6.1 + 1) e 72 (Nat.lt_trans hm (by decide)) (by decide)).1]
    constructor
    · rintro (h | ⟨i, h, hlt⟩)
      · exact Or.inl h
      · exact Or.inr ⟨i, h, by omega⟩
    · rintro (h | ⟨i, h, hlt⟩)
      · exact Or.inl h
      · refine Or.inr ⟨i, h, ?_⟩
        have hne : m * 2 ^ i ≠ lit1em6.1 := by
          intro h'
          match i with
          | 0 =>
            have : lit1em6.1 < 2 ^ 24 := by omega
            exact absurd this (by decide)
          | i + 1 =>
            rw [Nat.pow_succ, ← Nat.mul_assoc] at h'
            have : lit1em6.1 % 2 = 1 := by decide
            omega
        omega
  rw [e1]
  exact below_lit (j := 72) (Nat.lt_trans hm (by decide)) (by decide) (by decide) (by decide) (by decide)

/-- The limit `0xFFFFFFFFFFFFFFF` becomes `2 ^ 60` as a `double`. -/
theorem dyLt_60 {m : Nat} {e : Int} : dyLt 1 60 m e = !upTo2 m e 60 := by
  unfold upTo2
  rw [Bool.eq_iff_iff, Bool.not_eq_true', decide_eq_false_iff_not, Nat.not_le]
  by_cases he : 0 ≤ e
  · rw [dyLt_iff 1 m 60 e 0 (by omega) he, show ((60 : Int) - 0).toNat = 60 by rfl, show (-e).toNat = 0 by omega,
      Nat.pow_zero, Nat.one_mul, Int.sub_zero]
  · rw [dyLt_iff 1 m 60 e e (by omega) (by omega), show (60 - e).toNat = 60 + (-e).toNat by omega, Nat.pow_add, Nat.one_mul,
      Int.sub_self, show e.toNat = 0 by omega]
    exact Iff.rfl

theorem numeral_four (f : Nat) (h : f < 10000) :
    ∃ a b c d, padLeft 4 (numeral 10 f) = [a, b, c, d] := by
  have : (padLeft 4 (numeral 10 f)).length = 4 := by
    rw [padLeft_length]
    have := numeral_length_le 10 (by omega) 3 f (by omega)
    omega
  match hp : padLeft 4 (numeral 10 f), this with
  | [a, b, c, d], _ => exact ⟨a, b, c, d, rfl⟩

theorem dropZeros_four (a b c d : Char) : dropZeros 2 [a, b, c, d] =
    if d = '0' then (if c = '0' then [a, b] else [a, b, c]) else [a, b, c, d] := by
  unfold dropZeros
  simp only [List.take_succ_cons, List.take_zero, List.drop_succ_cons, List.drop_zero,
    List.reverse_cons, List.reverse_nil, List.nil_append, List.cons_append, List.dropWhile]
  by_cases hd : d = '0'
  · by_cases hc : c = '0'
    · simp [hd, hc]
    · simp [hd, hc]
  · simp [hd]

theorem trimZeros_four (b : List Char) (p : Nat) (x y c d : Char) (h3 : b[p + 3]? = some c)
    (h4 : b[p + 4]? = some d) :
    trimZeros b (p + 2) (p + 4) 5 = some (1 + (dropZeros 2 [x, y, c, d]).length) := by
  rw [dropZeros_four]
  rw [trimZeros, if_pos (by omega), h4]
  simp only
  by_cases hd : d = '0'
  · rw [if_pos hd, if_pos hd, trimZeros, if_pos (by omega), h3]
    simp only
    by_cases hc : c = '0'
    · rw [if_pos hc, if_pos hc, trimZeros, if_neg (by omega)]; rfl
    · rw [if_neg hc, if_neg hc]; rfl
  · rw [if_neg hd, if_neg hd]; rfl

/-- The C library's texts fit into the 30 bytes that the callers reserve, including the NUL. -/
def Libc.Sane (lib : Libc) : Prop :=
  ∀ d, (lib.gcvt16 d).length ≤ 29 ∧ (lib.fixed8 d).length ≤ 29

/-- What `write_double_unsafe` prints. -/
def doubleText (lib : Libc) : Dbl → List Char
  | .nan => "nan".toList
  | .inf _ => "inf".toList
  | .fin neg m e =>
    if m = 0 ∨ dyLt m e 1 (-1022) then ['0']
    else if dyLt m e lit1em4.1 lit1em4.2 ∨ dyLt 1 60 m e then
      if dyLt m e lit1em4.1 lit1em4.2 ∧ dyLt lit1em7.1 lit1em7.2 m e then lib.fixed8 (.fin false m e)
      else lib.gcvt16 (.fin neg m e)
    else fixedPoint neg (dblInt m e) (dblFrac m e)

/-- Between `0.0001` and `2 ^ 60` a double is printed with up to four decimals. -/
theorem doubleText_fixed (lib : Libc) (neg : Bool) {m : Nat} {e : Int} (hm : m < 2 ^ 53)
    (hlo : below m e 4 = false) (hhi : upTo2 m e 60 = true) :
    doubleText lib (.fin neg m e) = fixedPoint neg (dblInt m e) (dblFrac m e) := by
  rw [← dyLt_1em4 hm] at hlo
  replace hhi : dyLt 1 60 m e = false := by rw [dyLt_60, hhi]; rfl
  have h0 : ¬ (m = 0 ∨ dyLt m e 1 (-1022) = true) := by
    intro h
    have hc : dyLt m e lit1em4.1 lit1em4.2 = true := by
      rcases h with rfl | h
      · unfold dyLt
        rw [Nat.zero_mul, decide_eq_true_iff]
        exact Nat.mul_pos (by decide) (Nat.pow_pos (by omega))
      · have hc1 : min e (-1100) ≤ e := by omega
        rw [dyLt_iff _ _ _ _ (min e (-1100)) hc1 (by omega)] at h
        rw [dyLt_iff _ _ _ _ (min e (-1100)) hc1 (by show _ ≤ (-66 : Int); omega)]
        refine Nat.lt_of_lt_of_le h ?_
        exact Nat.mul_le_mul (by decide) (Nat.pow_le_pow_right (by omega) (by
          show (-1022 - min e (-1100)).toNat ≤ (-66 - min e (-1100)).toNat; omega))
    rw [hc] at hlo; cases hlo
  have h1 : ¬ (dyLt m e lit1em4.1 lit1em4.2 = true ∨ dyLt 1 60 m e = true) := by
    rw [hlo, hhi]; simp
  unfold doubleText
  simp only
  rw [if_neg h0, if_neg h1]

/-- The mantissa bound of a binary64 number. -/
def Dbl.Ok : Dbl → Prop
  | .fin _ m _ => m < 2 ^ 53
  | _ => True

theorem emit_emits {b : List Char} {dst : Nat} {s : List Char} (h : dst + s.length ≤ b.length) :
    Emits (emit b dst s) b dst s := by
  unfold emit
  rw [writeAt_put h]
  exact Emits_put h rfl

theorem fixedPoint_length (neg : Bool) (i f : Nat) (hi : i ≤ 2 ^ 60) (hf : f < 10000) :
    (fixedPoint neg i f).length ≤ 25 := by
  unfold fixedPoint
  have h1 := numeral_length_le 10 (by omega) 18 i (by omega)
  have h2 : (if f = 0 then [] else '.' :: dropZeros 2 (padLeft 4 (numeral 10 f))).length ≤ 5 := by
    split
    · simp
    · obtain ⟨a, b, c, d, h⟩ := numeral_four f hf
      rw [h, dropZeros_four]
      repeat' split
      all_goals simp
  simp only [List.length_append]
  cases neg <;> simp <;> omega

theorem doubleText_length (lib : Libc) (hlib : lib.Sane) (d : Dbl) (hd : d.Ok) :
    (doubleText lib d).length ≤ 29 := by
  unfold doubleText
  split
  · decide
  · decide
  · next neg m e =>
    split
    · decide
    · next h0 =>
      split
      · split
        · exact (hlib _).2
        · exact (hlib _).1
      · next h1 =>
        have := fixedPoint_length neg (dblInt m e) (dblFrac m e)
          (dblInt_le m e (by
            cases h : dyLt 1 60 m e
            · rfl
            · exact absurd (Or.inr h) h1)) (dblFrac_lt m e hd)
        omega

/-- `write_double_unsafe` with 30 bytes of room is defined and prints `doubleText`. -/
theorem writeDouble_emits (lib : Libc) (hlib : lib.Sane) (d : Dbl) (hd : d.Ok) (b : List Char)
    (dst : Nat) (hf : dst + 30 ≤ b.length) :
    Emits (writeDouble lib b dst d) b dst (doubleText lib d) := by
  have hlen := doubleText_length lib hlib d hd
  have nulEmits : ∀ s : List Char, s.length ≤ 29 →
      Emits (do let b ← writeAt b dst (s ++ ['\x00']); some (b, s.length)) b dst s := by
    intro s hs
    have hl : dst + (s ++ ['\x00']).length ≤ b.length := by
      simp only [List.length_append, List.length_cons, List.length_nil]; omega
    rw [writeAt_put hl]
    refine ⟨_, rfl, put_length hl, ?_⟩
    have h := put_take hl
    have h2 := congrArg (List.take (dst + s.length)) h
    rw [List.take_take, List.length_append] at h2
    rw [Nat.min_eq_left (by omega)] at h2
    rw [h2, ← List.append_assoc]
    rw [List.take_append_of_le_length (by simp only [List.length_append, List.length_take]; omega)]
    exact List.take_of_length_le (by simp only [List.length_append, List.length_take]; omega)
  unfold doubleText at hlen ⊢
  unfold writeDouble
  match d, hd, hlen with
  | .nan, _, hlen => exact emit_emits (by simp only at hlen; omega)
  | .inf _, _, hlen => exact emit_emits (by simp only at hlen; omega)
  | .fin neg m e, hd, hlen =>
    simp only at hlen ⊢
    by_cases h0 : m = 0 ∨ dyLt m e 1 (-1022) = true
    · rw [if_pos h0, if_pos h0]; exact emit_emits (by simp only [List.length_cons, List.length_nil]; omega)
    · rw [if_neg h0, if_neg h0]
      by_cases h1 : dyLt m e lit1em4.1 lit1em4.2 = true ∨ dyLt 1 60 m e = true
      · rw [if_pos h1, if_pos h1]
        by_cases h2 : dyLt m e lit1em4.1 lit1em4.2 = true ∧ dyLt lit1em7.1 lit1em7.2 m e = true
        · rw [if_pos h2, if_pos h2]; exact nulEmits _ (hlib _).2
        · rw [if_neg h2, if_neg h2]; exact nulEmits _ (hlib _).1
      · rw [if_neg h1, if_neg h1]
        have hi := dblInt_le m e (by
            cases h : dyLt 1 60 m e
            · rfl
            · exact absurd (Or.inr h) h1)
        have hfr := dblFrac_lt m e hd
        generalize dblInt m e = i at *
        generalize dblFrac m e = f at *
        have hil := numeral_length_le 10 (by omega) 18 i (by omega)
        -- the sign
        obtain ⟨sg, hsg, hsl⟩ : ∃ sg, sg = (if neg then ['-'] else []) ∧ sg.length = (if neg then 1 else 0) := by
          refine ⟨_, rfl, ?_⟩; cases neg <;> rfl
        have hsl1 : sg.length ≤ 1 := by rw [hsl]; split <;> omega
        have es : writeSign b dst neg = some (put b dst sg) := by
          unfold writeSign
          cases neg
          · simp [hsg, put_nil]
          · simp only [if_true] at hsg ⊢; rw [hsg, writeAt_put (by simp only [List.length_cons, List.length_nil]; omega)]
        have e0 : padLeft (0 : Int).toNat (numeral 10 i) = numeral 10 i := padLeft_of_le (by omega)
        have ei := writeDecU_put 0 (by omega) (put b dst sg) (dst + sg.length) i (by omega)
          (by rw [put_length (by omega), e0]; omega)
        rw [e0] at ei
        rw [put_put_right (by rw [List.length_append]; omega)] at ei
        rw [es, ← hsl]
        simp only [Option.bind_eq_bind, Option.bind_some]
        rw [ei]
        simp only [Option.bind_some]
        unfold fixedPoint
        rw [← hsg]
        by_cases hz : f = 0
        · rw [if_neg (by omega), if_pos hz, List.append_nil]
          exact Emits_put (by rw [List.length_append]; omega) (by rw [List.length_append])
        · rw [if_pos (by omega), if_neg hz]
          generalize hhd : sg ++ numeral 10 i = hd'
          have hhl : sg.length + (numeral 10 i).length = hd'.length := by rw [← hhd, List.length_append]
          rw [Nat.add_assoc dst, hhl]
          have hhb : hd'.length ≤ 20 := by omega
          rw [writeAt_put (by rw [put_length (by omega)]; simp only [List.length_cons, List.length_nil]; omega)]
          simp only [Option.bind_some]
          rw [put_put_right (by simp only [List.length_append, List.length_cons, List.length_nil]; omega)]
          obtain ⟨x, y, c, d, h4⟩ := numeral_four f hfr
          have e4 : padLeft (4 : Int).toNat (numeral 10 f) = [x, y, c, d] := h4
          have el : dst + hd'.length + 1 = dst + (hd' ++ ['.']).length := by
            simp only [List.length_append, List.length_cons, List.length_nil]; omega
          rw [writeDecU_put 4 (by omega) _ _ f (by omega) (by
            rw [put_length (by simp only [List.length_append, List.length_cons, List.length_nil]; omega), e4]
            simp only [List.length_cons, List.length_nil]; omega), e4]
          simp only [Option.bind_some]
          rw [el, put_put_right (by simp only [List.length_append, List.length_cons, List.length_nil]; omega)]
          have hall : dst + ((hd' ++ ['.']) ++ [x, y, c, d]).length ≤ b.length := by
            simp only [List.length_append, List.length_cons, List.length_nil]; omega
          have g3 : (put b dst ((hd' ++ ['.']) ++ [x, y, c, d]))[dst + hd'.length + 3]? = some c := by
            rw [put_getElem? hall, if_pos (by simp only [List.length_append, List.length_cons, List.length_nil]; omega)]
            rw [show dst + hd'.length + 3 - dst = hd'.length + 3 by omega, List.append_assoc]
            rw [List.getElem?_append_right (by omega), show hd'.length + 3 - hd'.length = 3 by omega]; rfl
          have g4 : (put b dst ((hd' ++ ['.']) ++ [x, y, c, d]))[dst + hd'.length + 4]? = some d := by
            rw [put_getElem? hall, if_pos (by simp only [List.length_append, List.length_cons, List.length_nil]; omega)]
            rw [show dst + hd'.length + 4 - dst = hd'.length + 4 by omega, List.append_assoc]
            rw [List.getElem?_append_right (by omega), show hd'.length + 4 - hd'.length = 4 by omega]; rfl
          have ht := trimZeros_four _ (dst + hd'.length) x y c d g3 g4
          have e5 : dst + hd'.length + (1 + [x, y, c, d].length) - 1 = dst + hd'.length + 4 := by
            simp only [List.length_cons, List.length_nil]; omega
          rw [e5]
          rw [show 1 + [x, y, c, d].length = 5 from rfl, ht]
          simp only [Option.bind_some]
          rw [h4]
          -- the printed digits are a prefix of the written ones
          obtain ⟨rest, hrest⟩ : ∃ rest, [x, y, c, d] = dropZeros 2 [x, y, c, d] ++ rest := by
            rw [dropZeros_four]
            by_cases hd0 : d = '0'
            · by_cases hc0 : c = '0'
              · exact ⟨[c, d], by rw [if_pos hd0, if_pos hc0]; rfl⟩
              · exact ⟨[d], by rw [if_pos hd0, if_neg hc0]; rfl⟩
            · exact ⟨[], by rw [if_neg hd0]; rfl⟩
          generalize hdz : dropZeros 2 [x, y, c, d] = dz at *
          refine ⟨_, ?_, put_length hall, ?_⟩
          · congr 2
            simp only [List.length_append, List.length_cons]; omega
          · have h := put_take hall
            have hw : (hd' ++ ['.']) ++ [x, y, c, d] = (hd' ++ '.' :: dz) ++ rest := by
              rw [hrest]; simp
            have h2 := congrArg (List.take (dst + (hd' ++ '.' :: dz).length)) h
            have hlw := congrArg List.length hw
            rw [List.length_append (bs := rest)] at hlw
            rw [List.take_take, Nat.min_eq_left (by omega)] at h2
            rw [h2, hw, ← List.append_assoc]
            rw [List.take_append_of_le_length (by simp only [List.length_append, List.length_take]; omega)]
            exact List.take_of_length_le (by simp only [List.length_append, List.length_take]; omega)

end FNLog
