import Verif.Model.Filter
import Verif.Spec.Filter

/-! Helper lemmas about the filter expressions. -/

namespace FNLog
open Spec

theorem rangeFails_spec {b c v : Int} {r : Bool} (h : rangeFails b c v = some r) :
    r = false ↔ RangeOk b c v := by
  unfold rangeFails at h
  unfold RangeOk
  split at h
  · split at h
    · simp at h; subst h; simp; omega
    · unfold addLL at h
      split at h
      · simp at h; subst h; simp; omega
      · simp at h
  · simp at h; subst h; simp; omega

theorem rangeFails_defined {b c v : Int} (h1 : c > 0 → b + c < 2 ^ 63) (h2 : -2 ^ 63 ≤ b) :
    ∃ r, rangeFails b c v = some r := by
  unfold rangeFails
  split
  · split
    · exact ⟨_, rfl⟩
    · unfold addLL LLONG_MIN LLONG_MAX
      rw [if_pos (by omega)]
      exact ⟨_, rfl⟩
  · exact ⟨_, rfl⟩

theorem ofInt64_eq_zero (m : Int) : BitVec.ofInt 64 m = 0#64 ↔ m % 2 ^ 64 = 0 := by
  rw [← BitVec.toNat_inj]
  simp [BitVec.toNat_ofInt]
  omega

theorem and_one_shl (m : BitVec 64) (s : Nat) (hs : s < 64) :
    (m &&& (1#64 <<< s) == 0#64) = !(m.getLsbD s) := by
  have key : (m &&& (1#64 <<< s)) = 0#64 ↔ m.getLsbD s = false := by
    constructor
    · intro h
      have := congrArg (fun x => x.getLsbD s) h
      simpa [hs] using this
    · intro h
      apply BitVec.eq_of_getLsbD_eq
      intro i hi
      simp
      intro hmi _ hsi
      by_cases hi' : i = s
      · subst hi'; simp [h] at hmi
      · omega
  by_cases h : m.getLsbD s = false
  · rw [h]; simpa using key.mpr h
  · have h' : m.getLsbD s = true := by simpa using h
    rw [h']
    simp only [Bool.not_true, beq_eq_false_iff_ne, ne_eq]
    exact fun e => h (key.mp e)

theorem ofInt64_getLsbD (m : Int) (s : Nat) :
    (BitVec.ofInt 64 m).getLsbD s = true ↔ (m % 2 ^ 64) / 2 ^ s % 2 = 1 := by
  rw [BitVec.getLsbD, BitVec.toNat_ofInt, Nat.testBit_eq_decide_div_mod_eq]
  simp only [decide_eq_true_eq]
  have hnn : 0 ≤ m % 2 ^ 64 := by omega
  generalize hz : m % 2 ^ 64 = z at hnn
  obtain ⟨n, rfl⟩ := Int.eq_ofNat_of_zero_le hnn
  have : (m % ↑((2:Nat) ^ 64)) = (n : Int) := by rw [← hz]; rfl
  rw [this]
  simp only [Int.toNat_natCast]
  norm_cast

theorem maskFails_spec {m v : Int} {r : Bool} (h : maskFails m v = some r) :
    r = false ↔ MaskOk m v := by
  unfold maskFails at h
  unfold MaskOk
  simp only [bne_iff_ne, ne_eq, ite_not] at h
  split at h
  · rename_i hz
    rw [ofInt64_eq_zero] at hz
    simp at h; subst h; exact ⟨fun _ => Or.inl hz, fun _ => rfl⟩
  · rename_i hz
    rw [ofInt64_eq_zero] at hz
    unfold shl1 at h
    simp only at h
    split at h
    · rename_i hs
      simp only [Option.map_some, Option.some.injEq] at h
      rw [and_one_shl _ _ hs] at h
      subst h
      simp only [Bool.not_eq_eq_eq_not, Bool.not_false]
      rw [ofInt64_getLsbD _ _]
      exact ⟨Or.inr, fun h => h.resolve_left hz⟩
    · simp at h

theorem maskFails_defined {m v : Int} (h : m % 2 ^ 64 = 0 ∨ (0 ≤ v ∧ v < 64)) :
    ∃ r, maskFails m v = some r := by
  unfold maskFails
  by_cases hz : BitVec.ofInt 64 m = 0#64
  · simp [hz]
  · have hv : 0 ≤ v ∧ v < 64 := by
      rcases h with h | h
      · exact absurd ((ofInt64_eq_zero m).mpr h) hz
      · exact h
    have : (v % 2 ^ 32).toNat < 64 := by omega
    unfold shl1
    simp only [bne_iff_ne, ne_eq, hz, not_false_eq_true, ite_true]
    rw [if_pos this]
    exact ⟨_, rfl⟩

theorem dispatchTakes_spec {d : Device} {p c i : Int} {r : Bool}
    (h : dispatchTakes d p c i = some r) : r = true ↔ DeviceTakes d p c i := by
  unfold dispatchTakes at h
  unfold DeviceTakes
  split at h
  · simp at h; subst h; simp_all
  · split at h
    · simp at h; subst h; simp_all
    · split at h
      · simp at h; subst h; simp; omega
      · simp only [Option.bind_eq_bind, Option.bind_eq_some_iff, Option.pure_def] at h
        obtain ⟨r1, h1, h⟩ := h
        have s1 := rangeFails_spec h1
        cases r1
        · simp only [Bool.false_eq_true, if_false, Option.bind_eq_some_iff] at h
          obtain ⟨r2, h2, h⟩ := h
          have s2 := rangeFails_spec h2
          cases r2
          · simp only [Bool.false_eq_true, if_false, Option.bind_eq_some_iff] at h
            obtain ⟨r3, h3, h⟩ := h
            have s3 := maskFails_spec h3
            cases r3
            · simp only [Bool.false_eq_true, if_false, Option.bind_eq_some_iff] at h
              obtain ⟨r4, h4, h⟩ := h
              have s4 := maskFails_spec h4
              cases r4
              · simp at h; subst h
                simp_all
              · simp at h; subst h; simp_all
            · simp at h; subst h; simp_all
          · simp at h; subst h; simp_all
        · simp at h; subst h; simp_all

theorem virtualTakes_spec {d : Device} {c i : Int} {r : Bool}
    (h : virtualTakes d c i = some r) : r = true ↔
      (RangeOk d.cfg.category d.cfg.categoryExtend c ∧ RangeOk d.cfg.identify d.cfg.identifyExtend i ∧
       MaskOk d.cfg.categoryMask c ∧ MaskOk d.cfg.identifyMask i) := by
  unfold virtualTakes at h
  simp only [Option.bind_eq_bind, Option.bind_eq_some_iff, Option.pure_def] at h
  obtain ⟨r1, h1, h⟩ := h
  have s1 := rangeFails_spec h1
  cases r1
  · simp only [Bool.false_eq_true, if_false, Option.bind_eq_some_iff] at h
    obtain ⟨r2, h2, h⟩ := h
    have s2 := rangeFails_spec h2
    cases r2
    · simp only [Bool.false_eq_true, if_false, Option.bind_eq_some_iff] at h
      obtain ⟨r3, h3, h⟩ := h
      have s3 := maskFails_spec h3
      cases r3
      · simp only [Bool.false_eq_true, if_false, Option.bind_eq_some_iff] at h
        obtain ⟨r4, h4, h⟩ := h
        have s4 := maskFails_spec h4
        cases r4
        · simp at h; subst h
          simp_all
        · simp at h; subst h; simp_all
      · simp at h; subst h; simp_all
    · simp at h; subst h; simp_all
  · simp at h; subst h; simp_all

theorem blockDevs_spec {p c i : Int} : ∀ {ds : List Device} {r : Bool},
    blockDevs p c i ds = some r → (r = true ↔ ∃ d ∈ ds, DeviceTakes d p c i) := by
  intro ds
  induction ds with
  | nil => intro r h; simp [blockDevs] at h; subst h; simp
  | cons d ds ih =>
    intro r h
    have skip : ¬ DeviceTakes d p c i → blockDevs p c i ds = some r →
        (r = true ↔ ∃ d' ∈ d :: ds, DeviceTakes d' p c i) := by
      intro hn h
      rw [ih h]
      simp [hn]
    unfold blockDevs at h
    simp only at h
    split at h
    · refine skip ?_ h
      intro hd
      unfold DeviceTakes at hd
      rcases ‹_ ∨ _› with h1 | h1
      · exact hd.1 h1
      · omega
    · split at h
      · refine skip ?_ h
        intro hd
        exact absurd hd.2.1 (by assumption)
      · simp only [Option.bind_eq_bind, Option.bind_eq_some_iff] at h
        obtain ⟨r1, h1, h⟩ := h
        have s1 := rangeFails_spec h1
        cases r1
        · simp only [Bool.false_eq_true, if_false, Option.bind_eq_some_iff] at h
          obtain ⟨r2, h2, h⟩ := h
          have s2 := rangeFails_spec h2
          cases r2
          · simp only [Bool.false_eq_true, if_false, Option.bind_eq_some_iff] at h
            obtain ⟨r3, h3, h⟩ := h
            have s3 := maskFails_spec h3
            cases r3
            · simp only [Bool.false_eq_true, if_false, Option.bind_eq_some_iff] at h
              obtain ⟨r4, h4, h⟩ := h
              have s4 := maskFails_spec h4
              cases r4
              · simp only [Bool.false_eq_true, if_false, Option.some.injEq] at h
                subst h
                simp only [true_iff]
                refine ⟨d, by simp, ?_⟩
                unfold DeviceTakes
                have hA : ¬ (d.cfg.able = 0 ∨ p < d.cfg.priority) := by assumption
                have hB : ¬ (d.inType ≠ .null) := by assumption
                refine ⟨by omega, by simpa using hB, by omega, s1.mp rfl, s2.mp rfl, s3.mp rfl, s4.mp rfl⟩
              · simp only [if_true] at h
                exact skip (fun hd => by have := s4.mpr hd.2.2.2.2.2.2; simp at this) h
            · simp only [if_true] at h
              exact skip (fun hd => by have := s3.mpr hd.2.2.2.2.2.1; simp at this) h
          · simp only [if_true] at h
            exact skip (fun hd => by have := s2.mpr hd.2.2.2.2.1; simp at this) h
        · simp only [if_true] at h
          exact skip (fun hd => by have := s1.mpr hd.2.2.2.1; simp at this) h

theorem blockDevs_defined {p c i : Int} : ∀ {ds : List Device}, (∀ d ∈ ds, DevDefined d c i) →
    ∃ r, blockDevs p c i ds = some r := by
  intro ds
  induction ds with
  | nil => intro _; exact ⟨_, rfl⟩
  | cons d ds ih =>
    intro h
    obtain ⟨rest, hrest⟩ := ih (fun d hd => h d (by simp [hd]))
    have hd := h d (by simp)
    obtain ⟨a, b, a', b', m, m'⟩ := hd
    obtain ⟨r1, h1⟩ := rangeFails_defined (v := c) a b
    obtain ⟨r2, h2⟩ := rangeFails_defined (v := i) a' b'
    obtain ⟨r3, h3⟩ := maskFails_defined m
    obtain ⟨r4, h4⟩ := maskFails_defined m'
    unfold blockDevs
    simp only [h1, h2, h3, h4, hrest, Option.bind_eq_bind, Option.bind_some]
    repeat' split
    all_goals exact ⟨_, rfl⟩

theorem dispatchTakes_defined {d : Device} {p c i : Int} (h : DevDefined d c i) :
    ∃ r, dispatchTakes d p c i = some r := by
  obtain ⟨a, b, a', b', m, m'⟩ := h
  obtain ⟨r1, h1⟩ := rangeFails_defined (v := c) a b
  obtain ⟨r2, h2⟩ := rangeFails_defined (v := i) a' b'
  obtain ⟨r3, h3⟩ := maskFails_defined m
  obtain ⟨r4, h4⟩ := maskFails_defined m'
  unfold dispatchTakes
  simp only [h1, h2, h3, h4, Option.bind_eq_bind, Option.bind_some, Option.pure_def]
  repeat' split
  all_goals exact ⟨_, rfl⟩

theorem dispatchFrom_defined {p c i : Int} : ∀ {ds : List Device} {s : Nat},
    (∀ d ∈ ds, DevDefined d c i) → ∃ r, dispatchFrom s p c i ds = some r := by
  intro ds
  induction ds with
  | nil => intro s _; exact ⟨_, rfl⟩
  | cons d ds ih =>
    intro s h
    obtain ⟨rest, hrest⟩ := ih (s := s + 1) (fun d hd => h d (by simp [hd]))
    obtain ⟨t, ht⟩ := dispatchTakes_defined (p := p) (h d (by simp))
    unfold dispatchFrom
    simp [ht, hrest]

/-- Elements produced by the loop are the indices (shifted by the start) of the taking devices. -/
theorem dispatchFrom_mem {p c i : Int} : ∀ {ds : List Device} {s : Nat} {r : List Nat},
    dispatchFrom s p c i ds = some r →
    ∀ k, k ∈ r ↔ s ≤ k ∧ ∃ d, ds[k - s]? = some d ∧ DeviceTakes d p c i := by
  intro ds
  induction ds with
  | nil => intro s r h k; simp [dispatchFrom] at h; subst h; simp
  | cons d ds ih =>
    intro s r h k
    unfold dispatchFrom at h
    simp only [Option.bind_eq_bind, Option.bind_eq_some_iff, Option.pure_def] at h
    obtain ⟨t, ht, rest, hrest, h⟩ := h
    have hs := dispatchTakes_spec ht
    have hk := ih hrest k
    simp only [Option.some.injEq] at h
    subst h
    have hcons : k ∈ (if t = true then s :: rest else rest) ↔ (t = true ∧ k = s) ∨ k ∈ rest := by
      cases t <;> simp
    rw [hcons, hk, hs]
    constructor
    · rintro (⟨h1, rfl⟩ | ⟨hle, d', hd', hT⟩)
      · exact ⟨Nat.le_refl _, d, by simp, h1⟩
      · refine ⟨by omega, d', ?_, hT⟩
        have : k - s = (k - (s + 1)) + 1 := by omega
        rw [this]; simpa using hd'
    · rintro ⟨hle, d', hd', hT⟩
      by_cases hks : k = s
      · subst hks; simp at hd'; subst hd'; exact Or.inl ⟨hT, rfl⟩
      · right
        refine ⟨by omega, d', ?_, hT⟩
        have : k - s = (k - (s + 1)) + 1 := by omega
        rw [this] at hd'; simpa using hd'

theorem dispatchFrom_sorted {p c i : Int} : ∀ {ds : List Device} {s : Nat} {r : List Nat},
    dispatchFrom s p c i ds = some r → r.Pairwise (· < ·) := by
  intro ds
  induction ds with
  | nil => intro s r h; simp [dispatchFrom] at h; subst h; simp
  | cons d ds ih =>
    intro s r h
    have h0 := h
    unfold dispatchFrom at h
    simp only [Option.bind_eq_bind, Option.bind_eq_some_iff, Option.pure_def] at h
    obtain ⟨t, ht, rest, hrest, h⟩ := h
    simp only [Option.some.injEq] at h
    subst h
    cases t
    · simpa using ih hrest
    · simp only [if_true, List.pairwise_cons]
      refine ⟨?_, ih hrest⟩
      intro k hk
      have := (dispatchFrom_mem hrest k).mp hk
      omega

end FNLog
