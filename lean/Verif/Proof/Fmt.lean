import Verif.Model.Fmt
import Verif.Spec.Fmt
import Verif.Proof.Mem

/-! # Numerals and their formatting -/

namespace FNLog
open Spec

/-! ## Numerals -/

theorem numeral_lt {b n : Nat} (h : n < b) : numeral b n = [digit n] := by
  rw [numeral, dif_neg (by omega)]

theorem numeral_ge {b n : Nat} (hb : 2 ≤ b) (h : b ≤ n) :
    numeral b n = numeral b (n / b) ++ [digit (n % b)] := by
  rw [numeral, dif_pos ⟨hb, h⟩]

theorem numeral_ne_nil (b n : Nat) : numeral b n ≠ [] := by
  rw [numeral]; split <;> simp

theorem numeral_length_pos (b n : Nat) : 0 < (numeral b n).length :=
  List.length_pos_iff.mpr (numeral_ne_nil b n)

theorem numeral_length_le (b : Nat) (hb : 2 ≤ b) (k : Nat) : ∀ n, n < b ^ (k + 1) →
    (numeral b n).length ≤ k + 1 := by
  induction k with
  | zero => intro n h; rw [numeral_lt (by simpa using h)]; simp
  | succ k ih =>
    intro n h
    by_cases h1 : n < b
    · rw [numeral_lt h1]; simp
    · rw [numeral_ge hb (by omega), List.length_append]
      have := ih (n / b) (by
        rw [Nat.div_lt_iff_lt_mul (by omega)]
        rw [Nat.pow_succ] at h; exact h)
      simp only [List.length_cons, List.length_nil]; omega

theorem digitVal_digit : ∀ d, d < 16 → digitVal (digit d) = d := by decide

theorem digit_eq_zero : ∀ d, d < 16 → digit d = '0' → d = 0 := by decide

/-- Reading a numeral back gives the number. -/
theorem value_numeral (b : Nat) (hb : 2 ≤ b) (hb' : b ≤ 16) (n : Nat) : value b (numeral b n) = n := by
  induction n using Nat.strongRecOn with
  | ind n ih =>
    by_cases h1 : n < b
    · rw [numeral_lt h1]; simp only [value, List.foldl_cons, List.foldl_nil]
      rw [digitVal_digit n (by omega)]; omega
    · rw [numeral_ge hb (by omega)]
      have := ih (n / b) (Nat.div_lt_self (by omega) (by omega))
      unfold value at this ⊢
      rw [List.foldl_append, this]
      simp only [List.foldl_cons, List.foldl_nil]
      rw [digitVal_digit _ (by have := Nat.mod_lt n (show 0 < b by omega); omega), Nat.mul_comm]
      exact Nat.div_add_mod n b

theorem head?_append_numeral (b n : Nat) (t : List Char) :
    (numeral b n ++ t).head? = (numeral b n).head? := by
  have := numeral_ne_nil b n
  rcases h : numeral b n with _ | ⟨c, r⟩
  · exact absurd h this
  · rfl

/-- No leading zero. -/
theorem numeral_head (b : Nat) (hb : 2 ≤ b) (hb' : b ≤ 16) (n : Nat) (h : (numeral b n).head? = some '0') :
    n = 0 := by
  induction n using Nat.strongRecOn with
  | ind n ih =>
    by_cases h1 : n < b
    · rw [numeral_lt h1] at h; simp only [List.head?_cons, Option.some.injEq] at h
      exact digit_eq_zero n (by omega) h
    · rw [numeral_ge hb (by omega)] at h
      rw [head?_append_numeral] at h
      have := ih (n / b) (Nat.div_lt_self (by omega) (by omega)) h
      rcases Nat.div_eq_zero_iff.mp this with h | h <;> omega

theorem numeral_zero (b : Nat) (hb : 0 < b) : numeral b 0 = ['0'] := by rw [numeral_lt hb]; rfl

theorem numeral_two (n : Nat) (h : 100 ≤ n) :
    numeral 10 n = numeral 10 (n / 100) ++ [digit (n % 100 / 10), digit (n % 10)] := by
  rw [numeral_ge (by omega) (by omega), numeral_ge (by omega) (by omega), List.append_assoc]
  have e1 : n / 10 / 10 = n / 100 := by omega
  have e2 : n / 10 % 10 = n % 100 / 10 := by omega
  rw [e1, e2]; rfl

theorem padLeft_length (w : Nat) (s : List Char) : (padLeft w s).length = max w s.length := by
  simp only [padLeft, List.length_append, List.length_replicate]; omega

theorem padLeft_of_le {w : Nat} {s : List Char} (h : w ≤ s.length) : padLeft w s = s := by
  simp [padLeft, Nat.sub_eq_zero_of_le h]

theorem foldl_zeros (b k : Nat) (s : List Char) :
    (List.replicate k '0' ++ s).foldl (fun a c => a * b + digitVal c) 0 =
      s.foldl (fun a c => a * b + digitVal c) 0 := by
  induction k with
  | zero => simp
  | succ k ih =>
    rw [List.replicate_succ, List.cons_append, List.foldl_cons]
    have : 0 * b + digitVal '0' = 0 := by rw [Nat.zero_mul]; decide
    rw [this]; exact ih

theorem value_padLeft (b w : Nat) (s : List Char) : value b (padLeft w s) = value b s :=
  foldl_zeros b (w - s.length) s

/-! ## `write_dec_unsafe` -/

theorem decLut_spec : ∀ i, i < 100 → decLut[i + i]? = some (digit (i / 10)) ∧
    decLut[i + i + 1]? = some (digit (i % 10)) := by decide +kernel

theorem decLoop_spec (k : Nat) : ∀ (room : Nat) (t : List Char) (n : Nat), n < 100 ^ (k + 1) →
    2 * (k + 1) ≤ room →
    ∃ p, decLoop room t n = some (p ++ t) ∧
      ((p = numeral 10 n ∧ p.head? ≠ some '0') ∨ p = '0' :: numeral 10 n) := by
  induction k with
  | zero =>
    intro room t n h hr
    obtain ⟨room, rfl⟩ : ∃ r, room = r + 2 := ⟨room - 2, by omega⟩
    have h : n < 100 := by simpa using h
    rw [decLoop]
    obtain ⟨l0, l1⟩ := decLut_spec (n % 100) (Nat.mod_lt _ (by omega))
    simp only [l0, l1, Option.bind_eq_bind, Option.bind_some]
    rw [if_neg (by omega)]
    refine ⟨[digit (n % 100 / 10), digit (n % 100 % 10)], by simp, ?_⟩
    rw [Nat.mod_eq_of_lt h]
    by_cases h1 : n < 10
    · right
      rw [numeral_lt h1, Nat.div_eq_of_lt h1, Nat.mod_eq_of_lt h1]; rfl
    · left
      constructor
      · rw [numeral_ge (by omega) (by omega), numeral_lt (by omega)]; rfl
      · simp only [List.head?_cons, ne_eq, Option.some.injEq]
        intro hd; have := digit_eq_zero _ (by omega) hd; omega
  | succ k ih =>
    intro room t n h hr
    by_cases h1 : n < 100 ^ (k + 1)
    · exact ih room t n h1 (by omega)
    · obtain ⟨room, rfl⟩ : ∃ r, room = r + 2 := ⟨room - 2, by omega⟩
      have hk : 1 ≤ 100 ^ k := Nat.one_le_pow _ _ (by omega)
      have h100 : 100 ≤ n := by rw [Nat.pow_succ] at h1; omega
      rw [decLoop]
      obtain ⟨l0, l1⟩ := decLut_spec (n % 100) (Nat.mod_lt _ (by omega))
      simp only [l0, l1, Option.bind_eq_bind, Option.bind_some]
      rw [if_pos (by omega)]
      obtain ⟨p, hp, hd⟩ := ih room (digit (n % 100 / 10) :: digit (n % 100 % 10) :: t) (n / 100)
        (by rw [Nat.div_lt_iff_lt_mul (by omega)]; rw [Nat.pow_succ] at h; exact h) (by omega)
      refine ⟨p ++ [digit (n % 100 / 10), digit (n % 100 % 10)], by rw [hp]; simp, ?_⟩
      have e : n % 100 % 10 = n % 10 := by omega
      rw [numeral_two n h100, e]
      rcases hd with ⟨rfl, hd⟩ | rfl
      · left; refine ⟨rfl, ?_⟩
        rw [head?_append_numeral]; exact hd
      · right; rfl

theorem decPad_spec (wide : Int) : ∀ (room : Nat) (t : List Char), wide ≤ room + t.length →
    decPad wide room t = some (padLeft wide.toNat t) := by
  intro room
  induction room with
  | zero => intro t h; rw [decPad, if_neg (by omega), padLeft_of_le (by omega)]
  | succ r ih =>
    intro t h
    rw [decPad]
    split
    · next h1 =>
      rw [ih _ (by simp only [List.length_cons]; omega)]
      unfold padLeft
      have : wide.toNat - t.length = (wide.toNat - ('0' :: t).length) + 1 := by
        simp only [List.length_cons]; omega
      rw [this, List.replicate_succ']
      simp
    · rw [padLeft_of_le (by omega)]

theorem numeral_length_u64 (n : Nat) (h : n < 2 ^ 64) : (numeral 10 n).length ≤ 20 :=
  numeral_length_le 10 (by omega) 19 n (by omega)

/-- The digits of an unsigned number. -/
theorem decBytes_spec (wide : Int) (hw : wide ≤ 30) (n : Nat) (h : n < 2 ^ 64) :
    decBytes wide n = some (padLeft wide.toNat (numeral 10 n)) := by
  obtain ⟨p, hp, hd⟩ := decLoop_spec 14 30 [] n (by omega) (by omega)
  unfold decBytes
  rw [hp]
  have hl := numeral_length_u64 n h
  simp only [List.append_nil, Option.bind_eq_bind, Option.bind_some]
  rcases hd with ⟨rfl, hd⟩ | rfl
  · have : stripZero (numeral 10 n) = numeral 10 n := by
      rcases hh : numeral 10 n with _ | ⟨c, r⟩
      · rfl
      · rw [hh] at hd
        rw [stripZero, if_neg (by intro hc; rw [hc] at hd; exact hd rfl)]
    rw [this]
    exact decPad_spec wide _ _ (by omega)
  · exact decPad_spec wide _ _ (by omega)

theorem writeDecU_put (wide : Int) (hw : wide ≤ 30) (b : List Char) (dst n : Nat) (h : n < 2 ^ 64)
    (hf : dst + (padLeft wide.toNat (numeral 10 n)).length ≤ b.length) :
    writeDecU wide b dst n = some (put b dst (padLeft wide.toNat (numeral 10 n)),
      (padLeft wide.toNat (numeral 10 n)).length) := by
  unfold writeDecU
  rw [decBytes_spec wide hw n h]
  simp only [Option.bind_eq_bind, Option.bind_some, emit]
  rw [writeAt_put hf]; rfl

/-- Signed numbers other than the smallest one; a negative number uses one of the `wide` columns for
its sign. -/
theorem writeDecS_put (wide : Int) (hw : wide ≤ 30) (b : List Char) (dst : Nat) (n : Int)
    (h0 : -(2 ^ 63) < n) (h1 : n < 2 ^ 63) (text : List Char)
    (ht : text = if n < 0 then '-' :: padLeft (wide - 1).toNat (numeral 10 (-n).toNat)
      else padLeft wide.toNat (numeral 10 n.toNat))
    (hf : dst + text.length ≤ b.length) :
    writeDecS wide b dst n = some (put b dst text, text.length) := by
  unfold writeDecS
  by_cases hn : n < 0
  · rw [if_pos hn] at ht
    rw [if_pos hn]
    subst ht
    rw [List.length_cons] at hf
    rw [writeAt_put (by simp only [List.length_cons, List.length_nil]; omega)]
    simp only [Option.bind_eq_bind, Option.bind_some]
    rw [if_neg (by omega), writeDecU_put _ (by omega) _ _ _ (by omega)
      (by rw [put_length (by simp only [List.length_cons, List.length_nil]; omega)]; omega)]
    simp only [Option.bind_some, Option.some.injEq, Prod.mk.injEq]
    constructor
    · exact put_put_right (s := ['-']) (by simp only [List.length_append, List.length_cons, List.length_nil]; omega)
    · simp only [List.length_cons]; omega
  · rw [if_neg hn] at ht
    rw [if_neg hn]
    subst ht
    exact writeDecU_put _ hw _ _ _ (by omega) hf

/-! ## `write_hex_unsafe` -/

theorem hexLut_spec : ∀ i, i < 256 → hexLut[i * 2]? = some (digit (i / 16)) ∧
    hexLut[i * 2 + 1]? = some (digit (i % 16)) := by decide +kernel

theorem hexLut1_spec : ∀ i, i < 16 → hexLut1[i]? = some (digit i) := by decide

theorem hexWide_spec : ∀ w, w ≤ 64 → hexWide w = (w + 3) / 4 := by decide +kernel

theorem numeral16_two (n : Nat) (h : 256 ≤ n) :
    numeral 16 n = numeral 16 (n / 256) ++ [digit (n % 256 / 16), digit (n % 256 % 16)] := by
  rw [numeral_ge (by omega) (by omega), numeral_ge (by omega) (by omega), List.append_assoc]
  have e1 : n / 16 / 16 = n / 256 := by omega
  have e2 : n / 16 % 16 = n % 256 / 16 := by omega
  have e3 : n % 16 = n % 256 % 16 := by omega
  rw [e1, e2, e3]; rfl

/-- Padded numerals split off their last two digits. -/
theorem padLeft16_two (w n : Nat) (h : (numeral 16 n).length ≤ w)
    (hq : n / 256 ≠ 0) :
    padLeft w (numeral 16 n) =
      padLeft (w - 2) (numeral 16 (n / 256)) ++ [digit (n % 256 / 16), digit (n % 256 % 16)] := by
  have hn : 256 ≤ n := by
    rcases Nat.lt_or_ge n 256 with h | h
    · exact absurd (Nat.div_eq_of_lt h) hq
    · exact h
  rw [numeral16_two n hn] at h ⊢
  simp only [List.length_append, List.length_cons, List.length_nil] at h
  unfold padLeft
  rw [List.length_append, ← List.append_assoc]
  congr 3
  simp only [List.length_cons, List.length_nil]; omega

theorem zeroFill_put (b : List Char) (dst cur : Nat) (h : dst + cur ≤ b.length) :
    zeroFill b dst cur = some (put b dst (List.replicate cur '0')) := by
  induction cur generalizing b with
  | zero => simp [zeroFill, put_nil]
  | succ k ih =>
    rw [zeroFill, writeAt_put (by simp only [List.length_cons, List.length_nil]; omega)]
    simp only [Option.bind_eq_bind, Option.bind_some]
    rw [ih _ (by rw [put_length (by simp only [List.length_cons, List.length_nil]; omega)]; omega)]
    congr 1
    have e : dst + k = dst + (List.replicate k '0').length := by rw [List.length_replicate]
    rw [e, put_put_left (by simp only [List.length_append, List.length_replicate, List.length_cons, List.length_nil]; omega)]
    rw [List.replicate_succ']

/-- The remaining part of `writeHex` after `w` has been computed. -/
def hexTail (b : List Char) (dst : Nat) (cur number : Nat) : Option (List Char) := do
  let (b, cur, number) ← hexPairs b dst cur number
  if number ≠ 0 then
    let c ← hexLut1[number % 16]?
    let b ← writeAt b dst [c]
    if cur = 0 then none else zeroFill b dst (cur - 1)
  else zeroFill b dst cur

theorem hexTail_put (k : Nat) : ∀ (cur : Nat) (b : List Char) (dst n : Nat), cur ≤ k → 0 < n →
    (numeral 16 n).length ≤ cur → dst + cur ≤ b.length →
    hexTail b dst cur n = some (put b dst (padLeft cur (numeral 16 n))) := by
  induction k with
  | zero => intro cur b dst n hk h0 hl _; have := numeral_length_pos 16 n; omega
  | succ k ih =>
    intro cur b dst n hk h0 hl hf
    rcases cur with _ | _ | cur
    · have := numeral_length_pos 16 n; omega
    · -- one column
      have hn : n < 16 := by
        rcases Nat.lt_or_ge n 16 with h | h
        · exact h
        · rw [numeral_ge (by omega) h, List.length_append] at hl
          have := numeral_length_pos 16 (n / 16)
          simp only [List.length_cons, List.length_nil] at hl; omega
      unfold hexTail
      simp only [hexPairs, Option.bind_eq_bind, Option.bind_some]
      rw [if_pos (by omega), Nat.mod_eq_of_lt hn, hexLut1_spec n hn]
      simp only [Option.bind_some]
      rw [writeAt_put (by simp only [List.length_cons, List.length_nil]; omega)]
      simp only [Option.bind_some]
      rw [if_neg (by omega), zeroFill_put _ _ _ (by rw [put_length (by simp only [List.length_cons, List.length_nil]; omega)]; omega)]
      simp only [Nat.sub_self, Nat.zero_add, List.replicate_zero, put_nil]
      rw [numeral_lt hn, padLeft_of_le (by simp)]
    · unfold hexTail
      rw [hexPairs, if_pos (by omega)]
      obtain ⟨l0, l1⟩ := hexLut_spec (n % 256) (Nat.mod_lt _ (by omega))
      simp only [l0, l1, Option.bind_eq_bind, Option.bind_some]
      rw [writeAt_put (by simp only [List.length_cons, List.length_nil]; omega)]
      simp only [Option.bind_some]
      rw [writeAt_put (by rw [put_length (by simp only [List.length_cons, List.length_nil]; omega)]; simp only [List.length_cons, List.length_nil]; omega)]
      simp only [Option.bind_some]
      have e : dst + cur + 1 = dst + cur + [digit (n % 256 / 16)].length := rfl
      rw [e, put_put_left (by simp only [List.length_append, List.length_cons, List.length_nil]; omega)]
      generalize hp : [digit (n % 256 / 16)] ++ [digit (n % 256 % 16)] = pr
      have hpl : pr.length = 2 := by rw [← hp]; rfl
      by_cases hq : n / 256 = 0
      · rw [hq]
        have hlt : n < 256 := by
          rcases Nat.div_eq_zero_iff.mp hq with h | h
          · omega
          · exact h
        have hh : hexPairs (put b (dst + cur) pr) dst cur 0 = some (put b (dst + cur) pr, cur, 0) := by
          rcases cur with _ | _ | cur <;> simp [hexPairs]
        rw [hh]
        simp only [Option.bind_some, ne_eq, not_true_eq_false, if_false]
        rw [zeroFill_put _ _ _ (by rw [put_length (by omega)]; omega)]
        have e2 : dst + cur = dst + (List.replicate cur '0').length := by rw [List.length_replicate]
        rw [e2, put_put_left (by simp only [List.length_append, List.length_replicate]; omega)]
        have e4 : List.replicate cur '0' ++ pr = padLeft (cur + 1 + 1) (numeral 16 n) := by
          rw [← hp, Nat.mod_eq_of_lt hlt]
          by_cases h16 : n < 16
          · rw [numeral_lt h16, Nat.div_eq_of_lt h16, Nat.mod_eq_of_lt h16]
            unfold padLeft
            rw [show cur + 1 + 1 - [digit n].length = cur + 1 from rfl, List.replicate_succ',
              List.append_assoc]
            rfl
          · rw [numeral_ge (by omega) (by omega), numeral_lt (by omega)]
            unfold padLeft
            rfl
        rw [e4]
      · have hih := ih cur (put b (dst + cur) pr) dst (n / 256) (by omega) (by omega) ?_ (by rw [put_length (by omega)]; omega)
        · unfold hexTail at hih
          simp only [Option.bind_eq_bind] at hih
          rw [hih]
          have hn256 : 256 ≤ n := by
            rcases Nat.lt_or_ge n 256 with h | h
            · exact absurd (Nat.div_eq_of_lt h) hq
            · exact h
          have hl2 : (numeral 16 (n / 256)).length ≤ cur := by
            rw [numeral16_two n hn256] at hl
            simp only [List.length_append, List.length_cons, List.length_nil] at hl; omega
          rw [padLeft16_two (cur + 1 + 1) n hl hq]
          have e3 : dst + cur = dst + (padLeft cur (numeral 16 (n / 256))).length := by
            rw [padLeft_length]; omega
          rw [e3, put_put_left (by simp only [List.length_append, padLeft_length]; omega)]
          rw [← hp]; rfl
        · have hn256 : 256 ≤ n := by
            rcases Nat.lt_or_ge n 256 with h | h
            · exact absurd (Nat.div_eq_of_lt h) hq
            · exact h
          rw [numeral16_two n hn256] at hl
          simp only [List.length_append, List.length_cons, List.length_nil] at hl; omega

theorem numeral_length_eq (b : Nat) (hb : 2 ≤ b) (k : Nat) : ∀ n, n < b ^ (k + 1) → (k = 0 ∨ b ^ k ≤ n) →
    (numeral b n).length = k + 1 := by
  induction k with
  | zero => intro n h _; rw [numeral_lt (by simpa using h)]; rfl
  | succ k ih =>
    intro n h h1
    have h1 : b ^ (k + 1) ≤ n := by rcases h1 with h1 | h1; omega; exact h1
    have hbn : b ≤ n := by
      have : b ^ 1 ≤ b ^ (k + 1) := Nat.pow_le_pow_right (by omega) (by omega)
      rw [Nat.pow_one] at this; omega
    rw [numeral_ge hb hbn, List.length_append, ih]
    · rfl
    · rw [Nat.div_lt_iff_lt_mul (by omega)]; rw [Nat.pow_succ] at h; exact h
    · right; rw [Nat.le_div_iff_mul_le (by omega)]; rw [Nat.pow_succ] at h1; exact h1

theorem bitWide_spec {n : Nat} (h0 : 0 < n) (h : n < 2 ^ 64) :
    ∃ w, bitWide n = some w ∧ w = (numeral 2 n).length ∧ 1 ≤ w ∧ w ≤ 64 ∧ 2 ^ (w - 1) ≤ n ∧ n < 2 ^ w := by
  refine ⟨Nat.log2 n + 1, by rw [bitWide, if_neg (by omega)], ?_, by omega, ?_, ?_, Nat.lt_log2_self⟩
  · rw [numeral_length_eq 2 (by omega) (Nat.log2 n) n Nat.lt_log2_self (Or.inr (Nat.log2_self_le (by omega)))]
  · have := (Nat.log2_lt (by omega)).mpr h; omega
  · exact Nat.log2_self_le (by omega)

theorem hexLen {n w : Nat} (h1 : 1 ≤ w) (h0 : 2 ^ (w - 1) ≤ n) (h : n < 2 ^ w) :
    (numeral 16 n).length = (w + 3) / 4 := by
  have hk : (w + 3) / 4 = (w - 1) / 4 + 1 := by omega
  rw [hk]
  apply numeral_length_eq 16 (by omega)
  · calc n < 2 ^ w := h
      _ ≤ 2 ^ (4 * ((w - 1) / 4 + 1)) := Nat.pow_le_pow_right (by omega) (by omega)
      _ = 16 ^ ((w - 1) / 4 + 1) := by rw [Nat.pow_mul]
  · right
    calc 16 ^ ((w - 1) / 4) = 2 ^ (4 * ((w - 1) / 4)) := by rw [Nat.pow_mul]
      _ ≤ 2 ^ (w - 1) := Nat.pow_le_pow_right (by omega) (by omega)
      _ ≤ n := h0

theorem writeHex_put (wide : Int) (b : List Char) (dst n : Nat) (h0 : 0 < n) (h : n < 2 ^ 64)
    (hf : dst + (padLeft wide.toNat (numeral 16 n)).length ≤ b.length) :
    writeHex wide b dst n = some (put b dst (padLeft wide.toNat (numeral 16 n)),
      (padLeft wide.toNat (numeral 16 n)).length) := by
  obtain ⟨w, hw, _, w1, w64, hlo, hhi⟩ := bitWide_spec h0 h
  have hlen := hexLen w1 hlo hhi
  rw [padLeft_length] at hf ⊢
  have key : ∀ W, W = max wide.toNat (numeral 16 n).length → writeHex wide b dst n =
      (hexTail b dst W n).map (·, W) := by
    intro W hW
    unfold writeHex hexTail
    rw [hw]
    simp only [Option.bind_eq_bind, Option.bind_some, hexWide_spec w w64, ← hlen]
    have : (if ((numeral 16 n).length : Int) < wide then wide.toNat else (numeral 16 n).length) = W := by
      split <;> omega
    rw [this]
    rcases hexPairs b dst W n with _ | ⟨b1, cur, m⟩
    · rfl
    · simp only [Option.bind_some]
      by_cases hm : m = 0
      · simp only [hm, ne_eq, not_true_eq_false, if_false]
        cases zeroFill b1 dst cur <;> rfl
      · simp only [hm, ne_eq, not_false_eq_true, if_true]
        rcases hexLut1[m % 16]? with _ | c
        · rfl
        · simp only [Option.bind_some]
          rcases writeAt b1 dst [c] with _ | b2
          · rfl
          · simp only [Option.bind_some]
            by_cases hc : cur = 0
            · simp [hc]
            · simp only [hc, if_false]
              cases zeroFill b2 dst (cur - 1) <;> rfl
  rw [key _ rfl, hexTail_put _ _ b dst n (Nat.le_refl _) h0 (by omega) hf]
  have : padLeft (max wide.toNat (numeral 16 n).length) (numeral 16 n) =
      padLeft wide.toNat (numeral 16 n) := by
    unfold padLeft; congr 2; omega
  rw [this]; rfl

/-! ## `write_bin_unsafe` -/

theorem binLoop_put (k : Nat) : ∀ (n : Nat) (b : List Char) (dst cur : Nat), n < 2 ^ (k + 1) →
    (numeral 2 n).length ≤ cur → dst + cur ≤ b.length →
    binLoop b dst cur n = some (put b (dst + (cur - (numeral 2 n).length)) (numeral 2 n)) := by
  induction k with
  | zero =>
    intro n b dst cur h hc hf
    have h : n < 2 := by simpa using h
    rw [numeral_lt h] at hc ⊢
    obtain ⟨cur, rfl⟩ : ∃ c, cur = c + 1 := ⟨cur - 1, by simp only [List.length_cons, List.length_nil] at hc; omega⟩
    rw [binLoop, writeAt_put (by simp only [List.length_cons, List.length_nil]; omega)]
    simp only [Option.bind_eq_bind, Option.bind_some]
    rw [if_neg (by omega)]
    have : (if n % 2 = 1 then '1' else '0') = digit n := by
      rcases (show n = 0 ∨ n = 1 by omega) with rfl | rfl <;> rfl
    rw [this]; rfl
  | succ k ih =>
    intro n b dst cur h hc hf
    by_cases h2 : n < 2
    · exact ih n b dst cur (by have : 2 ^ 1 ≤ 2 ^ (k + 1) := Nat.pow_le_pow_right (by omega) (by omega); omega) hc hf
    · rw [numeral_ge (by omega) (by omega)] at hc ⊢
      simp only [List.length_append, List.length_cons, List.length_nil] at hc ⊢
      obtain ⟨cur, rfl⟩ : ∃ c, cur = c + 1 := ⟨cur - 1, by omega⟩
      rw [binLoop, writeAt_put (by simp only [List.length_cons, List.length_nil]; omega)]
      simp only [Option.bind_eq_bind, Option.bind_some]
      rw [if_pos (by omega)]
      rw [ih (n / 2) _ dst cur (by rw [Nat.div_lt_iff_lt_mul (by omega)]; rw [Nat.pow_succ] at h; exact h) (by omega)
        (by rw [put_length (by simp only [List.length_cons, List.length_nil]; omega)]; omega)]
      have : (if n % 2 = 1 then '1' else '0') = digit (n % 2) := by
        rcases (show n % 2 = 0 ∨ n % 2 = 1 by omega) with h | h <;> rw [h] <;> rfl
      rw [this]
      have e : dst + cur = dst + (cur - (numeral 2 (n / 2)).length) + (numeral 2 (n / 2)).length := by omega
      have hrw := put_put_left (b := b) (s := numeral 2 (n / 2)) (t := [digit (n % 2)])
        (off := dst + (cur - (numeral 2 (n / 2)).length))
        (by simp only [List.length_append, List.length_cons, List.length_nil]; omega)
      rw [← e] at hrw
      rw [hrw]
      congr 2; omega

/-- `write_bin_unsafe`: the digits are right-aligned in a field of `max wide digits` columns; the
columns in front of them keep their old content. -/
theorem writeBin_put (wide : Int) (b : List Char) (dst n : Nat) (h0 : 0 < n) (h : n < 2 ^ 64)
    (hf : dst + max wide.toNat (numeral 2 n).length ≤ b.length) :
    writeBin wide b dst n = some (put b (dst + (wide.toNat - (numeral 2 n).length)) (numeral 2 n),
      max wide.toNat (numeral 2 n).length) := by
  obtain ⟨w, hw, hl, w1, w64, _, _⟩ := bitWide_spec h0 h
  unfold writeBin
  rw [hw]
  simp only [Option.bind_eq_bind, Option.bind_some]
  have : (if (w : Int) < wide then wide.toNat else w) = max wide.toNat (numeral 2 n).length := by
    split <;> omega
  rw [this, binLoop_put 63 n b dst _ h (by omega) hf]
  simp only [Option.bind_some, Option.some.injEq, Prod.mk.injEq, and_true]
  congr 1; omega

end FNLog
