import Verif.Proof.KernelRfl
import Verif.Proof.Document
import Verif.Props.Document

/-!
C99: numbers in the configuration (`ParseNumber`, fn_parse.h:507-523, that is `strtoll` with base 0).
-/

namespace FNLog
open Spec

namespace Spec

/-- The ways to write a natural number: decimal, hexadecimal with digits in lower or upper case behind `0x` or
`0X`, octal behind `0`. -/
inductive Written (n : Nat) : List Char → Prop
  | dec : Written n (numeral 10 n)
  | hexU {x : Char} (hx : x = 'x' ∨ x = 'X') : Written n ('0' :: x :: numeral 16 n)
  | hexL {x : Char} (hx : x = 'x' ∨ x = 'X') : Written n ('0' :: x :: (numeral 16 n).map Char.toLower)
  | oct : Written n ('0' :: numeral 8 n)

end Spec

theorem digit_hex : ∀ d, d < 16 → hexVal (digit d) = d ∧ hexVal (digit d).toLower = d := by decide

/-- Digits of base `b`, each changed by `f`. -/
theorem numeral_digits {b : Nat} (hb : 2 ≤ b) (n : Nat) : ∀ c ∈ numeral b n, ∃ d, d < b ∧ c = digit d := by
  induction n using Nat.strongRecOn with
  | ind n ih =>
    by_cases h : b ≤ n
    · rw [numeral_ge hb h]
      intro c hc
      rcases List.mem_append.mp hc with hc | hc
      · exact ih (n / b) (Nat.div_lt_self (by omega) (by omega)) c hc
      · exact ⟨n % b, Nat.mod_lt _ (by omega), List.mem_singleton.mp hc⟩
    · rw [numeral_lt (by omega)]
      intro c hc
      exact ⟨n, by omega, List.mem_singleton.mp hc⟩

theorem numeral_fold {b : Nat} (hb : 2 ≤ b) (h16 : b ≤ 16) (f : Char → Char)
    (hf : ∀ d, d < 16 → hexVal (f (digit d)) = d) (n : Nat) :
    ((numeral b n).map f).foldl (fun a c => a * b + hexVal c) 0 = n := by
  induction n using Nat.strongRecOn with
  | ind n ih =>
    by_cases h : b ≤ n
    · have hm : n % b < b := Nat.mod_lt _ (by omega)
      rw [numeral_ge hb h, List.map_append, List.foldl_append, ih (n / b) (Nat.div_lt_self (by omega) (by omega))]
      simp only [List.map_cons, List.map_nil, List.foldl_cons, List.foldl_nil]
      rw [hf _ (by omega), Nat.mul_comm]
      exact Nat.div_add_mod n b
    · rw [numeral_lt (by omega)]
      simp only [List.map_cons, List.map_nil, List.foldl_cons, List.foldl_nil]
      rw [hf _ (by omega)]
      omega

theorem basePrefix_written {b : Nat} (hb : 2 ≤ b) (h16 : b ≤ 16) (f : Char → Char)
    (hf : ∀ d, d < 16 → hexVal (f (digit d)) = d) (n : Nat) : basePrefix b ((numeral b n).map f) = n := by
  unfold basePrefix
  rw [takeWhile_all]
  · exact numeral_fold hb h16 f hf n
  · intro c hc
    obtain ⟨c', hc', rfl⟩ := List.mem_map.mp hc
    obtain ⟨d, hd, rfl⟩ := numeral_digits hb n c' hc'
    rw [hf d (by omega)]
    exact decide_eq_true hd

/-- A digit of base 8 is not `x`. -/
theorem digit8 : ∀ d, d < 8 → digit d ≠ 'x' ∧ digit d ≠ 'X' := by decide

theorem autoPrefix_written {n : Nat} {s : List Char} (h : Written n s) : autoPrefix s = n := by
  have hex : ∀ (x : Char) (f : Char → Char), (x = 'x' ∨ x = 'X') → (∀ d, d < 16 → hexVal (f (digit d)) = d) →
      autoPrefix ('0' :: x :: (numeral 16 n).map f) = n := by
    intro x f hx hf
    have hb := basePrefix_written (b := 16) (by omega) (by omega) f hf n
    cases e : (numeral 16 n).map f with
    | nil => exact absurd (List.map_eq_nil_iff.mp e) (numeral_ne_nil 16 n)
    | cons d ds =>
      have hd : hexVal d < 16 := by
        obtain ⟨c', hc', rfl⟩ := List.mem_map.mp (show d ∈ (numeral 16 n).map f by rw [e]; exact List.mem_cons_self)
        obtain ⟨v, hv, rfl⟩ := numeral_digits (by omega) n c' hc'
        rw [hf v hv]; exact hv
      rw [e] at hb
      unfold autoPrefix
      simp only
      rw [if_pos (by rcases hx with rfl | rfl <;> simp [hd]), hb]
  cases h with
  | dec => exact autoPrefix_numeral n
  | hexU hx =>
    have := hex _ id hx (fun d hd => (digit_hex d hd).1)
    rwa [List.map_id] at this
  | hexL hx => exact hex _ Char.toLower hx (fun d hd => (digit_hex d hd).2)
  | oct =>
    have hb := basePrefix_written (b := 8) (by omega) (by omega) id (fun d hd => (digit_hex d hd).1) n
    rw [List.map_id] at hb
    have hd := numeral_digits (b := 8) (by omega) n
    cases e : numeral 8 n with
    | nil => exact absurd e (numeral_ne_nil 8 n)
    | cons x ds =>
      obtain ⟨v, hv, hx⟩ := hd x (by rw [e]; exact List.mem_cons_self)
      have hx' := digit8 v hv
      rw [e] at hb
      unfold autoPrefix
      cases ds with
      | nil => exact hb
      | cons d ds =>
        simp only
        rw [if_neg (by rw [hx]; simp [hx'.1, hx'.2]), hb]

theorem written_length {n : Nat} (hn : n < 2 ^ 64) {s : List Char} (h : Written n s) : s ≠ [] ∧ s.length ≤ 23 := by
  have h10 := numeral_length_u64 n hn
  have h16 := numeral_length_le 16 (by omega) 15 n (by omega)
  have h8 := numeral_length_le 8 (by omega) 21 n (by omega)
  cases h with
  | dec => exact ⟨numeral_ne_nil 10 n, by omega⟩
  | hexU => exact ⟨by simp, by simp only [List.length_cons]; omega⟩
  | hexL => exact ⟨by simp, by simp only [List.length_cons, List.length_map]; omega⟩
  | oct => exact ⟨by simp, by simp only [List.length_cons]; omega⟩

/-- A written number begins with a decimal digit. -/
theorem written_head {n : Nat} {s : List Char} (h : Written n s) : ∃ c r, s = c :: r ∧ isNumber c = true := by
  cases h with
  | dec =>
    cases e : numeral 10 n with
    | nil => exact absurd e (numeral_ne_nil 10 n)
    | cons c r => exact ⟨c, r, rfl, numeral_isNumber n c (by rw [e]; exact List.mem_cons_self)⟩
  | hexL => exact ⟨_, _, rfl, by decide⟩
  | hexU => exact ⟨_, _, rfl, by decide⟩
  | oct => exact ⟨_, _, rfl, by decide⟩

theorem strtoll0_written {n : Nat} {s : List Char} (h : Written n s) :
    strtoll0 s = saturate n ∧ strtoll0 ('-' :: s) = saturate (-(n : Int)) ∧ strtoll0 ('+' :: s) = saturate n := by
  have ha := autoPrefix_written h
  obtain ⟨c, r, rfl, hc⟩ := written_head h
  have hs := isNumber_not_space hc
  refine ⟨?_, ?_, ?_⟩
  · unfold strtoll0
    rw [List.dropWhile_cons, hs.1]
    simp only [Bool.false_eq_true, if_false]
    split
    · rename_i heq; simp only [List.cons.injEq] at heq; exact absurd heq.1 hs.2.1
    · rename_i heq; simp only [List.cons.injEq] at heq; exact absurd heq.1 hs.2.2.1
    · rw [ha]
  · unfold strtoll0
    rw [List.dropWhile_cons, if_neg (by decide)]
    simp only [ha]
  · unfold strtoll0
    rw [List.dropWhile_cons, if_neg (by decide)]
    simp only [ha]

/-- **C99**, partial.  Every number below 2^64, written in one of these ways, with or without a sign, is read
by `ParseNumber` as the number, limited to `long long`.  Missing: values of more than 40 characters, see
`C99_long_counterexample`. -/
theorem C99_read_partial {n : Nat} (hn : n < 2 ^ 64) {s : List Char} (h : Written n s) :
    parseNumber s = min (n : Int) (2 ^ 63 - 1) ∧ parseNumber ('+' :: s) = min (n : Int) (2 ^ 63 - 1) ∧
      parseNumber ('-' :: s) = max (-(n : Int)) (-2 ^ 63) := by
  have hl := written_length hn h
  have hs := strtoll0_written h
  unfold parseNumber
  rw [if_neg hl.1, if_neg (by omega), if_neg (by simp), if_neg (by simp only [List.length_cons]; omega),
    if_neg (by simp), if_neg (by simp only [List.length_cons]; omega), hs.1, hs.2.1, hs.2.2]
  unfold saturate LLONG_MIN LLONG_MAX
  omega

/-- The key of the example in the manual's form, and the other spellings of the same number. -/
example : Written 43981 "43981".toList ∧ Written 43981 "0xabcd".toList ∧ Written 43981 "0XABCD".toList ∧
    Written 43981 "0125715".toList :=
  ⟨by have := Written.dec (n := 43981); simpa [numeral, digit, digits] using this,
   by have := Written.hexL (n := 43981) (Or.inl rfl); simpa [numeral, digit, digits] using this,
   by have := Written.hexU (n := 43981) (Or.inr rfl); simpa [numeral, digit, digits] using this,
   by have := Written.oct (n := 43981); simpa [numeral, digit, digits] using this⟩

/-- A key with leading zeros, meant to be decimal, is read as another number: `0100` is 64. -/
theorem C99_zero_counterexample : parseNumber "0100".toList = 64 := by kernel_rfl

/-- A number of 41 characters is read as 0, although one of 40 characters is read as the largest number. -/
theorem C99_long_counterexample :
    parseNumber (List.replicate 41 '9') = 0 ∧ parseNumber (List.replicate 40 '9') = 2 ^ 63 - 1 := by
  constructor <;> kernel_rfl

end FNLog
