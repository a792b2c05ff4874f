import Verif.Model.Dump

/-!
# C128: a binary dump of any length
-/

namespace FNLog
open Dump

namespace Dump

/-- An array. -/
def array (bytes : List Nat) (j : Int) : Option Nat := if j < 0 then none else bytes[j.toNat]?

theorem int32_some {x : Int} (h : -2147483648 ≤ x ∧ x ≤ 2147483647) : int32 x = some x := if_pos h

theorem rowLoop_array (bytes : List Nat) (n j : Nat) :
    rowLoop (array bytes) bytes.length ((j + n : Nat) : Int) n j = some ((bytes.drop j).take n) := by
  induction n generalizing j with
  | zero => simp [rowLoop]
  | succ n ih =>
    unfold rowLoop
    by_cases h : j < bytes.length
    · have := ih (j + 1)
      rw [show j + 1 + n = j + (n + 1) by omega] at this
      have e : array bytes (j : Int) = some bytes[j] := by
        unfold array
        rw [if_neg (by omega), Int.toNat_natCast, List.getElem?_eq_getElem h]
      rw [if_pos ⟨by omega, by omega⟩, e, List.drop_eq_getElem_cons h, List.take_succ_cons]
      simp only [Option.bind_eq_bind, Option.bind_some, ← Int.natCast_succ, Nat.succ_eq_add_one]
      rw [this]
      rfl
    · rw [if_neg (by omega), List.drop_eq_nil_of_le (by omega)]
      simp

theorem row_array (addr : Nat) (bytes : List Nat) (i : Nat) (h : (i + 1) * 32 ≤ 2147483647) :
    row addr (array bytes) bytes.length i = some (binaryRow addr i bytes) := by
  unfold row
  rw [int32_some (by omega), int32_some (by omega)]
  have := rowLoop_array bytes 32 (i * 32)
  simp only [Option.bind_eq_bind, Option.bind_some]
  rw [show ((i * 32 + 32 : Nat) : Int) = ((i : Int) + 1) * 32 by omega, show ((i * 32 : Nat) : Int) = (i : Int) * 32 by omega] at this
  rw [this]
  rfl

theorem rows_array (addr : Nat) (bytes : List Nat) (n i : Nat) (h : (i + n) * 32 ≤ 2147483647) :
    rows addr (array bytes) bytes.length n i = some ((List.range' i n).flatMap fun i => binaryRow addr i bytes) := by
  induction n generalizing i with
  | zero => rfl
  | succ n ih =>
    unfold rows
    rw [row_array addr bytes i (by omega), ih (i + 1) (by omega)]
    simp [List.range'_succ]

/-- The last row of the longest arrays is computed with an overflow. -/
theorem rows_overflow (addr : Nat) (mem : Int → Option Nat) (len : Int) (n i : Nat) (hi : i ≤ 67108863) (h : 67108863 < i + n) :
    rows addr mem len n i = none := by
  induction n generalizing i with
  | zero => omega
  | succ n ih =>
    unfold rows
    by_cases he : i = 67108863
    · subst he; rfl
    · rw [ih (i + 1) (by omega) (by omega)]
      cases row addr mem len i <;> rfl

theorem rowLoop_isSome {mem : Int → Option Nat} {len hi : Int} (n : Nat) (j : Int) (hn : j + n = hi) :
    (rowLoop mem len hi n j).isSome = true ↔ ∀ k, j ≤ k → k < hi → k < len → (mem k).isSome = true := by
  induction n generalizing j with
  | zero => simp only [rowLoop, Option.isSome_some, true_iff]; intro k _ _; omega
  | succ n ih =>
    unfold rowLoop
    split
    · rename_i h
      have := ih (j + 1) (by omega)
      cases hm : mem j with
      | none =>
        simp only [Option.bind_eq_bind, Option.bind_none, Option.isSome_none, Bool.false_eq_true, false_iff]
        intro hk
        have := hk j (by omega) h.1 h.2
        rw [hm] at this
        exact absurd this (by simp)
      | some x =>
        have e : ((some x).bind fun x => (rowLoop mem len hi n (j + 1)).bind fun xs => some (x :: xs)).isSome =
            (rowLoop mem len hi n (j + 1)).isSome := by
          cases rowLoop mem len hi n (j + 1) <;> rfl
        simp only [Option.bind_eq_bind]
        rw [e, this]
        constructor
        · intro hk k h1 h2 h3
          by_cases hj : k = j
          · subst hj; rw [hm]; rfl
          · exact hk k (by omega) h2 h3
        · intro hk k h1 h2 h3
          exact hk k (by omega) h2 h3
    · rename_i h
      simp only [Option.isSome_some, true_iff]
      intro k h1 h2 h3
      omega

theorem row_isSome {addr : Nat} {mem : Int → Option Nat} {len : Int} {i : Nat} (h : (i + 1) * 32 ≤ 2147483647) :
    (row addr mem len i).isSome = true ↔ ∀ k : Int, (i : Int) * 32 ≤ k → k < ((i : Int) + 1) * 32 → k < len → (mem k).isSome = true := by
  rw [← rowLoop_isSome (mem := mem) (len := len) 32 ((i : Int) * 32) (by omega)]
  unfold row
  rw [int32_some (by omega), int32_some (by omega)]
  simp only [Option.bind_eq_bind, Option.bind_some]
  cases rowLoop mem len (((i : Int) + 1) * 32) 32 ((i : Int) * 32) <;> rfl

theorem rows_isSome {addr : Nat} {mem : Int → Option Nat} {len : Int} (n i : Nat) (h : (i + n) * 32 ≤ 2147483647) :
    (rows addr mem len n i).isSome = true ↔
      ∀ k : Int, (i : Int) * 32 ≤ k → k < ((i : Int) + n) * 32 → k < len → (mem k).isSome = true := by
  induction n generalizing i with
  | zero => simp only [rows, Option.isSome_some, true_iff]; intro k _ _; omega
  | succ n ih =>
    have h1 := row_isSome (addr := addr) (mem := mem) (len := len) (i := i) (by omega)
    have h2 := ih (i + 1) (by omega)
    have e : (rows addr mem len (n + 1) i).isSome = ((row addr mem len i).isSome && (rows addr mem len n (i + 1)).isSome) := by
      have e : rows addr mem len (n + 1) i = (row addr mem len i).bind fun p => (rows addr mem len n (i + 1)).bind fun ps => some (p ++ ps) := rfl
      rw [e]
      generalize rows addr mem len n (i + 1) = o
      cases row addr mem len i <;> cases o <;> rfl
    rw [e, Bool.and_eq_true, h1, h2]
    constructor
    · intro ⟨ha, hb⟩ k k1 k2 k3
      by_cases hk : k < ((i : Int) + 1) * 32
      · exact ha k k1 hk k3
      · exact hb k (by omega) (by omega) k3
    · intro ha
      exact ⟨fun k k1 k2 k3 => ha k k1 (by omega) k3, fun k k1 k2 k3 => ha k (by omega) (by omega) k3⟩

theorem dump_isSome (addr : Nat) (mem : Int → Option Nat) (len : Int) :
    (dump addr mem len).isSome = (rows addr mem len (len.tdiv 32 + 1).toNat 0).isSome := by
  unfold dump
  generalize rows addr mem len (len.tdiv 32 + 1).toNat 0 = o
  cases o <;> rfl

end Dump

/-- **C128**: the dump of an array with its length is the dump of its bytes (`Model/Stream`; its text is that of C25, its safety that of C23).  Missing: the
longest 32 arrays, see below. -/
theorem C128_array_partial (addr : Nat) (bytes : List Nat) (h : bytes.length < 2147483616) :
    dump addr (Dump.array bytes) bytes.length = some (Val.binary addr bytes).prims := by
  unfold dump
  have hn : ((bytes.length : Int).tdiv 32 + 1).toNat = bytes.length / 32 + 1 := by
    rw [show (32 : Int) = ((32 : Nat) : Int) from rfl, ← Int.ofNat_tdiv]
    omega
  rw [hn, rows_array addr bytes (bytes.length / 32 + 1) 0 (by omega)]
  simp only [Option.bind_eq_bind, Option.bind_some, Val.prims, binaryPrims, List.range_eq_range']

/-- **C128**: it is defined for exactly those `int` lengths that leave room for the row behind the last byte, if the bytes up to the length can be read; all
of them are read, also when the record is full, and no others. -/
theorem C128_defined (addr : Nat) (mem : Int → Option Nat) (len : Int) (h : len ≤ 2147483647) :
    (dump addr mem len).isSome = true ↔ len < 2147483616 ∧ ∀ j, 0 ≤ j → j < len → (mem j).isSome = true := by
  rw [dump_isSome]
  by_cases hl : len < 0
  · have hd : len.tdiv 32 ≤ 0 := by
      have := Int.tdiv_nonneg (a := -len) (b := 32) (by omega) (by omega)
      rw [Int.neg_tdiv] at this
      omega
    have e := rows_isSome (addr := addr) (mem := mem) (len := len) (len.tdiv 32 + 1).toNat 0 (by omega)
    rw [e]
    constructor
    · intro _; exact ⟨by omega, fun j h1 h2 => by omega⟩
    · intro _ k h1 h2 h3; omega
  · rw [Int.tdiv_eq_ediv_of_nonneg (by omega)]
    by_cases hb : len < 2147483616
    · have e := rows_isSome (addr := addr) (mem := mem) (len := len) (len / 32 + 1).toNat 0 (by omega)
      rw [e]
      constructor
      · intro hk; exact ⟨hb, fun j h1 h2 => hk j (by omega) (by omega) h2⟩
      · intro hk k h1 h2 h3; exact hk.2 k (by omega) h3
    · rw [rows_overflow addr mem len _ 0 (by omega) (by omega)]
      constructor
      · intro hk; exact absurd hk (by simp)
      · intro hk; exact absurd hk.1 hb

/-- **C128 is false** for the longest arrays: `(i + 1) * 32` overflows in the last row. -/
theorem C128_overflow_counterexample (addr : Nat) (mem : Int → Option Nat) (len : Int) (h : 2147483616 ≤ len) (h' : len ≤ 2147483647) :
    dump addr mem len = none := by
  have := C128_defined addr mem len h'
  cases hd : dump addr mem len with
  | none => rfl
  | some p =>
    rw [hd] at this
    exact absurd (this.1 rfl).1 (by omega)

/-- **C128**: a negative length reads nothing; down to -31 the dump is that of no byte, below it has not even a row. -/
theorem C128_negative (addr : Nat) (mem : Int → Option Nat) (len : Int) (h : len ≤ 0) :
    dump addr mem len = some (if -32 < len then (Val.binary addr []).prims
      else [.buf "\r\n\t[".toList, .buf "\r\n\t]\r\n\t".toList]) := by
  have hd : len.tdiv 32 = -((-len) / 32) := by
    rw [← Int.tdiv_eq_ediv_of_nonneg (a := -len) (by omega), Int.neg_tdiv]
    omega
  unfold dump
  rw [hd]
  split
  · rw [show (-(-len / 32) + 1).toNat = 1 by omega]
    have : row addr mem len 0 = some (binaryRow addr 0 []) := by
      have hr : rowLoop mem len ((0 + 1) * 32) 32 (0 * 32) = some [] := by
        unfold rowLoop
        rw [if_neg (by omega)]
      have h1 : int32 (((0 : Nat) : Int) * 32) = some (0 * 32) := rfl
      have h2 : int32 ((((0 : Nat) : Int) + 1) * 32) = some ((0 + 1) * 32) := rfl
      unfold row
      rw [h1, h2]
      simp only [Option.bind_eq_bind, Option.bind_some]
      rw [hr]
      rfl
    unfold rows
    rw [this]
    rfl
  · rw [show (-(-len / 32) + 1).toNat = 0 by omega]
    rfl

/-- Three bytes in memory that ends behind them. -/
theorem C128_case_three : (dump 4096 (Dump.array [65, 7, 66]) 3).isSome = true ∧ dump 4096 (Dump.array [65, 7, 66]) 4 = none ∧
    (dump 4096 (Dump.array [65, 7, 66]) 3).map (·.length) = some 16 := by
  refine ⟨rfl, rfl, rfl⟩

end FNLog
