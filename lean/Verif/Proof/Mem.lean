import Verif.Model.Mem
import Verif.Spec.Fmt

/-! # Overwriting pieces of a buffer -/

namespace FNLog
open Spec

/-- `b` with `s` written at `off`. -/
def put (b : List Char) (off : Nat) (s : List Char) : List Char :=
  b.take off ++ s ++ b.drop (off + s.length)

theorem writeAt_put {b s : List Char} {off : Nat} (h : off + s.length ≤ b.length) :
    writeAt b off s = some (put b off s) := by simp [writeAt, put, h]

theorem put_length {b s : List Char} {off : Nat} (h : off + s.length ≤ b.length) :
    (put b off s).length = b.length := by
  simp only [put, List.length_append, List.length_take, List.length_drop]; omega

theorem put_take {b s : List Char} {off : Nat} (h : off + s.length ≤ b.length) :
    (put b off s).take (off + s.length) = b.take off ++ s := by
  unfold put
  rw [List.take_append_of_le_length (by simp only [List.length_append, List.length_take]; omega)]
  rw [List.take_of_length_le (by simp only [List.length_append, List.length_take]; omega)]

theorem put_nil (b : List Char) (off : Nat) : put b off [] = b := by simp [put]

theorem put_getElem? {b s : List Char} {off : Nat} (h : off + s.length ≤ b.length) (i : Nat) :
    (put b off s)[i]? = if off ≤ i ∧ i < off + s.length then s[i - off]? else b[i]? := by
  unfold put
  by_cases h1 : i < off
  · rw [if_neg (by omega), List.append_assoc, List.getElem?_append_left (by rw [List.length_take]; omega), List.getElem?_take, if_pos h1]
  · by_cases h2 : i < off + s.length
    · rw [if_pos ⟨by omega, h2⟩, List.append_assoc, List.getElem?_append_right (by rw [List.length_take]; omega), List.length_take, Nat.min_eq_left (by omega)]
      rw [List.getElem?_append_left (by omega)]
    · rw [if_neg (by omega), List.getElem?_append_right (by simp only [List.length_append, List.length_take]; omega)]
      simp only [List.length_append, List.length_take, List.getElem?_drop]
      congr 1; omega

theorem put_put_right {b s t : List Char} {off : Nat} (h : off + (s ++ t).length ≤ b.length) :
    put (put b off s) (off + s.length) t = put b off (s ++ t) := by
  have hl := List.length_append (as := s) (bs := t)
  apply List.ext_getElem?
  intro i
  rw [put_getElem? (by rw [put_length (by omega)]; omega), put_getElem? (by omega), put_getElem? h,
    List.getElem?_append]
  by_cases h1 : off ≤ i
  · by_cases h2 : i < off + s.length
    · rw [if_neg (by omega), if_pos ⟨h1, h2⟩, if_pos (by omega), if_pos (by omega)]
    · by_cases h3 : i < off + s.length + t.length
      · rw [if_pos (by omega), if_pos (by omega), if_neg (by omega)]
        congr 1; omega
      · rw [if_neg (by omega), if_neg (by omega), if_neg (by omega)]
  · rw [if_neg (by omega), if_neg (by omega), if_neg (by omega)]

theorem put_put_left {b s t : List Char} {off : Nat} (h : off + (s ++ t).length ≤ b.length) :
    put (put b (off + s.length) t) off s = put b off (s ++ t) := by
  have hl := List.length_append (as := s) (bs := t)
  apply List.ext_getElem?
  intro i
  rw [put_getElem? (by rw [put_length (by omega)]; omega), put_getElem? (by omega), put_getElem? h,
    List.getElem?_append]
  by_cases h1 : off ≤ i
  · by_cases h2 : i < off + s.length
    · rw [if_pos (by omega), if_pos (by omega), if_pos (by omega)]
    · by_cases h3 : i < off + s.length + t.length
      · rw [if_neg (by omega), if_pos (by omega), if_pos (by omega), if_neg (by omega)]
        congr 1; omega
      · rw [if_neg (by omega), if_neg (by omega), if_neg (by omega)]
  · rw [if_neg (by omega), if_neg (by omega), if_neg (by omega)]

theorem Emits_put {b : List Char} {dst : Nat} {s : List Char} {n : Nat} (h : dst + s.length ≤ b.length)
    (hn : n = s.length) : Emits (some (put b dst s, n)) b dst s :=
  ⟨_, by rw [hn], put_length h, put_take h⟩

end FNLog
