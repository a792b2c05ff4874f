import Verif.Model.Stream

/-!
# C54: the shortened source path
-/

namespace FNLog

namespace Spec

/-- A separator of path components. -/
def isSep (c : Char) : Bool := c = '/' || c = '\\'

/-- `x` is `path` shortened to three components: all of it if it has fewer than three separators, else what follows the
third last one. -/
def Shortened (path x : List Char) : Prop :=
  (path.countP isSep < 3 ∧ x = path) ∨ ∃ front c, path = front ++ c :: x ∧ isSep c = true ∧ x.countP isSep = 2

end Spec

open Spec

theorem shortPathLoop_eq (path : List Char) : ∀ (i count : Nat), i ≤ path.length → 1 ≤ count →
    (shortPathLoop path i count = 0 ∧ (path.take i).countP isSep < count) ∨
    ∃ k c, shortPathLoop path i count = k + 1 ∧ k < i ∧ path[k]? = some c ∧ isSep c = true ∧
      ((path.take i).drop (k + 1)).countP isSep + 1 = count := by
  intro i
  induction i with
  | zero => intro count _ hc; exact Or.inl ⟨rfl, by simp; omega⟩
  | succ i ih =>
    intro count hi hc
    have hlt : i < path.length := by omega
    have hget : path[i]? = some path[i] := List.getElem?_eq_getElem hlt
    have htake : path.take (i + 1) = path.take i ++ [path[i]] := by
      rw [List.take_add_one, hget]; rfl
    have hdrop : ∀ k, k < i → (path.take (i + 1)).drop (k + 1) = (path.take i).drop (k + 1) ++ [path[i]] := by
      intro k hk
      rw [htake, List.drop_append_of_le_length (by rw [List.length_take]; omega)]
    rw [shortPathLoop, hget]
    by_cases hs : some path[i] = some '/' ∨ some path[i] = some '\\'
    · rw [if_pos hs]
      have hsep : isSep path[i] = true := by
        unfold isSep
        rcases hs with h | h
        · rw [Option.some.inj h]; rfl
        · rw [Option.some.inj h]; rfl
      by_cases h1 : count - 1 = 0
      · rw [if_pos h1]
        right
        refine ⟨i, path[i], rfl, by omega, hget, hsep, ?_⟩
        rw [List.drop_of_length_le (by rw [List.length_take]; omega)]
        simp; omega
      · rw [if_neg h1]
        rcases ih (count - 1) (by omega) (by omega) with ⟨h, h'⟩ | ⟨k, c, h, hk, hkc, hc', hcnt⟩
        · left
          refine ⟨h, ?_⟩
          rw [htake, List.countP_append, List.countP_singleton, if_pos hsep]; omega
        · right
          refine ⟨k, c, h, by omega, hkc, hc', ?_⟩
          rw [hdrop k hk, List.countP_append, List.countP_singleton, if_pos hsep]; omega
    · rw [if_neg hs]
      have hsep : isSep path[i] = false := by
        unfold isSep
        have h1 : path[i] ≠ '/' := fun e => hs (Or.inl (by rw [e]))
        have h2 : path[i] ≠ '\\' := fun e => hs (Or.inr (by rw [e]))
        simp [h1, h2]
      rcases ih count (by omega) hc with ⟨h, h'⟩ | ⟨k, c, h, hk, hkc, hc', hcnt⟩
      · left
        refine ⟨h, ?_⟩
        rw [htake, List.countP_append, List.countP_singleton, if_neg (by rw [hsep]; nofun)]; omega
      · right
        refine ⟨k, c, h, by omega, hkc, hc', ?_⟩
        rw [hdrop k hk, List.countP_append, List.countP_singleton, if_neg (by rw [hsep]; nofun)]; omega

/-- **C54**: the text that the constructor of the stream prints, `path + short_path(path)`, is the shortened path. -/
theorem C54_short_path (path : List Char) : Shortened path (path.drop (shortPath path)) := by
  unfold shortPath
  rcases shortPathLoop_eq path path.length 3 (Nat.le_refl _) (by omega) with ⟨h, h'⟩ | ⟨k, c, h, hk, hkc, hc, hcnt⟩
  · left
    rw [List.take_length] at h'
    rw [h]; exact ⟨h', rfl⟩
  · right
    rw [h]
    rw [List.take_length] at hcnt
    refine ⟨path.take k, c, ?_, hc, by omega⟩
    have hg : path[k] = c := Option.some.inj ((List.getElem?_eq_getElem hk).symm.trans hkc)
    rw [← hg, List.getElem_cons_drop hk, List.take_append_drop]

/-- The shortened path is unique. -/
theorem C54_unique {path x y : List Char} (hx : Shortened path x) (hy : Shortened path y) : x = y := by
  rcases hx with ⟨hx, rfl⟩ | ⟨f, c, rfl, hc, hn⟩
  · rcases hy with ⟨_, rfl⟩ | ⟨g, e, rfl, he, hm⟩
    · rfl
    · rw [List.countP_append, List.countP_cons, if_pos he] at hx; omega
  · rcases hy with ⟨hy, _⟩ | ⟨g, e, h, he, hm⟩
    · rw [List.countP_append, List.countP_cons, if_pos hc] at hy; omega
    · rcases List.append_eq_append_iff.mp h with ⟨a, rfl, h2⟩ | ⟨a, rfl, h2⟩
      · cases a with
        | nil => exact (List.cons.inj h2).2
        | cons z a =>
          obtain ⟨_, rfl⟩ := List.cons.inj h2
          rw [List.append_eq, List.countP_append, List.countP_cons, if_pos he] at hn; omega
      · cases a with
        | nil => exact (List.cons.inj h2).2.symm
        | cons z a =>
          obtain ⟨_, rfl⟩ := List.cons.inj h2
          rw [List.append_eq, List.countP_append, List.countP_cons, if_pos hc] at hm; omega

example : "/home/u/fn-log/src/main.cpp".toList.drop (shortPath "/home/u/fn-log/src/main.cpp".toList) =
    "fn-log/src/main.cpp".toList := by decide

end FNLog
