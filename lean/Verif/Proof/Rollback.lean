import Verif.Spec.File
import Verif.Proof.Fmt
import Verif.Proof.Scan

/-!
# Proofs about rotation
-/

namespace FNLog

open Spec

theorem digitChar_eq (n : Nat) : digitChar n = digit (n % 10) := by
  have h : ∀ k : Fin 10, Char.ofNat (48 + k.val) = digit k.val := by decide
  exact h ⟨n % 10, Nat.mod_lt _ (by omega)⟩

theorem toStr_eq (n : Nat) : toStr n = numeral 10 n := by
  induction n using Nat.strongRecOn with
  | ind n ih =>
    rw [toStr]
    by_cases h : n < 10
    · rw [dif_pos h, numeral_lt h, digitChar_eq, Nat.mod_eq_of_lt h]
    · rw [dif_neg h, numeral_ge (by omega) (by omega), ih _ (by omega), digitChar_eq]

theorem isDec_iff (c : Char) : isDec c = true ↔ c ∈ "0123456789".toList := by
  constructor
  · intro h
    simp only [isDec, Bool.and_eq_true, decide_eq_true_eq, Char.le_def, UInt32.le_iff_toNat_le] at h
    have e : c = Char.ofNat c.toNat := (Char.ofNat_toNat c).symm
    have k : ∀ k : Fin 10, Char.ofNat (48 + k.val) ∈ "0123456789".toList := by decide
    have h1 : 48 ≤ c.toNat := h.1
    have h2 : c.toNat ≤ 57 := h.2
    have := k ⟨c.toNat - 48, by omega⟩
    rw [e]
    simpa [show 48 + (c.toNat - 48) = c.toNat by omega] using this
  · have k : ∀ c ∈ "0123456789".toList, isDec c = true := by decide
    exact k c

theorem isDec_numeral (n : Nat) : ∀ c ∈ numeral 10 n, isDec c = true := by
  induction n using Nat.strongRecOn with
  | ind n ih =>
    have hd : ∀ k : Fin 10, isDec (digit k.val) = true := by decide
    intro c hc
    by_cases h : n < 10
    · rw [numeral_lt h, List.mem_singleton] at hc
      subst hc; exact hd ⟨n, h⟩
    · rw [numeral_ge (by omega) (by omega), List.mem_append, List.mem_singleton] at hc
      rcases hc with hc | rfl
      · exact ih _ (by omega) c hc
      · exact hd ⟨n % 10, Nat.mod_lt _ (by omega)⟩

theorem numeral_inj {i j : Nat} (h : numeral 10 i = numeral 10 j) : i = j := by
  rw [← value_numeral 10 (by omega) (by omega) i, h, value_numeral 10 (by omega) (by omega)]

theorem backup_inj {F : List Char} {i j : Nat} (h : backup F i = backup F j) : i = j := by
  unfold backup at h
  by_cases hi : i = 0 <;> by_cases hj : j = 0
  · omega
  · rw [if_pos hi, if_neg hj] at h
    have := congrArg List.length h
    simp at this
  · rw [if_neg hi, if_pos hj] at h
    have := congrArg List.length h
    simp at this
  · rw [if_neg hi, if_neg hj] at h
    exact numeral_inj (List.cons.inj (List.append_cancel_left h)).2

theorem nextPath_backup {F : List Char} (hF : Plain F) (i d : Nat) (hd : d ≠ 0) :
    nextPath (backup F i) d = backup F d := by
  unfold nextPath backup
  rw [if_neg hd, toStr_eq]
  by_cases hi : i = 0
  · rw [if_pos hi]
    simp only []
    cases h : F.reverse.dropWhile isDec with
    | nil => rfl
    | cons c r =>
      by_cases hc : c = '.'
      · exfalso
        subst hc
        have e : F.reverse = F.reverse.takeWhile isDec ++ '.' :: r := by
          conv => lhs; rw [← List.takeWhile_append_dropWhile (p := isDec) (l := F.reverse), h]
        have e2 : F = r.reverse ++ '.' :: (F.reverse.takeWhile isDec).reverse := by
          have := congrArg List.reverse e
          simpa using this
        obtain ⟨x, hx, hx'⟩ := hF _ _ e2
        rw [List.mem_reverse] at hx
        have := List.all_eq_true.mp (List.all_takeWhile (p := isDec) (l := F.reverse)) x hx
        exact hx' ((isDec_iff x).mp this)
      · split
        · next h' => exact absurd (List.cons.inj h').1 (by simpa using hc)
        · rfl
  · rw [if_neg hi]
    have e : (F ++ '.' :: numeral 10 i).reverse.dropWhile isDec = '.' :: F.reverse := by
      rw [List.reverse_append, List.reverse_cons, List.append_assoc]
      rw [List.dropWhile_append_of_pos (by
        intro c hc; exact isDec_numeral i c (List.mem_reverse.mp hc))]
      rfl
    rw [e]
    simp

theorem Fs.set_self (fs : Fs) (p : List Char) (c : Option Blocks) : fs.set p c p = c := if_pos rfl
theorem Fs.set_other (fs : Fs) {p q : List Char} (c : Option Blocks) (h : q ≠ p) : fs.set p c q = fs q := if_neg h

/-- rollback from the `k`-th backup on. -/
theorem rollback_from {F : List Char} (hF : Plain F) (N : Nat) : ∀ (m k : Nat) (fs : Fs), k + m = N →
    let fs' := rollback N (backup F k) (k + 1) fs
    fs' (backup F k) = none ∧
    (∀ i, k < i → i ≤ N → (∀ j, k ≤ j → j < i → fs (backup F j) ≠ none) →
      fs' (backup F i) = fs (backup F (i - 1))) ∧
    (∀ i, k < i → i ≤ N → ¬ (∀ j, k ≤ j → j < i → fs (backup F j) ≠ none) → fs' (backup F i) = fs (backup F i)) ∧
    (∀ q, (∀ i, k ≤ i → i ≤ N → q ≠ backup F i) → fs' q = fs q) := by
  intro m
  induction m with
  | zero =>
    intro k fs hk
    have hk : k = N := by omega
    subst hk
    intro fs'
    cases hf : fs (backup F k) with
    | none =>
      have e : fs' = fs := by show rollback _ _ _ _ = _; rw [rollback, hf]
      rw [e]
      exact ⟨hf, fun i h1 h2 => by omega, fun i h1 h2 => by omega, fun _ _ => rfl⟩
    | some c =>
      have e : fs' = fs.set (backup F k) none := by
        show rollback _ _ _ _ = _
        rw [rollback, hf]
        exact if_pos (by omega)
      rw [e]
      exact ⟨Fs.set_self _ _ _, fun i h1 h2 => by omega, fun i h1 h2 => by omega,
        fun q hq => Fs.set_other _ _ (hq k (Nat.le_refl _) (Nat.le_refl _))⟩
  | succ m ih =>
    intro k fs hk fs'
    cases hf : fs (backup F k) with
    | none =>
      have e : fs' = fs := by show rollback _ _ _ _ = _; rw [rollback, hf]
      rw [e]
      exact ⟨hf, fun i h1 h2 h3 => absurd hf (h3 k (Nat.le_refl _) h1), fun _ _ _ _ => rfl, fun _ _ => rfl⟩
    | some c =>
      obtain ⟨a, b, d, o⟩ := ih (k + 1) fs (by omega)
      have e : fs' = (rollback N (backup F (k + 1)) (k + 1 + 1) fs).rename (backup F k) (backup F (k + 1)) := by
        show rollback _ _ _ _ = _
        rw [rollback, hf]
        refine (if_neg (by omega)).trans ?_
        rw [nextPath_backup hF k (k + 1) (by omega)]
      have hne : ∀ i j : Nat, i ≠ j → backup F i ≠ backup F j := fun i j h h' => h (backup_inj h')
      have hk0 : rollback N (backup F (k + 1)) (k + 1 + 1) fs (backup F k) = some c := by
        rw [← hf]
        exact o _ fun i h1 h2 => hne _ _ (by omega)
      have e2 : fs' = ((rollback N (backup F (k + 1)) (k + 1 + 1) fs).set (backup F (k + 1)) (some c)).set
          (backup F k) none := by
        rw [e]
        unfold Fs.rename
        rw [if_neg (by rw [hk0]; intro h; rcases h with h | h; exact absurd h (by nofun); exact hne _ _ (by omega) h), hk0]
      refine ⟨by rw [e2, Fs.set_self], ?_, ?_, ?_⟩
      · intro i h1 h2 h3
        rw [e2, Fs.set_other _ _ (hne _ _ (by omega))]
        by_cases hi : i = k + 1
        · subst hi
          rw [Fs.set_self]
          simpa using hf.symm
        · rw [Fs.set_other _ _ (hne _ _ (by omega))]
          exact b i (by omega) h2 fun j hj1 hj2 => h3 j (by omega) hj2
      · intro i h1 h2 h3
        rw [e2, Fs.set_other _ _ (hne _ _ (by omega))]
        by_cases hi : i = k + 1
        · exfalso; apply h3
          intro j hj1 hj2
          rw [show j = k by omega, hf]; nofun
        · rw [Fs.set_other _ _ (hne _ _ (by omega))]
          refine d i (by omega) h2 fun h4 => h3 fun j hj1 hj2 => ?_
          by_cases hj : j = k
          · rw [hj, hf]; nofun
          · exact h4 j (by omega) hj2
      · intro q hq
        rw [e2, Fs.set_other _ _ (hq k (by omega) (by omega)), Fs.set_other _ _ (hq (k + 1) (by omega) (by omega))]
        exact o q fun i h1 h2 => hq i (by omega) h2

theorem rollback_rotated {F : List Char} (hF : Plain F) (N : Nat) (fs : Fs) :
    Rotated N F fs (rollback N F 1 fs) := by
  have h := rollback_from hF N N 0 fs (by omega)
  have e : backup F 0 = F := rfl
  rw [e] at h
  obtain ⟨a, b, c, d⟩ := h
  refine ⟨a, fun i h1 h2 h3 => b i (by omega) h2 fun j _ hj => h3 j hj, fun i h1 h2 h3 => c i (by omega) h2 fun h4 =>
    h3 fun j hj => h4 j (by omega) hj, fun q hq => d q fun i _ hi => hq i hi⟩

/-- Rotation with no backup at all (also with a negative number of them) removes the file. -/
theorem rollback_neg {F : List Char} {N : Int} (hN : N < 1) (fs : Fs) :
    rollback N F 1 fs = fs.set F none := by
  rw [rollback]
  cases hf : fs F with
  | none =>
    funext q
    unfold Fs.set
    by_cases h : q = F
    · rw [if_pos h, h]; exact hf
    · rw [if_neg h]
  | some c => exact if_pos (by omega)

/-! ## What is kept -/

theorem run_mono {fs : Fs} {F : List Char} {i j : Nat} (h : Run fs F j) (hij : i ≤ j) : Run fs F i :=
  fun k hk => h k (by omega)

theorem run_succ {fs : Fs} {F : List Char} {i : Nat} : Run fs F (i + 1) ↔ Run fs F i ∧ fs (backup F i) ≠ none := by
  constructor
  · intro h; exact ⟨run_mono h (by omega), h i (by omega)⟩
  · intro h j hj
    by_cases e : j = i
    · rw [e]; exact h.2
    · exact h.1 j (by omega)

theorem kept_rotated_aux {N : Nat} {F : List Char} {old new : Fs} (h : Rotated N F old new) : ∀ n, n ≤ N →
    (Run old F (n + 1) → kept n F old = (old (backup F n)).getD [] ++ kept n F new ∧ gaps n F old = 0 ∧
      gaps n F new = 1) ∧
    (¬ Run old F (n + 1) → kept n F new = kept n F old ∧ gaps n F new = gaps n F old ∧ gaps n F old ≠ 0) := by
  intro n
  induction n with
  | zero =>
    intro _
    constructor
    · intro hr
      have h0 : old F ≠ none := hr 0 (by omega)
      refine ⟨?_, if_neg h0, if_pos h.gone⟩
      show (old F).getD [] = (old F).getD [] ++ (new F).getD []
      rw [h.gone]; simp
    · intro hr
      have h0 : old F = none := by
        apply Decidable.byContradiction
        intro hne
        apply hr
        intro j hj
        rw [show j = 0 by omega]; exact hne
      refine ⟨?_, ?_, ?_⟩
      · show (new F).getD [] = (old F).getD []
        rw [h.gone, h0]
      · show (if new F = none then 1 else 0) = if old F = none then 1 else 0
        rw [h.gone, h0]
      · show (if old F = none then 1 else 0) ≠ 0
        rw [h0]; decide
  | succ n ih =>
    intro hn
    obtain ⟨ih1, ih2⟩ := ih (by omega)
    constructor
    · intro hr
      obtain ⟨hr1, hx⟩ := run_succ.mp hr
      obtain ⟨k, g, g'⟩ := ih1 hr1
      have hm : new (backup F (n + 1)) = old (backup F n) := h.moved (n + 1) (by omega) hn hr1
      have hx' : old (backup F n) ≠ none := hr1 n (by omega)
      refine ⟨?_, ?_, ?_⟩
      · show (old (backup F (n + 1))).getD [] ++ kept n F old = _ ++ ((new (backup F (n + 1))).getD [] ++ kept n F new)
        rw [k, hm]
      · show (if old (backup F (n + 1)) = none then 1 else 0) + gaps n F old = 0
        rw [if_neg hx, g]
      · show (if new (backup F (n + 1)) = none then 1 else 0) + gaps n F new = 1
        rw [hm, if_neg hx', g']
    · intro hr
      by_cases hr1 : Run old F (n + 1)
      · have hx : old (backup F (n + 1)) = none := by
          apply Decidable.byContradiction
          intro hne
          exact hr (run_succ.mpr ⟨hr1, hne⟩)
        obtain ⟨k, g, g'⟩ := ih1 hr1
        have hm : new (backup F (n + 1)) = old (backup F n) := h.moved (n + 1) (by omega) hn hr1
        have hx' : old (backup F n) ≠ none := hr1 n (by omega)
        refine ⟨?_, ?_, ?_⟩
        · show (new (backup F (n + 1))).getD [] ++ kept n F new = (old (backup F (n + 1))).getD [] ++ kept n F old
          rw [k, hm, hx]; rfl
        · show (if new (backup F (n + 1)) = none then 1 else 0) + gaps n F new =
            (if old (backup F (n + 1)) = none then 1 else 0) + gaps n F old
          rw [hm, if_neg hx', g, g', if_pos hx]
        · show (if old (backup F (n + 1)) = none then 1 else 0) + gaps n F old ≠ 0
          rw [if_pos hx]; omega
      · obtain ⟨k, g, g'⟩ := ih2 hr1
        have hm : new (backup F (n + 1)) = old (backup F (n + 1)) := h.stays (n + 1) (by omega) hn hr1
        refine ⟨?_, ?_, ?_⟩
        · show (new (backup F (n + 1))).getD [] ++ kept n F new = (old (backup F (n + 1))).getD [] ++ kept n F old
          rw [k, hm]
        · show (if new (backup F (n + 1)) = none then 1 else 0) + gaps n F new =
            (if old (backup F (n + 1)) = none then 1 else 0) + gaps n F old
          rw [hm, g]
        · show (if old (backup F (n + 1)) = none then 1 else 0) + gaps n F old ≠ 0
          omega

theorem kept_rotated {N : Nat} {F : List Char} {old new : Fs} (h : Rotated N F old new) :
    kept N F new <:+ kept N F old ∧ (gaps N F old ≠ 0 → kept N F new = kept N F old ∧ gaps N F new = gaps N F old) := by
  obtain ⟨h1, h2⟩ := kept_rotated_aux h N (Nat.le_refl _)
  by_cases hr : Run old F (N + 1)
  · obtain ⟨k, g, g'⟩ := h1 hr
    exact ⟨⟨_, k.symm⟩, fun hn => absurd g hn⟩
  · obtain ⟨k, g, g'⟩ := h2 hr
    exact ⟨⟨[], by rw [k]; rfl⟩, fun _ => ⟨k, g⟩⟩

/-- Changing `F` itself changes only the end of what is kept. -/
theorem kept_set (N : Nat) (F : List Char) (fs : Fs) :
    ∃ front g, ∀ x, kept N F (fs.set F x) = front ++ x.getD [] ∧ gaps N F (fs.set F x) = g + if x = none then 1 else 0 := by
  induction N with
  | zero =>
    refine ⟨[], 0, fun x => ?_⟩
    constructor
    · show (fs.set F x F).getD [] = _; rw [Fs.set_self]; rfl
    · show (if fs.set F x F = none then 1 else 0) = _; rw [Fs.set_self]; omega
  | succ n ih =>
    obtain ⟨front, g, ih⟩ := ih
    have hne : backup F (n + 1) ≠ F := fun e => absurd (backup_inj (j := 0) e) (by omega)
    refine ⟨(fs (backup F (n + 1))).getD [] ++ front, (if fs (backup F (n + 1)) = none then 1 else 0) + g,
      fun x => ⟨?_, ?_⟩⟩
    · show (fs.set F x (backup F (n + 1))).getD [] ++ _ = _
      rw [Fs.set_other _ _ hne, (ih x).1, List.append_assoc]
    · show (if fs.set F x (backup F (n + 1)) = none then 1 else 0) + _ = _
      rw [Fs.set_other _ _ hne, (ih x).2, Nat.add_assoc]

theorem Fs.set_eq (fs : Fs) (p : List Char) : fs.set p (fs p) = fs := by
  funext q
  unfold Fs.set
  by_cases h : q = p
  · rw [if_pos h, h]
  · rw [if_neg h]

end FNLog
