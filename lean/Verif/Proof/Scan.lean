import Verif.Model.Scan
import Verif.Spec.Config
import Verif.Proof.Fmt

/-! # Lemmas about reading values -/

namespace FNLog
open Spec

theorem isNumber_iff (c : Char) : isNumber c = true ↔ c ∈ "0123456789".toList := by
  have e : "0123456789".toList = ['0','1','2','3','4','5','6','7','8','9'] := rfl
  rw [e]
  unfold isNumber
  simp only [Bool.and_eq_true, decide_eq_true_eq, List.mem_cons, List.not_mem_nil, or_false]
  constructor
  · rintro ⟨h1, h2⟩
    have h1' : 48 ≤ c.toNat := h1
    have h2' : c.toNat ≤ 57 := h2
    have key : ∀ k : Nat, c.toNat = k → c = Char.ofNat k := by
      intro k hk; rw [← hk, Char.ofNat_toNat]
    have : c.toNat = 48 ∨ c.toNat = 49 ∨ c.toNat = 50 ∨ c.toNat = 51 ∨ c.toNat = 52 ∨ c.toNat = 53 ∨
      c.toNat = 54 ∨ c.toNat = 55 ∨ c.toNat = 56 ∨ c.toNat = 57 := by omega
    rcases this with h | h | h | h | h | h | h | h | h | h <;> (rw [key _ h]; decide)
  · rintro (h | h | h | h | h | h | h | h | h | h) <;> subst h <;> decide

theorem isBlank_iff (c : Char) : isBlank c = true ↔ (c = ' ' ∨ c = '\t' ∨ c = '\x0b' ∨ c = '\x0c') := by
  unfold isBlank
  simp [or_assoc]

theorem digit_isNumber {d : Nat} (h : d < 10) : isNumber (digit d) = true := by
  have : d = 0 ∨ d = 1 ∨ d = 2 ∨ d = 3 ∨ d = 4 ∨ d = 5 ∨ d = 6 ∨ d = 7 ∨ d = 8 ∨ d = 9 := by omega
  rcases this with h | h | h | h | h | h | h | h | h | h <;> subst h <;> decide

theorem decDigit_val {d : Nat} (h : d < 10) : FNLog.digitVal (digit d) = d := by
  have : d = 0 ∨ d = 1 ∨ d = 2 ∨ d = 3 ∨ d = 4 ∨ d = 5 ∨ d = 6 ∨ d = 7 ∨ d = 8 ∨ d = 9 := by omega
  rcases this with h | h | h | h | h | h | h | h | h | h <;> subst h <;> decide

theorem numeral_isNumber (n : Nat) : ∀ c ∈ numeral 10 n, isNumber c = true := by
  induction n using Nat.strongRecOn with
  | _ n ih =>
    by_cases h : n < 10
    · rw [numeral_lt h]; intro c hc; rw [List.mem_singleton.mp hc]; exact digit_isNumber h
    · rw [numeral_ge (by omega) (by omega)]
      intro c hc
      rcases List.mem_append.mp hc with hc | hc
      · exact ih _ (by omega) c hc
      · rw [List.mem_singleton.mp hc]; exact digit_isNumber (by omega)

/-- The fold that `atoi` computes. -/
def decFold (s : List Char) (a : Nat) : Nat := s.foldl (fun n c => n * 10 + FNLog.digitVal c) a

theorem decFold_numeral (n : Nat) : decFold (numeral 10 n) 0 = n := by
  induction n using Nat.strongRecOn with
  | _ n ih =>
    by_cases h : n < 10
    · rw [numeral_lt h]; simp only [decFold, List.foldl_cons, List.foldl_nil]; rw [decDigit_val h]; omega
    · rw [numeral_ge (by omega) (by omega)]
      unfold decFold
      rw [List.foldl_append]
      have := ih (n / 10) (by omega)
      unfold decFold at this
      rw [this]
      simp only [List.foldl_cons, List.foldl_nil]
      rw [decDigit_val (by omega)]
      omega

theorem decFold_zeros (z : Nat) (s : List Char) : decFold (List.replicate z '0' ++ s) 0 = decFold s 0 := by
  induction z with
  | zero => rfl
  | succ z ih =>
    rw [List.replicate_succ, List.cons_append]
    unfold decFold at ih ⊢
    rw [List.foldl_cons]
    exact ih

theorem decText_number {n : Nat} {s : List Char} (h : DecText n s) : ∀ c ∈ s, isNumber c = true := by
  obtain ⟨z, rfl⟩ := h
  intro c hc
  rcases List.mem_append.mp hc with hc | hc
  · rw [List.eq_of_mem_replicate hc]; decide
  · exact numeral_isNumber n c hc

theorem decText_ne_nil {n : Nat} {s : List Char} (h : DecText n s) : s ≠ [] := by
  obtain ⟨z, rfl⟩ := h
  intro h0
  exact numeral_ne_nil 10 n (List.append_eq_nil_iff.mp h0).2

theorem decText_fold {n : Nat} {s : List Char} (h : DecText n s) : decFold s 0 = n := by
  obtain ⟨z, rfl⟩ := h
  rw [decFold_zeros, decFold_numeral]

theorem noDigit_isNumber {s : List Char} (h : NoDigit s) : ∀ c r, s = c :: r → FNLog.isNumber c = false := by
  intro c r hs
  have := h c r hs
  rw [← isNumber_iff] at this
  simpa using this

theorem takeWhile_append_stop {α : Type} {p : α → Bool} {s r : List α} (h : ∀ c ∈ s, p c = true)
    (hr : ∀ c r', r = c :: r' → p c = false) : (s ++ r).takeWhile p = s := by
  induction s with
  | nil =>
    cases r with
    | nil => rfl
    | cons c r => simp [hr c r rfl]
  | cons c s ih =>
    rw [List.cons_append, List.takeWhile_cons, h c (List.mem_cons_self), if_pos rfl,
      ih (fun c hc => h c (List.mem_cons_of_mem _ hc))]

theorem dropWhile_append_stop {α : Type} {p : α → Bool} {s r : List α} (h : ∀ c ∈ s, p c = true)
    (hr : ∀ c r', r = c :: r' → p c = false) : (s ++ r).dropWhile p = r := by
  induction s with
  | nil =>
    cases r with
    | nil => rfl
    | cons c r => simp [hr c r rfl]
  | cons c s ih =>
    rw [List.cons_append, List.dropWhile_cons, h c (List.mem_cons_self), if_pos rfl,
      ih (fun c hc => h c (List.mem_cons_of_mem _ hc))]

theorem isNumber_not_space {c : Char} (h : isNumber c = true) : isSpace c = false ∧ c ≠ '-' ∧ c ≠ '+' ∧ isBlank c = false := by
  have := (isNumber_iff c).mp h
  have e : "0123456789".toList = ['0','1','2','3','4','5','6','7','8','9'] := rfl
  rw [e] at this
  simp only [List.mem_cons, List.not_mem_nil, or_false] at this
  rcases this with h | h | h | h | h | h | h | h | h | h <;> subst h <;> decide

theorem decPrefix_text {n : Nat} {s r : List Char} (h : DecText n s) (hr : NoDigit r) : decPrefix (s ++ r) = n := by
  unfold decPrefix
  rw [takeWhile_append_stop (decText_number h) (noDigit_isNumber hr)]
  exact decText_fold h

theorem saturate_id {n : Int} (h1 : LLONG_MIN ≤ n) (h2 : n ≤ LLONG_MAX) : saturate n = n := by
  unfold saturate; omega

/-- `atoll` on blanks and a decimal number that fits. -/
theorem atoll_text {n : Nat} {s r : List Char} (h : DecText n s) (hr : NoDigit r) (hn : (n : Int) ≤ LLONG_MAX) :
    atoll (s ++ r) = n := by
  have hne := decText_ne_nil h
  cases hs : s with
  | nil => exact absurd hs hne
  | cons c s' =>
    have hc := isNumber_not_space (decText_number h c (by rw [hs]; exact List.mem_cons_self))
    have e := decPrefix_text h hr
    rw [hs] at e
    unfold atoll
    rw [List.cons_append, List.dropWhile_cons, hc.1]
    simp only [Bool.false_eq_true, if_false]
    split
    · rename_i heq; simp only [List.cons.injEq] at heq; exact absurd heq.1 hc.2.1
    · rename_i heq; simp only [List.cons.injEq] at heq; exact absurd heq.1 hc.2.2.1
    · rw [List.cons_append] at e
      rw [e]
      exact saturate_id (by unfold LLONG_MIN; omega) hn

theorem atoi_text {n : Nat} {s r : List Char} (h : DecText n s) (hr : NoDigit r) (hn : n < 2 ^ 31) :
    atoi (s ++ r) = n := by
  unfold atoi
  rw [atoll_text h hr (by unfold LLONG_MAX; omega)]
  unfold toInt32
  omega

/-! ## Bit lists -/

theorem bitAt_small {n : Nat} (h : n < 64) : bitAt (n : Int) = some (1#64 <<< n) := by
  unfold bitAt
  rw [if_pos (by omega)]
  rfl

theorem bit_get {n i : Nat} (h : n < 64) (_hi : i < 64) : (1#64 <<< n).getLsbD i = decide (i = n) := by
  rw [BitVec.getLsbD_shiftLeft]
  by_cases e : i = n
  · subst e; simp [h]
  · by_cases h2 : i < n
    · simp [h2, e]
    · have : i - n ≠ 0 := by omega
      simp [h2, e, this]

theorem bitRange_spec (k : Nat) : ∀ (lo : Nat) (m : BitVec 64), lo + k ≤ 64 →
    ∃ m', bitRange (lo : Int) k m = some m' ∧
      ∀ i, i < 64 → (m'.getLsbD i = true ↔ m.getLsbD i = true ∨ (lo ≤ i ∧ i < lo + k)) := by
  induction k with
  | zero => intro lo m _; exact ⟨m, rfl, fun i _ => ⟨Or.inl, fun h => h.resolve_right (by omega)⟩⟩
  | succ k ih =>
    intro lo m h
    obtain ⟨m', e, hm⟩ := ih (lo + 1) (m ||| (1#64 <<< lo)) (by omega)
    refine ⟨m', ?_, ?_⟩
    · unfold bitRange
      rw [bitAt_small (by omega)]
      exact e
    · intro i hi
      rw [hm i hi, BitVec.getLsbD_or, bit_get (by omega) hi]
      simp only [Bool.or_eq_true, decide_eq_true_eq]
      constructor
      · rintro ((h1 | h1) | h1)
        · exact Or.inl h1
        · exact Or.inr (by omega)
        · exact Or.inr (by omega)
      · rintro (h1 | h1)
        · exact Or.inl (Or.inl h1)
        · by_cases e : i = lo
          · exact Or.inl (Or.inr e)
          · exact Or.inr (by omega)

theorem blanks_isBlank {s : List Char} (h : Blanks s) : ∀ c ∈ s, isBlank c = true :=
  fun c hc => (isBlank_iff c).mpr (h c hc)

theorem isBlank_not {c : Char} (h : isBlank c = true) : isNumber c = false ∧ c ≠ ',' ∧ c ≠ '-' := by
  rcases (isBlank_iff c).mp h with h | h | h | h <;> subst h <;> decide

/-- A list whose first character, if any, is no digit. -/
def HeadNot (p : Char → Bool) (s : List Char) : Prop := ∀ c r, s = c :: r → p c = false

theorem headNot_append {p : Char → Bool} {s r : List Char} (hs : ∀ c ∈ s, p c = false) (hr : HeadNot p r) :
    HeadNot p (s ++ r) := by
  intro c r' e
  cases s with
  | nil => exact hr c r' e
  | cons x xs =>
    simp only [List.cons_append, List.cons.injEq] at e
    rw [← e.1]; exact hs x List.mem_cons_self

theorem noDigit_of {s : List Char} (h : HeadNot isNumber s) : NoDigit s := by
  intro c r e hc
  have := h c r e
  rw [(isNumber_iff c).mpr hc] at this
  exact Bool.noConfusion this

/-- One round of the loop on a single number that is not followed by a dash. -/
theorem bitLoop_one {tail s p q rest : List Char} {n fuel : Nat} {m : BitVec 64} (hp : Blanks p) (hq : Blanks q)
    (hs : DecText n s) (hn : n < 64) (hrest : HeadNot (fun c => isNumber c || isBlank c || c == '-') rest)
    (ht : HeadNot isNumber tail) :
    bitLoop tail (fuel + 1) (p ++ s ++ q ++ rest) m = bitLoop tail fuel rest (m ||| (1#64 <<< n)) := by
  have hnum := decText_number hs
  have hne := decText_ne_nil hs
  have e1 : (p ++ s ++ q ++ rest).dropWhile (fun c => !isNumber c) = s ++ q ++ rest := by
    rw [List.append_assoc, List.append_assoc]
    rw [dropWhile_append_stop (fun c hc => by rw [(isBlank_not (blanks_isBlank hp c hc)).1]; rfl)]
    · rw [List.append_assoc]
    · intro c r e
      cases s with
      | nil => exact absurd rfl hne
      | cons x xs =>
        simp only [List.cons_append, List.cons.injEq] at e
        rw [← e.1, hnum x List.mem_cons_self]; rfl
  have e2 : (s ++ q ++ rest).dropWhile (fun c => isNumber c || isBlank c) = rest := by
    refine dropWhile_append_stop (s := s ++ q) (fun c hc => ?_) (fun c r e => ?_)
    · rcases List.mem_append.mp hc with hc | hc
      · rw [hnum c hc]; rfl
      · rw [blanks_isBlank hq c hc, Bool.or_true]
    · have := hrest c r e
      simp only [Bool.or_eq_false_iff] at this ⊢
      exact this.1
  have hnd : HeadNot isNumber (q ++ rest ++ tail) := by
    rw [List.append_assoc]
    refine headNot_append (fun c hc => (isBlank_not (blanks_isBlank hq c hc)).1) ?_
    cases rest with
    | nil => exact ht
    | cons c r =>
      intro c' r' e
      simp only [List.cons_append, List.cons.injEq] at e
      have := hrest c r rfl
      simp only [Bool.or_eq_false_iff] at this
      rw [← e.1]; exact this.1.1
  have e3 : atoi (s ++ q ++ rest ++ tail) = n := by
    rw [List.append_assoc, List.append_assoc, ← List.append_assoc q]
    exact atoi_text hs (noDigit_of hnd) (by omega)
  have h0 : p ++ s ++ q ++ rest ≠ [] := by
    intro h; simp only [List.append_eq_nil_iff] at h; exact hne h.1.1.2
  have h1 : s ++ q ++ rest ≠ [] := by
    intro h; simp only [List.append_eq_nil_iff] at h; exact hne h.1.1
  conv => lhs; unfold bitLoop
  simp only [if_neg h0, e1, if_neg h1, e2, e3]
  rw [if_pos (by
    intro h
    cases rest with
    | nil => exact absurd h (by simp)
    | cons c r =>
      simp only [List.head?_cons, Option.some.injEq] at h
      have := hrest c r rfl
      rw [h] at this
      exact absurd this (by decide))]
  rw [bitAt_small hn]
  rfl

/-- One round of the loop on a range: the loop goes on at the second number. -/
theorem bitLoop_range {tail s u p q p' rest : List Char} {a b fuel : Nat} {m : BitVec 64} (hp : Blanks p)
    (hp' : Blanks p') (hq : Blanks q) (hs : DecText a s) (hu : DecText b u) (ha : a < 64) (hb : b < 64)
    (hnd : HeadNot isNumber (rest ++ tail)) :
    ∃ m', bitLoop tail (fuel + 1) (p ++ (s ++ p' ++ ['-'] ++ q ++ u) ++ rest) m =
        bitLoop tail fuel (u ++ rest) m' ∧
      ∀ i, i < 64 → (m'.getLsbD i = true ↔ m.getLsbD i = true ∨ BitItem.Has i (.range a b)) := by
  have hnum := decText_number hs
  have hne := decText_ne_nil hs
  have hnum' := decText_number hu
  have hne' := decText_ne_nil hu
  have ev : p ++ (s ++ p' ++ ['-'] ++ q ++ u) ++ rest = p ++ (s ++ (p' ++ (['-'] ++ (q ++ (u ++ rest))))) := by
    simp only [List.append_assoc]
  have e1 : (p ++ (s ++ (p' ++ (['-'] ++ (q ++ (u ++ rest)))))).dropWhile (fun c => !isNumber c) =
      s ++ (p' ++ (['-'] ++ (q ++ (u ++ rest)))) := by
    rw [dropWhile_append_stop (fun c hc => by rw [(isBlank_not (blanks_isBlank hp c hc)).1]; rfl)]
    intro c r e
    cases s with
    | nil => exact absurd rfl hne
    | cons x xs =>
      simp only [List.cons_append, List.cons.injEq] at e
      rw [← e.1, hnum x List.mem_cons_self]; rfl
  have e2 : (s ++ (p' ++ (['-'] ++ (q ++ (u ++ rest))))).dropWhile (fun c => isNumber c || isBlank c) =
      ['-'] ++ (q ++ (u ++ rest)) := by
    rw [← List.append_assoc]
    refine dropWhile_append_stop (fun c hc => ?_) (fun c r e => ?_)
    · rcases List.mem_append.mp hc with hc | hc
      · rw [hnum c hc]; rfl
      · rw [blanks_isBlank hp' c hc, Bool.or_true]
    · simp only [List.cons_append, List.nil_append, List.cons.injEq] at e
      rw [← e.1]; decide
  have e3 : (['-'] ++ (q ++ (u ++ rest))).dropWhile (fun c => !isNumber c && c != ',') = u ++ rest := by
    rw [← List.append_assoc]
    refine dropWhile_append_stop (fun c hc => ?_) (fun c r e => ?_)
    · rcases List.mem_append.mp hc with hc | hc
      · rw [List.mem_singleton.mp hc]; decide
      · have := isBlank_not (blanks_isBlank hq c hc)
        rw [this.1]; simp [this.2.1]
    · cases u with
      | nil => exact absurd rfl hne'
      | cons x xs =>
        simp only [List.cons_append, List.cons.injEq] at e
        rw [← e.1, hnum' x List.mem_cons_self]; rfl
  have h3 : HeadNot isNumber (p' ++ (['-'] ++ (q ++ (u ++ rest))) ++ tail) := by
    rw [List.append_assoc]
    refine headNot_append (fun c hc => (isBlank_not (blanks_isBlank hp' c hc)).1) ?_
    intro c r e
    simp only [List.cons_append, List.nil_append, List.cons.injEq] at e
    rw [← e.1]; decide
  have e4 : atoi (s ++ (p' ++ (['-'] ++ (q ++ (u ++ rest)))) ++ tail) = a := by
    rw [List.append_assoc]
    exact atoi_text hs (noDigit_of h3) (by omega)
  have e5 : atoi (u ++ rest ++ tail) = b := by
    rw [List.append_assoc]
    exact atoi_text hu (noDigit_of hnd) (by omega)
  have h0 : p ++ (s ++ (p' ++ (['-'] ++ (q ++ (u ++ rest))))) ≠ [] := by
    intro h; simp only [List.append_eq_nil_iff] at h; exact hne h.2.1
  have h1 : s ++ (p' ++ (['-'] ++ (q ++ (u ++ rest)))) ≠ [] := by
    intro h; simp only [List.append_eq_nil_iff] at h; exact hne h.1
  have hh : (u ++ rest).head?.map isNumber = some true := by
    cases u with
    | nil => exact absurd rfl hne'
    | cons x xs => simp only [List.cons_append, List.head?_cons, Option.map_some, hnum' x List.mem_cons_self]
  obtain ⟨m', er, hm⟩ := bitRange_spec (max a b - min a b + 1) (min a b) m (by omega)
  refine ⟨m', ?_, ?_⟩
  · rw [ev]
    conv => lhs; unfold bitLoop
    simp only [if_neg h0, e1, if_neg h1, e2, e3, e4]
    rw [if_neg (by simp)]
    rw [if_neg (by rw [hh]; simp)]
    rw [e5]
    have x1 : min (a : Int) (b : Int) = ((min a b : Nat) : Int) := by omega
    have x2 : (max (a : Int) b - ((min a b : Nat) : Int) + 1).toNat = max a b - min a b + 1 := by omega
    rw [x1, x2, er]
    rfl
  · intro i hi
    rw [hm i hi]
    unfold BitItem.Has
    constructor
    · rintro (h | h)
      · exact Or.inl h
      · exact Or.inr (by omega)
    · rintro (h | h)
      · exact Or.inl h
      · exact Or.inr (by omega)

theorem bitLoop_nil (tail : List Char) (fuel : Nat) (m : BitVec 64) : bitLoop tail (fuel + 1) [] m = some m := by
  unfold bitLoop; simp

theorem bitLoop_blanks {tail s : List Char} (fuel : Nat) (m : BitVec 64) (h : ∀ c ∈ s, isNumber c = false) :
    bitLoop tail (fuel + 1) s m = some m := by
  unfold bitLoop
  by_cases h0 : s = []
  · simp [h0]
  · have : s.dropWhile (fun c => !isNumber c) = [] := by
      have := dropWhile_append_stop (p := fun c => !isNumber c) (s := s) (r := [])
        (fun c hc => by rw [h c hc]; rfl) (fun c r e => by cases e)
      rwa [List.append_nil] at this
    simp only [if_neg h0, this, if_true]

/-- An item, followed by blanks and something that cannot be mistaken for a part of it. -/
theorem bitLoop_item {tail p s q rest : List Char} {it : BitItem} {m : BitVec 64} {fuel : Nat} (hp : Blanks p)
    (hq : Blanks q) (ht : BitItem.Text it s) (hsm : it.Small)
    (hrest : HeadNot (fun c => isNumber c || isBlank c || c == '-') rest) (htail : HeadNot isNumber tail)
    (R : BitVec 64 → Option (BitVec 64))
    (hR : ∀ k m, rest.length + 1 ≤ k → bitLoop tail k rest m = R m)
    (hf : (p ++ s ++ q ++ rest).length + 1 ≤ fuel) :
    ∃ m', bitLoop tail fuel (p ++ s ++ q ++ rest) m = R m' ∧
      ∀ i, i < 64 → (m'.getLsbD i = true ↔ m.getLsbD i = true ∨ it.Has i) := by
  have hsl : ∀ {n u}, DecText n u → 0 < u.length := fun h => List.length_pos_iff.mpr (decText_ne_nil h)
  cases fuel with
  | zero => omega
  | succ fuel =>
    simp only [List.length_append] at hf
    cases ht with
    | one hd =>
      rename_i n
      have := hsl hd
      refine ⟨m ||| (1#64 <<< n), ?_, ?_⟩
      · rw [bitLoop_one hp hq hd hsm hrest htail, hR _ _ (by omega)]
      · intro i hi
        rw [BitVec.getLsbD_or, bit_get hsm hi]
        simp [BitItem.Has]
    | range hs hu hp' hq' =>
      rename_i a b s u p' q'
      have h1 := hsl hs
      have h2 := hsl hu
      simp only [List.length_append] at hf
      have hnd : HeadNot isNumber (q ++ rest ++ tail) := by
        rw [List.append_assoc]
        refine headNot_append (fun c hc => (isBlank_not (blanks_isBlank hq c hc)).1) ?_
        cases rest with
        | nil => exact htail
        | cons c r =>
          intro c' r' e
          simp only [List.cons_append, List.cons.injEq] at e
          have := hrest c r rfl
          simp only [Bool.or_eq_false_iff] at this
          rw [← e.1]; exact this.1.1
      obtain ⟨m1, e1, hm1⟩ := bitLoop_range (tail := tail) (rest := q ++ rest) (fuel := fuel) (m := m) hp hp' hq' hs hu
        hsm.1 hsm.2 hnd
      cases fuel with
      | zero => omega
      | succ fuel =>
        refine ⟨m1 ||| (1#64 <<< b), ?_, ?_⟩
        · rw [List.append_assoc, e1]
          have := bitLoop_one (tail := tail) (fuel := fuel) (m := m1) (p := []) (s := u) (q := q) (rest := rest)
            (by intro c hc; cases hc) hq hu hsm.2 hrest htail
          rw [List.nil_append, List.append_assoc] at this
          rw [this, hR _ _ (by omega)]
        · intro i hi
          rw [BitVec.getLsbD_or, bit_get hsm.2 hi, Bool.or_eq_true, hm1 i hi, decide_eq_true_eq]
          constructor
          · rintro ((h | h) | h)
            · exact Or.inl h
            · exact Or.inr h
            · refine Or.inr ?_
              unfold BitItem.Has
              omega
          · rintro (h | h)
            · exact Or.inl (Or.inl h)
            · exact Or.inl (Or.inr h)

theorem parseBitArray_list {items : List BitItem} {v tail : List Char} (h : ListText items v)
    (hs : ∀ it ∈ items, it.Small) (ht : HeadNot isNumber tail) : ∀ (fuel : Nat) (m : BitVec 64), v.length + 1 ≤ fuel →
    ∃ m', bitLoop tail fuel v m = some m' ∧
      ∀ i, i < 64 → (m'.getLsbD i = true ↔ m.getLsbD i = true ∨ ∃ it ∈ items, it.Has i) := by
  induction h with
  | nil hb =>
    intro fuel m hf
    obtain ⟨f, rfl⟩ : ∃ f, fuel = f + 1 := ⟨fuel - 1, by omega⟩
    exact ⟨m, bitLoop_blanks f m (fun c hc => (isBlank_not (blanks_isBlank hb c hc)).1), fun i _ => by simp⟩
  | last hp hq hi =>
    rename_i it s p q
    intro fuel m hf
    obtain ⟨m', e, hm⟩ := bitLoop_item (tail := tail) (rest := []) (m := m) (fuel := fuel) hp hq hi
      (hs it List.mem_cons_self) (fun c r e => by cases e) ht some
      (fun k m hk => by
        obtain ⟨f, rfl⟩ : ∃ f, k = f + 1 := ⟨k - 1, by omega⟩
        exact bitLoop_nil tail f m) (by simpa using hf)
    refine ⟨m', by simpa using e, fun i hi => ?_⟩
    rw [hm i hi]
    simp
  | cons hp hq hi _ ih =>
    rename_i it its s p q r _
    intro fuel m hf
    have hstep : ∀ (k : Nat) (m : BitVec 64), (',' :: r).length + 1 ≤ k →
        bitLoop tail k (',' :: r) m = bitLoop tail (r.length + 1) r m := by
      intro k m hk
      obtain ⟨f, rfl⟩ : ∃ f, k = f + 1 := ⟨k - 1, by omega⟩
      obtain ⟨m1, e1, hm1⟩ := ih (fun it h => hs it (List.mem_cons_of_mem _ h)) (f + 1) m
        (by simp only [List.length_cons] at hk; omega)
      obtain ⟨m2, e2, hm2⟩ := ih (fun it h => hs it (List.mem_cons_of_mem _ h)) (r.length + 1) m (Nat.le_refl _)
      have hcomma : bitLoop tail (f + 1) (',' :: r) m = bitLoop tail (f + 1) r m := by
        conv => lhs; unfold bitLoop
        conv => rhs; unfold bitLoop
        have ec : (',' :: r).dropWhile (fun c => !isNumber c) = r.dropWhile (fun c => !isNumber c) := by
          rw [List.dropWhile_cons, if_pos (by decide)]
        rw [if_neg (by simp), ec]
        by_cases hr : r = []
        · subst hr; simp
        · rw [if_neg hr]
      rw [hcomma, e1, e2]
      congr 1
      apply BitVec.eq_of_getLsbD_eq
      intro i hi
      exact Bool.eq_iff_iff.mpr ((hm1 i hi).trans (hm2 i hi).symm)
    obtain ⟨m', e, hm⟩ := bitLoop_item (tail := tail) (rest := ',' :: r) (m := m) (fuel := fuel) hp hq hi
      (hs it List.mem_cons_self) (fun c r' e => by
        simp only [List.cons.injEq] at e
        rw [← e.1]; decide) ht (fun m => bitLoop tail (r.length + 1) r m) hstep (by simpa using hf)
    obtain ⟨m'', e2, hm2⟩ := ih (fun it h => hs it (List.mem_cons_of_mem _ h)) (r.length + 1) m' (Nat.le_refl _)
    refine ⟨m'', ?_, fun i hi => ?_⟩
    · rw [← e2, ← e]
      simp
    · rw [hm2 i hi, hm i hi]
      simp [or_assoc]

/-! ## Addresses -/

theorem hexVal_digit {d : Nat} (h : d < 10) : hexVal (digit d) = d := by
  unfold hexVal
  rw [digit_isNumber h, if_pos rfl, decDigit_val h]

theorem hexVal_number {c : Char} (h : isNumber c = true) : hexVal c = FNLog.digitVal c ∧ hexVal c < 10 := by
  have := (isNumber_iff c).mp h
  have e : "0123456789".toList = ['0','1','2','3','4','5','6','7','8','9'] := rfl
  rw [e] at this
  simp only [List.mem_cons, List.not_mem_nil, or_false] at this
  rcases this with h | h | h | h | h | h | h | h | h | h <;> subst h <;> decide

theorem takeWhile_all {α : Type} {p : α → Bool} {s : List α} (h : ∀ c ∈ s, p c = true) : s.takeWhile p = s := by
  have := takeWhile_append_stop (r := []) h (fun c r e => by cases e)
  rwa [List.append_nil] at this

theorem foldl_congr_mem {f g : Nat → Char → Nat} {s : List Char} (h : ∀ c ∈ s, ∀ a, f a c = g a c) (a : Nat) :
    s.foldl f a = s.foldl g a := by
  induction s generalizing a with
  | nil => rfl
  | cons c s ih =>
    rw [List.foldl_cons, List.foldl_cons, h c List.mem_cons_self]
    exact ih (fun c hc => h c (List.mem_cons_of_mem _ hc)) _

theorem inetPart_numeral (n : Nat) : inetPart (numeral 10 n) = some n := by
  by_cases h0 : n = 0
  · subst h0; rw [numeral_zero 10 (by omega)]; rfl
  · have hd := numeral_isNumber n
    have hb : basePrefix 10 (numeral 10 n) = n := by
      unfold basePrefix
      rw [takeWhile_all (fun c hc => decide_eq_true (hexVal_number (hd c hc)).2)]
      rw [foldl_congr_mem (g := fun n c => n * 10 + FNLog.digitVal c)
        (fun c hc a => by rw [(hexVal_number (hd c hc)).1])]
      exact decFold_numeral n
    unfold inetPart
    split
    · rename_i e; exact absurd e (numeral_ne_nil 10 n)
    · rename_i ds e
      exact absurd (numeral_head 10 (by omega) (by omega) n (by rw [e]; rfl)) h0
    · rw [hb]

theorem splitDots_ne_nil (s : List Char) : splitDots s ≠ [] := by
  cases s with
  | nil => simp [splitDots]
  | cons c s =>
    unfold splitDots
    split
    · simp
    · split <;> simp

theorem splitDots_plain {s : List Char} (h : ∀ c ∈ s, c ≠ '.') : splitDots s = [s] := by
  induction s with
  | nil => rfl
  | cons c s ih =>
    unfold splitDots
    rw [if_neg (h c List.mem_cons_self), ih (fun c hc => h c (List.mem_cons_of_mem _ hc))]

theorem splitDots_dot {s r : List Char} (h : ∀ c ∈ s, c ≠ '.') : splitDots (s ++ ['.'] ++ r) = s :: splitDots r := by
  induction s with
  | nil => simp [splitDots]
  | cons c s ih =>
    rw [List.cons_append, List.cons_append]
    conv => lhs; unfold splitDots
    rw [if_neg (h c List.mem_cons_self), ih (fun c hc => h c (List.mem_cons_of_mem _ hc))]

theorem number_not_dot {c : Char} (h : isNumber c = true) : c ≠ '.' ∧ c ≠ ':' := by
  constructor <;> (intro e; subst e; exact absurd h (by decide))

theorem inetAddr_quad {a b c d : Nat} (ha : a < 256) (hb : b < 256) (hc : c < 256) (hd : d < 256) :
    inetAddr (quadText a b c d) = networkQuad a b c d := by
  have hn : ∀ n, ∀ c ∈ numeral 10 n, c ≠ '.' := fun n c hc => (number_not_dot (numeral_isNumber n c hc)).1
  have e : splitDots (quadText a b c d) = [numeral 10 a, numeral 10 b, numeral 10 c, numeral 10 d] := by
    have : quadText a b c d = numeral 10 a ++ ['.'] ++ (numeral 10 b ++ ['.'] ++ (numeral 10 c ++ ['.'] ++ numeral 10 d)) := by
      simp only [quadText, List.append_assoc]
    rw [this, splitDots_dot (hn a), splitDots_dot (hn b), splitDots_dot (hn c), splitDots_plain (hn d)]
  unfold inetAddr
  rw [e]
  simp only [List.mapM_cons, List.mapM_nil, inetPart_numeral, Option.pure_def, Option.bind_eq_bind, Option.bind_some]
  rw [if_pos ⟨ha, hb, hc, hd⟩]
  unfold networkQuad
  omega

theorem quad_chars (a b c d : Nat) : ∀ x ∈ quadText a b c d, isNumber x = true ∨ x = '.' := by
  intro x hx
  unfold quadText at hx
  simp only [List.mem_append, List.mem_singleton] at hx
  rcases hx with (((((hx | hx) | hx) | hx) | hx) | hx) | hx
  · exact Or.inl (numeral_isNumber a x hx)
  · exact Or.inr hx
  · exact Or.inl (numeral_isNumber b x hx)
  · exact Or.inr hx
  · exact Or.inl (numeral_isNumber c x hx)
  · exact Or.inr hx
  · exact Or.inl (numeral_isNumber d x hx)

theorem parseAddres_quad (dns : List Char → Option Int) (pd : Bool) {a b c d port : Nat} (ha : a < 256)
    (hb : b < 256) (hc : c < 256) (hd : d < 256) (hp : 0 < port) (hp' : port < 65536) :
    parseAddres dns pd (quadText a b c d ++ [':'] ++ numeral 10 port) = (((networkQuad a b c d : Nat) : Int), ((networkPort port : Nat) : Int)) := by
  have hq0 : quadText a b c d ≠ [] := by
    intro h
    have := congrArg List.length h
    simp [quadText] at this
  obtain ⟨q, eq⟩ : ∃ q, q = quadText a b c d := ⟨_, rfl⟩
  have hq := quad_chars a b c d
  rw [← eq] at hq hq0
  have hstop : ∀ x ∈ q, (!(isBlank x || x == ':')) = true := by
    intro x hx
    rcases hq x hx with h | h
    · rw [(isNumber_not_space h).2.2.2]; simp [(number_not_dot h).2]
    · subst h; decide
  have hcol : ∀ (x : Char) r', [':'] ++ numeral 10 port = x :: r' → (!(isBlank x || x == ':')) = false := by
    intro x r' e
    simp only [List.cons_append, List.nil_append, List.cons.injEq] at e
    rw [← e.1]; decide
  have hdrop : (q ++ ([':'] ++ numeral 10 port)).dropWhile isBlank = q ++ ([':'] ++ numeral 10 port) := by
    have := dropWhile_append_stop (p := isBlank) (s := []) (r := q ++ ([':'] ++ numeral 10 port))
      (fun c hc => by cases hc) (fun c r e => by
        cases q with
        | nil => exact absurd rfl hq0
        | cons x xs =>
          simp only [List.cons_append, List.cons.injEq] at e
          rw [← e.1]
          have := hstop x List.mem_cons_self
          simp only [Bool.not_eq_true', Bool.or_eq_false_iff] at this
          exact this.1)
    exact this
  have hany : q.any (fun c => !isNumber c && c != '.') = false := by
    rw [List.any_eq_false]
    intro x hx
    rcases hq x hx with h | h
    · rw [h]; simp
    · subst h; decide
  have hv0 : q ++ ([':'] ++ numeral 10 port) ≠ [] := by
    intro h; exact hq0 (List.append_eq_nil_iff.mp h).1
  have hip : parseAddresIP dns pd (q ++ ([':'] ++ numeral 10 port)) = ((networkQuad a b c d : Int), [':'] ++ numeral 10 port) := by
    unfold parseAddresIP
    rw [if_neg hv0]
    simp only [hdrop]
    rw [takeWhile_append_stop hstop hcol, dropWhile_append_stop hstop hcol, if_neg hq0, hany]
    simp only [Bool.false_eq_true, if_false]
    rw [eq, inetAddr_quad ha hb hc hd]
  have hport : ([':'] ++ numeral 10 port).dropWhile (fun c => c < '1' || c > '9') = numeral 10 port := by
    refine dropWhile_append_stop (fun c hc => ?_) (fun c r e => ?_)
    · rw [List.mem_singleton.mp hc]; decide
    · have hc := numeral_isNumber port c (by rw [e]; exact List.mem_cons_self)
      have h0 : c ≠ '0' := by
        intro h
        have := numeral_head 10 (by omega) (by omega) port (by rw [e, h]; rfl)
        omega
      have := (isNumber_iff c).mp hc
      have el : "0123456789".toList = ['0','1','2','3','4','5','6','7','8','9'] := rfl
      rw [el] at this
      simp only [List.mem_cons, List.not_mem_nil, or_false] at this
      rcases this with h | h | h | h | h | h | h | h | h | h <;> first | exact absurd h h0 | (subst h; decide)
  have hlen := numeral_length_le 10 (by omega) 4 port (by omega)
  have hat : atoi (numeral 10 port) = port := by
    have := atoi_text (n := port) (s := numeral 10 port) (r := []) ⟨0, rfl⟩ (fun c r e => by cases e) (by omega)
    rwa [List.append_nil] at this
  unfold parseAddres
  rw [List.append_assoc, ← eq, if_neg hv0]
  simp only [hip, hport]
  rw [if_neg (numeral_ne_nil 10 port), if_neg (by omega), hat]
  have e2 : ((port : Int) % 2 ^ 16).toNat = port := by omega
  rw [e2]
  unfold htons networkPort
  congr 1
  omega

end FNLog
