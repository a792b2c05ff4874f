import Verif.Proof.RingAba
import Verif.Spec.Ring

/-! # From the invariants to statements about lines -/

namespace FNLog.Ring
open FNLog

variable {α : Type}

theorem outLines {c : Cfg α} {s : St α} (hi : Inv c s) :
    s.out.map (fun e => some e.2) = (s.out.map Prod.fst).map (fun k => (s.acquired.map Prod.snd)[k]?) := by
  rw [List.map_map]
  apply List.map_congr_left
  intro e he
  have := hi.outVal e he
  simp only [Function.comp_apply, List.getElem?_map]
  exact this.symm

/-- Distinct positions give distinct entries. -/
theorem atMostOnce_of_positions {β : Type} (lines out : List β) (ts : List Nat) (hnd : ts.Nodup)
    (h : out.map some = ts.map (fun k => lines[k]?)) : Spec.EachAtMostOnce lines out := by
  have hlt : ∀ k ∈ ts, k < lines.length := by
    intro k hk
    apply Classical.byContradiction
    intro hge
    have h1 : lines[k]? = none := List.getElem?_eq_none (by omega)
    have h2 : none ∈ out.map some := by
      rw [h]; exact List.mem_map.2 ⟨k, hk, h1⟩
    simp at h2
  let rest := (List.range lines.length).filter (fun k => !ts.contains k)
  have hperm : List.Perm (ts ++ rest) (List.range lines.length) := by
    rw [List.perm_ext_iff_of_nodup]
    · intro k
      simp only [List.mem_append, rest, List.mem_filter, List.mem_range, Bool.not_eq_true',
        List.contains_eq_mem, decide_eq_false_iff_not]
      constructor
      · rintro (h1 | h1)
        · exact hlt k h1
        · exact h1.1
      · intro h1
        by_cases h2 : k ∈ ts
        · exact Or.inl h2
        · exact Or.inr ⟨h1, h2⟩
    · rw [List.nodup_append]
      refine ⟨hnd, List.nodup_range.filter _, ?_⟩
      intro a ha b hb hab
      subst hab
      simp only [rest, List.mem_filter, List.contains_eq_mem, Bool.not_eq_true',
        decide_eq_false_iff_not] at hb
      exact hb.2 ha
    · exact List.nodup_range
  have hall : (List.range lines.length).map (fun k => lines[k]?) = lines.map some := by
    apply List.ext_getElem?
    intro i
    rw [List.getElem?_map, List.getElem?_map]
    by_cases hi : i < lines.length
    · rw [List.getElem?_range hi]; simp [hi]
    · rw [List.getElem?_eq_none (by simpa using hi), List.getElem?_eq_none (by simpa using hi)]; rfl
  have h2 := hperm.map (fun k => lines[k]?)
  rw [List.map_append, ← h, hall] at h2
  refine ⟨(rest.map (fun k => lines[k]?)).filterMap id, ?_⟩
  have h3 := h2.filterMap id
  rw [List.filterMap_append] at h3
  simpa [List.filterMap_map] using h3

theorem EachAtMostOnce.of_inv {c : Cfg α} {s : St α} (hi : Inv c s) :
    Spec.EachAtMostOnce (s.acquired.map Prod.snd) (s.out.map Prod.snd) := by
  refine atMostOnce_of_positions _ _ (s.out.map Prod.fst) hi.outND ?_
  rw [← outLines hi, List.map_map]; rfl

/-- All positions output, none twice. -/
theorem exactlyOnce_of_all {c : Cfg α} {s : St α} (hi : Inv c s) (hb : s.base = 0) (hP : s.P = s.H)
    (hd : ∀ t k, s.pc t ≠ .cDisp k) :
    Spec.EachExactlyOnce (s.acquired.map Prod.snd) (s.out.map Prod.snd) := by
  obtain ⟨rest, h⟩ := EachAtMostOnce.of_inv hi
  have hlen : s.out.length = s.H := by
    have hp : List.Perm (s.out.map Prod.fst) (List.range s.H) := by
      rw [List.perm_ext_iff_of_nodup hi.outND List.nodup_range]
      intro k
      rw [hi.outMem, hb, hP, List.mem_range]
      constructor
      · exact fun h => h.2.1
      · exact fun h => ⟨Nat.zero_le _, h, fun t => hd t k⟩
    simpa using hp.length_eq
  have h2 := h.length_eq
  rw [List.length_append, List.length_map, List.length_map, hi.len, hlen] at h2
  have : rest = [] := List.eq_nil_of_length_eq_zero (by omega)
  rw [this, List.append_nil] at h
  exact h

/-- Outputs at consecutive positions are a prefix of the acquired lines. -/
theorem prefix_of_ord {c : Cfg α} {s : St α} (hi : Inv c s) {n : Nat}
    (ho : s.out.map Prod.fst = List.range' 0 n) :
    Spec.InOrderPrefix (s.acquired.map Prod.snd) (s.out.map Prod.snd) := by
  have h1 := outLines hi
  rw [ho] at h1
  have hlen : s.out.length = n := by have := congrArg List.length ho; simpa using this
  refine ⟨(s.acquired.map Prod.snd).drop n, ?_⟩
  have : s.out.map Prod.snd = (s.acquired.map Prod.snd).take n := by
    apply List.ext_getElem?
    intro i
    have h2 := congrArg (fun l => l[i]?) h1
    simp only [List.getElem?_map, List.getElem?_take] at h2 ⊢
    by_cases hin : i < n
    · rw [if_pos hin]
      have h3 : (List.range' 0 n)[i]? = some i := by simp [hin]
      rw [h3] at h2
      cases h4 : s.out[i]? with
      | none => rw [List.getElem?_eq_none_iff] at h4; omega
      | some e =>
        rw [h4] at h2
        simp only [Option.map_some, Option.some.injEq] at h2
        simp [h2]
    · rw [if_neg hin, List.getElem?_eq_none (by omega)]; rfl
  rw [this, List.take_append_drop]

theorem base_run (c : Cfg α) : ∀ (es : List (Ev α)) (s : St α), (run c s es).base = s.base := by
  intro es
  induction es with
  | nil => intro s; rfl
  | cons e es ih =>
    intro s
    refine (ih _).trans ?_
    cases e with
    | run t => simp only [step]; unfold stepT; split <;> (repeat' split) <;> simp
    | call t b => unfold step; simp only; (repeat' split) <;> simp
    | started => unfold step; simp only; (repeat' split) <;> simp
    | closing => rfl
    | stop => unfold step; simp only; (repeat' split) <;> simp

theorem ofThread_eq (t : Nat) (l : List (Nat × List α)) : ofThread t l = Spec.linesOf t l := rfl

/-! ## Ownership -/

theorem pown_slots {c : Cfg α} {s : St α} (hi : Inv c s) {t u k j : Nat} (htu : t ≠ u)
    (ht : pown (s.pc t) = some k) (hu : pown (s.pc u) = some j) : k % c.L ≠ j % c.L := by
  intro he
  obtain ⟨a1, a2, _, _⟩ := pown_acq (hi.ti t) ht
  obtain ⟨b1, b2, _, _⟩ := pown_acq (hi.ti u) hu
  have h1 := hi.leRP
  have h2 := hi.lePW
  have h3 := hi.cap
  have : k = j := slot_inj (c := c) (s := s) he (by omega) (by omega) (by omega) (by omega)
  subst this
  exact htu (pown_uniq hi ht hu)

theorem cown_pown_slots {c : Cfg α} {s : St α} (hi : Inv c s) {t u k j : Nat}
    (ht : cown (s.pc t) = some k) (hu : pown (s.pc u) = some j) : k % c.L ≠ j % c.L := by
  intro he
  obtain ⟨a1, a2, _⟩ := cown_range (hi.ti t) ht
  obtain ⟨b1, b2, _, _⟩ := pown_acq (hi.ti u) hu
  have h1 := hi.leRP
  have h2 := hi.lePW
  have h3 := hi.leWH
  have h4 := hi.cap
  have := slot_inj (c := c) (s := s) he (by omega) (by omega) (by omega) (by omega)
  omega

theorem cown_slots {c : Cfg α} {s : St α} (hi : Inv c s) {t u k j : Nat} (htu : t ≠ u)
    (ht : cown (s.pc t) = some k) (hu : cown (s.pc u) = some j) : k % c.L ≠ j % c.L := by
  intro he
  obtain ⟨a1, a2, _⟩ := cown_range (hi.ti t) ht
  obtain ⟨b1, b2, _⟩ := cown_range (hi.ti u) hu
  have h1 := hi.leRP
  have h2 := hi.lePW
  have h3 := hi.leWH
  have h4 := hi.cap
  have : k = j := slot_inj (c := c) (s := s) he (by omega) (by omega) (by omega) (by omega)
  subst this
  exact htu (hi.uniqC t u k ht hu)

/-- The slot a step may modify. -/
theorem step_touches (c : Cfg α) (s : St α) (u i : Nat)
    (h : (stepT c s u).mark i ≠ s.mark i ∨ (stepT c s u).cell i ≠ s.cell i) :
    ∃ j, i = j % c.L ∧ (pown (s.pc u) = some j ∨ cown (s.pc u) = some j) := by
  unfold stepT at h
  split at h <;> rename_i hpc <;> rw [hpc] <;> revert h <;> (repeat' split) <;>
    simp only [go_mark, go_cell, ne_eq, not_true_eq_false, or_self, false_implies, pown, cown,
      Option.some.injEq, reduceCtorEq, or_false, false_or, upd] <;>
    grind

/-! ## Restart -/

theorem cleanMarks_id (L n r : Nat) (m : Nat → Mark) : cleanMarks L n r r m = m := by
  cases n <;> simp [cleanMarks]

/-- With everything released and nobody inside a log statement the new session starts clean. -/
theorem Inv.restart {c : Cfg α} {s : St α} (hi : Inv c s) (hL : 0 < c.L) (hR : s.R = s.H)
    (hW : s.W = s.H) (hidle : ∀ t, ¬ (c.async = true ∧ t = worker) → s.pc t = .idle) :
    Inv c (Ring.restart c s) := by
  have hm : ∀ k, s.mark (k % c.L) = .invalid := by
    intro k
    have h1 : ∃ j, s.H ≤ j ∧ j < s.H + c.L ∧ j % c.L = k % c.L := by
      refine ⟨s.H + (k % c.L + c.L - s.H % c.L) % c.L, by omega, ?_, ?_⟩
      · have := Nat.mod_lt (k % c.L + c.L - s.H % c.L) hL; omega
      · have h2 := Nat.mod_lt s.H hL
        have h4 := Nat.mod_lt k hL
        rw [Nat.add_mod, Nat.mod_mod]
        by_cases hc : s.H % c.L ≤ k % c.L
        · have : k % c.L + c.L - s.H % c.L = (k % c.L - s.H % c.L) + c.L := by omega
          rw [this, Nat.add_mod_right, Nat.mod_eq_of_lt (a := k % c.L - s.H % c.L) (by omega)]
          have : s.H % c.L + (k % c.L - s.H % c.L) = k % c.L := by omega
          rw [this, Nat.mod_mod]
        · rw [Nat.mod_eq_of_lt (a := k % c.L + c.L - s.H % c.L) (by omega)]
          have : s.H % c.L + (k % c.L + c.L - s.H % c.L) = k % c.L + c.L := by omega
          rw [this, Nat.add_mod_right, Nat.mod_mod]
    obtain ⟨j, h2, h3, h4⟩ := h1
    rw [← h4]
    exact hi.mFree j h2 (by omega)
  have hmark : (Ring.restart c s).mark = s.mark := by
    simp only [Ring.restart]
    rw [hR, hW]
    exact cleanMarks_id _ _ _ _
  have hpc : ∀ t, (Ring.restart c s).pc t = .cLoad ∧ c.async = true ∧ t = worker ∨
      (Ring.restart c s).pc t = .idle := by
    intro t
    simp only [Ring.restart]
    by_cases h : c.async = true ∧ t = worker
    · rw [if_pos h]; exact Or.inl ⟨rfl, h⟩
    · rw [if_neg h]; exact Or.inr (hidle t h)
  constructor
  case leRP => exact Nat.le_refl _
  case lePW => exact Nat.le_refl _
  case leWH => exact Nat.le_refl _
  case cap => show 0 < 0 + c.L; omega
  case len => rfl
  case baseR => exact Nat.le_refl _
  case oldOk => exact Or.inr (Nat.le_refl _)
  case mPW => intro k _ h; exact absurd h (Nat.not_lt_zero _)
  case mFree => intro k _ _; rw [hmark]; exact hm k
  case mRP => intro k _ h; exact absurd h (Nat.not_lt_zero _)
  case mWH => intro k _ h; exact absurd h (Nat.not_lt_zero _)
  case sealedW => intro k _ h; exact absurd h (Nat.not_lt_zero _)
  case sealedH => intro k _ h; exact absurd h (Nat.not_lt_zero _)
  case ti =>
    intro t
    rcases hpc t with h | h
    · rw [h.1]; trivial
    · rw [h]; trivial
  case uniqC =>
    intro t u k h
    rcases hpc t with h1 | h1
    · rw [h1.1] at h; cases h
    · rw [h1] at h; cases h
  case consTid =>
    intro _ t h
    rcases hpc t with h1 | h1
    · exact h1.2.2
    · rw [h1] at h; cases h
  case outND => exact List.nodup_nil
  case outMem =>
    intro k
    constructor
    · intro h; cases h
    · intro h; exact absurd h.2.1 (Nat.not_lt_zero _)
  case outVal => intro e h; cases h
  case lostR => intro k h; cases h

end FNLog.Ring
