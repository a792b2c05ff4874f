import Verif.Proof.Tally
import Verif.Spec.Tally

/-! # The maxima of an async channel -/

namespace FNLog.Tally
open FNLog FNLog.Ring

variable {α : Type}

/-- Largest number of a list, 0 if there is none. -/
def maxN (l : List Nat) : Nat := l.foldl max 0

def maxI (l : List Int) : Int := l.foldl max 0

theorem maxN_snoc (l : List Nat) (n : Nat) : maxN (l ++ [n]) = max (maxN l) n := by simp [maxN]

theorem maxI_snoc (l : List Int) (n : Int) : maxI (l ++ [n]) = max (maxI l) n := by simp [maxI]

theorem maxN_largest (l : List Nat) : Spec.LargestOf 0 l (maxN l) := by
  have : ∀ (l : List Nat) z, z ≤ l.foldl max z ∧ (∀ n ∈ l, n ≤ l.foldl max z) ∧
      (l.foldl max z = z ∨ l.foldl max z ∈ l) := by
    intro l
    induction l with
    | nil => intro z; exact ⟨Nat.le_refl _, (fun n h => by cases h), Or.inl rfl⟩
    | cons a l ih =>
      intro z
      obtain ⟨h1, h2, h3⟩ := ih (max z a)
      simp only [List.foldl_cons, List.mem_cons]
      refine ⟨by omega, ?_, ?_⟩
      · rintro n (rfl | hn)
        · omega
        · exact h2 n hn
      · rcases h3 with h3 | h3
        · rw [h3]
          rcases Nat.le_total z a with hh | hh
          · right; left; omega
          · left; omega
        · exact Or.inr (Or.inr h3)
  exact this l 0

theorem maxI_largest (l : List Int) : Spec.LargestOf 0 l (maxI l) := by
  have : ∀ (l : List Int) z, z ≤ l.foldl max z ∧ (∀ n ∈ l, n ≤ l.foldl max z) ∧
      (l.foldl max z = z ∨ l.foldl max z ∈ l) := by
    intro l
    induction l with
    | nil => intro z; exact ⟨Int.le_refl _, (fun n h => by cases h), Or.inl rfl⟩
    | cons a l ih =>
      intro z
      obtain ⟨h1, h2, h3⟩ := ih (max z a)
      simp only [List.foldl_cons, List.mem_cons]
      refine ⟨by omega, ?_, ?_⟩
      · rintro n (rfl | hn)
        · omega
        · exact h2 n hn
      · rcases h3 with h3 | h3
        · rw [h3]
          rcases Int.le_total z a with hh | hh
          · right; left; omega
          · left; omega
        · exact Or.inr (Or.inr h3)
  exact this l 0

/-- The slot the consumer has released and still reads. -/
def Sub.slot : Sub → Option Nat
  | .qLoad k | .qMax k _ | .qStore k _ | .dRead k => some k
  | _ => Option.none

/-- Between 127 and 158. -/
def Sub.cons : Sub → Bool
  | .none | .prio _ => false
  | _ => true

/-- A value that is about to be stored as the new maximum, or compared with it. -/
def Sub.q : Sub → Nat
  | .qMax _ n | .qStore _ n => n
  | _ => 0

def Sub.d : Sub → Int
  | .dMax d | .dStore d => d
  | _ => 0

structure MInv (c : Cfg α) (x : TSt α) : Prop where
  inv : Inv c x.s
  ord : Ord c x.s
  who : ∀ t, (x.sub t).cons = true → t = worker
  pcw : (x.sub worker).cons = true → x.s.pc worker = .rLoad
  pos : ∀ k, (x.sub worker).slot = some k → k = x.s.R ∧ x.s.P = x.s.R + 1
  q : max x.maxQ (x.sub worker).q = maxN x.sizes
  qS : ∀ k n, x.sub worker = .qStore k n → x.maxQ < n
  qR : ∀ n ∈ x.sizes, 1 ≤ n ∧ n ≤ c.L - 1
  d0 : 0 ≤ x.maxD
  d : max x.maxD (x.sub worker).d = maxI x.delays
  dS : ∀ d, x.sub worker = .dStore d → x.maxD < d
  np : ∀ k, x.sub worker ≠ .prio k

theorem queLen_eq {L k w : Nat} (h1 : k < w) (h2 : w < k + L) : queLen L (k % L) (w % L) = w - k := by
  unfold queLen
  have hL : 0 < L := by omega
  have e1 := Nat.div_add_mod k L
  have e2 := Nat.div_add_mod w L
  have b1 := Nat.mod_lt k hL
  have b2 := Nat.mod_lt w hL
  have hd : w / L = k / L ∨ w / L = k / L + 1 := by
    have g1 : k / L ≤ w / L := Nat.div_le_div_right (by omega)
    have g2 : w / L ≤ (k + L) / L := Nat.div_le_div_right (by omega)
    rw [Nat.add_div_right k hL] at g2
    omega
  rcases hd with hd | hd
  · rw [hd] at e2
    split <;> omega
  · rw [hd, Nat.mul_add, Nat.mul_one] at e2
    split <;> omega

/-- The queue length that would be computed now. -/
theorem MInv.size {c : Cfg α} {x : TSt α} (h : MInv c x) {k : Nat} (hk : x.sub worker = .qLoad k) :
    queLen c.L (k % c.L) (x.s.W % c.L) = x.s.W - k ∧ 1 ≤ x.s.W - k ∧ x.s.W - k ≤ c.L - 1 := by
  obtain ⟨rfl, h2⟩ := h.pos k (by rw [hk]; rfl)
  have := h.inv.lePW
  have := h.inv.leWH
  have := h.inv.cap
  exact ⟨queLen_eq (by omega) (by omega), by omega, by omega⟩

theorem at_sub (x : TSt α) (t u : Nat) (q : Sub) : (x.at t q).sub u = if u = t then q else x.sub u := rfl

/-- A step of the queue by thread `t`. -/
theorem MInv.ring {c : Cfg α} {x : TSt α} (hA : c.async = true) (h : MInv c x) {t : Nat}
    (hs : x.sub t = .none) (ht : Ring.timelyAt c x.s t) :
    MInv c ({ x with s := Ring.stepT c x.s t }.at t (next (x.s.pc t))) := by
  have hi := h.inv.stepT ht
  have hord : Ord c (Ring.stepT c x.s t) := h.ord.step hA h.inv (.run t)
  by_cases htw : t = worker
  · subst htw
    have hq := h.q
    have hd := h.d
    rw [hs] at hq hd
    have hpcw := h.ord.pcw
    have key : next (x.s.pc worker) = .none ∨ ∃ k, x.s.pc worker = .cBytes k := by
      cases hpc : x.s.pc worker <;> rw [hpc] at hpcw <;> simp only [OrdPC] at hpcw <;>
        first | contradiction | exact Or.inl rfl | exact Or.inr ⟨_, rfl⟩
    rcases key with hn | ⟨k, hk⟩
    · rw [hn]
      refine ⟨hi, hord, ?_, ?_, ?_, ?_, ?_, h.qR, h.d0, ?_, ?_, ?_⟩
      · intro u hu
        rw [at_sub] at hu
        split at hu
        · assumption
        · exact h.who u hu
      · intro hu; simp [TSt.at, upd, Sub.cons] at hu
      · intro j hj; simp [TSt.at, upd, Sub.slot] at hj
      · simpa [TSt.at, upd, Sub.q] using hq
      · intro j n hj; simp [TSt.at, upd] at hj
      · simpa [TSt.at, upd, Sub.d] using hd
      · intro n hj; simp [TSt.at, upd] at hj
      · intro n hj; simp [TSt.at, upd] at hj
    · have hn : next (x.s.pc worker) = .qLoad k := by rw [hk]; rfl
      have e : Ring.stepT c x.s worker =
          { x.s with nBytes := x.s.nBytes + (x.s.cell (k % c.L)).length }.go worker .rLoad := by
        unfold Ring.stepT; rw [hk]
      rw [hk] at hpcw
      rw [hn]
      refine ⟨hi, hord, ?_, ?_, ?_, ?_, ?_, h.qR, h.d0, ?_, ?_, ?_⟩
      · intro u hu
        rw [at_sub] at hu
        split at hu
        · assumption
        · exact h.who u hu
      · intro _
        show (Ring.stepT c x.s worker).pc worker = _
        rw [e]; simp
      · intro j hj
        simp only [TSt.at, upd, if_true, Sub.slot, Option.some.injEq] at hj
        subst hj
        show k = (Ring.stepT c x.s worker).R ∧ (Ring.stepT c x.s worker).P = (Ring.stepT c x.s worker).R + 1
        rw [e]
        exact ⟨hpcw.2.1, hpcw.1⟩
      · simpa [TSt.at, upd, Sub.q] using hq
      · intro j n hj; simp [TSt.at, upd] at hj
      · simpa [TSt.at, upd, Sub.d] using hd
      · intro n hj; simp [TSt.at, upd] at hj
      · intro n hj; simp [TSt.at, upd] at hj
  · have hnc : isCons (x.s.pc t) = false := by
      by_cases hc : isCons (x.s.pc t) = true
      · exact absurd (h.inv.consTid hA t hc) htw
      · simpa using hc
    have hf := frame_stepT h.inv hnc
    have hcn : (next (x.s.pc t)).cons = false := by
      cases hpc : x.s.pc t <;> rw [hpc] at hnc <;> simp [isCons] at hnc <;> rfl
    have hw : ({ x with s := Ring.stepT c x.s t }.at t (next (x.s.pc t))).sub worker = x.sub worker := by
      rw [at_sub, if_neg (Ne.symm htw)]
    have hpw : ({ x with s := Ring.stepT c x.s t }.at t (next (x.s.pc t))).s.pc worker = x.s.pc worker :=
      hf.pc worker (Ne.symm htw)
    refine ⟨hi, hord, ?_, ?_, ?_, ?_, ?_, h.qR, h.d0, ?_, ?_, ?_⟩
    · intro u hu
      rw [at_sub] at hu
      split at hu
      · rw [hcn] at hu; cases hu
      · exact h.who u hu
    · rw [hw, hpw]; exact h.pcw
    · rw [hw]
      intro k hk
      show k = (Ring.stepT c x.s t).R ∧ (Ring.stepT c x.s t).P = (Ring.stepT c x.s t).R + 1
      rw [hf.R, hf.P]; exact h.pos k hk
    · rw [hw]; exact h.q
    · rw [hw]; exact h.qS
    · rw [hw]; exact h.d
    · rw [hw]; exact h.dS
    · rw [hw]; exact h.np

theorem MInv.stepT {c : Cfg α} {f : Reads α} {x : TSt α} (hA : c.async = true) (h : MInv c x) {t : Nat}
    {now : Int} (ht : timelyAt c x t) : MInv c (Tally.stepT c f x t now) := by
  unfold Tally.stepT
  split
  · rename_i hs; exact h.ring hA hs (ht hs)
  · rename_i k hs
    by_cases htw : t = worker
    · subst htw
      have hq := h.q
      have hd := h.d
      rw [hs] at hq hd
      refine ⟨h.inv, h.ord, ?_, ?_, ?_, ?_, ?_, h.qR, h.d0, ?_, ?_, ?_⟩
      · intro u hu
        rw [at_sub] at hu
        split at hu
        · assumption
        · exact h.who u hu
      · intro hu; simp [TSt.at, upd, Sub.cons] at hu
      · intro j hj; simp [TSt.at, upd, Sub.slot] at hj
      · simpa [TSt.at, upd, Sub.q] using hq
      · intro j n hj; simp [TSt.at, upd] at hj
      · simpa [TSt.at, upd, Sub.d] using hd
      · intro n hj; simp [TSt.at, upd] at hj
      · intro n hj; simp [TSt.at, upd] at hj
    · have htw' : worker ≠ t := Ne.symm htw
      refine ⟨h.inv, h.ord, ?_, ?_, ?_, ?_, ?_, h.qR, h.d0, ?_, ?_, ?_⟩
      · intro u hu
        rw [at_sub] at hu
        split at hu
        · cases hu
        · exact h.who u hu
      · simpa [TSt.at, upd, htw'] using h.pcw
      · simpa [TSt.at, upd, htw'] using h.pos
      · simpa [TSt.at, upd, htw'] using h.q
      · simpa [TSt.at, upd, htw'] using h.qS
      · simpa [TSt.at, upd, htw'] using h.d
      · simpa [TSt.at, upd, htw'] using h.dS
      · simpa [TSt.at, upd, htw'] using h.np
  all_goals rename_i hs
  all_goals
    have htw : t = worker := h.who t (by rw [hs]; rfl)
    subst htw
    have hq := h.q
    have hd := h.d
    have hpos := h.pos
    have hpcw := h.pcw (by rw [hs]; rfl)
    have hwho : ∀ (y : TSt α) (q : Sub), y.sub = x.sub → ∀ u, ((y.at worker q).sub u).cons = true → u = worker := by
      intro y q hy u hu
      rw [at_sub] at hu
      split at hu
      · assumption
      · rw [hy] at hu; exact h.who u hu
    rw [hs] at hq hd hpos
  case h_3 k =>
    obtain ⟨e1, e2, e3⟩ := h.size hs
    simp only [Sub.q, Sub.d] at hq hd
    refine ⟨h.inv, h.ord, hwho _ _ rfl, fun _ => hpcw, ?_, ?_, ?_, ?_, h.d0, ?_, ?_, ?_⟩
    · intro j hj; exact hpos j (by simpa [TSt.at, upd, Sub.slot] using hj)
    · simp only [TSt.at, upd, if_true, Sub.q, maxN_snoc, e1]; omega
    · intro j n hj; simp [TSt.at, upd] at hj
    · intro n hn
      simp only [TSt.at, List.mem_append, List.mem_cons, List.not_mem_nil, or_false] at hn
      rcases hn with hn | rfl
      · exact h.qR n hn
      · rw [e1]; exact ⟨e2, e3⟩
    · simpa [TSt.at, upd, Sub.d] using hd
    · intro n hj; simp [TSt.at, upd] at hj
    · intro n hj; simp [TSt.at, upd] at hj
  case h_4 k n =>
    simp only [Sub.q, Sub.d] at hq hd
    split <;> rename_i hlt
    · refine ⟨h.inv, h.ord, hwho _ _ rfl, fun _ => hpcw, ?_, ?_, ?_, h.qR, h.d0, ?_, ?_, ?_⟩
      · intro j hj; exact hpos j (by simpa [TSt.at, upd, Sub.slot] using hj)
      · simpa [TSt.at, upd, Sub.q] using hq
      · intro j n hj
        simp only [TSt.at, upd, if_true, Sub.qStore.injEq] at hj
        rw [← hj.2]; exact hlt
      · simpa [TSt.at, upd, Sub.d] using hd
      · intro n hj; simp [TSt.at, upd] at hj
      · intro n hj; simp [TSt.at, upd] at hj
    · refine ⟨h.inv, h.ord, hwho _ _ rfl, fun _ => hpcw, ?_, ?_, ?_, h.qR, h.d0, ?_, ?_, ?_⟩
      · intro j hj; exact hpos j (by simpa [TSt.at, upd, Sub.slot] using hj)
      · simp only [TSt.at, upd, if_true, Sub.q]; omega
      · intro j n hj; simp [TSt.at, upd] at hj
      · simpa [TSt.at, upd, Sub.d] using hd
      · intro n hj; simp [TSt.at, upd] at hj
      · intro n hj; simp [TSt.at, upd] at hj
  case h_5 k n =>
    have hlt := h.qS k n hs
    simp only [Sub.q, Sub.d] at hq hd
    refine ⟨h.inv, h.ord, hwho _ _ rfl, fun _ => hpcw, ?_, ?_, ?_, h.qR, h.d0, ?_, ?_, ?_⟩
    · intro j hj; exact hpos j (by simpa [TSt.at, upd, Sub.slot] using hj)
    · simp only [TSt.at, upd, if_true, Sub.q]; omega
    · intro j n hj; simp [TSt.at, upd] at hj
    · simpa [TSt.at, upd, Sub.d] using hd
    · intro n hj; simp [TSt.at, upd] at hj
    · intro n hj; simp [TSt.at, upd] at hj
  case h_6 k =>
    simp only [Sub.q, Sub.d] at hq hd
    have h0 := h.d0
    simp only
    split <;> rename_i hlt
    · refine ⟨h.inv, h.ord, hwho _ _ rfl, fun _ => hpcw, ?_, ?_, ?_, h.qR, h.d0, ?_, ?_, ?_⟩
      · intro j hj; simp [TSt.at, upd, Sub.slot] at hj
      · simpa [TSt.at, upd, Sub.q] using hq
      · intro j n hj; simp [TSt.at, upd] at hj
      · simp only [TSt.at, upd, if_true, Sub.d, maxI_snoc]; omega
      · intro n hj; simp [TSt.at, upd] at hj
      · intro n hj; simp [TSt.at, upd] at hj
    · refine ⟨h.inv, h.ord, hwho _ _ rfl, fun _ => hpcw, ?_, ?_, ?_, h.qR, h.d0, ?_, ?_, ?_⟩
      · intro j hj; simp [TSt.at, upd, Sub.slot] at hj
      · simpa [TSt.at, upd, Sub.q] using hq
      · intro j n hj; simp [TSt.at, upd] at hj
      · simpa [TSt.at, upd, Sub.d] using hd
      · intro n hj; simp [TSt.at, upd] at hj
      · intro n hj; simp [TSt.at, upd] at hj
  case h_7 d =>
    simp only [Sub.q, Sub.d] at hq hd
    have h0 := h.d0
    split <;> rename_i hlt
    · refine ⟨h.inv, h.ord, hwho _ _ rfl, fun _ => hpcw, ?_, ?_, ?_, h.qR, h.d0, ?_, ?_, ?_⟩
      · intro j hj; simp [TSt.at, upd, Sub.slot] at hj
      · simpa [TSt.at, upd, Sub.q] using hq
      · intro j n hj; simp [TSt.at, upd] at hj
      · simpa [TSt.at, upd, Sub.d] using hd
      · intro n hj
        simp only [TSt.at, upd, if_true, Sub.dStore.injEq] at hj
        rw [← hj]; exact hlt
      · intro n hj; simp [TSt.at, upd] at hj
    · refine ⟨h.inv, h.ord, hwho _ _ rfl, fun _ => hpcw, ?_, ?_, ?_, h.qR, h.d0, ?_, ?_, ?_⟩
      · intro j hj; simp [TSt.at, upd, Sub.slot] at hj
      · simpa [TSt.at, upd, Sub.q] using hq
      · intro j n hj; simp [TSt.at, upd] at hj
      · simp only [TSt.at, upd, if_true, Sub.d]; omega
      · intro n hj; simp [TSt.at, upd] at hj
      · intro n hj; simp [TSt.at, upd] at hj
  case h_8 d =>
    have hlt := h.dS d hs
    have h0 := h.d0
    simp only [Sub.q, Sub.d] at hq hd
    refine ⟨h.inv, h.ord, hwho _ _ rfl, fun _ => hpcw, ?_, ?_, ?_, h.qR, ?_, ?_, ?_, ?_⟩
    · intro j hj; simp [TSt.at, upd, Sub.slot] at hj
    · simpa [TSt.at, upd, Sub.q] using hq
    · intro j n hj; simp [TSt.at, upd] at hj
    · show 0 ≤ d; omega
    · simp only [TSt.at, upd, if_true, Sub.d]; omega
    · intro n hj; simp [TSt.at, upd] at hj
    · intro n hj; simp [TSt.at, upd] at hj

theorem MInv.step {c : Cfg α} {f : Reads α} {x : TSt α} (hA : c.async = true) (h : MInv c x) (e : TEv α)
    (ht : ∀ t, e.ev = .run t → timelyAt c x t) : MInv c (Tally.step c f x e) := by
  unfold Tally.step
  split
  · rename_i t he; exact h.stepT hA (ht t he)
  · rename_i hne
    have hi : Inv c (Ring.step c x.s e.ev) := h.inv.step (by
      cases he : e.ev with
      | run t => exact absurd he (hne t)
      | _ => trivial)
    have hpc : ∀ p, isCons p = true → x.s.pc worker = p → (Ring.step c x.s e.ev).pc worker = p := by
      intro p hp hw
      cases he : e.ev with
      | run t => exact absurd he (hne t)
      | call u b =>
        simp only [Ring.step]
        split
        · rename_i hu
          split
          · by_cases hwu : worker = u
            · rw [← hwu, hw] at hu; subst hu; simp [isCons] at hp
            · simp [hwu, hw]
          · exact hw
        · exact hw
      | started => simp only [Ring.step]; split <;> exact hw
      | closing => exact hw
      | stop => simp only [Ring.step]; (repeat' split) <;> exact hw
    have hPR : (Ring.step c x.s e.ev).P = x.s.P ∧ (Ring.step c x.s e.ev).R = x.s.R := by
      cases he : e.ev with
      | run t => exact absurd he (hne t)
      | call u b => simp only [Ring.step]; (repeat' split) <;> exact ⟨rfl, rfl⟩
      | started => simp only [Ring.step]; split <;> exact ⟨rfl, rfl⟩
      | closing => exact ⟨rfl, rfl⟩
      | stop => simp only [Ring.step]; (repeat' split) <;> exact ⟨rfl, rfl⟩
    refine ⟨hi, h.ord.step hA h.inv e.ev, h.who, fun hc => hpc _ rfl (h.pcw hc), ?_, h.q, h.qS, h.qR, h.d0, h.d, h.dS, h.np⟩
    intro k hk
    show k = (Ring.step c x.s e.ev).R ∧ (Ring.step c x.s e.ev).P = (Ring.step c x.s e.ev).R + 1
    rw [hPR.1, hPR.2]; exact h.pos k hk

theorem MInv.run {c : Cfg α} {f : Reads α} (hA : c.async = true) : ∀ {es : List (TEv α)} {x : TSt α},
    MInv c x → Timely c f x es → MInv c (Tally.run c f x es) := by
  intro es
  induction es with
  | nil => intro x h _; exact h
  | cons e es ih => intro x h ht; exact ih (h.step hA e ht.1) ht.2

theorem MInv.init (c : Cfg α) (hL : 0 < c.L) (hA : c.async = true) : MInv c (Tally.init c) := by
  refine ⟨Inv.init c hL, Ord.init c hA, ?_, ?_, ?_, rfl, ?_, ?_, Int.le_refl _, rfl, ?_, ?_⟩
  · intro t h; cases h
  · intro h; cases h
  · intro k h; cases h
  · intro k n h; cases h
  · intro n h; cases h
  · intro d h; cases h
  · intro k h; cases h

theorem maxQ_mono {c : Cfg α} {f : Reads α} {x : TSt α} (h : MInv c x) (e : TEv α) :
    x.maxQ ≤ (Tally.step c f x e).maxQ := by
  unfold Tally.step
  split
  · rename_i t _
    unfold Tally.stepT
    split
    all_goals first
      | (rename_i k n hs
         have htw : t = worker := h.who t (by rw [hs]; rfl)
         subst htw
         exact Nat.le_of_lt (h.qS k n hs))
      | ((try dsimp only); (try split) <;> exact Nat.le_refl _)
  · exact Nat.le_refl _

theorem maxD_mono {c : Cfg α} {f : Reads α} {x : TSt α} (h : MInv c x) (e : TEv α) :
    x.maxD ≤ (Tally.step c f x e).maxD := by
  unfold Tally.step
  split
  · rename_i t _
    unfold Tally.stepT
    split
    all_goals first
      | (rename_i d hs
         have htw : t = worker := h.who t (by rw [hs]; rfl)
         subst htw
         exact Int.le_of_lt (h.dS d hs))
      | ((try dsimp only); (try split) <;> exact Int.le_refl _)
  · exact Int.le_refl _

end FNLog.Tally
