import Verif.Spec.Live
import Verif.Props.Ring

/-! # Progress under fair schedules -/

namespace FNLog
open Ring Spec

variable {α : Type}

theorem stateAt_succ (c : Cfg α) (σ : Nat → Ev α) (n : Nat) :
    stateAt c σ (n + 1) = step c (stateAt c σ n) (σ n) := by
  unfold stateAt upTo
  rw [List.range_succ, List.map_append, run_append]
  rfl

/-- An execution without end and without stop. -/
structure Endless (c : Cfg α) (σ : Nat → Ev α) : Prop where
  big : 2 ≤ c.L
  timely : ∀ n, Timely c (init c) (upTo σ n)
  noStop : ∀ n, (σ n).noStop
  fair : Fair c σ

namespace Endless

variable {c : Cfg α} {σ : Nat → Ev α}

theorem inv (h : Endless c σ) (n : Nat) : Inv c (stateAt c σ n) :=
  inv_after (by have := h.big; omega) (h.timely n)

theorem ns (h : Endless c σ) (n : Nat) : NS c (stateAt c σ n) :=
  (ns_after (by have := h.big; omega) (h.timely n) (fun e he => by
    obtain ⟨i, _, rfl⟩ := List.mem_map.mp he; exact h.noStop i)).1

theorem resp (h : Endless c σ) (n : Nat) : Resp c (stateAt c σ n) :=
  (ns_after (by have := h.big; omega) (h.timely n) (fun e he => by
    obtain ⟨i, _, rfl⟩ := List.mem_map.mp he; exact h.noStop i)).2

theorem ord (h : Endless c σ) (hA : c.async = true) (n : Nat) : Ord c (stateAt c σ n) :=
  ord_after (by have := h.big; omega) hA (h.timely n)

theorem timelyEv (h : Endless c σ) (n : Nat) : timelyEv c (stateAt c σ n) (σ n) := by
  have := h.timely (n + 1)
  unfold upTo at this
  rw [List.range_succ, List.map_append, timely_append] at this
  exact this.2.1

theorem timelyAt (h : Endless c σ) {n t : Nat} (hr : σ n = .run t) : timelyAt c (stateAt c σ n) t := by
  have := h.timelyEv n
  rw [hr] at this
  exact this

end Endless

theorem step_pc_other {c : Cfg α} {s : St α} {e : Ev α} {t : Nat} (h : e ≠ .run t) (hp : s.pc t ≠ .idle) :
    (step c s e).pc t = s.pc t := by
  cases e with
  | run u =>
    have hu : t ≠ u := fun x => h (by rw [x])
    simp only [Ring.step]
    unfold Ring.stepT
    split <;> (repeat' split) <;> simp [hu]
  | call u b =>
    simp only [Ring.step]
    split
    · rename_i hi
      have hu : t ≠ u := fun x => hp (x ▸ hi)
      split
      · simp [hu]
      · rfl
    · rfl
  | started => simp only [Ring.step]; split <;> rfl
  | closing => rfl
  | stop => simp only [Ring.step]; (repeat' split) <;> rfl

/-- A thread that goes on at some time, and a rank that its steps decrease and no other step increases. -/
theorem fair_rank {σ : Nat → Ev α} {t : Nat} {I G : Nat → Prop} {r : Nat → Nat}
    (hfair : ∀ n, I n → ∃ m, n ≤ m ∧ σ m = .run t)
    (hother : ∀ n, I n → σ n ≠ .run t → G (n + 1) ∨ (I (n + 1) ∧ r (n + 1) ≤ r n))
    (hrun : ∀ n, I n → σ n = .run t → G (n + 1) ∨ (I (n + 1) ∧ r (n + 1) < r n)) :
    ∀ n, I n → ∃ m, n ≤ m ∧ G m := by
  have key : ∀ (k n : Nat), r n ≤ k → I n → ∃ m, n ≤ m ∧ G m := by
    intro k
    induction k with
    | zero =>
      intro n hk hn
      obtain ⟨m, hm, hs⟩ := hfair n hn
      obtain ⟨d, rfl⟩ := Nat.le.dest hm
      clear hm
      induction d generalizing n with
      | zero =>
        rcases hrun n hn hs with h | ⟨_, h⟩
        · exact ⟨n + 1, by omega, h⟩
        · omega
      | succ d ih =>
        by_cases he : σ n = .run t
        · rcases hrun n hn he with h | ⟨_, h⟩
          · exact ⟨n + 1, by omega, h⟩
          · omega
        · rcases hother n hn he with h | ⟨h1, h2⟩
          · exact ⟨n + 1, by omega, h⟩
          · obtain ⟨m, hm, hg⟩ := ih (n + 1) (by omega) h1 (by rwa [show n + 1 + d = n + (d + 1) by omega])
            exact ⟨m, by omega, hg⟩
    | succ k ihk =>
      intro n hk hn
      obtain ⟨m, hm, hs⟩ := hfair n hn
      obtain ⟨d, rfl⟩ := Nat.le.dest hm
      clear hm
      induction d generalizing n with
      | zero =>
        rcases hrun n hn hs with h | ⟨h1, h⟩
        · exact ⟨n + 1, by omega, h⟩
        · obtain ⟨m, hm, hg⟩ := ihk (n + 1) (by omega) h1
          exact ⟨m, by omega, hg⟩
      | succ d ih =>
        by_cases he : σ n = .run t
        · rcases hrun n hn he with h | ⟨h1, h⟩
          · exact ⟨n + 1, by omega, h⟩
          · obtain ⟨m, hm, hg⟩ := ihk (n + 1) (by omega) h1
            exact ⟨m, by omega, hg⟩
        · rcases hother n hn he with h | ⟨h1, h2⟩
          · exact ⟨n + 1, by omega, h⟩
          · obtain ⟨m, hm, hg⟩ := ih (n + 1) (by omega) h1 (by rwa [show n + 1 + d = n + (d + 1) by omega])
            exact ⟨m, by omega, hg⟩
  exact fun n hn => key (r n) n (Nat.le_refl _) hn

/-! ## Monotone indices -/

theorem stepT_mono (c : Cfg α) (s : St α) (t : Nat) :
    s.H ≤ (stepT c s t).H ∧ s.W ≤ (stepT c s t).W ∧ s.P ≤ (stepT c s t).P ∧ s.R ≤ (stepT c s t).R := by
  unfold stepT; split <;> (repeat' split) <;> simp

theorem step_mono (c : Cfg α) (s : St α) (e : Ev α) :
    s.H ≤ (step c s e).H ∧ s.W ≤ (step c s e).W ∧ s.P ≤ (step c s e).P ∧ s.R ≤ (step c s e).R := by
  cases e with
  | run t => exact stepT_mono c s t
  | call t b => simp only [Ring.step]; (repeat' split) <;> simp
  | started => simp only [Ring.step]; (repeat' split) <;> simp
  | closing => simp [Ring.step]
  | stop => simp only [Ring.step]; (repeat' split) <;> simp

theorem stateAt_mono (c : Cfg α) (σ : Nat → Ev α) {n m : Nat} (h : n ≤ m) :
    (stateAt c σ n).H ≤ (stateAt c σ m).H ∧ (stateAt c σ n).W ≤ (stateAt c σ m).W ∧
      (stateAt c σ n).P ≤ (stateAt c σ m).P ∧ (stateAt c σ n).R ≤ (stateAt c σ m).R := by
  obtain ⟨d, rfl⟩ := Nat.le.dest h
  clear h
  induction d with
  | zero => simp
  | succ d ih =>
    rw [← Nat.add_assoc, stateAt_succ]
    have := step_mono c (stateAt c σ (n + d)) (σ (n + d))
    omega

/-! ## Publishing -/

/-- Steps until a held slot is marked. -/
def ownRank : PC α → Nat
  | .hInc _ b => b.length + 7
  | .hMark _ b => b.length + 6
  | .fInit _ b => b.length + 5
  | .fill _ b => b.length + 4
  | .pChk _ => 3
  | .pSeal _ => 2
  | .pMark _ => 1
  | _ => 0

theorem own_step {c : Cfg α} {s : St α} (hn : NS c s) {t k : Nat} (h : pown (s.pc t) = some k) :
    (stepT c s t).mark (k % c.L) = .ready ∨
      (pown ((stepT c s t).pc t) = some k ∧ ownRank ((stepT c s t).pc t) < ownRank (s.pc t)) := by
  have hact := hn.act t
  unfold Ring.stepT
  split <;> rename_i hpc <;> rw [hpc] at h hact <;> simp only [pown, reduceCtorEq, Option.some.injEq] at h <;>
    (try subst h) <;> simp only [isCons, ne_eq, reduceCtorEq, not_false_eq_true, true_implies] at hact <;>
    (try rw [if_pos hact]) <;> simp [pown, ownRank, hpc, upd]

/-- The mark of the next position to be published stays. -/
theorem ready_stepT {c : Cfg α} {s : St α} (hi : Inv c s) (t : Nat) (hlt : s.W < s.H)
    (hm : s.mark (s.W % c.L) = .ready) : (stepT c s t).mark (s.W % c.L) = .ready := by
  have hti := hi.ti t
  have h1 := hi.leRP
  have h2 := hi.lePW
  have h4 := hi.cap
  unfold Ring.stepT
  split <;> rename_i hpc <;> rw [hpc] at hti <;> simp only [TI, Own] at hti <;> (repeat' split) <;>
    (try exact hm)
  · -- hMark
    rename_i k _
    simp only [go_mark]
    unfold upd
    split
    · rename_i he
      rw [he] at hm
      rw [hm] at hti
      exact absurd hti.1.2.2 (by nofun)
    · exact hm
  · simp only [go_mark]
    unfold upd
    split
    · rfl
    · exact hm
  · rename_i k
    simp only [go_mark]
    unfold upd
    split
    · rename_i he
      have := mod_inj he.symm (by omega) (by omega)
      omega
    · exact hm

theorem ready_step {c : Cfg α} {s : St α} (hi : Inv c s) (e : Ev α) (hlt : s.W < s.H)
    (hm : s.mark (s.W % c.L) = .ready) : (step c s e).mark (s.W % c.L) = .ready := by
  cases e with
  | run t => exact ready_stepT hi t hlt hm
  | call t b => simp only [Ring.step]; (repeat' split) <;> exact hm
  | started => simp only [Ring.step]; (repeat' split) <;> exact hm
  | closing => exact hm
  | stop => simp only [Ring.step]; (repeat' split) <;> exact hm

/-- Steps of a responsible thread until `write_idx_` moves. -/
def pubRank : PC α → Nat
  | .wInc => 6
  | .wCond => 5
  | .wLoad => 4
  | .wHold _ => 3
  | .wMark _ => 2
  | .wCas _ => 1
  | _ => 0

theorem pub_step {c : Cfg α} {s : St α} (hi : Inv c s) (hn : NS c s) {t : Nat} (hlt : s.W < s.H)
    (hm : s.mark (s.W % c.L) = .ready) (hr : respW s (s.pc t)) :
    s.W < (stepT c s t).W ∨ ((stepT c s t).W = s.W ∧ respW (stepT c s t) ((stepT c s t).pc t) ∧
      pubRank ((stepT c s t).pc t) < pubRank (s.pc t)) := by
  have hact := hn.act t
  have h1 := hi.leRP
  have h2 := hi.lePW
  have h4 := hi.cap
  have hne : s.W % c.L ≠ s.H % c.L := fun he => by
    have := mod_inj he (by omega) (by omega); omega
  unfold Ring.stepT
  cases hpc : s.pc t <;> rw [hpc] at hr hact <;> simp only [respW] at hr <;>
    simp only [isCons, ne_eq, reduceCtorEq, not_false_eq_true, true_implies] at hact <;> (try subst hr)
  case wHold => simp [hne, respW, pubRank]
  case wMark => simp [hm, respW, pubRank]
  case wCas => simp
  case wCond => simp [hact, respW, pubRank]
  all_goals simp [respW, pubRank]

theorem Endless.state {c : Cfg α} {σ : Nat → Ev α} (h : Endless c σ) {t n : Nat}
    (h1 : (stateAt c σ n).pc t ≠ .idle) : ∃ m, n ≤ m ∧ σ m = .run t := h.fair t n h1

/-- An unpublished position is published at some time. -/
theorem Endless.publish {c : Cfg α} {σ : Nat → Ev α} (h : Endless c σ) {n : Nat}
    (hlt : (stateAt c σ n).W < (stateAt c σ n).H) : ∃ m, n ≤ m ∧ (stateAt c σ n).W < (stateAt c σ m).W := by
  apply Classical.byContradiction
  intro hno
  have hW : ∀ m, n ≤ m → (stateAt c σ m).W = (stateAt c σ n).W := by
    intro m hm
    have h1 := (stateAt_mono c σ hm).2.1
    apply Classical.byContradiction
    intro h2
    exact hno ⟨m, hm, by omega⟩
  have hH : ∀ m, n ≤ m → (stateAt c σ n).W < (stateAt c σ m).H := by
    intro m hm
    have h1 := (stateAt_mono c σ hm).1
    omega
  -- the owner marks the slot
  have hready : ∃ m, n ≤ m ∧ (stateAt c σ m).mark ((stateAt c σ n).W % c.L) = .ready := by
    rcases (h.inv n).mWH _ (Nat.le_refl _) hlt with h1 | ⟨t, ht⟩ | ⟨_, h1⟩
    · exact ⟨n, Nat.le_refl _, h1⟩
    · refine fair_rank (σ := σ) (t := t) (I := fun j => n ≤ j ∧ pown ((stateAt c σ j).pc t) = some (stateAt c σ n).W)
        (G := fun j => (stateAt c σ j).mark ((stateAt c σ n).W % c.L) = .ready)
        (r := fun j => ownRank ((stateAt c σ j).pc t)) ?_ ?_ ?_ n ⟨Nat.le_refl _, ht⟩
      · intro j hj
        exact h.fair t j (fun he => by rw [he] at hj; exact absurd hj.2 (by nofun))
      · intro j hj he
        right
        have hp : (stateAt c σ j).pc t ≠ .idle := fun he => by rw [he] at hj; exact absurd hj.2 (by nofun)
        rw [stateAt_succ, step_pc_other he hp]
        exact ⟨⟨by omega, hj.2⟩, Nat.le_refl _⟩
      · intro j hj he
        rw [stateAt_succ, he]
        rcases own_step (h.ns j) hj.2 with h2 | ⟨h2, h3⟩
        · exact Or.inl h2
        · exact Or.inr ⟨⟨by omega, h2⟩, h3⟩
    · rw [(h.ns n).lost] at h1; cases h1
  obtain ⟨m, hm, hmk⟩ := hready
  have hW' := hW m hm
  obtain ⟨t, ht⟩ := (h.resp m).w (by have := hH m hm; omega) (by rw [hW']; exact hmk)
  -- a responsible thread publishes it
  obtain ⟨q, hq, hg⟩ := fair_rank (σ := σ) (t := t)
    (I := fun j => n ≤ j ∧ (stateAt c σ j).mark ((stateAt c σ n).W % c.L) = .ready ∧
      respW (stateAt c σ j) ((stateAt c σ j).pc t))
    (G := fun _ => False) (r := fun j => pubRank ((stateAt c σ j).pc t))
    (by
      intro j hj
      exact h.fair t j (fun he => by rw [he] at hj; exact absurd hj.2.2 (by simp [respW])))
    (by
      intro j hj he
      right
      have hp : (stateAt c σ j).pc t ≠ .idle := fun he => by rw [he] at hj; exact absurd hj.2.2 (by simp [respW])
      have hw := hW j hj.1
      have hw' := hW (j + 1) (by omega)
      have hr := ready_step (h.inv j) (σ j) (by rw [hw]; exact hH j hj.1) (by rw [hw]; exact hj.2.1)
      rw [← stateAt_succ, hw] at hr
      have hpc : (stateAt c σ (j + 1)).pc t = (stateAt c σ j).pc t := by rw [stateAt_succ, step_pc_other he hp]
      rw [hpc]
      refine ⟨⟨by omega, hr, ?_⟩, Nat.le_refl _⟩
      have hresp := hj.2.2
      revert hresp
      cases (stateAt c σ j).pc t <;> simp only [respW, imp_self] <;> rw [hw, hw'] <;> exact id)
    (by
      intro j hj he
      right
      have hw := hW j hj.1
      have hw' := hW (j + 1) (by omega)
      have hr := ready_step (h.inv j) (σ j) (by rw [hw]; exact hH j hj.1) (by rw [hw]; exact hj.2.1)
      rw [← stateAt_succ, hw] at hr
      rcases pub_step (h.inv j) (h.ns j) (t := t) (by rw [hw]; exact hH j hj.1) (by rw [hw]; exact hj.2.1) hj.2.2 with
        h2 | ⟨_, h3, h4⟩
      · have : (stateAt c σ (j + 1)).W = (stepT c (stateAt c σ j) t).W := by rw [stateAt_succ, he]; rfl
        omega
      · rw [stateAt_succ, he] at hr ⊢
        exact ⟨⟨by omega, hr, h3⟩, h4⟩)
    m ⟨hm, hmk, ht⟩
  exact hg

/-- Every acquired position is published at some time. -/
theorem Endless.published {c : Cfg α} {σ : Nat → Ev α} (h : Endless c σ) {n k : Nat}
    (hk : k < (stateAt c σ n).H) : ∃ m, n ≤ m ∧ k < (stateAt c σ m).W := by
  have key : ∀ d m, n ≤ m → k + 1 ≤ (stateAt c σ m).W + d → ∃ q, n ≤ q ∧ k < (stateAt c σ q).W := by
    intro d
    induction d with
    | zero => intro m hm hd; exact ⟨m, hm, by omega⟩
    | succ d ih =>
      intro m hm hd
      by_cases hw : k < (stateAt c σ m).W
      · exact ⟨m, hm, hw⟩
      · have hH := (stateAt_mono c σ hm).1
        obtain ⟨q, hq, hlt⟩ := h.publish (n := m) (by omega)
        exact ih q (by omega) (by omega)
  exact key (k + 1) n (Nat.le_refl _) (by omega)

/-! ## Processing on an async channel -/

theorem Endless.release_async {c : Cfg α} {σ : Nat → Ev α} (h : Endless c σ) (hA : c.async = true) {n : Nat}
    (hlt : (stateAt c σ n).R < (stateAt c σ n).W) : ∃ m, n ≤ m ∧ (stateAt c σ n).R < (stateAt c σ m).R := by
  refine fair_rank (σ := σ) (t := worker)
    (I := fun j => (stateAt c σ j).R = (stateAt c σ n).R ∧ (stateAt c σ j).R < (stateAt c σ j).W)
    (G := fun j => (stateAt c σ n).R < (stateAt c σ j).R) (r := fun j => relMeasure (stateAt c σ j)) ?_ ?_ ?_ n ⟨rfl, hlt⟩
  · intro j _
    exact h.fair worker j (fun he => by have := (h.ord hA j).pcw; rw [he] at this; exact this)
  · intro j hj he
    right
    obtain ⟨h1, h2, h3⟩ := rel_other hA (h.inv j) (h.ord hA j) (σ j) (by rintro t ht rfl; exact he ht)
    rw [stateAt_succ]
    exact ⟨⟨by omega, by omega⟩, by omega⟩
  · intro j hj he
    obtain ⟨h1, h2⟩ := rel_worker hA (h.inv j) (h.ord hA j) (h.ns j) hj.2
    rw [stateAt_succ, he]
    show _ < (stepT c (stateAt c σ j) worker).R ∨ (((stepT c (stateAt c σ j) worker).R = _ ∧
      (stepT c (stateAt c σ j) worker).R < (stepT c (stateAt c σ j) worker).W) ∧
      relMeasure (stepT c (stateAt c σ j) worker) < _)
    rcases h2 with h2 | ⟨h2, h3⟩
    · left; omega
    · right; exact ⟨⟨by omega, by omega⟩, h3⟩

/-! ## Processing on a sync channel -/

/-- A bounded increasing sequence becomes constant. -/
theorem settles {f : Nat → Nat} (hf : ∀ n m, n ≤ m → f n ≤ f m) (B : Nat) {n : Nat} (hB : ∀ m, n ≤ m → f m ≤ B) :
    ∃ N, n ≤ N ∧ ∀ m, N ≤ m → f m = f N := by
  have key : ∀ d N, n ≤ N → B ≤ f N + d → ∃ N', n ≤ N' ∧ ∀ m, N' ≤ m → f m = f N' := by
    intro d
    induction d with
    | zero =>
      intro N hN hd
      refine ⟨N, hN, fun m hm => ?_⟩
      have := hf N m hm
      have := hB m (by omega)
      omega
    | succ d ih =>
      intro N hN hd
      by_cases hc : ∀ m, N ≤ m → f m = f N
      · exact ⟨N, hN, hc⟩
      · have : ∃ m, N ≤ m ∧ f m ≠ f N := by
          apply Classical.byContradiction
          intro hno
          exact hc (fun m hm => Classical.byContradiction fun hne => hno ⟨m, hm, hne⟩)
        obtain ⟨m, hm, hne⟩ := this
        have := hf N m hm
        exact ih m (by omega) (by omega)
  exact key B n (Nat.le_refl _) (by omega)

/-- Steps of a thread until it moves one of the indices; `w`, `r` are the values of `write_idx_` and `read_idx_`. -/
def procRank (w r : Nat) : PC α → Nat
  | .wHold tk => if tk = w then 15 else 20
  | .wMark tk => if tk = w then 14 else 19
  | .wCas tk => if tk = w then 13 else 18
  | .wInc => 18
  | .wCond => 17
  | .wLoad => 16
  | .wExit => 12
  | .cDisp _ => 11
  | .cClear _ => 10
  | .cStat _ => 9
  | .cBytes _ => 8
  | .rProc tk => if tk = r then 6 else 10
  | .rMark tk => if tk = r then 5 else 9
  | .rCas tk => if tk = r then 4 else 8
  | .rLoad => 7
  | .cLoad => 3
  | .cWrite _ => 2
  | .cCas _ => 1
  | _ => 0

theorem proc_step {c : Cfg α} {s : St α} (hA : c.async = false) (hi : Inv c s) (hn : NS c s) {t : Nat}
    (hlt : s.P < s.W) (hr : respP s (s.pc t)) :
    s.W < (stepT c s t).W ∨ s.P < (stepT c s t).P ∨ s.R < (stepT c s t).R ∨
      (respP s ((stepT c s t).pc t) ∧ procRank s.W s.R ((stepT c s t).pc t) < procRank s.W s.R (s.pc t)) := by
  have hst := hn.sync hA
  have h1 := hi.leRP
  have h2 := hi.leWH
  have h4 := hi.cap
  have hne : s.P % c.L ≠ s.W % c.L := fun he => by
    have := mod_inj he (by omega) (by omega); omega
  unfold Ring.stepT
  cases hpc : s.pc t <;> rw [hpc] at hr <;> simp only [respP] at hr <;> (try subst hr) <;>
    simp only [hA, hst] <;> (repeat' split) <;> simp [respP, procRank] <;> (try grind)

theorem respP_congr {s s' : St α} {p : Nat} {q : PC α} (h : respP s q) (e : s.P = p) (e' : s'.P = p) : respP s' q := by
  revert h
  cases q <;> simp only [respP, imp_self] <;> rw [e, e'] <;> exact id

theorem Endless.process_sync {c : Cfg α} {σ : Nat → Ev α} (h : Endless c σ) (hA : c.async = false) {n : Nat}
    (hlt : (stateAt c σ n).P < (stateAt c σ n).W) : ∃ m, n ≤ m ∧ (stateAt c σ n).P < (stateAt c σ m).P := by
  apply Classical.byContradiction
  intro hno
  have hP : ∀ m, n ≤ m → (stateAt c σ m).P = (stateAt c σ n).P := by
    intro m hm
    have h1 := (stateAt_mono c σ hm).2.2.1
    apply Classical.byContradiction
    intro h2
    exact hno ⟨m, hm, by omega⟩
  obtain ⟨N1, hN1, hW⟩ := settles (f := fun j => (stateAt c σ j).W) (fun a b hab => (stateAt_mono c σ hab).2.1)
    ((stateAt c σ n).P + c.L) (n := n) (fun m hm => by
      have := hP m hm
      have h1 := (h.inv m).leRP
      have h2 := (h.inv m).leWH
      have h3 := (h.inv m).cap
      omega)
  obtain ⟨N2, hN2, hR⟩ := settles (f := fun j => (stateAt c σ j).R) (fun a b hab => (stateAt_mono c σ hab).2.2.2)
    (stateAt c σ n).P (n := N1) (fun m hm => by
      have := hP m (by omega)
      have h1 := (h.inv m).leRP
      omega)
  have hWW : ∀ j, N2 ≤ j → (stateAt c σ j).W = (stateAt c σ N2).W := fun j hj => by
    rw [hW j (by omega), hW N2 hN2]
  have hPP : ∀ j, N2 ≤ j → (stateAt c σ j).P = (stateAt c σ N2).P := fun j hj => by
    rw [hP j (by omega), hP N2 (by omega)]
  have hlt' : ∀ j, N2 ≤ j → (stateAt c σ j).P < (stateAt c σ j).W := fun j hj => by
    have := (stateAt_mono c σ (show n ≤ j by omega)).2.1
    have := hP j (by omega)
    omega
  obtain ⟨t, ht⟩ := (h.resp N2).p hA (hlt' N2 (Nat.le_refl _))
  have keep : ∀ i j, N2 ≤ i → N2 ≤ j → ∀ q : PC α, respP (stateAt c σ i) q → respP (stateAt c σ j) q := by
    intro i j hi hj q
    have h1 := hPP i hi
    have h2 := hPP j hj
    cases q <;> simp only [respP, imp_self] <;> rw [h1, h2] <;> exact id
  have hidle : ∀ j, respP (stateAt c σ j) ((stateAt c σ j).pc t) → (stateAt c σ j).pc t ≠ .idle := fun j hj he => by
    rw [he] at hj; exact hj
  obtain ⟨q, _, hg⟩ := fair_rank (σ := σ) (t := t)
    (I := fun j => N2 ≤ j ∧ respP (stateAt c σ j) ((stateAt c σ j).pc t)) (G := fun _ => False)
    (r := fun j => procRank (stateAt c σ N2).W (stateAt c σ N2).R ((stateAt c σ j).pc t))
    (fun j hj => h.fair t j (hidle j hj.2))
    (fun j hj he => by
      right
      have hpc : (stateAt c σ (j + 1)).pc t = (stateAt c σ j).pc t := by
        rw [stateAt_succ, step_pc_other he (hidle j hj.2)]
      simp only [hpc]
      exact ⟨⟨by omega, keep j (j + 1) hj.1 (by omega) _ hj.2⟩, Nat.le_refl _⟩)
    (fun j hj he => by
      right
      have e : stateAt c σ (j + 1) = stepT c (stateAt c σ j) t := by rw [stateAt_succ, he]; rfl
      have hs := proc_step hA (h.inv j) (h.ns j) (hlt' j hj.1) hj.2
      rw [← e] at hs
      have e1 := hWW j hj.1
      have e2 := hWW (j + 1) (by omega)
      have e3 := hPP j hj.1
      have e4 := hPP (j + 1) (by omega)
      have e5 := hR j hj.1
      have e6 := hR (j + 1) (by omega)
      rcases hs with hs | hs | hs | ⟨h1, h2⟩
      · omega
      · omega
      · omega
      · rw [e1, e5] at h2
        exact ⟨⟨by omega, respP_congr h1 e3 e4⟩, h2⟩)
    N2 ⟨Nat.le_refl _, ht⟩
  exact hg

/-- Every published position is processed at some time. -/
theorem Endless.processed_sync {c : Cfg α} {σ : Nat → Ev α} (h : Endless c σ) (hA : c.async = false) {n k : Nat}
    (hk : k < (stateAt c σ n).W) : ∃ m, n ≤ m ∧ k < (stateAt c σ m).P := by
  have key : ∀ d m, n ≤ m → k + 1 ≤ (stateAt c σ m).P + d → ∃ q, n ≤ q ∧ k < (stateAt c σ q).P := by
    intro d
    induction d with
    | zero => intro m hm hd; exact ⟨m, hm, by omega⟩
    | succ d ih =>
      intro m hm hd
      by_cases hw : k < (stateAt c σ m).P
      · exact ⟨m, hm, hw⟩
      · have hH := (stateAt_mono c σ hm).2.1
        obtain ⟨q, hq, hlt⟩ := h.process_sync hA (n := m) (by omega)
        exact ih q (by omega) (by omega)
  exact key (k + 1) n (Nat.le_refl _) (by omega)

/-! ## Release on a sync channel -/

theorem invalid_stepT {c : Cfg α} {s : St α} (hi : Inv c s) (t : Nat) (hlt : s.R < s.P)
    (hm : s.mark (s.R % c.L) = .invalid) : (stepT c s t).mark (s.R % c.L) = .invalid := by
  have hti := hi.ti t
  have h2 := hi.lePW
  have h4 := hi.cap
  unfold Ring.stepT
  split <;> rename_i hpc <;> rw [hpc] at hti <;> simp only [TI, Own] at hti <;> (repeat' split) <;>
    (try exact hm)
  · rename_i k _
    simp only [go_mark]
    rw [upd_ne]
    · exact hm
    · intro he
      have := mod_inj he (by omega) (by omega)
      omega
  · rename_i k
    simp only [go_mark]
    rw [upd_ne]
    · exact hm
    · intro he
      have := mod_inj he (by omega) (by omega)
      omega
  · simp only [go_mark]
    unfold upd
    split
    · rfl
    · exact hm

theorem invalid_step {c : Cfg α} {s : St α} (hi : Inv c s) (e : Ev α) (hlt : s.R < s.P)
    (hm : s.mark (s.R % c.L) = .invalid) : (step c s e).mark (s.R % c.L) = .invalid := by
  cases e with
  | run t => exact invalid_stepT hi t hlt hm
  | call t b => simp only [Ring.step]; (repeat' split) <;> exact hm
  | started => simp only [Ring.step]; (repeat' split) <;> exact hm
  | closing => exact hm
  | stop => simp only [Ring.step]; (repeat' split) <;> exact hm

/-- Steps of a thread until it clears the mark of its record. -/
def clearRank : PC α → Nat
  | .cDisp _ => 2
  | .cClear _ => 1
  | _ => 0

theorem clear_step {c : Cfg α} {s : St α} {t k : Nat} (h : cown (s.pc t) = some k) :
    (stepT c s t).mark (k % c.L) = .invalid ∨
      (cown ((stepT c s t).pc t) = some k ∧ clearRank ((stepT c s t).pc t) < clearRank (s.pc t)) := by
  unfold Ring.stepT
  split <;> rename_i hpc <;> rw [hpc] at h <;> simp only [cown, reduceCtorEq, Option.some.injEq] at h <;>
    (try subst h) <;> simp [cown, clearRank, hpc, upd]

/-- Steps of a responsible thread until `read_idx_` moves. -/
def freeRank : PC α → Nat
  | .cStat _ => 6
  | .cBytes _ => 5
  | .rLoad => 4
  | .rProc _ => 3
  | .rMark _ => 2
  | .rCas _ => 1
  | _ => 0

theorem free_step {c : Cfg α} {s : St α} (hi : Inv c s) {t : Nat} (hlt : s.R < s.P)
    (hm : s.mark (s.R % c.L) = .invalid) (hr : respR s (s.pc t)) :
    s.R < (stepT c s t).R ∨ ((stepT c s t).R = s.R ∧ respR (stepT c s t) ((stepT c s t).pc t) ∧
      freeRank ((stepT c s t).pc t) < freeRank (s.pc t)) := by
  have h2 := hi.lePW
  have h3 := hi.leWH
  have h4 := hi.cap
  have hne : s.R % c.L ≠ s.P % c.L := fun he => by
    have := mod_inj he (by omega) (by omega); omega
  unfold Ring.stepT
  cases hpc : s.pc t <;> rw [hpc] at hr <;> simp only [respR] at hr <;> (try subst hr)
  case rProc => simp [hne, respR, freeRank]
  case rMark => simp [hm, respR, freeRank]
  case rCas => simp
  all_goals simp [respR, freeRank]

theorem Endless.release_sync {c : Cfg α} {σ : Nat → Ev α} (h : Endless c σ) (hA : c.async = false) {n : Nat}
    (hlt : (stateAt c σ n).R < (stateAt c σ n).P) : ∃ m, n ≤ m ∧ (stateAt c σ n).R < (stateAt c σ m).R := by
  apply Classical.byContradiction
  intro hno
  have hR : ∀ m, n ≤ m → (stateAt c σ m).R = (stateAt c σ n).R := by
    intro m hm
    have h1 := (stateAt_mono c σ hm).2.2.2
    apply Classical.byContradiction
    intro h2
    exact hno ⟨m, hm, by omega⟩
  have hP : ∀ m, n ≤ m → (stateAt c σ n).R < (stateAt c σ m).P := by
    intro m hm
    have h1 := (stateAt_mono c σ hm).2.2.1
    omega
  have hclear : ∃ m, n ≤ m ∧ (stateAt c σ m).mark ((stateAt c σ n).R % c.L) = .invalid := by
    rcases (h.inv n).mRP _ (Nat.le_refl _) hlt with h1 | ⟨t, ht⟩
    · exact ⟨n, Nat.le_refl _, h1⟩
    · refine fair_rank (σ := σ) (t := t) (I := fun j => n ≤ j ∧ cown ((stateAt c σ j).pc t) = some (stateAt c σ n).R)
        (G := fun j => (stateAt c σ j).mark ((stateAt c σ n).R % c.L) = .invalid)
        (r := fun j => clearRank ((stateAt c σ j).pc t)) ?_ ?_ ?_ n ⟨Nat.le_refl _, ht⟩
      · intro j hj
        exact h.fair t j (fun he => by rw [he] at hj; exact absurd hj.2 (by nofun))
      · intro j hj he
        right
        have hp : (stateAt c σ j).pc t ≠ .idle := fun he => by rw [he] at hj; exact absurd hj.2 (by nofun)
        rw [stateAt_succ, step_pc_other he hp]
        exact ⟨⟨by omega, hj.2⟩, Nat.le_refl _⟩
      · intro j hj he
        rw [stateAt_succ, he]
        rcases clear_step hj.2 with h2 | ⟨h2, h3⟩
        · exact Or.inl h2
        · exact Or.inr ⟨⟨by omega, h2⟩, h3⟩
  obtain ⟨m, hm, hmk⟩ := hclear
  have hR' := hR m hm
  obtain ⟨t, ht⟩ := (h.resp m).r hA (by have := hP m hm; omega) (by rw [hR']; exact hmk)
  obtain ⟨q, hq, hg⟩ := fair_rank (σ := σ) (t := t)
    (I := fun j => n ≤ j ∧ (stateAt c σ j).mark ((stateAt c σ n).R % c.L) = .invalid ∧
      respR (stateAt c σ j) ((stateAt c σ j).pc t))
    (G := fun _ => False) (r := fun j => freeRank ((stateAt c σ j).pc t))
    (by
      intro j hj
      exact h.fair t j (fun he => by rw [he] at hj; exact absurd hj.2.2 (by simp [respR])))
    (by
      intro j hj he
      right
      have hp : (stateAt c σ j).pc t ≠ .idle := fun he => by rw [he] at hj; exact absurd hj.2.2 (by simp [respR])
      have hw := hR j hj.1
      have hw' := hR (j + 1) (by omega)
      have hr := invalid_step (h.inv j) (σ j) (by rw [hw]; exact hP j hj.1) (by rw [hw]; exact hj.2.1)
      rw [← stateAt_succ, hw] at hr
      have hpc : (stateAt c σ (j + 1)).pc t = (stateAt c σ j).pc t := by rw [stateAt_succ, step_pc_other he hp]
      rw [hpc]
      refine ⟨⟨by omega, hr, ?_⟩, Nat.le_refl _⟩
      have hresp := hj.2.2
      revert hresp
      cases (stateAt c σ j).pc t <;> simp only [respR, imp_self] <;> rw [hw, hw'] <;> exact id)
    (by
      intro j hj he
      right
      have hw := hR j hj.1
      have hw' := hR (j + 1) (by omega)
      have hr := invalid_step (h.inv j) (σ j) (by rw [hw]; exact hP j hj.1) (by rw [hw]; exact hj.2.1)
      rw [← stateAt_succ, hw] at hr
      rcases free_step (h.inv j) (t := t) (by rw [hw]; exact hP j hj.1) (by rw [hw]; exact hj.2.1) hj.2.2 with
        h2 | ⟨_, h3, h4⟩
      · have : (stateAt c σ (j + 1)).R = (stepT c (stateAt c σ j) t).R := by rw [stateAt_succ, he]; rfl
        omega
      · rw [stateAt_succ, he] at hr ⊢
        exact ⟨⟨by omega, hr, h3⟩, h4⟩)
    m ⟨hm, hmk, ht⟩
  exact hg

/-- Every acquired position is released at some time. -/
theorem Endless.released {c : Cfg α} {σ : Nat → Ev α} (h : Endless c σ) {n k : Nat}
    (hk : k < (stateAt c σ n).H) : ∃ m, n ≤ m ∧ k < (stateAt c σ m).R := by
  obtain ⟨n1, hn1, hw⟩ := h.published hk
  cases hA : c.async with
  | true =>
    have key : ∀ d m, n1 ≤ m → k + 1 ≤ (stateAt c σ m).R + d → ∃ q, n1 ≤ q ∧ k < (stateAt c σ q).R := by
      intro d
      induction d with
      | zero => intro m hm hd; exact ⟨m, hm, by omega⟩
      | succ d ih =>
        intro m hm hd
        by_cases hw' : k < (stateAt c σ m).R
        · exact ⟨m, hm, hw'⟩
        · have hH := (stateAt_mono c σ hm).2.1
          obtain ⟨q, hq, hlt⟩ := h.release_async hA (n := m) (by omega)
          exact ih q (by omega) (by omega)
    obtain ⟨q, hq, hlt⟩ := key (k + 1) n1 (Nat.le_refl _) (by omega)
    exact ⟨q, by omega, hlt⟩
  | false =>
    obtain ⟨n2, hn2, hp⟩ := h.processed_sync hA hw
    have key : ∀ d m, n2 ≤ m → k + 1 ≤ (stateAt c σ m).R + d → ∃ q, n2 ≤ q ∧ k < (stateAt c σ q).R := by
      intro d
      induction d with
      | zero => intro m hm hd; exact ⟨m, hm, by omega⟩
      | succ d ih =>
        intro m hm hd
        by_cases hw' : k < (stateAt c σ m).R
        · exact ⟨m, hm, hw'⟩
        · have hH := (stateAt_mono c σ hm).2.2.1
          obtain ⟨q, hq, hlt⟩ := h.release_sync hA (n := m) (by omega)
          exact ih q (by omega) (by omega)
    obtain ⟨q, hq, hlt⟩ := key (k + 1) n2 (Nat.le_refl _) (by omega)
    exact ⟨q, by omega, hlt⟩

/-! ## Acquiring a slot -/

/-- Steps of a thread until its compare-and-swap on `hold_idx_ = h` succeeds. -/
def holdRank (h : Nat) : PC α → Nat
  | .hCas _ tk _ => if tk = h then 1 else 7
  | .hRead _ tk _ => if tk = h then 2 else 8
  | .hLoad _ _ => 3
  | .hChk _ _ => 4
  | .hSleep _ => 5
  | .hOut _ => 6
  | _ => 0

theorem hold_step {c : Cfg α} {s : St α} (hL : 2 ≤ c.L) (hn : NS c s) {t : Nat} (hR : s.R = s.H)
    (hp : (pending (s.pc t)).isSome = true) :
    s.H < (stepT c s t).H ∨ ((pending ((stepT c s t).pc t)).isSome = true ∧
      holdRank s.H ((stepT c s t).pc t) < holdRank s.H (s.pc t)) := by
  have hact := hn.act t
  have hne : (s.H + 1) % c.L ≠ s.H % c.L := fun he => by
    have := mod_inj he.symm (by omega) (by omega)
    omega
  unfold Ring.stepT
  cases hpc : s.pc t <;> rw [hpc] at hp hact <;> simp only [pending, Option.isSome, reduceCtorEq] at hp <;>
    simp only [isCons, ne_eq, reduceCtorEq, not_false_eq_true, true_implies] at hact <;>
    simp only [hact, hR] <;> (repeat' split) <;> simp [pending, holdRank] <;> (try grind)

/-- While a thread waits for a slot, some thread gets one. -/
theorem Endless.acquire {c : Cfg α} {σ : Nat → Ev α} (h : Endless c σ) {n t : Nat}
    (hp : (pending ((stateAt c σ n).pc t)).isSome = true) : ∃ m, n ≤ m ∧ (stateAt c σ n).H < (stateAt c σ m).H := by
  apply Classical.byContradiction
  intro hno
  have hH : ∀ m, n ≤ m → (stateAt c σ m).H = (stateAt c σ n).H := by
    intro m hm
    have h1 := (stateAt_mono c σ hm).1
    apply Classical.byContradiction
    intro h2
    exact hno ⟨m, hm, by omega⟩
  have hidle : ∀ j, (pending ((stateAt c σ j).pc t)).isSome = true → (stateAt c σ j).pc t ≠ .idle := fun j hj he => by
    rw [he] at hj; exact absurd hj (by nofun)
  -- the thread stays there
  have hstay : ∀ j, n ≤ j → (pending ((stateAt c σ j).pc t)).isSome = true := by
    intro j hj
    obtain ⟨d, rfl⟩ := Nat.le.dest hj
    clear hj
    induction d with
    | zero => exact hp
    | succ d ih =>
      rw [← Nat.add_assoc]
      by_cases he : σ (n + d) = .run t
      · have e1 := hH (n + d) (by omega)
        have e2 := hH (n + d + 1) (by omega)
        have hact := (h.ns (n + d)).act t (hidle _ ih)
        rw [stateAt_succ, he] at e2 ⊢
        revert e2 ih hact
        simp only [Ring.step]
        unfold Ring.stepT
        split <;> rename_i hpc <;> rw [hpc] <;> simp only [pending, Option.isSome, reduceCtorEq, isCons, false_implies, true_implies] <;>
          (repeat' split) <;> simp_all [pending]
      · rw [stateAt_succ, step_pc_other he (hidle _ ih)]
        exact ih
  -- everything is released
  have hrel : ∃ N, n ≤ N ∧ (stateAt c σ N).R = (stateAt c σ n).H := by
    by_cases h0 : (stateAt c σ n).H = 0
    · refine ⟨n, Nat.le_refl _, ?_⟩
      have h1 := (h.inv n).leRP
      have h2 := (h.inv n).lePW
      have h3 := (h.inv n).leWH
      omega
    · obtain ⟨N, hN, hlt⟩ := h.released (n := n) (k := (stateAt c σ n).H - 1) (by omega)
      refine ⟨N, hN, ?_⟩
      have := hH N hN
      have h1 := (h.inv N).leRP
      have h2 := (h.inv N).lePW
      have h3 := (h.inv N).leWH
      omega
  obtain ⟨N, hN, hRN⟩ := hrel
  have hR : ∀ j, N ≤ j → (stateAt c σ j).R = (stateAt c σ j).H := by
    intro j hj
    have h0 := (stateAt_mono c σ hj).2.2.2
    have h1 := (h.inv j).leRP
    have h2 := (h.inv j).lePW
    have h3 := (h.inv j).leWH
    have := hH j (by omega)
    omega
  obtain ⟨q, _, hg⟩ := fair_rank (σ := σ) (t := t) (I := fun j => N ≤ j) (G := fun _ => False)
    (r := fun j => holdRank (stateAt c σ n).H ((stateAt c σ j).pc t))
    (fun j hj => h.fair t j (hidle j (hstay j (by omega))))
    (fun j hj he => by
      right
      rw [stateAt_succ, step_pc_other he (hidle j (hstay j (by omega)))]
      exact ⟨by omega, Nat.le_refl _⟩)
    (fun j hj he => by
      right
      have e : stateAt c σ (j + 1) = stepT c (stateAt c σ j) t := by rw [stateAt_succ, he]; rfl
      have hs := hold_step h.big (h.ns j) (hR j hj) (hstay j (by omega))
      rw [← e, hH j (by omega), hH (j + 1) (by omega)] at hs
      rcases hs with hs | ⟨_, hs⟩
      · omega
      · exact ⟨by omega, hs⟩)
    N (Nat.le_refl _)
  exact hg

/-! ## Returning -/

/-- Steps of a thread that has its slot until it returns or moves an index. -/
def doneRank (w r : Nat) : PC α → Nat
  | .hInc _ b => b.length + 37
  | .hMark _ b => b.length + 36
  | .fInit _ b => b.length + 35
  | .fill _ b => b.length + 34
  | .pChk _ => 33
  | .pSeal _ => 32
  | .pMark _ => 31
  | .cEnd => 3
  | .cSet => 2
  | .cLoop => 1
  | .idle => 0
  | p => procRank w r p + 3

theorem done_step {c : Cfg α} {s : St α} (hi : Inv c s) (hn : NS c s) {t : Nat} (ht : c.async = true → t ≠ worker)
    (hp : (pending (s.pc t)).isSome = false) (hidle : s.pc t ≠ .idle) :
    s.W < (stepT c s t).W ∨ s.P < (stepT c s t).P ∨ s.R < (stepT c s t).R ∨
      ((pending ((stepT c s t).pc t)).isSome = false ∧ doneRank s.W s.R ((stepT c s t).pc t) < doneRank s.W s.R (s.pc t)) := by
  have hact := hn.act t hidle
  have hwk := hn.wk t
  have hcons : c.async = true → isCons (s.pc t) = false := fun hA => by
    cases hc : isCons (s.pc t) with
    | false => rfl
    | true => exact absurd (hi.consTid hA t hc) (ht hA)
  have hsync := hn.sync
  have hA2 : c.async = true ∨ c.async = false := by cases c.async <;> simp
  unfold Ring.stepT
  cases hpc : s.pc t <;> rw [hpc] at hp hact hwk hcons hidle <;>
    simp only [pending, Option.isSome, reduceCtorEq, isCons, imp_false, wkOk, true_implies, implies_true] at hp hact hwk hcons <;>
    (try contradiction) <;> (try simp only [hact]) <;> (try simp only [hwk]) <;> (repeat' split) <;>
    simp [pending, doneRank, procRank] <;> (try grind)

/-- Length of a list by threads. -/
theorem length_by_thread {β γ : Type} (b : List (Nat × γ)) : ∀ a : List (Nat × β),
    (∀ t, (a.filter (fun e => e.1 == t)).length ≤ (b.filter (fun e => e.1 == t)).length) → a.length ≤ b.length := by
  induction b with
  | nil =>
    intro a h
    cases a with
    | nil => simp
    | cons e a => have := h e.1; simp at this
  | cons e b ih =>
    intro a h
    by_cases hm : ∃ x ∈ a, x.1 = e.1
    · obtain ⟨x, hx, he⟩ := hm
      obtain ⟨a1, a2, rfl⟩ := List.append_of_mem hx
      have := ih (a1 ++ a2) (fun t => by
        have := h t
        simp only [List.filter_append, List.filter_cons, List.length_append] at this ⊢
        rw [he] at this
        split at this <;> (try simp only [List.length_cons] at this) <;> omega)
      rw [List.length_append] at this ⊢
      rw [List.length_cons]
      rw [List.length_cons]
      omega
    · have := ih a (fun t => by
        by_cases ht : t = e.1
        · subst ht
          have : a.filter (fun x => x.1 == e.1) = [] := by
            rw [List.filter_eq_nil_iff]
            intro x hx hc
            exact hm ⟨x, hx, by simpa using hc⟩
          rw [this]; simp
        · have := h t
          rw [List.filter_cons, if_neg (by simpa using fun hc => ht hc.symm)] at this
          exact this)
      simp only [List.length_cons]
      omega

/-- There are no more slots acquired than statements made. -/
theorem acquired_le_calls (c : Cfg α) (es : List (Ev α)) : (after c es).acquired.length ≤ (after c es).calls.length := by
  apply length_by_thread
  intro t
  have h := ((ProgOrd.run (es := es) (ProgOrd.init c)) t).length_le
  simp only [List.length_append, List.length_map, ofThread] at h
  show (List.filter _ (run c (init c) es).acquired).length ≤ (List.filter _ (run c (init c) es).calls).length
  omega

/-- Who is active. -/
def Known (c : Cfg α) (s : St α) : Prop :=
  ∀ t, s.pc t ≠ .idle → t ∈ s.calls.map Prod.fst ∨ (c.async = true ∧ t = worker)

theorem Known.step {c : Cfg α} {s : St α} (h : Known c s) (e : Ev α) : Known c (step c s e) := by
  intro u hu
  have hcalls : ∀ t, (Ring.stepT c s t).calls = s.calls := by
    intro t
    unfold Ring.stepT
    split <;> (repeat' split) <;> rfl
  cases e with
  | run t =>
    simp only [Ring.step] at hu ⊢
    rw [hcalls]
    by_cases hut : u = t
    · subst hut
      by_cases hi : s.pc u = .idle
      · unfold Ring.stepT at hu
        rw [hi] at hu
        exact absurd hi hu
      · exact h u hi
    · apply h
      intro hi
      apply hu
      unfold Ring.stepT
      split <;> (repeat' split) <;> simp [hut, hi]
  | call t b =>
    simp only [Ring.step] at hu ⊢
    split at hu
    · split at hu
      · rename_i h1 h2
        rw [if_pos h2]
        simp only [go_calls, List.map_append, List.mem_append]
        by_cases hut : u = t
        · left; right; simp [hut]
        · rcases h u (by simpa [hut] using hu) with h3 | h3
          · exact Or.inl (Or.inl h3)
          · exact Or.inr h3
      · rename_i h1 h2
        rw [if_neg h2]
        exact h u hu
    · exact h u hu
  | started => simp only [Ring.step] at hu ⊢; split at hu <;> (rename_i h1; simp only [h1, if_true, if_false]; exact h u hu)
  | closing => exact h u hu
  | stop =>
    simp only [Ring.step] at hu ⊢
    have e1 : ∀ s' : St α, s'.pc = s.pc → s'.calls = s.calls → s'.pc u ≠ .idle →
        u ∈ s'.calls.map Prod.fst ∨ (c.async = true ∧ u = worker) := by
      intro s' h1 h2 h3; rw [h2]; exact h u (by rw [← h1]; exact h3)
    refine e1 _ ?_ ?_ hu <;> (repeat' split) <;> rfl

theorem known_at (c : Cfg α) (σ : Nat → Ev α) (n : Nat) : Known c (stateAt c σ n) := by
  induction n with
  | zero =>
    intro t ht
    right
    simp only [stateAt, upTo, List.range_zero, List.map_nil, Ring.run, List.foldl_nil, Ring.init] at ht
    apply Classical.byContradiction
    intro hc
    exact ht (if_neg hc)
  | succ n ih => rw [stateAt_succ]; exact ih.step _

/-- A thread outside of a log statement that makes no further one. -/
theorem idle_stays {c : Cfg α} {s : St α} {e : Ev α} {t : Nat} (hc : ∀ b, e ≠ .call t b) (hp : s.pc t = .idle) :
    (step c s e).pc t = .idle := by
  cases e with
  | run u =>
    simp only [Ring.step]
    by_cases hu : t = u
    · subst hu
      unfold Ring.stepT
      rw [hp]
      exact hp
    · unfold Ring.stepT
      split <;> (repeat' split) <;> simp [hu, hp]
  | call u b =>
    have hu : t ≠ u := fun x => hc b (by rw [x])
    simp only [Ring.step]
    split
    · split
      · simp [hu, hp]
      · exact hp
    · exact hp
  | started => simp only [Ring.step]; split <;> exact hp
  | closing => exact hp
  | stop => simp only [Ring.step]; (repeat' split) <;> exact hp

theorem calls_const {c : Cfg α} {s : St α} {e : Ev α} (hc : ∀ t b, e ≠ .call t b) : (step c s e).calls = s.calls := by
  cases e with
  | run t => simp only [Ring.step]; unfold Ring.stepT; split <;> (repeat' split) <;> rfl
  | call t b => exact absurd rfl (hc t b)
  | started => simp only [Ring.step]; split <;> rfl
  | closing => rfl
  | stop => simp only [Ring.step]; (repeat' split) <;> rfl

/-- With finitely many statements, from some time on no thread but the one of the channel is active and everything is
released. -/
theorem Endless.quiet {c : Cfg α} {σ : Nat → Ev α} (h : Endless c σ) {N : Nat}
    (hN : ∀ n, N ≤ n → ∀ t b, σ n ≠ .call t b) :
    ∃ M, N ≤ M ∧ ∀ n, M ≤ n → (∀ t, (stateAt c σ n).pc t = .idle ∨ (c.async = true ∧ t = worker)) ∧
      (stateAt c σ n).R = (stateAt c σ n).H := by
  have hcalls : ∀ n, N ≤ n → (stateAt c σ n).calls = (stateAt c σ N).calls := by
    intro n hn
    obtain ⟨d, rfl⟩ := Nat.le.dest hn
    clear hn
    induction d with
    | zero => rfl
    | succ d ih => rw [← Nat.add_assoc, stateAt_succ, calls_const (hN (N + d) (by omega)), ih]
  have hHB : ∀ m, N ≤ m → (stateAt c σ m).H ≤ (stateAt c σ N).calls.length := by
    intro m hm
    rw [← (h.inv m).len, ← hcalls m hm]
    exact acquired_le_calls c (upTo σ m)
  obtain ⟨N1, hN1, hH⟩ := settles (f := fun j => (stateAt c σ j).H) (fun a b hab => (stateAt_mono c σ hab).1)
    _ (n := N) hHB
  obtain ⟨N2, hN2, hW⟩ := settles (f := fun j => (stateAt c σ j).W) (fun a b hab => (stateAt_mono c σ hab).2.1)
    _ (n := N1) (fun m hm => Nat.le_trans (h.inv m).leWH (hHB m (by omega)))
  obtain ⟨N3, hN3, hP⟩ := settles (f := fun j => (stateAt c σ j).P) (fun a b hab => (stateAt_mono c σ hab).2.2.1)
    _ (n := N2) (fun m hm => Nat.le_trans (h.inv m).lePW (Nat.le_trans (h.inv m).leWH (hHB m (by omega))))
  obtain ⟨N4, hN4, hR⟩ := settles (f := fun j => (stateAt c σ j).R) (fun a b hab => (stateAt_mono c σ hab).2.2.2)
    _ (n := N3) (fun m hm => Nat.le_trans (h.inv m).leRP (Nat.le_trans (h.inv m).lePW
      (Nat.le_trans (h.inv m).leWH (hHB m (by omega)))))
  have hnp : ∀ j t, N4 ≤ j → (pending ((stateAt c σ j).pc t)).isSome = false := by
    intro j t hj
    cases hpd : (pending ((stateAt c σ j).pc t)).isSome with
    | false => rfl
    | true =>
      obtain ⟨m, hm, hlt⟩ := h.acquire hpd
      have h1 := hH j (by omega)
      have h2 := hH m (by omega)
      omega
  have hone : ∀ t, (c.async = true → t ≠ worker) → ∃ M, N4 ≤ M ∧ ∀ n, M ≤ n → (stateAt c σ n).pc t = .idle := by
    intro t ht
    have hstay : ∀ m, N4 ≤ m → (stateAt c σ m).pc t = .idle → ∀ n, m ≤ n → (stateAt c σ n).pc t = .idle := by
      intro m hm hi n hn
      obtain ⟨d, rfl⟩ := Nat.le.dest hn
      clear hn
      induction d with
      | zero => exact hi
      | succ d ih =>
        rw [← Nat.add_assoc, stateAt_succ]
        exact idle_stays (hN (m + d) (by omega) t) ih
    by_cases h0 : (stateAt c σ N4).pc t = .idle
    · exact ⟨N4, Nat.le_refl _, hstay N4 (Nat.le_refl _) h0⟩
    · obtain ⟨m, hm, hg⟩ := fair_rank (σ := σ) (t := t) (I := fun j => N4 ≤ j ∧ (stateAt c σ j).pc t ≠ .idle)
        (G := fun j => (stateAt c σ j).pc t = .idle)
        (r := fun j => doneRank (stateAt c σ N4).W (stateAt c σ N4).R ((stateAt c σ j).pc t))
        (fun j hj => h.fair t j hj.2)
        (fun j hj he => by
          right
          rw [stateAt_succ, step_pc_other he hj.2]
          exact ⟨⟨by omega, hj.2⟩, Nat.le_refl _⟩)
        (fun j hj he => by
          by_cases hg : (stateAt c σ (j + 1)).pc t = .idle
          · exact Or.inl hg
          · right
            refine ⟨⟨by omega, hg⟩, ?_⟩
            have e : stateAt c σ (j + 1) = stepT c (stateAt c σ j) t := by rw [stateAt_succ, he]; rfl
            have hs := done_step (h.inv j) (h.ns j) ht (hnp j t hj.1) hj.2
            rw [← e] at hs
            have e1 := hW j (by omega)
            have e2 := hW (j + 1) (by omega)
            have e3 := hP j (by omega)
            have e4 := hP (j + 1) (by omega)
            have e5 := hR j (by omega)
            have e6 := hR (j + 1) (by omega)
            have e7 := hW N4 (by omega)
            rcases hs with hs | hs | hs | ⟨_, hs⟩
            · omega
            · omega
            · omega
            · rwa [show (stateAt c σ N4).W = (stateAt c σ j).W by omega, ← e5])
        N4 ⟨Nat.le_refl _, h0⟩
      exact ⟨m, hm, hstay m hm hg⟩
  have hlist : ∀ l : List Nat, ∃ M, N4 ≤ M ∧ ∀ n, M ≤ n → ∀ t ∈ l, (stateAt c σ n).pc t = .idle ∨ (c.async = true ∧ t = worker) := by
    intro l
    induction l with
    | nil => exact ⟨N4, Nat.le_refl _, fun n _ t ht => absurd ht (by simp)⟩
    | cons t l ih =>
      obtain ⟨M1, hM1, h1⟩ := ih
      by_cases htw : c.async = true ∧ t = worker
      · refine ⟨M1, hM1, fun n hn u hu => ?_⟩
        rcases List.mem_cons.mp hu with rfl | hu
        · exact Or.inr htw
        · exact h1 n hn u hu
      · obtain ⟨M2, hM2, h2⟩ := hone t (fun hA he => htw ⟨hA, he⟩)
        refine ⟨max M1 M2, by omega, fun n hn u hu => ?_⟩
        rcases List.mem_cons.mp hu with rfl | hu
        · exact Or.inl (h2 n (by omega))
        · exact h1 n (by omega) u hu
  obtain ⟨M, hM, hall⟩ := hlist ((stateAt c σ N).calls.map Prod.fst)
  have hrel : ∃ M', M ≤ M' ∧ ∀ n, M' ≤ n → (stateAt c σ n).R = (stateAt c σ n).H := by
    have hle : ∀ n, (stateAt c σ n).R ≤ (stateAt c σ n).H := fun n =>
      Nat.le_trans (h.inv n).leRP (Nat.le_trans (h.inv n).lePW (h.inv n).leWH)
    by_cases h0 : (stateAt c σ M).H = 0
    · refine ⟨M, Nat.le_refl _, fun n hn => ?_⟩
      have h1 := hH n (by omega)
      have h2 := hH M (by omega)
      have h3 := hle n
      omega
    · obtain ⟨m, hm, hlt⟩ := h.released (n := M) (k := (stateAt c σ M).H - 1) (by omega)
      refine ⟨m, hm, fun n hn => ?_⟩
      have h1 := hH n (by omega)
      have h2 := hH M (by omega)
      have h3 := hle n
      have h4 := (stateAt_mono c σ hn).2.2.2
      omega
  obtain ⟨M', hM', hRH⟩ := hrel
  refine ⟨M', by omega, fun n hn => ⟨fun t => ?_, hRH n hn⟩⟩
  by_cases hi : (stateAt c σ n).pc t = .idle
  · exact Or.inl hi
  · rcases known_at c σ n t hi with hk | hk
    · rw [hcalls n (by omega)] at hk
      exact hall n (by omega) t hk
    · exact Or.inr hk

end FNLog
