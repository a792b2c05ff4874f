import Verif.Proof.RingFinal

/-! # What survives a stop while log statements are in progress -/

namespace FNLog.Ring
open FNLog

variable {α : Type}

/-- After the stop of an async channel that had published up to `w0`. -/
structure Pub (w0 : Nat) (s : St α) : Prop where
  st : s.state = .waitingFinish ∨ s.state = .finish
  W : w0 ≤ s.W
  pcw : match s.pc worker with
    | .cSet => False
    | .cLoopR w => w0 ≤ w ∧ s.R ≤ w
    | .cFin | .done => w0 ≤ s.R
    | _ => True

theorem Pub.worker {c : Cfg α} {w0 : Nat} {s : St α} (hA : c.async = true) (hi : Inv c s)
    (ho : Ord c s) (h : Pub w0 s) : Pub w0 (stepT c s worker) := by
  have h1 := hi.leRP
  have h2 := hi.lePW
  have h3 := hi.leWH
  have h4 := hi.cap
  have hp := h.pcw
  have hti := hi.ti Ring.worker
  have hpcw := ho.pcw
  have hst := h.st
  have hW := h.W
  have hmod : ∀ w, s.R ≤ w → w ≤ s.W → w % c.L = s.R % c.L → w = s.R := fun w h5 h6 h7 =>
    (mod_inj h7.symm h5 (by omega)).symm
  unfold stepT
  cases hpc : s.pc Ring.worker <;> rw [hpc] at hpcw hti hp <;>
    simp only [OrdPC, TI] at hpcw hti hp <;> (try contradiction) <;> simp only [hA] <;>
    (repeat' split)
  all_goals
    refine ⟨?_, ?_, ?_⟩ <;>
    (try simp only [go_pc, go_state, go_W, go_R, if_true, hpc]) <;>
    first
    | done
    | exact hst
    | exact hW
    | exact hp
    | (simp only [or_true]; done)
    | grind

theorem Pub.step {c : Cfg α} {w0 : Nat} {s : St α} (hA : c.async = true) (hi : Inv c s)
    (ho : Ord c s) (h : Pub w0 s) (e : Ev α) : Pub w0 (step c s e) := by
  have hnr : s.state ≠ .running := by rcases h.st with h | h <;> rw [h] <;> simp
  have same : ∀ s' : St α, s'.pc Ring.worker = s.pc Ring.worker → s'.state = s.state → s.W ≤ s'.W →
      s'.R = s.R → Pub w0 s' := by
    intro s' e1 e2 e3 e4
    refine ⟨by rw [e2]; exact h.st, Nat.le_trans h.W e3, ?_⟩
    rw [e1, e4]; exact h.pcw
  cases e with
  | run t =>
    by_cases ht : t = Ring.worker
    · subst ht; exact h.worker hA hi ho
    · have hnc : isCons (s.pc t) = false := by
        by_cases hc : isCons (s.pc t) = true
        · exact absurd (hi.consTid hA t hc) ht
        · simpa using hc
      have hf := frame_stepT hi hnc
      refine same _ (hf.pc _ (Ne.symm ht)) ?_ ?_ hf.R
      · simp only [Ring.step]; unfold stepT
        split <;> rename_i hpc <;> rw [hpc] at hnc <;> simp [isCons] at hnc <;> (repeat' split) <;> simp
      · simp only [Ring.step]; unfold stepT
        split <;> (repeat' split) <;> simp
  | call t b =>
    unfold Ring.step; simp only; split
    · rw [if_neg (fun h => hnr h.2)]; exact h
    · exact h
  | started => unfold Ring.step; simp only; rw [if_neg hnr]; exact h
  | closing => exact same _ rfl rfl (Nat.le_refl _) rfl
  | stop => unfold Ring.step; simp only [hA, if_true]; rw [if_neg hnr]; exact h

theorem Pub.enter {c : Cfg α} {s : St α} (hA : c.async = true) (hn : NS c s)
    (hst : s.state = .running) : Pub s.W (Ring.step c s .stop) := by
  have hwk := hn.wk Ring.worker
  unfold Ring.step
  simp only [hA, hst, if_true]
  refine ⟨Or.inl rfl, Nat.le_refl _, ?_⟩
  simp only
  revert hwk
  cases s.pc Ring.worker <;> simp [wkOk, hst]

theorem pub_run {c : Cfg α} {w0 : Nat} (hA : c.async = true) : ∀ {es : List (Ev α)} {s : St α},
    Inv c s → Ord c s → Pub w0 s → Timely c s es →
    Inv c (run c s es) ∧ Ord c (run c s es) ∧ Pub w0 (run c s es) := by
  intro es
  induction es with
  | nil => intro s h1 h2 h3 _; exact ⟨h1, h2, h3⟩
  | cons e es ih =>
    intro s h1 h2 h3 ht
    exact ih (h1.step ht.1) (h2.step hA h1 e) (h3.step hA h1 h2 e) ht.2

end FNLog.Ring
