import Verif.Proof.RingResp

/-! # Progress: draining after a stop, releasing slots, completing a log statement -/

namespace FNLog.Ring
open FNLog

variable {α : Type}

/-! ## Draining -/

/-- An async channel after the stop, all log statements having returned before. -/
structure Drain (c : Cfg α) (s : St α) : Prop where
  idle : ∀ t, t ≠ worker → s.pc t = .idle
  st : s.state = .waitingFinish ∨ (s.pc worker = .done ∧ s.state = .finish)
  pcw : match s.pc worker with
    | .cSet => False
    | .cLoopR w => w = s.W
    | .cFin | .done => s.R = s.W
    | _ => True
  full : s.W = s.H

/-- Steps of the worker left, for `d` unprocessed and `e` unreleased records. -/
def drainRank (d e : Nat) : PC α → Nat
  | .cFin => 1
  | .cLoopR _ => if d = 0 then 2 else 8
  | .cLoopW => if d = 0 then 3 else 9
  | .cLoop => if d = 0 then 4 else 10
  | .cEnd => if d = 0 then 5 else 11
  | .cCas _ => 5
  | .cWrite _ => 6
  | .cLoad => 7
  | .rProc _ => if e = 0 then 8 else 12
  | .rLoad => if e = 0 then 9 else 13
  | .rCas _ => 10
  | .rMark _ => 11
  | .cBytes _ => 14
  | .cStat _ => 15
  | .cClear _ => 16
  | .cDisp _ => 17
  | _ => 0

def drainMeasure (s : St α) : Nat := 30 * (s.W - s.P) + drainRank (s.W - s.P) (s.P - s.R) (s.pc worker)

theorem Drain.worker {c : Cfg α} {s : St α} (hA : c.async = true) (hi : Inv c s) (ho : Ord c s)
    (h : Drain c s) : Drain c (stepT c s worker) ∧ (stepT c s worker).H = s.H ∧
      (stepT c s worker).acquired = s.acquired ∧
      ((stepT c s worker).pc Ring.worker = .done ∨
        drainMeasure (stepT c s Ring.worker) < drainMeasure s) := by
  have h1 := hi.leRP
  have h2 := hi.lePW
  have h3 := hi.leWH
  have h4 := hi.cap
  have hpcw := ho.pcw
  have hti := hi.ti Ring.worker
  have hst := h.st
  have hp := h.pcw
  have hf := h.full
  have hPW : s.P < s.W → s.P % c.L ≠ s.W % c.L := fun h5 h6 => by
    have := mod_inj h6 (by omega) (by omega); omega
  have hRW : s.R < s.W → s.W % c.L ≠ s.R % c.L := fun h5 h6 => by
    have := mod_inj h6.symm (by omega) (by omega); omega
  have hRP : s.R < s.P → s.R % c.L ≠ s.P % c.L := fun h5 h6 => by
    have := mod_inj h6 (by omega) (by omega); omega
  have hidle : ∀ (s' : St α), (∀ u, u ≠ Ring.worker → s'.pc u = s.pc u) →
      ∀ u, u ≠ Ring.worker → s'.pc u = .idle := fun s' h5 u hu => (h5 u hu).trans (h.idle u hu)
  unfold drainMeasure
  unfold Ring.stepT
  cases hpc : s.pc Ring.worker <;> rw [hpc] at hpcw hti hst hp <;> (try simp only [OrdPC, TI] at hpcw hti hp) <;>
    (try contradiction) <;> (try simp only [reduceCtorEq, false_and, or_false, true_and] at hst) <;>
    (try simp only [hA, hst]) <;> (repeat' split)
  all_goals
    refine ⟨⟨hidle _ (fun u hu => by simp [hu]), ?_, ?_, ?_⟩, ?_, ?_, ?_⟩ <;>
    (try simp only [go_pc, go_state, go_W, go_H, go_P, go_R, go_acquired, if_true, drainRank, hpc, hst,
      true_or, or_true, reduceCtorEq, false_and, or_false, and_true, false_or]) <;>
    first
    | done
    | exact hf
    | grind

theorem drain_same {c : Cfg α} {s s' : St α} (h : Drain c s) (h1 : s'.pc = s.pc)
    (h2 : s'.state = s.state) (h3 : s'.W = s.W) (h4 : s'.R = s.R) (h5 : s'.H = s.H) : Drain c s' := by
  refine ⟨by rw [h1]; exact h.idle, by rw [h1, h2]; exact h.st, ?_, by rw [h3, h5]; exact h.full⟩
  have := h.pcw
  rw [h1, h3, h4]; exact this

/-- Every event keeps the draining state; the worker's steps decrease the measure. -/
theorem Drain.step {c : Cfg α} {s : St α} (hA : c.async = true) (hi : Inv c s) (ho : Ord c s)
    (h : Drain c s) (e : Ev α) : Drain c (step c s e) ∧ (step c s e).H = s.H ∧
      (step c s e).acquired = s.acquired ∧
      ((step c s e).pc Ring.worker = .done ∨ drainMeasure (step c s e) ≤ drainMeasure s) ∧
      (s.pc Ring.worker = .done → (step c s e).pc Ring.worker = .done) := by
  have hself : Drain c s ∧ s.H = s.H ∧ s.acquired = s.acquired ∧
      (s.pc Ring.worker = .done ∨ drainMeasure s ≤ drainMeasure s) ∧
      (s.pc Ring.worker = .done → s.pc Ring.worker = .done) :=
    ⟨h, rfl, rfl, Or.inr (Nat.le_refl _), id⟩
  have hnr : s.state ≠ .running := by
    intro h5
    rcases h.st with h6 | ⟨_, h6⟩ <;> rw [h6] at h5 <;> cases h5
  cases e with
  | run t =>
    by_cases ht : t = Ring.worker
    · subst ht
      obtain ⟨h1, h2, h3, h4⟩ := h.worker hA hi ho
      refine ⟨h1, h2, h3, ?_, ?_⟩
      · rcases h4 with h4 | h4
        · exact Or.inl h4
        · exact Or.inr (Nat.le_of_lt h4)
      · intro hd
        have : stepT c s Ring.worker = s := by unfold stepT; rw [hd]
        simp only [Ring.step, this, hd]
    · have : stepT c s t = s := by unfold stepT; rw [h.idle t ht]
      have e : Ring.step c s (.run t) = s := this
      rw [e]; exact hself
  | call t b =>
    have : Ring.step c s (.call t b) = s := by
      unfold Ring.step; simp only; split
      · rw [if_neg]; exact fun h => hnr h.2
      · rfl
    rw [this]; exact hself
  | started =>
    have : Ring.step c s .started = s := by
      unfold Ring.step; simp only; rw [if_neg hnr]
    rw [this]; exact hself
  | closing =>
    exact ⟨drain_same h rfl rfl rfl rfl rfl, rfl, rfl, Or.inr (Nat.le_refl _), id⟩
  | stop =>
    have : Ring.step c s .stop = s := by
      unfold Ring.step; simp only [hA, if_true]; rw [if_neg hnr]
    rw [this]; exact hself

/-- 1 for a step of the worker. -/
def Ev.isWorker : Ev α → Nat
  | .run t => if t = Ring.worker then 1 else 0
  | _ => 0

/-- Number of steps of the worker in a schedule. -/
def workerSteps (es : List (Ev α)) : Nat := (es.map Ev.isWorker).sum

theorem workerSteps_cons (e : Ev α) (es : List (Ev α)) :
    workerSteps (e :: es) = workerSteps es + e.isWorker := by
  simp [workerSteps]; omega

theorem drain_timely {c : Cfg α} {s : St α} (_hi : Inv c s) (ho : Ord c s)
    (h : Drain c s) (e : Ev α) : timelyEv c s e := by
  cases e with
  | run t =>
    by_cases ht : t = Ring.worker
    · subst ht
      apply timelyAt_of_exact
      · have := ho.pcw
        cases hp : s.pc Ring.worker <;> rw [hp] at this <;> simp_all [OrdPC, Exact]
    · simp [timelyEv, timelyAt, h.idle t ht]
  | _ => trivial

/-- From a draining state: everything stays put except the worker, which finishes after a bounded
number of its own steps. -/
theorem Drain.run {c : Cfg α} (hA : c.async = true) : ∀ {es : List (Ev α)} {s : St α}, Inv c s →
    Ord c s → Drain c s →
    Inv c (run c s es) ∧ Ord c (run c s es) ∧ Drain c (run c s es) ∧ (run c s es).H = s.H ∧
    (run c s es).acquired = s.acquired ∧
    ((run c s es).pc Ring.worker = .done ∨
      drainMeasure (run c s es) + workerSteps es ≤ drainMeasure s) := by
  intro es
  induction es with
  | nil => intro s hi ho h; exact ⟨hi, ho, h, rfl, rfl, Or.inr (by simp [workerSteps, Ring.run])⟩
  | cons e es ih =>
    intro s hi ho h
    obtain ⟨h1, h2, h3, h4, h5⟩ := h.step hA hi ho e
    have hi' := hi.step (drain_timely hi ho h e)
    have ho' := ho.step hA hi e
    obtain ⟨g1, g2, g3, g4, g5, g6⟩ := ih hi' ho' h1
    refine ⟨g1, g2, g3, g4.trans h2, g5.trans h3, ?_⟩
    rcases g6 with g6 | g6
    · exact Or.inl g6
    · have hs : drainMeasure (Ring.step c s e) + e.isWorker ≤ drainMeasure s ∨ (Ring.step c s e).pc Ring.worker = .done := by
        cases e with
        | run t =>
          by_cases ht : t = Ring.worker
          · subst ht
            rcases (h.worker hA hi ho).2.2.2 with h6 | h6
            · exact Or.inr h6
            · exact Or.inl (by simp only [Ev.isWorker, if_true]; exact h6)
          · simp only [Ev.isWorker, ht, if_false, Nat.add_zero]; exact h4.symm
        | _ => exact h4.symm
      rcases hs with hs | hs
      · right
        rw [workerSteps_cons]
        show drainMeasure (Ring.run c (Ring.step c s e) es) + _ ≤ _
        omega
      · left
        have : ∀ (es : List (Ev α)) {s : St α}, Inv c s → Ord c s → Drain c s →
            s.pc Ring.worker = .done → (Ring.run c s es).pc Ring.worker = .done := by
          clear ih g1 g2 g3 g4 g5 g6
          intro es
          induction es with
          | nil => intro s _ _ _ hd; exact hd
          | cons e es ih2 =>
            intro s hi ho h hd
            have hh := h.step hA hi ho e
            exact ih2 (hi.step (drain_timely hi ho h e)) (ho.step hA hi e) hh.1 (hh.2.2.2.2 hd)
        exact this es hi' ho' h1 hs

/-- The draining state is entered by the stop of a channel whose log statements have all returned. -/
theorem Drain.enter {c : Cfg α} {s : St α} (hA : c.async = true) (hi : Inv c s) (ho : Ord c s)
    (hn : NS c s) (hr : Resp c s) (hst : s.state = .running)
    (hidle : ∀ t, t ≠ Ring.worker → s.pc t = .idle) : Drain c (Ring.step c s .stop) := by
  have hW : s.W = s.H := by
    apply all_published hi hn hr
    intro t
    by_cases ht : t = Ring.worker
    · subst ht
      right
      refine ⟨hA, ?_⟩
      have := ho.pcw
      cases hp : s.pc Ring.worker <;> rw [hp] at this <;> simp [OrdPC] at this <;> rfl
    · exact Or.inl (hidle t ht)
  have hwk := hn.wk Ring.worker
  unfold Ring.step
  simp only [hA, hst, if_true]
  refine ⟨hidle, Or.inl rfl, ?_, hW⟩
  simp only
  revert hwk
  cases s.pc Ring.worker <;> simp [wkOk, hst]

/-! ## Releasing a slot -/

/-- Steps of the worker until it releases a slot, while something is published. -/
def relRank (e : Nat) : PC α → Nat
  | .rCas _ => 1
  | .rMark _ => 2
  | .rProc _ => if e = 0 then 12 else 3
  | .rLoad => if e = 0 then 13 else 4
  | .cBytes _ => 5
  | .cStat _ => 6
  | .cClear _ => 7
  | .cDisp _ => 8
  | .cCas _ => 9
  | .cWrite _ => 10
  | .cLoad => 11
  | .cLoop => 12
  | .cSet => 13
  | .cEnd => 14
  | _ => 0

def relMeasure (s : St α) : Nat := relRank (s.P - s.R) (s.pc worker)

theorem relRank_le (e : Nat) (p : PC α) : relRank e p ≤ 14 := by
  cases p <;> simp only [relRank] <;> (try split) <;> omega

theorem rel_worker {c : Cfg α} {s : St α} (hA : c.async = true) (hi : Inv c s) (ho : Ord c s)
    (hn : NS c s) (hlt : s.R < s.W) :
    (stepT c s worker).W = s.W ∧ ((stepT c s worker).R = s.R + 1 ∨
      (stepT c s worker).R = s.R ∧ relMeasure (stepT c s worker) < relMeasure s) := by
  have h1 := hi.leRP
  have h2 := hi.lePW
  have h3 := hi.leWH
  have h4 := hi.cap
  have hpcw := ho.pcw
  have hwk := hn.wk worker
  have hst := hn.st
  have hPW : s.P < s.W → s.P % c.L ≠ s.W % c.L := fun h5 h6 => by
    have := mod_inj h6 (by omega) (by omega); omega
  have hRP : s.R < s.P → s.R % c.L ≠ s.P % c.L := fun h5 h6 => by
    have := mod_inj h6 (by omega) (by omega); omega
  unfold relMeasure
  unfold Ring.stepT
  cases hpc : s.pc Ring.worker <;> rw [hpc] at hpcw hwk <;>
    simp only [OrdPC, wkOk] at hpcw hwk <;>
    (try contradiction) <;> (try simp only [hA, hwk]) <;> (repeat' split)
  all_goals
    refine ⟨rfl, ?_⟩
    (try simp only [go_pc, go_P, go_R, if_true, relRank, true_and])
    first
    | done
    | grind

theorem rel_other {c : Cfg α} {s : St α} (hA : c.async = true) (hi : Inv c s) (ho : Ord c s)
    (e : Ev α) (he : ∀ t, e = .run t → t ≠ worker) :
    s.W ≤ (step c s e).W ∧ (step c s e).R = s.R ∧ relMeasure (step c s e) = relMeasure s := by
  cases e with
  | run t =>
    have ht := he t rfl
    have hf := frame_stepT hi (t := t) (by
      by_cases hc : isCons (s.pc t) = true
      · exact absurd (hi.consTid hA t hc) ht
      · simpa using hc)
    refine ⟨?_, hf.R, ?_⟩
    · simp only [Ring.step]; unfold stepT
      split <;> (repeat' split) <;> simp
    · simp only [Ring.step, relMeasure]; rw [hf.P, hf.R, hf.pc worker (Ne.symm ht)]
  | call t b =>
    have hw : s.pc worker ≠ .idle := by
      intro h; have := ho.pcw; rw [h] at this; exact this
    unfold Ring.step; simp only; split
    · rename_i hpc
      split
      · refine ⟨Nat.le_refl _, rfl, ?_⟩
        simp only [relMeasure, go_P, go_R, go_pc]
        rw [if_neg]
        rintro rfl; exact hw hpc
      · exact ⟨Nat.le_refl _, rfl, rfl⟩
    · exact ⟨Nat.le_refl _, rfl, rfl⟩
  | started => unfold Ring.step; simp only; split <;> exact ⟨Nat.le_refl _, rfl, rfl⟩
  | closing => exact ⟨Nat.le_refl _, rfl, rfl⟩
  | stop => unfold Ring.step; simp only; (repeat' split) <;> exact ⟨Nat.le_refl _, rfl, rfl⟩

theorem stepT_R_mono (c : Cfg α) (s : St α) (t : Nat) : s.R ≤ (stepT c s t).R := by
  unfold stepT; split <;> (repeat' split) <;> simp

theorem step_R_mono (c : Cfg α) (s : St α) (e : Ev α) : s.R ≤ (step c s e).R := by
  cases e with
  | run t => exact stepT_R_mono c s t
  | call t b => unfold step; simp only; (repeat' split) <;> exact Nat.le_refl _
  | started => unfold step; simp only; (repeat' split) <;> exact Nat.le_refl _
  | closing => exact Nat.le_refl _
  | stop => unfold step; simp only; (repeat' split) <;> exact Nat.le_refl _

theorem run_R_mono (c : Cfg α) : ∀ (es : List (Ev α)) (s : St α), s.R ≤ (run c s es).R := by
  intro es
  induction es with
  | nil => intro s; exact Nat.le_refl _
  | cons e es ih => intro s; exact Nat.le_trans (step_R_mono c s e) (ih _)

theorem release_run {c : Cfg α} (hA : c.async = true) : ∀ {es : List (Ev α)} {s : St α}, Inv c s →
    Ord c s → NS c s → s.R < s.W → Timely c s es → (∀ e ∈ es, e.noStop) →
    s.R < (run c s es).R ∨ relMeasure (run c s es) + workerSteps es ≤ relMeasure s := by
  intro es
  induction es with
  | nil => intro s _ _ _ _ _ _; exact Or.inr (by simp [workerSteps, Ring.run])
  | cons e es ih =>
    intro s hi ho hn hlt ht hno
    have hi' := hi.step ht.1
    have ho' := ho.step hA hi e
    have hn' := hn.step hi e (hno e (by simp))
    have hno' : ∀ e' ∈ es, e'.noStop := fun e' he' => hno e' (by simp [he'])
    have hm := run_R_mono c es (Ring.step c s e)
    show s.R < (Ring.run c (Ring.step c s e) es).R ∨
      relMeasure (Ring.run c (Ring.step c s e) es) + _ ≤ _
    rw [workerSteps_cons]
    by_cases hw : e = .run worker
    · subst hw
      obtain ⟨h1, h2⟩ := rel_worker hA hi ho hn hlt
      rcases h2 with h2 | ⟨h2, h3⟩
      · left
        have e1 : (Ring.step c s (.run worker)).R = s.R + 1 := h2
        omega
      · have e1 : (Ring.step c s (.run worker)).R = s.R := h2
        have e2 : relMeasure (Ring.step c s (.run worker)) < relMeasure s := h3
        have e3 : (Ring.step c s (.run worker)).W = s.W := h1
        rcases ih hi' ho' hn' (by omega) ht.2 hno' with h4 | h4
        · left; omega
        · right; simp only [Ev.isWorker, if_true]; omega
    · obtain ⟨h1, h2, h3⟩ := rel_other hA hi ho e (by
        rintro t rfl rfl; exact hw rfl)
      have e4 : e.isWorker = 0 := by
        cases e with
        | run t => simp only [Ev.isWorker]; rw [if_neg]; rintro rfl; exact hw rfl
        | _ => rfl
      rw [e4]
      rcases ih hi' ho' hn' (by omega) ht.2 hno' with h4 | h4
      · left; omega
      · right; omega

end FNLog.Ring
