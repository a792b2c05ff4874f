import Verif.Proof.RingDrain

/-! # A log statement that runs without interference completes -/

namespace FNLog.Ring
open FNLog

variable {α : Type}

/-- Steps left of a thread that runs alone (apart from repeated rounds of the loops). -/
def aloneRank : PC α → Nat
  | .hChk _ b => 203 + b.length
  | .hLoad _ b => 202 + b.length
  | .hRead _ _ b => 201 + b.length
  | .hCas _ _ b => 200 + b.length
  | .hInc _ b => 28 + b.length
  | .hMark _ b => 27 + b.length
  | .fInit _ b => 26 + b.length
  | .fill _ b => 25 + b.length
  | .pChk _ => 24
  | .pSeal _ => 23
  | .pMark _ => 22
  | .wInc => 21
  | .wCond => 20
  | .wLoad => 19
  | .wHold _ => 18
  | .wMark _ => 17
  | .wCas _ => 16
  | .wExit => 15
  | .cDisp _ => 14
  | .cClear _ => 13
  | .cStat _ => 12
  | .cBytes _ => 11
  | .rLoad => 10
  | .rProc _ => 9
  | .rMark _ => 8
  | .rCas _ => 7
  | .cLoad => 6
  | .cWrite _ => 5
  | .cCas _ => 4
  | .cEnd => 3
  | .cLoop => 1
  | _ => 0

def aloneMeasure (s : St α) (t : Nat) : Nat :=
  100 * (s.H - s.W) + 50 * (s.W - s.P) + 20 * (s.P - s.R) + aloneRank (s.pc t)

/-- Not in one of the places that need a full queue or a stop. -/
def smooth : PC α → Bool
  | .hOut _ | .hSleep _ | .cSet | .cLoopW | .cLoopR _ | .cFin | .done => false
  | _ => true

/-- A log statement of thread `t` with text `b` on its way, started in state `s0`. -/
structure Alone (c : Cfg α) (s0 : St α) (t : Nat) (b : List α) (s : St α) : Prop where
  st : s.state = .running
  ex : Exact s (s.pc t)
  oth : ∀ u, u ≠ t → s.pc u = s0.pc u
  ph : (pending (s.pc t) = some b ∧ s.H = s0.H ∧ s.R = s0.R ∧ s.acquired = s0.acquired) ∨
      (pending (s.pc t) = none ∧ s.H = s0.H + 1 ∧ s.acquired = s0.acquired ++ [(t, b ++ [c.nl])])
  wk : c.async = true → isCons (s.pc t) = false
  nf : smooth (s.pc t) = true
  calls : s.calls = s0.calls ++ [(t, b)]
  lost : s.lost = s0.lost
  lg : s.lgRunning = s0.lgRunning
  pr : c.async = true → s.P = s0.P ∧ s.R = s0.R ∧ s.out = s0.out

theorem Alone.stepT {c : Cfg α} {s0 s : St α} {t : Nat} {b : List α} (hi : Inv c s)
    (hroom : s0.H + 1 < s0.R + c.L) (h : Alone c s0 t b s) :
    Alone c s0 t b (stepT c s t) ∧
    (s.pc t = .idle ∨ aloneMeasure (stepT c s t) t < aloneMeasure s t) := by
  have h1 := hi.leRP
  have h2 := hi.lePW
  have h3 := hi.leWH
  have h4 := hi.cap
  have hst := h.st
  have hex := h.ex
  have hph := h.ph
  have hwk := h.wk
  have hnf := h.nf
  have hti := hi.ti t
  have hex' := exact_stepT c s h.ex
  have hWH : s.W < s.H → s.W % c.L ≠ s.H % c.L := fun h5 h6 => by
    have := mod_inj h6 (by omega) (by omega); omega
  have hPW : s.P < s.W → s.P % c.L ≠ s.W % c.L := fun h5 h6 => by
    have := mod_inj h6 (by omega) (by omega); omega
  have hRP : s.R < s.P → s.R % c.L ≠ s.P % c.L := fun h5 h6 => by
    have := mod_inj h6 (by omega) (by omega); omega
  have hroom' : s.H = s0.H → s.R = s0.R → (s.H + 1) % c.L ≠ s.R % c.L := fun h5 h7 h6 => by
    have := mod_inj h6.symm (by omega) (by omega); omega
  have hoth : ∀ u, u ≠ t → (Ring.stepT c s t).pc u = s0.pc u := fun u hu =>
    (stepT_pc_other c s hu).trans (h.oth u hu)
  have hcal := h.calls
  have hlost := h.lost
  have hm : s.pc t = .idle ∨ aloneMeasure (Ring.stepT c s t) t < aloneMeasure s t := by
    clear hex' hoth
    unfold aloneMeasure Ring.stepT
    split <;> rename_i hpc <;> rw [hpc] at hex hph hwk hnf hti <;>
      simp only [Exact, TI, Own, isCons, pending, reduceCtorEq, smooth, Option.some.injEq] at hex hph hwk hnf hti <;>
      (repeat' split) <;>
      simp only [go_pc, go_H, go_W, go_P, go_R, if_true, aloneRank, List.length_cons,
        hpc, reduceCtorEq, false_or, true_or] <;>
      first
      | done
      | grind
  have hpr : c.async = true → (Ring.stepT c s t).P = s0.P ∧ (Ring.stepT c s t).R = s0.R ∧
      (Ring.stepT c s t).out = s0.out := by
    intro hA
    have hf := frame_stepT hi (hwk hA)
    have := h.pr hA
    rw [hf.P, hf.R, hf.out]; exact this
  have hlg : (Ring.stepT c s t).lgRunning = s0.lgRunning := by
    rw [← h.lg]; unfold Ring.stepT; split <;> (repeat' split) <;> simp
  refine ⟨⟨?_, hex', hoth, ?_, ?_, ?_, ?_, ?_, hlg, hpr⟩, hm⟩
  all_goals
    clear hex' hoth hm hpr hlg
    unfold Ring.stepT
    split <;> rename_i hpc <;> rw [hpc] at hex hph hwk hnf hti <;>
      simp only [Exact, TI, Own, isCons, pending, reduceCtorEq, smooth, Option.some.injEq] at hex hph hwk hnf hti <;>
      (repeat' split) <;>
      (try simp only [go_pc, go_state, go_H, go_R, go_acquired, go_calls, go_lost, if_true, pending,
        isCons, reduceCtorEq, smooth, Option.some.injEq]) <;>
      first
      | done
      | assumption
      | grind

theorem Alone.idle_stays {c : Cfg α} {s : St α} {t : Nat} (h : s.pc t = .idle) (n : Nat) :
    run c s (List.replicate n (.run t)) = s := by
  induction n with
  | zero => rfl
  | succ n ih =>
    have : step c s (.run t) = s := by simp only [step]; unfold Ring.stepT; rw [h]
    rw [List.replicate_succ]
    show run c (step c s (.run t)) _ = s
    rw [this]; exact ih

theorem Alone.run {c : Cfg α} {s0 : St α} {t : Nat} {b : List α} (hroom : s0.H + 1 < s0.R + c.L) :
    ∀ (n : Nat) {s : St α}, Inv c s → Alone c s0 t b s →
    Timely c s (List.replicate n (.run t)) ∧ Inv c (run c s (List.replicate n (.run t))) ∧
    Alone c s0 t b (run c s (List.replicate n (.run t))) ∧
    (aloneMeasure s t < n → (run c s (List.replicate n (.run t))).pc t = .idle) := by
  intro n
  induction n with
  | zero => intro s hi h; exact ⟨trivial, hi, h, fun h => absurd h (Nat.not_lt_zero _)⟩
  | succ n ih =>
    intro s hi h
    have hL : 0 < c.L := by have := hi.cap; have := hi.leRP; have := hi.lePW; have := hi.leWH; omega
    have ht : timelyEv c s (.run t) := timelyAt_of_exact h.ex
    have hi' := hi.step ht
    obtain ⟨h1, h2⟩ := h.stepT hi hroom
    obtain ⟨g1, g2, g3, g4⟩ := ih hi' h1
    rw [List.replicate_succ]
    refine ⟨⟨ht, g1⟩, g2, g3, ?_⟩
    intro hm
    rcases h2 with h2 | h2
    · have e := Alone.idle_stays (c := c) h2 (n + 1)
      rw [List.replicate_succ] at e
      rw [e]; exact h2
    · refine g4 ?_
      simp only [Ring.step]
      omega

/-- Number of own steps after which a log statement that runs alone has returned. -/
def aloneBound (s : St α) (b : List α) : Nat :=
  100 * (s.H - s.W) + 50 * (s.W - s.P) + 20 * (s.P - s.R) + 204 + b.length

/-- The schedule of one log statement that runs alone. -/
def aloneEvents (t : Nat) (b : List α) (n : Nat) : List (Ev α) := .call t b :: List.replicate n (.run t)

/-- A log statement of an idle thread with room in the queue acquires one slot and returns. -/
theorem log_alone {c : Cfg α} {s : St α} {t : Nat} (b : List α) (hi : Inv c s)
    (hst : s.state = .running) (hlg : s.lgRunning = true) (hpc : s.pc t = .idle)
    (hroom : s.H + 1 < s.R + c.L) {n : Nat} (hn : aloneBound s b ≤ n) :
    Timely c s (aloneEvents t b n) ∧ Inv c (run c s (aloneEvents t b n)) ∧
    Alone c s t b (run c s (aloneEvents t b n)) ∧
    (run c s (aloneEvents t b n)).pc t = .idle := by
  have e : step c s (.call t b) =
      { s with calls := s.calls ++ [(t, b)] }.go t (.hChk 0 b) := by
    unfold step; simp [hpc, hst, hlg]
  have hi' : Inv c (step c s (.call t b)) := hi.step trivial
  have ha : Alone c s t b (step c s (.call t b)) := by
    rw [e]
    refine ⟨hst, by simp [Exact], fun u hu => by simp [hu], Or.inl ?_, ?_, ?_, rfl, rfl, rfl, ?_⟩
    · exact ⟨by simp [pending], rfl, rfl, rfl⟩
    · intro _; simp [isCons]
    · simp [smooth]
    · intro _; exact ⟨rfl, rfl, rfl⟩
  obtain ⟨h1, h2, h3, h4⟩ := Alone.run hroom n hi' ha
  refine ⟨⟨trivial, h1⟩, h2, h3, h4 ?_⟩
  rw [e]
  simp only [aloneMeasure, go_H, go_W, go_P, go_R, go_pc, if_true, aloneRank]
  unfold aloneBound at hn
  omega

theorem run_append (c : Cfg α) (s : St α) (es es' : List (Ev α)) :
    run c s (es ++ es') = run c (run c s es) es' := by simp [run, List.foldl_append]

theorem timely_append {c : Cfg α} : ∀ {es es' : List (Ev α)} {s : St α},
    Timely c s (es ++ es') ↔ Timely c s es ∧ Timely c (run c s es) es' := by
  intro es
  induction es with
  | nil => intro es' s; simp [Timely, Ring.run]
  | cons e es ih =>
    intro es' s
    show (timelyEv c s e ∧ Timely c (step c s e) (es ++ es')) ↔
      ((timelyEv c s e ∧ Timely c (step c s e) es) ∧ Timely c (Ring.run c (step c s e) es) es')
    rw [ih]
    exact and_assoc.symm

end FNLog.Ring
