import Verif.Proof.Live

/-! # After the stop of an async channel every thread leaves it -/

namespace FNLog
open Ring Spec

variable {α : Type}

/-- An execution without end in which an async channel is stopped at time `N`. -/
structure Stopping (c : Cfg α) (σ : Nat → Ev α) (N : Nat) : Prop where
  pos : 0 < c.L
  async : c.async = true
  timely : ∀ n, Timely c (init c) (upTo σ n)
  fair : Fair c σ
  before : ∀ n, n < N → (σ n).noStop
  stop : σ N = .stop
  running : (stateAt c σ N).state = .running

/-- Steps until a thread that sees that the channel is not running has left it. -/
def leaveRank : PC α → Nat
  | .hOut _ => 1
  | .hChk _ _ => 2
  | .hSleep _ => 3
  | .pChk _ => 1
  | .fill _ b => b.length + 2
  | .fInit _ b => b.length + 3
  | .hMark _ b => b.length + 4
  | .hInc _ b => b.length + 5
  | .hCas _ _ b => b.length + 6
  | .hRead _ _ b => b.length + 7
  | .hLoad _ b => b.length + 8
  | .wExit => 1
  | .wCond => 2
  | .wInc => 3
  | .wCas _ => 4
  | .wMark _ => 5
  | .wHold _ => 6
  | .wLoad => 7
  | .pMark _ => 8
  | .pSeal _ => 9
  | _ => 0

theorem leave_step {c : Cfg α} {s : St α} {t : Nat} (hs : s.state ≠ .running) (hc : isCons (s.pc t) = false)
    (hp : s.pc t ≠ .idle) : leaveRank ((stepT c s t).pc t) < leaveRank (s.pc t) := by
  unfold Ring.stepT
  cases hpc : s.pc t <;> rw [hpc] at hc hp <;> simp only [isCons, reduceCtorEq, ne_eq, not_true_eq_false] at hc hp <;>
    (try simp only [hs, if_false, and_false]) <;> (repeat' split) <;> (try contradiction) <;> simp [leaveRank] <;> (try grind)

theorem quit_step {c : Cfg α} {w0 : Nat} {s : St α} (hA : c.async = true) (hi : Inv c s) (ho : Ord c s) (h : Pub w0 s) :
    (stepT c s worker).W = s.W ∧
    ((stepT c s worker).pc worker = .done ∨ drainMeasure (stepT c s worker) < drainMeasure s) := by
  have h1 := hi.leRP
  have h2 := hi.lePW
  have h3 := hi.leWH
  have h4 := hi.cap
  have hpcw := ho.pcw
  have hti := hi.ti Ring.worker
  have hst : s.state ≠ .running ∧ s.state ≠ .null := by rcases h.st with h | h <;> rw [h] <;> simp
  have hp := h.pcw
  have hPW : s.P < s.W → s.P % c.L ≠ s.W % c.L := fun h5 h6 => by
    have := mod_inj h6 (by omega) (by omega); omega
  have hRP : s.R < s.P → s.R % c.L ≠ s.P % c.L := fun h5 h6 => by
    have := mod_inj h6 (by omega) (by omega); omega
  unfold drainMeasure
  unfold Ring.stepT
  cases hpc : s.pc Ring.worker <;> rw [hpc] at hpcw hti hp <;> (try simp only [OrdPC, TI] at hpcw hti hp) <;>
    (try contradiction) <;> (try simp only [hA, hst.1, hst.2, if_false, Bool.true_eq_false]) <;> (repeat' split)
  all_goals
    refine ⟨?_, ?_⟩ <;>
    (try simp only [go_pc, go_W, go_P, go_R, if_true, drainRank, hpc, reduceCtorEq, false_or, true_or]) <;>
    first
    | done
    | grind

namespace Stopping

variable {c : Cfg α} {σ : Nat → Ev α} {N : Nat}

theorem inv (h : Stopping c σ N) (n : Nat) : Inv c (stateAt c σ n) := inv_after h.pos (h.timely n)

theorem ord (h : Stopping c σ N) (n : Nat) : Ord c (stateAt c σ n) := ord_after h.pos h.async (h.timely n)

theorem pub (h : Stopping c σ N) {n : Nat} (hn : N < n) : Pub (stateAt c σ N).W (stateAt c σ n) := by
  obtain ⟨d, rfl⟩ := Nat.le.dest hn
  clear hn
  induction d with
  | zero =>
    rw [Nat.add_zero, stateAt_succ, h.stop]
    refine Pub.enter h.async ?_ h.running
    exact (ns_after h.pos (h.timely N) (fun e he => by
      obtain ⟨i, hi, rfl⟩ := List.mem_map.mp he
      exact h.before i (by simpa using hi))).1
  | succ d ih =>
    rw [show N.succ + (d + 1) = N.succ + d + 1 by omega, stateAt_succ]
    exact ih.step h.async (h.inv _) (h.ord _) _

theorem notRunning (h : Stopping c σ N) {n : Nat} (hn : N < n) : (stateAt c σ n).state ≠ .running := by
  rcases (h.pub hn).st with h | h <;> rw [h] <;> simp

theorem notCons (h : Stopping c σ N) {n t : Nat} (ht : t ≠ worker) : isCons ((stateAt c σ n).pc t) = false := by
  cases hc : isCons ((stateAt c σ n).pc t) with
  | false => rfl
  | true => exact absurd ((h.inv n).consTid h.async t hc) ht

/-- No statement begins after the stop. -/
theorem refuse {s : St α} {e : Ev α} {t : Nat} (hs : s.state ≠ .running) (hp : s.pc t = .idle) :
    (step c s e).pc t = .idle ∧ (step c s e).calls = s.calls := by
  cases e with
  | run u =>
    refine ⟨idle_stays (fun b hb => (by cases hb)) hp, ?_⟩
    simp only [Ring.step]
    unfold Ring.stepT
    split <;> (repeat' split) <;> rfl
  | call u b =>
    simp only [Ring.step]
    split
    · rw [if_neg (fun h => hs h.2)]; exact ⟨hp, rfl⟩
    · exact ⟨hp, rfl⟩
  | started => refine ⟨idle_stays (fun b hb => (by cases hb)) hp, calls_const (fun t b hb => (by cases hb))⟩
  | closing => refine ⟨idle_stays (fun b hb => (by cases hb)) hp, calls_const (fun t b hb => (by cases hb))⟩
  | stop => refine ⟨idle_stays (fun b hb => (by cases hb)) hp, calls_const (fun t b hb => (by cases hb))⟩

theorem calls_stay {s : St α} {e : Ev α} (hs : s.state ≠ .running) : (step c s e).calls = s.calls := by
  cases e with
  | call u b =>
    simp only [Ring.step]
    split
    · rw [if_neg (fun h => hs h.2)]
    · rfl
  | run u => exact calls_const (fun t b hb => (by cases hb))
  | started => exact calls_const (fun t b hb => (by cases hb))
  | closing => exact calls_const (fun t b hb => (by cases hb))
  | stop => exact calls_const (fun t b hb => (by cases hb))

/-- One thread leaves. -/
theorem leaves (h : Stopping c σ N) {t : Nat} (ht : t ≠ worker) :
    ∃ M, N < M ∧ ∀ n, M ≤ n → (stateAt c σ n).pc t = .idle := by
  have hstay : ∀ m, N < m → (stateAt c σ m).pc t = .idle → ∀ n, m ≤ n → (stateAt c σ n).pc t = .idle := by
    intro m hm hi n hn
    obtain ⟨d, rfl⟩ := Nat.le.dest hn
    clear hn
    induction d with
    | zero => exact hi
    | succ d ih =>
      rw [← Nat.add_assoc, stateAt_succ]
      exact (refuse (h.notRunning (by omega)) ih).1
  by_cases h0 : (stateAt c σ (N + 1)).pc t = .idle
  · exact ⟨N + 1, by omega, hstay (N + 1) (by omega) h0⟩
  · obtain ⟨m, hm, hg⟩ := fair_rank (σ := σ) (t := t) (I := fun j => N < j ∧ (stateAt c σ j).pc t ≠ .idle)
      (G := fun j => (stateAt c σ j).pc t = .idle) (r := fun j => leaveRank ((stateAt c σ j).pc t))
      (fun j hj => h.fair t j hj.2)
      (fun j hj he => by
        right
        rw [stateAt_succ, step_pc_other he hj.2]
        exact ⟨⟨by omega, hj.2⟩, Nat.le_refl _⟩)
      (fun j hj he => by
        by_cases hg : (stateAt c σ (j + 1)).pc t = .idle
        · exact Or.inl hg
        · right
          refine ⟨⟨by omega, hg⟩, ?_⟩
          rw [stateAt_succ, he]
          exact leave_step (h.notRunning hj.1) (h.notCons ht) hj.2)
      (N + 1) ⟨by omega, h0⟩
    exact ⟨m, by omega, hstay m (by omega) hg⟩

/-- All threads but the one of the channel leave. -/
theorem all_leave (h : Stopping c σ N) :
    ∃ M, N < M ∧ ∀ n, M ≤ n → ∀ t, t ≠ worker → (stateAt c σ n).pc t = .idle := by
  have hlist : ∀ l : List Nat, ∃ M, N < M ∧ ∀ n, M ≤ n → ∀ t ∈ l, t ≠ worker → (stateAt c σ n).pc t = .idle := by
    intro l
    induction l with
    | nil => exact ⟨N + 1, by omega, fun n _ t ht => absurd ht (by simp)⟩
    | cons t l ih =>
      obtain ⟨M1, hM1, h1⟩ := ih
      by_cases htw : t = worker
      · refine ⟨M1, hM1, fun n hn u hu huw => ?_⟩
        rcases List.mem_cons.mp hu with rfl | hu
        · exact absurd htw huw
        · exact h1 n hn u hu huw
      · obtain ⟨M2, hM2, h2⟩ := h.leaves htw
        refine ⟨max M1 M2, by omega, fun n hn u hu huw => ?_⟩
        rcases List.mem_cons.mp hu with rfl | hu
        · exact h2 n (by omega)
        · exact h1 n (by omega) u hu huw
  have hcalls : ∀ n, N < n → (stateAt c σ n).calls = (stateAt c σ (N + 1)).calls := by
    intro n hn
    obtain ⟨d, rfl⟩ := Nat.le.dest hn
    clear hn
    induction d with
    | zero => rfl
    | succ d ih =>
      rw [show N.succ + (d + 1) = N.succ + d + 1 by omega, stateAt_succ, calls_stay (h.notRunning (by omega)), ih]
  obtain ⟨M, hM, hall⟩ := hlist ((stateAt c σ (N + 1)).calls.map Prod.fst)
  refine ⟨M, hM, fun n hn t ht => ?_⟩
  apply Classical.byContradiction
  intro hp
  rcases known_at c σ n t hp with h1 | ⟨_, h1⟩
  · rw [hcalls n (by omega)] at h1
    exact hp (hall n hn t h1 ht)
  · exact ht h1

/-- The channel thread ends. -/
theorem done (h : Stopping c σ N) : ∃ M, N < M ∧ ∀ n, M ≤ n →
    (∀ t, t ≠ worker → (stateAt c σ n).pc t = .idle) ∧ (stateAt c σ n).pc worker = .done := by
  obtain ⟨M, hM, hidle⟩ := h.all_leave
  have hstay : ∀ m, (stateAt c σ m).pc worker = .done → ∀ n, m ≤ n → (stateAt c σ n).pc worker = .done := by
    intro m hd n hn
    obtain ⟨d, rfl⟩ := Nat.le.dest hn
    clear hn
    induction d with
    | zero => exact hd
    | succ d ih =>
      rw [← Nat.add_assoc, stateAt_succ]
      by_cases he : σ (m + d) = .run worker
      · rw [he]
        simp only [Ring.step]
        unfold Ring.stepT
        rw [ih]
        exact ih
      · rw [step_pc_other he (by rw [ih]; simp)]
        exact ih
  have hact : ∀ j, (stateAt c σ j).pc worker ≠ .idle := fun j he => by
    have := (h.ord j).pcw; rw [he] at this; exact this
  obtain ⟨m, hm, hg⟩ := fair_rank (σ := σ) (t := worker) (I := fun j => M ≤ j)
    (G := fun j => (stateAt c σ j).pc worker = .done) (r := fun j => drainMeasure (stateAt c σ j))
    (fun j _ => h.fair worker j (hact j))
    (fun j hj he => by
      right
      refine ⟨by omega, ?_⟩
      have hpc : (stateAt c σ (j + 1)).pc worker = (stateAt c σ j).pc worker := by
        rw [stateAt_succ, step_pc_other he (hact j)]
      have hsame : (stateAt c σ (j + 1)).W = (stateAt c σ j).W ∧ (stateAt c σ (j + 1)).P = (stateAt c σ j).P ∧
          (stateAt c σ (j + 1)).R = (stateAt c σ j).R := by
        rw [stateAt_succ]
        cases hev : σ j with
        | run t =>
          have ht : t ≠ worker := fun x => he (by rw [hev, x])
          simp only [Ring.step]
          unfold Ring.stepT
          rw [hidle j hj t ht]
          exact ⟨rfl, rfl, rfl⟩
        | call t b => simp only [Ring.step]; (repeat' split) <;> exact ⟨rfl, rfl, rfl⟩
        | started => simp only [Ring.step]; (repeat' split) <;> exact ⟨rfl, rfl, rfl⟩
        | closing => exact ⟨rfl, rfl, rfl⟩
        | stop => simp only [Ring.step]; (repeat' split) <;> exact ⟨rfl, rfl, rfl⟩
      unfold drainMeasure
      rw [hpc, hsame.1, hsame.2.1, hsame.2.2]
      exact Nat.le_refl _)
    (fun j hj he => by
      have := (quit_step h.async (h.inv j) (h.ord j) (h.pub (show N < j by omega))).2
      rw [stateAt_succ, he]
      rcases this with h1 | h1
      · exact Or.inl h1
      · exact Or.inr ⟨by omega, h1⟩)
    M (Nat.le_refl _)
  exact ⟨m, by omega, fun n hn => ⟨hidle n (by omega), hstay m hg n hn⟩⟩

end Stopping

end FNLog
