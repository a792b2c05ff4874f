import Verif.Props.LiveStop
import Verif.Props.CatchUp

/-!
# Property C101 for sync channels

`StopChannels` sets a sync channel to NULL (fn_core.h 86) and waits for nobody.  `C101_sync_counterexample` shows what a thread
inside `EnterProcChannel` can then do.  Here no thread is inside of it at the stop.
-/

namespace FNLog
open Ring Spec

variable {α : Type}

/-- An execution without end in which a sync channel is stopped at time `N`, while no thread is inside `EnterProcChannel`. -/
structure StoppingSync (c : Cfg α) (σ : Nat → Ev α) (N : Nat) : Prop where
  sync : c.async = false
  fair : Fair c σ
  stop : σ N = .stop
  quiet : ∀ t, isCons ((stateAt c σ N).pc t) = false

/-- The channel is stopped, and nobody is inside `EnterProcChannel`. -/
structure Silent (s0 s : St α) : Prop where
  state : s.state = .null
  quiet : ∀ t, isCons (s.pc t) = false
  out : s.out = s0.out
  P : s.P = s0.P
  R : s.R = s0.R
  calls : s.calls = s0.calls

theorem Silent.stepT {c : Cfg α} {s0 s : St α} (h : Silent s0 s) (t : Nat) : Silent s0 (stepT c s t) := by
  obtain ⟨h1, h2, h3, h4, h5, h6⟩ := h
  have ht := h2 t
  unfold Ring.stepT
  cases hpc : s.pc t <;> rw [hpc] at ht <;> simp only [isCons, reduceCtorEq] at ht <;>
    (try simp only [h1, reduceCtorEq, if_false, and_false]) <;> (repeat' split) <;> (try contradiction) <;>
    refine ⟨by first | exact h1 | rfl, fun u => ?_, h3, h4, h5, h6⟩ <;>
    first
    | exact h2 u
    | (simp only [go_pc]; split
       · rfl
       · exact h2 u)

theorem Silent.step {c : Cfg α} (hA : c.async = false) {s0 s : St α} (h : Silent s0 s) (e : Ev α) : Silent s0 (step c s e) := by
  cases e with
  | call t b =>
    have := h.state
    simp only [Ring.step]
    split
    · rw [if_neg (by rw [this]; simp)]; exact h
    · exact h
  | run t => exact h.stepT t
  | started =>
    simp only [Ring.step]
    rw [if_neg (by rw [h.state]; simp)]; exact h
  | closing => exact ⟨h.state, h.quiet, h.out, h.P, h.R, h.calls⟩
  | stop =>
    simp only [Ring.step]
    rw [if_neg (by rw [hA]; simp)]
    exact ⟨rfl, h.quiet, h.out, h.P, h.R, h.calls⟩

namespace StoppingSync

variable {c : Cfg α} {σ : Nat → Ev α} {N : Nat}

theorem silent (h : StoppingSync c σ N) {n : Nat} (hn : N < n) : Silent (stateAt c σ N) (stateAt c σ n) := by
  obtain ⟨d, rfl⟩ := Nat.le.dest hn
  clear hn
  induction d with
  | zero =>
    rw [Nat.add_zero, stateAt_succ, h.stop]
    simp only [Ring.step]
    rw [if_neg (by rw [h.sync]; simp)]
    exact ⟨rfl, h.quiet, rfl, rfl, rfl, rfl⟩
  | succ d ih =>
    rw [show N.succ + (d + 1) = N.succ + d + 1 by omega, stateAt_succ]
    exact ih.step h.sync _

theorem leaves (h : StoppingSync c σ N) (t : Nat) : ∃ M, N < M ∧ ∀ n, M ≤ n → (stateAt c σ n).pc t = .idle := by
  have hst : ∀ n, N < n → (stateAt c σ n).state ≠ .running := fun n hn => by rw [(h.silent hn).state]; simp
  have hstay : ∀ m, N < m → (stateAt c σ m).pc t = .idle → ∀ n, m ≤ n → (stateAt c σ n).pc t = .idle := by
    intro m hm hi n hn
    obtain ⟨d, rfl⟩ := Nat.le.dest hn
    clear hn
    induction d with
    | zero => exact hi
    | succ d ih =>
      rw [← Nat.add_assoc, stateAt_succ]
      exact (Stopping.refuse (hst _ (by omega)) ih).1
  by_cases h0 : (stateAt c σ (N + 1)).pc t = .idle
  · exact ⟨N + 1, by omega, hstay (N + 1) (by omega) h0⟩
  · obtain ⟨m, hm, hg⟩ := fair_rank (σ := σ) (t := t) (I := fun j => N < j ∧ (stateAt c σ j).pc t ≠ .idle)
      (G := fun j => (stateAt c σ j).pc t = .idle) (r := fun j => leaveRank ((stateAt c σ j).pc t))
      (fun j hj => h.fair t j hj.2)
      (fun j hj he => by
        right
        rw [stateAt_succ, step_pc_other he hj.2]
        exact ⟨⟨by omega, hj.2⟩, Nat.le_refl _⟩)
      (fun j hj he => by
        by_cases hg : (stateAt c σ (j + 1)).pc t = .idle
        · exact Or.inl hg
        · right
          refine ⟨⟨by omega, hg⟩, ?_⟩
          rw [stateAt_succ, he]
          exact leave_step (hst j hj.1) ((h.silent hj.1).quiet t) hj.2)
      (N + 1) ⟨by omega, h0⟩
    exact ⟨m, by omega, hstay m (by omega) hg⟩

theorem all_leave (h : StoppingSync c σ N) : ∃ M, N < M ∧ ∀ n, M ≤ n → ∀ t, (stateAt c σ n).pc t = .idle := by
  have hlist : ∀ l : List Nat, ∃ M, N < M ∧ ∀ n, M ≤ n → ∀ t ∈ l, (stateAt c σ n).pc t = .idle := by
    intro l
    induction l with
    | nil => exact ⟨N + 1, by omega, fun n _ t ht => absurd ht (by simp)⟩
    | cons t l ih =>
      obtain ⟨M1, hM1, h1⟩ := ih
      obtain ⟨M2, hM2, h2⟩ := h.leaves t
      refine ⟨max M1 M2, by omega, fun n hn u hu => ?_⟩
      rcases List.mem_cons.mp hu with rfl | hu
      · exact h2 n (by omega)
      · exact h1 n (by omega) u hu
  obtain ⟨M, hM, hall⟩ := hlist ((stateAt c σ N).calls.map Prod.fst)
  refine ⟨M, hM, fun n hn t => ?_⟩
  apply Classical.byContradiction
  intro hp
  rcases known_at c σ n t hp with h1 | ⟨h1, _⟩
  · rw [(h.silent (by omega)).calls] at h1
    exact hp (hall n hn t h1)
  · rw [h.sync] at h1; exact absurd h1 (by simp)

end StoppingSync

/-- **C101** for sync channels, when no thread is inside `EnterProcChannel` at the stop: every log statement returns, the channel
stays stopped, and nothing more is output: exactly the lines processed before the stop are written.
Missing: lines that were published and not yet processed are not written (`C101_sync_lost_counterexample`); threads inside
`EnterProcChannel` (`C101_sync_counterexample`). -/
theorem C101_sync_returns_partial (c : Cfg α) (σ : Nat → Ev α) (N : Nat) (h : StoppingSync c σ N) :
    Eventually fun n => (∀ t, (stateAt c σ n).pc t = .idle) ∧ (stateAt c σ n).state = .null ∧
      (stateAt c σ n).out = (stateAt c σ N).out := by
  obtain ⟨M, hM, hall⟩ := h.all_leave
  exact ⟨M, fun n hn => ⟨hall n hn, (h.silent (by omega)).state, (h.silent (by omega)).out⟩⟩

/-- Thread 1 has published its line and has not begun to process it, when the channel is stopped. -/
def lostBefore : List (Ev Nat) := [.started, .call 1 [7]] ++ steps 1 16 ++ [.closing]

def lostStart : List (Ev Nat) := lostBefore ++ [.stop] ++ steps 1 6

def lostRound : List (Ev Nat) := steps 0 1 ++ steps 1 1

theorem lost_events : ∀ e ∈ lostStart ++ lostRound, evBelow 2 e = true := by
  rw [← List.all_eq_true]; decide +kernel

theorem lost_shift : Shift tinySync 0 (run tinySync (init tinySync) lostStart)
    (run tinySync (init tinySync) (lostStart ++ lostRound)) := by
  refine shift_of (K := 2) (by decide) lost_events (by decide +kernel) ?_
  intro t ht
  by_cases h0 : t = 0
  · rw [h0]; kernel_rfl
  · rw [show t = 1 by omega]; kernel_rfl

theorem lost_stopping : StoppingSync tinySync (periodic lostStart lostRound) lostBefore.length := by
  refine ⟨rfl, periodic_fair (K := 2) (by decide) (round3 (by decide)) lost_events, rfl, fun t => ?_⟩
  by_cases h1 : t = 1
  · rw [h1]; unfold stateAt; rw [upTo_periodic _ _ _ (by decide)]; decide +kernel
  · cases hc : isCons ((stateAt tinySync (periodic lostStart lostRound) lostBefore.length).pc t) with
    | false => rfl
    | true =>
      rcases known_at tinySync (periodic lostStart lostRound) lostBefore.length t (fun e => by rw [e] at hc; exact absurd hc (by simp [isCons]))
        with h | ⟨h, _⟩
      · have e : (stateAt tinySync (periodic lostStart lostRound) lostBefore.length).calls = [(1, [7])] := by
          unfold stateAt; rw [upTo_periodic _ _ _ (by decide)]; decide +kernel
        rw [e] at h
        exact absurd (List.mem_singleton.mp h) h1
      · exact absurd h (by decide)

/-- **C101** does not hold for sync channels even then: a line that is published at the stop is never written. -/
theorem C101_sync_lost_counterexample : ∃ (σ : Nat → Ev Nat) (N : Nat), StoppingSync tinySync σ N ∧
    (∀ n, Timely tinySync (init tinySync) (upTo σ n)) ∧
    (stateAt tinySync σ N).acquired = [(1, [7, 0])] ∧ (stateAt tinySync σ N).W = 1 ∧
    Eventually fun n => (∀ t, (stateAt tinySync σ n).pc t = .idle) ∧ (stateAt tinySync σ n).out = [] := by
  refine ⟨_, _, lost_stopping, periodic_timely (by decide) (by decide) (by decide) lost_shift (by decide +kernel), ?_, ?_, ?_⟩
  · unfold stateAt; rw [upTo_periodic _ _ _ (by decide)]; decide +kernel
  · unfold stateAt; rw [upTo_periodic _ _ _ (by decide)]; decide +kernel
  · obtain ⟨M, h⟩ := C101_sync_returns_partial _ _ _ lost_stopping
    refine ⟨M, fun n hn => ⟨(h n hn).1, (h n hn).2.2.trans ?_⟩⟩
    unfold stateAt; rw [upTo_periodic _ _ _ (by decide)]; decide +kernel

/-! ## With eleven slots

The ring of the shortest queue the code allows has more slots than that of `C101_sync_counterexample`; then other statements fill the
queue behind the slot that is given up. -/

/-- Thread 1 is at the end of `EnterProcChannel`, thread 2 writes its text, thread 4 has made nine statements, which have
returned, and thread 3 waits for a slot. -/
def stopStuckBefore : List (Ev Char) :=
  [.started, .call 1 ['a']] ++ stepsC 1 36 ++ .call 2 ['b'] :: stepsC 2 8 ++
    ((List.range 9).map (fun i => .call 4 [Char.ofNat (65 + i)] :: stepsC 4 40)).flatten ++ .call 3 ['c'] :: stepsC 3 4

/-- The logger is stopped; thread 2 gives up its slot; thread 1 sets the channel to RUNNING. -/
def stopStuck : List (Ev Char) := stopStuckBefore ++ [.closing, .stop] ++ stepsC 2 3 ++ stepsC 1 3

/-- Where thread 3 is. -/
def waitsNow : PC Char → Bool
  | .hSleep _ => true
  | _ => false

theorem known_run {c : Cfg α} : ∀ (es : List (Ev α)) {s : St α}, Known c s → Known c (run c s es) := by
  intro es
  induction es with
  | nil => intro s h; exact h
  | cons e es ih => intro s h; exact ih (h.step e)

/-- **C101** fails on a sync channel with eleven slots: after the stop the logger is not running, threads 1, 2 and 4 have returned, and
the statement of thread 3 never returns, whatever happens but another stop; the nine lines of the statements that had
returned before the stop are never written. -/
theorem C101_sync_stuck_counterexample :
    Timely ring11s (init ring11s) stopStuck ∧ (after ring11s stopStuck).lgRunning = false ∧
    (after ring11s stopStuckBefore).pc 4 = .idle ∧ (linesOf 4 (after ring11s stopStuckBefore).calls).length = 9 ∧
    (∀ t, t ≠ 3 → (after ring11s stopStuck).pc t = .idle) ∧
    ∀ es : List (Ev Char), (∀ e ∈ es, e.noStop) → (run ring11s (after ring11s stopStuck) es).pc 3 ≠ .idle ∧
      (run ring11s (after ring11s stopStuck) es).out = [(0, ['a', '\n'])] := by
  have h0 : (after ring11s stopStuck).pc 1 = .idle ∧ (after ring11s stopStuck).pc 2 = .idle ∧
      (after ring11s stopStuck).pc 4 = .idle ∧ waitsNow ((after ring11s stopStuck).pc 3) = true ∧
      (after ring11s stopStuck).state = .running ∧ (after ring11s stopStuck).out = [(0, ['a', '\n'])] ∧
      ((after ring11s stopStuck).H + 1) % 11 = (after ring11s stopStuck).R % 11 ∧
      (after ring11s stopStuck).calls.map Prod.fst = [1, 2, 4, 4, 4, 4, 4, 4, 4, 4, 4, 3] := by decide +kernel
  obtain ⟨p1, p2, p4, p3, hst, hout, hfull, hcalls⟩ := h0
  have hidle : ∀ t, t ≠ 3 → (after ring11s stopStuck).pc t = .idle := by
    intro t ht
    apply Classical.byContradiction
    intro hp
    have hk : Known ring11s (after ring11s stopStuck) := known_run stopStuck (known_at ring11s (fun _ => .closing) 0)
    rcases hk t hp with h | ⟨h, _⟩
    · rw [hcalls] at h
      simp only [List.mem_cons, List.not_mem_nil, or_false] at h
      have : t = 1 ∨ t = 2 ∨ t = 4 := by omega
      rcases this with rfl | rfl | rfl
      · exact hp p1
      · exact hp p2
      · exact hp p4
    · exact absurd h (by decide)
  have hJ : Jam ring11s (after ring11s stopStuck) := by
    generalize after ring11s stopStuck = s at *
    refine ⟨rfl, hst, hfull, fun t => ?_⟩
    by_cases ht : t = 3
    · rw [ht]
      cases hp : s.pc 3 <;> rw [hp] at p3 <;> first | trivial | exact absurd p3 (by simp [waitsNow])
    · rw [hidle t ht]; trivial
  refine ⟨by decide +kernel, by decide +kernel, by decide +kernel, by decide +kernel, hidle, fun es hes => ?_⟩
  obtain ⟨_, _, ho, hp⟩ := Jam.run es hJ hes
  exact ⟨hp 3 (fun h => by rw [h] at p3; exact absurd p3 (by simp [waitsNow])), ho.trans hout⟩

end FNLog
