import Verif.Proof.LiveStop
import Verif.Props.Live

/-!
# Property C101: StopLogger returns, and nobody stays behind

`StopLogger` joins the thread of an async channel (fn_core.h 92-106).  `Stopping c σ N`: a fair execution without end in
which the channel runs and is stopped at time `N`; before and after it the threads do what they like.
-/

namespace FNLog
open Ring Spec

variable {α : Type}

/-- C101: after the stop of an async channel its thread ends, so that the join returns; every log statement returns; and
everything that was published when the channel was stopped is written. -/
theorem C101_stop_returns_partial (c : Cfg α) (σ : Nat → Ev α) (N : Nat) (h : Stopping c σ N) :
    Eventually fun n => (stateAt c σ n).pc worker = .done ∧ (∀ t, t ≠ worker → (stateAt c σ n).pc t = .idle) ∧
      ∃ more, (stateAt c σ n).out.map Prod.snd =
        ((stateAt c σ N).acquired.map Prod.snd).take (stateAt c σ N).W ++ more := by
  obtain ⟨M, hM, hall⟩ := h.done
  refine ⟨M, fun n hn => ⟨(hall n hn).2, (hall n hn).1, ?_⟩⟩
  obtain ⟨d, rfl⟩ := Nat.le.dest (show N + 1 ≤ n by omega)
  have hsplit : upTo σ (N + 1 + d) = upTo σ N ++ .stop :: (List.range d).map (fun i => σ (N + 1 + i)) := by
    unfold upTo
    rw [List.range_add, List.map_append, List.range_succ, List.map_append, List.append_assoc]
    simp only [List.map_cons, List.map_nil, h.stop, List.map_map, List.cons_append, List.nil_append]
    rfl
  have ht := h.timely (N + 1 + d)
  have hdone := (hall _ hn).2
  unfold stateAt at hdone ⊢
  rw [hsplit] at ht hdone ⊢
  exact C14_published_survive_partial c h.pos h.async _ _ ht (fun e he => by
    obtain ⟨i, hi, rfl⟩ := List.mem_map.mp he
    exact h.before i (by simpa using hi)) h.running hdone

/-! ## The hypotheses are met -/

/-- One line is published, thread 1 is inside a second statement and thread 2 waits for a slot; then comes the stop. -/
def endBefore : List (Ev Nat) :=
  steps 0 5 ++ [.started, .call 1 [7]] ++ steps 1 22 ++ [.call 1 [8], .call 2 [9]] ++ steps 1 4 ++ steps 2 5 ++ [.closing]

/-- The other threads leave, the channel thread writes the line and ends. -/
def endStart : List (Ev Nat) := endBefore ++ [.stop] ++ steps 1 6 ++ steps 2 6 ++ steps 0 40

def endRound : List (Ev Nat) := steps 0 1 ++ steps 1 1 ++ steps 2 1

theorem end_events : ∀ e ∈ endStart ++ endRound, evBelow 3 e = true := by
  rw [← List.all_eq_true]; decide +kernel

theorem end_shift : Shift tinyAsync 0 (run tinyAsync (init tinyAsync) endStart)
    (run tinyAsync (init tinyAsync) (endStart ++ endRound)) := by
  refine shift_of (K := 3) (by decide) end_events (by decide +kernel) ?_
  intro t ht
  by_cases h0 : t = 0
  · rw [h0]; kernel_rfl
  by_cases h1 : t = 1
  · rw [h1]; kernel_rfl
  · rw [show t = 2 by omega]; kernel_rfl

theorem round3 {per : List (Ev Nat)} {K : Nat} (h : ((List.range K).all fun t => per.any fun e =>
    match e with | .run u => u == t | _ => false) = true) : ∀ t, t < K → .run t ∈ per := by
  intro t ht
  have := List.all_eq_true.mp h t (List.mem_range.mpr ht)
  obtain ⟨e, he, h2⟩ := List.any_eq_true.mp this
  cases e with
  | run u => simp only [beq_iff_eq] at h2; rw [← h2]; exact he
  | _ => simp at h2

theorem end_stopping : Stopping tinyAsync (periodic endStart endRound) endBefore.length := by
  refine ⟨by decide, rfl, periodic_timely (by decide) (by decide) (by decide) end_shift (by decide +kernel),
    periodic_fair (K := 3) (by decide) (round3 (by decide)) end_events, ?_, rfl, ?_⟩
  · intro n hn
    have h1 : ∀ e ∈ endBefore, evGoes e = true := by rw [← List.all_eq_true]; decide +kernel
    have h2 : periodic endStart endRound n ∈ endBefore := by
      unfold periodic
      have h3 : n < endStart.length := by
        unfold endStart
        simp only [List.length_append]
        omega
      have h4 : endStart[n] = endBefore[n] := by
        unfold endStart
        simp only [List.append_assoc]
        rw [List.getElem_append_left]
      rw [if_pos h3, List.getD_eq_getElem?_getD, List.getElem?_eq_getElem h3, h4]
      exact List.getElem_mem hn
    have := h1 _ h2
    revert this
    cases periodic endStart endRound n <;> simp [evGoes, Ev.noStop]
  · unfold stateAt
    rw [upTo_periodic _ _ _ (by decide)]
    decide +kernel

example : Stopping tinyAsync (periodic endStart endRound) endBefore.length ∧
    (after tinyAsync endBefore).out = [] ∧ (after tinyAsync endBefore).W = 1 ∧
    (after tinyAsync endBefore).pc 1 ≠ .idle ∧ (after tinyAsync endBefore).pc 2 ≠ .idle ∧
    (after tinyAsync endStart).pc 0 = .done ∧ (after tinyAsync endStart).out.map Prod.snd = [[7, 0]] := by
  refine ⟨end_stopping, by decide +kernel, by decide +kernel, fun h => ?_, fun h => ?_, by kernel_rfl, by decide +kernel⟩
  · have : leaveRank ((after tinyAsync endBefore).pc 1) ≠ 0 := by decide +kernel
    rw [h] at this; exact this rfl
  · have : leaveRank ((after tinyAsync endBefore).pc 2) ≠ 0 := by decide +kernel
    rw [h] at this; exact this rfl

/-! ## A sync channel

`StopChannels` sets a sync channel to NULL without waiting (fn_core.h 86).  Thread 1 is at the end of `EnterProcChannel` and
sets it to RUNNING again (fn_channel.h 187-190); in between thread 2 gives up its slot (fn_channel.h 489-492).  Nothing
behind this slot is processed any more, and thread 3 waits for room for ever. -/

def hangStart : List (Ev Nat) :=
  [.started, .call 1 [], .call 2 [], .call 3 []] ++ steps 1 35 ++ steps 2 8 ++ steps 3 4 ++ [.closing, .stop] ++
  steps 2 1 ++ steps 1 3

/-- Sleep, check the state, look for room, none, check the state. -/
def hangRound : List (Ev Nat) := steps 3 5 ++ steps 0 1 ++ steps 1 1 ++ steps 2 1

theorem hang_events : ∀ e ∈ hangStart ++ hangRound, evBelow 4 e = true := by
  rw [← List.all_eq_true]; decide +kernel

theorem hang_shift : Shift tinySync 0 (run tinySync (init tinySync) hangStart)
    (run tinySync (init tinySync) (hangStart ++ hangRound)) := by
  refine shift_of (K := 4) (by decide) hang_events (by decide +kernel) ?_
  intro t ht
  by_cases h0 : t = 0
  · rw [h0]; kernel_rfl
  by_cases h1 : t = 1
  · rw [h1]; kernel_rfl
  by_cases h2 : t = 2
  · rw [h2]; kernel_rfl
  · rw [show t = 3 by omega]; kernel_rfl

/-- Thread 3 is inside its statement, the others are not; the logger is stopped, the channel is not. -/
def hangs (s : St Nat) : Prop :=
  leaveRank (s.pc 3) ≠ 0 ∧ s.pc 1 = .idle ∧ s.pc 2 = .idle ∧ s.lgRunning = false ∧ s.state = .running

theorem leaveRank_shift (d : Nat) (p : PC α) : leaveRank (shiftPC d p) = leaveRank p := by
  cases p <;> rfl

/-- C101: the counterexample for sync channels.  A fair execution in which a log statement never returns after StopLogger. -/
theorem C101_sync_counterexample : ∃ σ : Nat → Ev Nat, Fair tinySync σ ∧ (∀ n, Timely tinySync (init tinySync) (upTo σ n)) ∧
    (∃ N, σ N = .stop) ∧ linesOf 3 (stateAt tinySync σ 4).calls = [[]] ∧
    Eventually fun n => (stateAt tinySync σ n).pc 3 ≠ .idle ∧ (stateAt tinySync σ n).pc 1 = .idle ∧
      (stateAt tinySync σ n).pc 2 = .idle ∧ (stateAt tinySync σ n).lgRunning = false := by
  refine ⟨periodic hangStart hangRound, periodic_fair (K := 4) (by decide) (round3 (by decide)) hang_events,
    periodic_timely (by decide) (by decide) (by decide) hang_shift (by decide +kernel), ⟨52, rfl⟩, ?_, hangStart.length, ?_⟩
  · unfold stateAt
    rw [upTo_periodic _ _ _ (by decide)]
    decide +kernel
  · intro n hn
    have := periodic_states (c := tinySync) (by decide) (by decide) (by decide) hang_shift (Q := hangs) ?_ ?_ n hn
    · obtain ⟨h1, h2, h3, h4, _⟩ := this
      exact ⟨fun h => h1 (by rw [h]; rfl), h2, h3, h4⟩
    · rintro s s' h ⟨h1, h2, h3, h4, h5⟩
      refine ⟨?_, ?_, ?_, h.lg.trans h4, h.state.trans h5⟩
      · rw [h.pc, leaveRank_shift]; exact h1
      · rw [h.pc, h2]; rfl
      · rw [h.pc, h3]; rfl
    · intro n hn
      match n, (show n < 8 from hn) with
      | 0, _ | 1, _ | 2, _ | 3, _ | 4, _ | 5, _ | 6, _ | 7, _ => exact ⟨by decide +kernel, rfl, rfl, rfl, rfl⟩

end FNLog
