import Verif.Proof.Stalled

/-!
# C89: a log statement that does not go on

A log statement holds its slot while its operands are evaluated and written.  It may not go on for a long time, for example
because evaluating an operand waits for another thread, or because an operand is a function that itself logs: then the inner
statements are further threads of the model, and the outer ones make no step until they have returned.
-/

namespace FNLog
open Ring Spec

variable {α : Type}

/-- **C89**, partial: what holds.  While the statement `t` does not go on, other statements (inner ones too) get a slot and
return as long as a slot is free, and the statement keeps its slot.  Missing: see `C89_stuck_counterexample`. -/
theorem C89_others_return_partial (c : Cfg α) (hL : 0 < c.L) (es : List (Ev α)) (ht : Timely c (init c) es) (t k : Nat)
    (rest : List α) (hpc : (after c es).pc t = .fill k rest) (u : Nat) (b : List α)
    (hst : (after c es).state = .running) (hlg : (after c es).lgRunning = true) (hu : (after c es).pc u = .idle)
    (hroom : (after c es).acquired.length + 1 < (after c es).R + c.L) (n : Nat) (hn : 100 * c.L + 204 + b.length ≤ n) :
    (after c (es ++ .call u b :: List.replicate n (.run u))).pc u = .idle ∧
    (after c (es ++ .call u b :: List.replicate n (.run u))).acquired = (after c es).acquired ++ [(u, withEnd c.nl b)] ∧
    (after c (es ++ .call u b :: List.replicate n (.run u))).pc t = .fill k rest := by
  obtain ⟨h1, h2⟩ := C17_alone_completes c hL es ht u b hst hlg hu hroom n hn
  refine ⟨h1, h2, ?_⟩
  have hne : u ≠ t := fun h => by rw [h, hpc] at hu; cases hu
  rw [after, run_append]
  refine (run_pc_stalled (by rw [hpc]; nofun) fun e he h => ?_).trans hpc
  subst h
  simp only [List.mem_cons, List.mem_replicate] at he
  rcases he with he | he
  · cases he
  · cases he.2; exact hne rfl

/-- **C89.** Until it goes on, neither its record nor any record behind it is output, and at most `BUFFER_LEN - 1` records
from its own on are ever acquired, whatever the other threads do. -/
theorem C89_nothing_passes (c : Cfg α) (hL : 0 < c.L) (es es' : List (Ev α)) (ht : Timely c (init c) (es ++ es')) (t k : Nat)
    (rest : List α) (hpc : (after c es).pc t = .fill k rest) (hs : ∀ e ∈ es', e ≠ .run t) :
    (∀ x ∈ (after c (es ++ es')).out, x.1 < k) ∧ (after c (es ++ es')).acquired.length ≤ k + (c.L - 1) := by
  have hi := inv_after hL ht
  have hp : (after c (es ++ es')).pc t = .fill k rest := by
    rw [after, run_append]
    exact (run_pc_stalled (by rw [hpc]; nofun) hs).trans hpc
  have hown := hi.ti t
  rw [hp] at hown
  have h1 : (after c (es ++ es')).W ≤ k := hown.1.1
  have h2 := hi.leRP
  have h3 := hi.lePW
  have h4 := hi.cap
  have h5 := hi.len
  refine ⟨fun x hx => ?_, by omega⟩
  have := (hi.outMem x.1).mp (List.mem_map_of_mem hx)
  omega

/-- **C89**, the violation: when `BUFFER_LEN - 1` records have been acquired from its own on, every statement that is waiting
for a slot waits for ever, and no statement gets one.  If the statement can only go on when one of these has returned - it
is waiting for their thread, or they are inner statements - this is a deadlock. -/
theorem C89_stuck_counterexample (c : Cfg α) (hL : 0 < c.L) (es es' : List (Ev α)) (ht : Timely c (init c) (es ++ es'))
    (hn : ∀ e ∈ es ++ es', e.noStop) (t k : Nat) (rest : List α) (hpc : (after c es).pc t = .fill k rest)
    (hfull : k + c.L = (after c es).acquired.length + 1) (hs : ∀ e ∈ es', e ≠ .run t) :
    (after c (es ++ es')).acquired = (after c es).acquired ∧
    ∀ u b, (after c es).pc u = .hChk 0 b → (after c (es ++ es')).pc u ≠ .idle := by
  rw [timely_append] at ht
  have hi := inv_after hL ht.1
  obtain ⟨hns, _⟩ := ns_after hL ht.1 fun e he => hn e (List.mem_append_left _ he)
  obtain ⟨h1, h2⟩ := stalled_run hi hns hpc hfull hs (fun e he => hn e (List.mem_append_right _ he)) ht.2
  rw [after, run_append]
  refine ⟨h1, fun u b hu hid => ?_⟩
  have := h2 u (by rw [hu]; rfl)
  rw [hid] at this
  cases this

/-- One thread with ten nested statements, each an operand of the one before, on a channel with eleven slots: contexts 1 to
10 hold their slots, context 11 waits. -/
def nestSched : List (Ev Nat) :=
  steps 0 5 ++ [.started] ++ ((List.range 10).map fun i => .call (i + 1) [7] :: steps (i + 1) 7).flatten ++ [.call 11 [7]]

/-- The hypotheses are met by nested statements, and by what the thread can still do. -/
example : let c : Cfg Nat := ⟨11, true, 0⟩
    Timely c (init c) (nestSched ++ (steps 11 30 ++ steps 0 30)) ∧ (after c nestSched).pc 1 = .fill 0 [7] ∧
    0 + c.L = (after c nestSched).acquired.length + 1 ∧ (after c nestSched).pc 11 = .hChk 0 [7] := by decide +kernel

/-- With a free slot: two levels. -/
example : let c : Cfg Nat := ⟨11, true, 0⟩
    let es := steps 0 5 ++ [.started, .call 1 [7]] ++ steps 1 7
    Timely c (init c) es ∧ (after c es).pc 1 = .fill 0 [7] ∧ (after c es).state = .running ∧ (after c es).lgRunning = true ∧
    (after c es).pc 2 = .idle ∧ (after c es).acquired.length + 1 < (after c es).R + c.L := by decide +kernel

end FNLog
