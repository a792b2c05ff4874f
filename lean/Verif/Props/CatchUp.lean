import Verif.Props.Recover
import Verif.Proof.CatchUp

/-!
# Property C125: a sync channel after a crash

A sync channel has no thread of its own (fn_core.h 39-41): what a crash left in the queue waits for the
next log statement, whose thread outputs it in EnterProcChannel (fn_channel.h 520-523, 99-183).
`Ring.recover` is the crash and the start of the next process (`Verif/Model/Recover.lean`).
-/

namespace FNLog
open Ring Spec

/-- Log statements made one after the other: each thread makes `n` steps. -/
def oneByOne (n : Nat) (xs : List (Nat × List Char)) : List (Ev Char) :=
  (xs.map (fun x => .call x.1 x.2 :: stepsC x.1 n)).flatten

theorem idle_steps {c : Cfg Char} {s : St Char} {t : Nat} (h : s.pc t = .idle) :
    ∀ n, run c s (stepsC t n) = s := by
  intro n
  induction n with
  | zero => rfl
  | succ n ih =>
    show run c (stepT c s t) (stepsC t n) = s
    rw [show stepT c s t = s by simp only [stepT, h]]
    exact ih

theorem statement_then_rest {c : Cfg Char} (hL : 1 < c.L) (hA : c.async = false) (t : Nat) (b : List Char) (s : St Char)
    (hr : s.state = .running) (hl : s.lgRunning = true) (hp : ∀ u, s.pc u = .idle) (hPR : s.P = s.R) (hRW : s.R ≤ s.W)
    (hW : s.W = s.H) (hcap : s.H + 1 < s.R + c.L) :
    ∃ s' : St Char, (∃ n0, ∀ n, n0 ≤ n → run c s (.call t b :: stepsC t n) = s') ∧ s'.P = s'.R ∧ s'.R ≤ s'.W ∧ s'.W = s'.H ∧
      s'.R = s'.H ∧ s'.state = .running ∧ s'.lgRunning = true ∧ (∀ u, s'.pc u = .idle) ∧
      s'.out.map Prod.snd = s.out.map Prod.snd ++ (List.range' s.R (s.H - s.R)).map (fun k => s.cell (k % c.L)) ++
        [b ++ [c.nl]] := by
  obtain ⟨s', ⟨n0, hn0⟩, h1, h2, h3, h4, _, h6, h7, h8, h9⟩ := one_statement hL hA t b s hr hl (hp t) hPR hRW hW hcap
  refine ⟨s', ⟨n0, fun n hn => ?_⟩, by omega, by omega, by omega, by omega, h6, h7, fun u => by rw [h8]; exact hp u, h9⟩
  obtain ⟨k, rfl⟩ := Nat.exists_eq_add_of_le hn
  have : stepsC t (n0 + k) = stepsC t n0 ++ stepsC t k := by
    simp only [stepsC, List.replicate_append_replicate]
  rw [this, ← List.cons_append, run_append]
  rw [show run c s (.call t b :: stepsC t n0) = s' from hn0]
  exact idle_steps (by rw [h8]; exact hp t) k

theorem statements_empty {c : Cfg Char} (hL : 1 < c.L) (hA : c.async = false) : ∀ (xs : List (Nat × List Char)) (s : St Char),
    s.state = .running → s.lgRunning = true → (∀ u, s.pc u = .idle) → s.P = s.R → s.W = s.H → s.R = s.H →
    ∃ n0, ∀ n, n0 ≤ n → (∀ u, (run c s (oneByOne n xs)).pc u = .idle) ∧
      (run c s (oneByOne n xs)).out.map Prod.snd = s.out.map Prod.snd ++ xs.map (fun x => x.2 ++ [c.nl]) := by
  intro xs
  induction xs with
  | nil =>
    intro s _ _ hp _ _ _
    exact ⟨0, fun n _ => ⟨hp, by simp [oneByOne, run]⟩⟩
  | cons x xs ih =>
    intro s hr hl hp hPR hW hRH
    obtain ⟨s', ⟨n0, hn0⟩, a1, a2, a3, a4, a5, a6, a7, a8⟩ :=
      statement_then_rest hL hA x.1 x.2 s hr hl hp hPR (by omega) hW (by omega)
    obtain ⟨m0, hm0⟩ := ih s' a5 a6 a7 a1 a3 a4
    refine ⟨max n0 m0, fun n hn => ?_⟩
    have e : run c s (oneByOne n (x :: xs)) = run c s' (oneByOne n xs) := by
      simp only [oneByOne, List.map_cons, List.flatten_cons]
      rw [run_append, hn0 n (by omega)]
    rw [e]
    obtain ⟨g1, g2⟩ := hm0 n (by omega)
    refine ⟨g1, ?_⟩
    rw [g2, a8, show s.H - s.R = 0 by omega]
    simp

/-- What the slots between `read` and `hold` contain after the recovery. -/
theorem recovered_cells (c : Cfg Char) (f : List Char → List Char) {s : St Char} (hi : Inv c s) :
    (List.range' s.R (s.H - s.R)).map (fun k => (recover c f s).cell (k % c.L)) =
      publishedLines s ++ (unpublishedTexts c s).map f := by
  have h1 := hi.leRP
  have h2 := hi.lePW
  have h3 := hi.leWH
  have h4 := hi.cap
  have hlen := hi.len
  have e : s.H - s.R = (s.W - s.R) + (s.H - s.W) := by omega
  rw [e, ← List.range'_append_1, List.map_append]
  congr 1
  · apply List.ext_getElem?
    intro i
    rw [List.getElem?_map]
    by_cases hi' : i < s.W - s.R
    · rw [List.getElem?_range' hi', publishedLines, List.getElem?_take_of_lt hi', List.getElem?_drop, List.getElem?_map,
        hi.sealedW (s.R + i) (by omega) (by omega)]
      simp only [Option.map_some, Option.some.injEq, recover]
      rw [show s.R + 1 * i = s.R + i by omega]
      exact recCells_below f s.cell (by omega) (by omega)
    · rw [List.getElem?_eq_none (by simp; omega), List.getElem?_eq_none]
      · rfl
      · simp only [publishedLines, List.length_take]; omega
  · rw [show s.R + (s.W - s.R) = s.W by omega, unpublishedTexts, List.map_map]
    apply List.map_congr_left
    intro k hk
    rw [List.mem_range'] at hk
    obtain ⟨i, hi', rfl⟩ := hk
    simp only [Function.comp_apply, recover]
    exact recCells_in c.L f _ _ _ _ (by omega) (by omega) (by omega)

/-- C125: when the process died with room in the queue, the next process of a sync channel outputs with
its first statement what the queue held: the published lines that were not released, in order and
unchanged, then the unpublished ones with the marker, then the line of the statement.  Statements made
one after the other all return and each outputs its line.
Missing from the full statement: the queue can be full (`C125_full_blocks`), and the lines can be ones
that were output before the crash (`C125_repeats_counterexample`). -/
theorem C125_next_statements_partial (c : Cfg Char) (hL : 1 < c.L) (hA : c.async = false) (N : Nat)
    (es : List (Ev Char)) (ht : Timely c (init c) es) (hroom : (after c es).H + 1 < (after c es).R + c.L)
    (x : Nat × List Char) (xs : List (Nat × List Char)) :
    ∃ n0, ∀ n, n0 ≤ n →
      (∀ t, (run c (recover c (recoveredLine N) (after c es)) (.started :: oneByOne n (x :: xs))).pc t = .idle) ∧
      (run c (recover c (recoveredLine N) (after c es)) (.started :: oneByOne n (x :: xs))).out.map Prod.snd =
        publishedLines (after c es) ++ (unpublishedTexts c (after c es)).map (recoveredLine N) ++
          (x :: xs).map (fun x => x.2 ++ [c.nl]) := by
  have hi := inv_after (by omega) ht
  have h1 := hi.leRP
  have h2 := hi.lePW
  have h3 := hi.leWH
  generalize hs : after c es = s at *
  have hstate : (recover c (recoveredLine N) s).state = .running := by simp [recover, hA]
  have hpc : ∀ u, (recover c (recoveredLine N) s).pc u = .idle := by intro u; simp [recover, hA]
  have hst : step c (recover c (recoveredLine N) s) .started = { recover c (recoveredLine N) s with lgRunning := true } :=
    if_pos hstate
  obtain ⟨s', ⟨n0, hn0⟩, a1, a2, a3, a4, a5, a6, a7, a8⟩ :=
    statement_then_rest hL hA x.1 x.2 { recover c (recoveredLine N) s with lgRunning := true } hstate rfl hpc rfl
      (show s.R ≤ s.H by omega) rfl hroom
  obtain ⟨m0, hm0⟩ := statements_empty hL hA xs s' a5 a6 a7 a1 a3 a4
  refine ⟨max n0 m0, fun n hn => ?_⟩
  have e : run c (recover c (recoveredLine N) s) (.started :: oneByOne n (x :: xs)) = run c s' (oneByOne n xs) := by
    show run c (step c (recover c (recoveredLine N) s) .started) (oneByOne n (x :: xs)) = _
    rw [hst]
    simp only [oneByOne, List.map_cons, List.flatten_cons]
    rw [run_append, hn0 n (by omega)]
  rw [e]
  obtain ⟨g1, g2⟩ := hm0 n (by omega)
  refine ⟨g1, ?_⟩
  rw [g2, a8]
  have hc := recovered_cells c (recoveredLine N) hi
  have hc' : (List.range' s.R (s.H - s.R)).map
      (fun k => ({ recover c (recoveredLine N) s with lgRunning := true } : St Char).cell (k % c.L)) =
      publishedLines s ++ (unpublishedTexts c s).map (recoveredLine N) := hc
  have ho : ({ recover c (recoveredLine N) s with lgRunning := true } : St Char).out = [] := rfl
  have hR : ({ recover c (recoveredLine N) s with lgRunning := true } : St Char).R = s.R := rfl
  have hH : ({ recover c (recoveredLine N) s with lgRunning := true } : St Char).H = s.H := rfl
  rw [ho, hR, hH, hc', List.map_nil, List.nil_append, List.append_assoc]
  rfl

/-- C125 is false when the process died with a full queue: in the next process every statement on the
channel waits for ever, whatever the threads do, until somebody stops the logger; nothing is output. -/
theorem C125_full_blocks (c : Cfg Char) (hL : 0 < c.L) (hA : c.async = false) (N : Nat)
    (es : List (Ev Char)) (ht : Timely c (init c) es) (hroom : ¬ (after c es).H + 1 < (after c es).R + c.L)
    (es1 es2 : List (Ev Char)) (hn1 : ∀ e ∈ es1, e.noStop) (hn2 : ∀ e ∈ es2, e.noStop) (t : Nat) (body : List Char)
    (hadm : (run c (recover c (recoveredLine N) (after c es)) es1).lgRunning = true) :
    (run c (recover c (recoveredLine N) (after c es)) (es1 ++ .call t body :: es2)).pc t ≠ .idle ∧
    (run c (recover c (recoveredLine N) (after c es)) (es1 ++ .call t body :: es2)).out = [] := by
  have hi := inv_after hL ht
  have hcap := hi.cap
  have hJ : Jam c (recover c (recoveredLine N) (after c es)) := by
    refine ⟨hA, by simp [recover, hA], ?_, ?_⟩
    · show ((after c es).H + 1) % c.L = (after c es).R % c.L
      rw [show (after c es).H + 1 = (after c es).R + c.L by omega, Nat.add_mod_right]
    · intro u
      simp [recover, hA, Waits]
  obtain ⟨j1, _, o1, _⟩ := Jam.run es1 hJ hn1
  rw [run_append]
  generalize hs1 : run c (recover c (recoveredLine N) (after c es)) es1 = s1 at *
  obtain ⟨j2, _, o2, _, _, _, p2⟩ := Jam.step j1 (.call t body) trivial
  obtain ⟨_, _, o3, p3⟩ := Jam.run es2 j2 hn2
  show (run c (step c s1 (.call t body)) es2).pc t ≠ .idle ∧ (run c (step c s1 (.call t body)) es2).out = []
  refine ⟨p3 t ?_, by rw [o3, o2, o1]; rfl⟩
  by_cases hp : s1.pc t = .idle
  · simp only [step, hp]
    rw [if_pos ⟨hadm, j1.running⟩, go_pc, if_pos rfl]
    simp
  · exact p2 t hp

/-- Thread 1 is held up in the output of its line; the other nine statements return. -/
def heldUpSched (n : Nat) : List (Ev Char) :=
  [.started, .call 1 ['a']] ++ stepsC 1 24 ++
    ((List.range n).map (fun i => .call 2 [Char.ofNat (65 + i)] :: stepsC 2 80)).flatten

/-- The hypothesis of `C125_full_blocks` occurs: a thread was held up in the output of one line while
another made nine statements, which all returned; then the process was killed. -/
theorem C125_full_counterexample :
    Timely ring11s (init ring11s) (heldUpSched 9) ∧
    (after ring11s (heldUpSched 9)).pc 1 = .cDisp 0 ∧ (after ring11s (heldUpSched 9)).pc 2 = .idle ∧
    (after ring11s (heldUpSched 9)).out.map Prod.snd =
      ["A\n", "B\n", "C\n", "D\n", "E\n", "F\n", "G\n", "H\n", "I\n"].map String.toList ∧
    ¬ (after ring11s (heldUpSched 9)).H + 1 < (after ring11s (heldUpSched 9)).R + 11 ∧
    (run ring11s (recover ring11s (recoveredLine 10000) (after ring11s (heldUpSched 9))) [.started]).lgRunning = true := by
  decide +kernel

/-- C125, each line once: with eight statements the queue has room, and the next statement outputs the
line that was held up and, a second time, the eight lines that were output before the crash. -/
theorem C125_repeats_counterexample :
    Timely ring11s (init ring11s) (heldUpSched 8) ∧
    (after ring11s (heldUpSched 8)).out.map Prod.snd =
      ["A\n", "B\n", "C\n", "D\n", "E\n", "F\n", "G\n", "H\n"].map String.toList ∧
    (after ring11s (heldUpSched 8)).H + 1 < (after ring11s (heldUpSched 8)).R + 11 ∧
    (run ring11s (recover ring11s (recoveredLine 10000) (after ring11s (heldUpSched 8)))
      (.started :: oneByOne 400 [(3, ['z'])])).out.map Prod.snd =
      ["a\n", "A\n", "B\n", "C\n", "D\n", "E\n", "F\n", "G\n", "H\n", "z\n"].map String.toList := by
  decide +kernel

/-- C125: without a further statement what the queue held is not output: not while the process runs, not
when the logger is stopped; and the next start finds the queue empty. -/
theorem C125_dropped (c : Cfg Char) (hA : c.async = false) (N : Nat) (s : St Char) :
    ∀ es : List (Ev Char), (∀ t b, Ev.call t b ∉ es) →
      (run c (recover c (recoveredLine N) s) es).out = [] ∧
      (run c (recover c (recoveredLine N) s) es).acquired = (recover c (recoveredLine N) s).acquired ∧
      publishedLines (restart c (run c (recover c (recoveredLine N) s) es)) = [] ∧
      unpublishedTexts c (restart c (run c (recover c (recoveredLine N) s) es)) = [] := by
  suffices h : ∀ (es : List (Ev Char)) (x : St Char), (∀ t b, Ev.call t b ∉ es) → (∀ u, x.pc u = .idle) →
      (run c x es).out = x.out ∧ (run c x es).acquired = x.acquired by
    intro es hes
    obtain ⟨h1, h2⟩ := h es (recover c (recoveredLine N) s) hes (by intro u; simp [recover, hA])
    exact ⟨h1, h2, by simp [publishedLines, restart], by simp [unpublishedTexts, restart]⟩
  intro es
  induction es with
  | nil => intro x _ _; exact ⟨rfl, rfl⟩
  | cons e es ih =>
    intro x hes hx
    have hes' : ∀ t b, Ev.call t b ∉ es := fun t b h => hes t b (List.mem_cons_of_mem _ h)
    have key : (step c x e).out = x.out ∧ (step c x e).acquired = x.acquired ∧ ∀ u, (step c x e).pc u = .idle := by
      cases e with
      | call t b => exact absurd (List.mem_cons_self ..) (hes t b)
      | run t =>
        have : step c x (.run t) = x := by simp only [step, stepT, hx t]
        rw [this]
        exact ⟨rfl, rfl, hx⟩
      | started =>
        simp only [step]
        split
        · exact ⟨rfl, rfl, hx⟩
        · exact ⟨rfl, rfl, hx⟩
      | closing => exact ⟨rfl, rfl, hx⟩
      | stop =>
        rw [show step c x .stop = { x with state := .null } by simp only [step, hA, Bool.false_eq_true, if_false]]
        exact ⟨rfl, rfl, hx⟩
    obtain ⟨k1, k2, k3⟩ := key
    obtain ⟨g1, g2⟩ := ih (step c x e) hes' k3
    exact ⟨g1.trans k1, g2.trans k2⟩

/-- Non-trivial case of `C125_next_statements_partial` and `C125_dropped`: one line was being output, one
published, one half written. -/
def syncPendSched : List (Ev Char) :=
  [.started, .call 1 ['a']] ++ stepsC 1 24 ++ [.call 2 ['b']] ++ stepsC 2 19 ++ [.call 3 "cde".toList] ++ stepsC 3 9

theorem C125_case_pending :
    Timely ring11s (init ring11s) syncPendSched ∧
    (after ring11s syncPendSched).H + 1 < (after ring11s syncPendSched).R + 11 ∧
    publishedLines (after ring11s syncPendSched) = ["a\n".toList, "b\n".toList] ∧
    unpublishedTexts ring11s (after ring11s syncPendSched) = ["cd".toList] ∧
    (run ring11s (recover ring11s (recoveredLine 10000) (after ring11s syncPendSched))
      (.started :: oneByOne 200 [(3, ['x']), (4, ['y'])])).out.map Prod.snd =
      ["a\n", "b\n", "cd!!!core recover!!!\n", "x\n", "y\n"].map String.toList ∧
    (run ring11s (recover ring11s (recoveredLine 10000) (after ring11s syncPendSched))
      [.started, .run 3, .closing, .stop]).out = [] := by
  decide +kernel

end FNLog
