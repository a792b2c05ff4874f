import Verif.Proof.WritersStop
import Verif.Proof.WritersLive
import Verif.Proof.KernelRfl

/-!
# Property theorem C119: several processes that each run a writer thread on the same queue

`Ring.runM c (Ring.blank c) es` is the state of an async channel after an arbitrary schedule `es`: processes come (`join`), log statements of
any process, steps of all threads, stops.  `Ring.outs` lists what was output, each line with the thread that output it.
-/

namespace FNLog
open Ring Spec

variable {α : Type}

/-- The state after a schedule. -/
abbrev afterM (c : Cfg α) (es : List (MEv α)) : St α := runM c (blank c) es

/-- The lines output after a schedule, each with the thread that output it. -/
def outputs (c : Cfg α) (es : List (MEv α)) : List (Nat × List α) := (outs c (blank c) es).map (fun x => (x.1, x.2.2))

theorem invM_after {c : Cfg α} (hL : 0 < c.L) {es : List (MEv α)} (ht : TimelyM c (blank c) es) : InvM c (afterM c es) :=
  InvM.run (InvM.blank c hL) ht

theorem outputs_out (c : Cfg α) (es : List (MEv α)) : (outputs c es).map Prod.snd = (afterM c es).out.map Prod.snd := by
  have h := outs_out c es (blank c)
  rw [show (blank c).out = [] from rfl, List.nil_append] at h
  rw [outputs, afterM, h, List.map_map, List.map_map]
  rfl

/-- **C119**: whatever the number of writer threads, the lines output, by all of them together, are lines of distinct log statements,
unaltered; the statements of one thread get their slots in program order. -/
theorem C119_at_most_once (c : Cfg α) (hL : 0 < c.L) (es : List (MEv α)) (ht : TimelyM c (blank c) es) :
    EachAtMostOnce ((afterM c es).acquired.map Prod.snd) ((outputs c es).map Prod.snd) ∧
    ∀ t, (linesOf t (afterM c es).acquired).Sublist ((linesOf t (afterM c es).calls).map (withEnd c.nl)) := by
  refine ⟨?_, fun t => ?_⟩
  · rw [outputs_out]
    exact EachAtMostOnce.of_inv (invM_after hL ht)
  · have := (ProgOrd.runM (es := es) (ProgOrd.blank c)) t
    exact (List.sublist_append_left _ _).trans this

/-- **C119**: the lines one writer thread outputs are in the order of the queue. -/
theorem C119_each_in_order (c : Cfg α) (hL : 0 < c.L) (es : List (MEv α)) (ht : TimelyM c (blank c) es) (t : Nat) :
    (linesOf t (outputs c es)).Sublist ((afterM c es).acquired.map Prod.snd) := by
  have hi := invM_after hL ht
  have hg := (outs_grow c t es (blank c) (InvM.blank c hL) ht).1
  have hout := outs_out c es (blank c)
  rw [show (blank c).out = [] from rfl, List.nil_append] at hout
  have e1 : linesOf t (outputs c es) = (((outs c (blank c) es).filter (fun x => x.1 == t)).map Prod.snd).map Prod.snd := by
    rw [linesOf, outputs, List.filter_map, List.map_map, List.map_map]
    rfl
  rw [e1]
  refine sublist_of_positions _ _ 0 ?_ (fun _ _ => Nat.zero_le _) ?_
  · rw [List.map_map]; exact hg
  · intro x hx
    obtain ⟨y, hy, rfl⟩ := List.mem_map.mp hx
    have hm : y.2 ∈ (afterM c es).out := by
      rw [afterM, hout]
      exact List.mem_map_of_mem (List.mem_filter.mp hy).1
    rw [List.getElem?_map]
    exact hi.outVal y.2 hm

/-- **C119**: the slot a thread fills or outputs is not filled or output by any other thread, and no step of another thread changes it. -/
theorem C119_exclusive (c : Cfg α) (hL : 0 < c.L) (es : List (MEv α)) (ht : TimelyM c (blank c) es) (t u : Nat) (htu : t ≠ u) (k : Nat)
    (hk : pown ((afterM c es).pc t) = some k ∨ cown ((afterM c es).pc t) = some k) :
    (∀ j, pown ((afterM c es).pc u) = some j → j % c.L ≠ k % c.L) ∧
    (∀ j, cown ((afterM c es).pc u) = some j → j % c.L ≠ k % c.L) ∧
    (stepT c (afterM c es) u).mark (k % c.L) = (afterM c es).mark (k % c.L) ∧
    (stepT c (afterM c es) u).cell (k % c.L) = (afterM c es).cell (k % c.L) := by
  have hi := invM_after hL ht
  have h1 : ∀ j, pown ((afterM c es).pc u) = some j → j % c.L ≠ k % c.L := by
    intro j hj
    rcases hk with hk | hk
    · exact (pown_slots hi htu hk hj).symm
    · exact (cown_pown_slots hi hk hj).symm
  have h2 : ∀ j, cown ((afterM c es).pc u) = some j → j % c.L ≠ k % c.L := by
    intro j hj
    rcases hk with hk | hk
    · exact cown_pown_slots hi hj hk
    · exact (cown_slots hi htu hk hj).symm
  have touch : ∀ P : Prop, (¬ P → (stepT c (afterM c es) u).mark (k % c.L) ≠ (afterM c es).mark (k % c.L) ∨
      (stepT c (afterM c es) u).cell (k % c.L) ≠ (afterM c es).cell (k % c.L)) → P := by
    intro P hP
    apply Classical.byContradiction
    intro hne
    obtain ⟨j, he, hj⟩ := step_touches c (afterM c es) u (k % c.L) (hP hne)
    rcases hj with hj | hj
    · exact h1 j hj he.symm
    · exact h2 j hj he.symm
  exact ⟨h1, h2, touch _ Or.inl, touch _ Or.inr⟩

/-- **C119**: the queue never holds more than `BUFFER_LEN - 1` lines that are not released. -/
theorem C119_bounded (c : Cfg α) (hL : 0 < c.L) (es : List (MEv α)) (ht : TimelyM c (blank c) es) :
    (afterM c es).acquired.length - (afterM c es).R ≤ c.L - 1 := by
  have hi := invM_after hL ht
  have h1 := hi.len
  have h2 : (afterM c es).H < (afterM c es).R + c.L := hi.cap
  omega

/-- What `join` stands for: when the queue is empty, a load of another process (`Ring.attach`, C115) changes the state of the channel and
nothing else. -/
theorem C119_join (c : Cfg α) (hL : 0 < c.L) (es : List (MEv α)) (ht : TimelyM c (blank c) es) (t : Nat) (f : List α → List α)
    (hp : (afterM c es).pc t = .idle) (hq : (afterM c es).R = (afterM c es).H) :
    afterM c (es ++ [.join t]) = (attach c f (afterM c es)).go t .cLoad := by
  rw [attach_quiet (invM_after hL ht) hq, afterM, runM_append]
  show stepM c (afterM c es) (.join t) = _
  simp only [stepM]
  rw [hp]
  simp only
  rw [if_pos hq]

/-- The processes of the writers `ws` come, then the events `es`. -/
def together (ws : List Nat) (es : List (Ev α)) : List (MEv α) := ws.map .join ++ es.map .ev

theorem come_run {c : Cfg α} (hL : 0 < c.L) (hA : c.async = true) {ws : List Nat} {es : List (Ev α)}
    (ht : TimelyM c (blank c) (together ws es)) (hn : ∀ e ∈ es, e.noStop) :
    NSM ws (afterM c (together ws es)) ∧ RespM c (afterM c (together ws es)) := by
  obtain ⟨h1, h2⟩ := TimelyM.append ht
  have hc := come_blank c ws
  rw [afterM, together, runM_append]
  exact respM_run hA (InvM.run (InvM.blank c hL) h1) hc.nsm hc.resp h2 hn

/-- **C119**, the stop, for writers that have all begun their work (none of them is about to set RUNNING): the log statements have returned,
one of the processes stops the channel.  As soon as one of the writer threads has ended, whichever it is, every line has been output, exactly
once. -/
theorem C119_drained_partial (c : Cfg α) (hL : 0 < c.L) (hA : c.async = true) (ws : List Nat) (es es' : List (Ev α))
    (ht : TimelyM c (blank c) (together ws (es ++ .stop :: es'))) (hn : ∀ e ∈ es, e.noStop)
    (hrun : (afterM c (together ws es)).state = .running) (hidle : ∀ t, t ∉ ws → (afterM c (together ws es)).pc t = .idle)
    (hset : ∀ t, (afterM c (together ws es)).pc t ≠ .cSet) (t : Nat)
    (hdone : (afterM c (together ws (es ++ .stop :: es'))).pc t = .done) :
    EachExactlyOnce ((afterM c (together ws es)).acquired.map Prod.snd)
      ((outputs c (together ws (es ++ .stop :: es'))).map Prod.snd) := by
  have e0 : together ws (es ++ .stop :: es') = together ws es ++ (.ev .stop :: es'.map .ev) := by
    simp [together]
  rw [outputs_out]
  rw [e0] at ht hdone ⊢
  obtain ⟨t1, t2⟩ := TimelyM.append ht
  have hi := invM_after hL t1
  obtain ⟨h1, h2⟩ := come_run hL hA t1 hn
  have hd := DrainM.enter hA hi h1 h2 hrun hidle hset
  have e1 : afterM c (together ws es ++ (.ev .stop :: es'.map .ev)) =
      runM c (stepM c (afterM c (together ws es)) (.ev .stop)) (es'.map .ev) := by
    rw [afterM, runM_append]; rfl
  have hd' := DrainM.run hA (es := es') (InvM.step hi t2.1) t2.2 hd
  have hi' := invM_after hL ht
  have hb := base_runM c (together ws es ++ (.ev .stop :: es'.map .ev)) (blank c)
  rw [e1] at hdone hi' ⊢
  have hb' : (runM c (stepM c (afterM c (together ws es)) (.ev .stop)) (es'.map .ev)).base = 0 := by
    rw [← e1]; exact hb
  generalize runM c (stepM c (afterM c (together ws es)) (.ev .stop)) (es'.map .ev) = s at *
  have hR := hd'.pcw t
  rw [hdone] at hR
  simp only at hR
  have h3 := hi'.leRP
  have h4 := hi'.lePW
  have h5 := hd'.W
  have h6 := hd'.H
  rw [← hd'.acq]
  refine exactlyOnce_of_all hi' hb' (by omega) ?_
  intro u k hk
  have := hi'.ti u
  rw [hk] at this
  have := this.1
  have := (hi'.ti u)
  rw [hk] at this
  have := this.2.1
  omega

/-- **C119**: if the operating system goes on with every writer, all of them end after the stop — under the same condition as for
`C119_drained_partial`; `σ` is the infinite rest of the execution. -/
theorem C119_ends_partial (c : Cfg α) (hL : 0 < c.L) (hA : c.async = true) (ws : List Nat) (es : List (Ev α)) (σ : Nat → Ev α)
    (ht : ∀ n, TimelyM c (blank c) (together ws (es ++ .stop :: (List.range n).map σ))) (hn : ∀ e ∈ es, e.noStop)
    (hrun : (afterM c (together ws es)).state = .running) (hidle : ∀ t, t ∉ ws → (afterM c (together ws es)).pc t = .idle)
    (hset : ∀ t, (afterM c (together ws es)).pc t ≠ .cSet) (hfair : ∀ t ∈ ws, ∀ n, ∃ m, n ≤ m ∧ σ m = .run t) :
    ∃ N, ∀ n, N ≤ n → ∀ t ∈ ws, (afterM c (together ws (es ++ .stop :: (List.range n).map σ))).pc t = .done := by
  have e0 : ∀ n, together ws (es ++ .stop :: (List.range n).map σ) = together ws es ++ (.ev .stop :: ((List.range n).map σ).map .ev) := by
    intro n; simp [together]
  have e1 : ∀ n, afterM c (together ws (es ++ .stop :: (List.range n).map σ)) =
      execM c (stepM c (afterM c (together ws es)) (.ev .stop)) σ n := by
    intro n
    rw [e0, afterM, runM_append]
    exact (execM_eq c σ _ n).symm
  have ht' := ht
  simp only [e0] at ht'
  obtain ⟨t1, t2⟩ := TimelyM.append (ht' 0)
  have hi := invM_after hL t1
  obtain ⟨h1, h2⟩ := come_run hL hA t1 hn
  have hq : Quits c (afterM c (together ws es)).H (afterM c (together ws es)).acquired (stepM c (afterM c (together ws es)) (.ev .stop)) σ := by
    refine ⟨hA, fun n => execM_timely c σ _ n (TimelyM.append (ht' (n + 1))).2.2, InvM.step hi t2.1, DrainM.enter hA hi h1 h2 hrun hidle hset,
      RespR.step (InvM.run (InvM.blank c hL) t1) (RespR.run (InvM.blank c hL) (RespR.blank c) t1) _ t2.1, ?_⟩
    intro t hc
    refine hfair t ((h1.who t).mp ?_)
    rw [← hc]
    simp only [stepM, step, hA, hrun, if_true]
  have hc : ∀ t ∈ ws, isCons ((stepM c (afterM c (together ws es)) (.ev .stop)).pc t) = true := by
    intro t htw
    have := (h1.who t).mpr htw
    rw [← this]
    simp only [stepM, step, hA, hrun, if_true]
  have key : ∀ l : List Nat, (∀ t ∈ l, t ∈ ws) → ∃ N, ∀ n, N ≤ n → ∀ t ∈ l,
      (execM c (stepM c (afterM c (together ws es)) (.ev .stop)) σ n).pc t = .done := by
    intro l
    induction l with
    | nil => intro _; exact ⟨0, fun _ _ t ht => by simp at ht⟩
    | cons t l ih =>
      intro hl
      obtain ⟨N, hN⟩ := ih (fun u hu => hl u (by simp [hu]))
      obtain ⟨j, hj⟩ := hq.ends (hc t (hl t (by simp)))
      refine ⟨max N j, fun n hn u hu => ?_⟩
      rcases List.mem_cons.mp hu with rfl | hu
      · exact hq.done_stays (by omega) hj
      · exact hN n (by omega) u hu
  obtain ⟨N, hN⟩ := key ws (fun _ h => h)
  exact ⟨N, fun n hn t htw => by rw [e1]; exact hN n hn t htw⟩

/-- **C119**: so in the end every line has been output exactly once. -/
theorem C119_all_output_partial (c : Cfg α) (hL : 0 < c.L) (hA : c.async = true) (ws : List Nat) (hws : ws ≠ []) (es : List (Ev α))
    (σ : Nat → Ev α)
    (ht : ∀ n, TimelyM c (blank c) (together ws (es ++ .stop :: (List.range n).map σ))) (hn : ∀ e ∈ es, e.noStop)
    (hrun : (afterM c (together ws es)).state = .running) (hidle : ∀ t, t ∉ ws → (afterM c (together ws es)).pc t = .idle)
    (hset : ∀ t, (afterM c (together ws es)).pc t ≠ .cSet) (hfair : ∀ t ∈ ws, ∀ n, ∃ m, n ≤ m ∧ σ m = .run t) :
    ∃ N, ∀ n, N ≤ n → EachExactlyOnce ((afterM c (together ws es)).acquired.map Prod.snd)
      ((outputs c (together ws (es ++ .stop :: (List.range n).map σ))).map Prod.snd) := by
  obtain ⟨N, hN⟩ := C119_ends_partial c hL hA ws es σ ht hn hrun hidle hset hfair
  obtain ⟨t, htw⟩ := List.exists_mem_of_ne_nil ws hws
  exact ⟨N, fun n h => C119_drained_partial c hL hA ws es _ (ht n) hn hrun hidle hset t (hN n h t htw)⟩

/-! ## Concrete cases -/

/-- A queue of four slots; `0` ends a line. -/
def writersQueue : Cfg Nat := ⟨4, true, 0⟩

/-- The writers 0 and 5 have begun; thread 1 logs `7` and `8`; writer 0 takes the first of them; writer 5 takes the second and outputs it;
writer 0 goes on. -/
def writersTurn : List (Ev Nat) :=
  List.replicate 5 (.run 0) ++ List.replicate 4 (.run 5) ++ [.call 1 [7]] ++ List.replicate 21 (.run 1) ++ [.call 1 [8]] ++
    List.replicate 21 (.run 1) ++ List.replicate 3 (.run 0) ++ List.replicate 4 (.run 5)

/-- Both writers go on until the end. -/
def writersEnd : List (Ev Nat) := List.replicate 20 (.run 0) ++ List.replicate 12 (.run 5) ++ List.replicate 20 (.run 0)

/-- The hypotheses of `C119_at_most_once`, `C119_each_in_order`, `C119_exclusive`: two writers are outputting at the same time. -/
theorem C119_case_two : TimelyM writersQueue (blank writersQueue) (together [0, 5] writersTurn) ∧
    (afterM writersQueue (together [0, 5] writersTurn)).pc 0 = .cDisp 0 ∧ (afterM writersQueue (together [0, 5] writersTurn)).pc 5 = .cClear 1 ∧
    outputs writersQueue (together [0, 5] writersTurn) = [(5, [8, 0])] := by
  refine ⟨by decide +kernel, ?_, ?_, ?_⟩ <;> kernel_rfl

/-- The hypotheses of `C119_drained_partial`: the channel is stopped while both writers are at work. -/
theorem C119_case_drained : TimelyM writersQueue (blank writersQueue) (together [0, 5] (writersTurn ++ .stop :: writersEnd)) ∧
    (∀ e ∈ writersTurn, e.noStop) ∧ (afterM writersQueue (together [0, 5] writersTurn)).state = .running ∧
    (∀ t, t ∉ [0, 5] → (afterM writersQueue (together [0, 5] writersTurn)).pc t = .idle) ∧
    (∀ t, (afterM writersQueue (together [0, 5] writersTurn)).pc t ≠ .cSet) ∧
    (afterM writersQueue (together [0, 5] (writersTurn ++ .stop :: writersEnd))).pc 0 = .done ∧
    outputs writersQueue (together [0, 5] (writersTurn ++ .stop :: writersEnd)) = [(5, [8, 0]), (0, [7, 0])] := by
  have h0 : (afterM writersQueue (together [0, 5] writersTurn)).pc 0 = .cDisp 0 := by kernel_rfl
  have h5 : (afterM writersQueue (together [0, 5] writersTurn)).pc 5 = .cClear 1 := by kernel_rfl
  have h1 : (afterM writersQueue (together [0, 5] writersTurn)).pc 1 = .idle := by kernel_rfl
  have h2 : (afterM writersQueue (together [0, 5] writersTurn)).pc 2 = .idle := by kernel_rfl
  have h3 : (afterM writersQueue (together [0, 5] writersTurn)).pc 3 = .idle := by kernel_rfl
  have h4 : (afterM writersQueue (together [0, 5] writersTurn)).pc 4 = .idle := by kernel_rfl
  have h6 : ∀ t, (afterM writersQueue (together [0, 5] writersTurn)).pc (t + 6) = .idle := fun t => by kernel_rfl
  have hall : ∀ t, t ∉ [0, 5] → (afterM writersQueue (together [0, 5] writersTurn)).pc t = .idle := by
    intro t ht
    match t, ht with
    | 0, ht => exact absurd (by simp) ht
    | 1, _ => exact h1
    | 2, _ => exact h2
    | 3, _ => exact h3
    | 4, _ => exact h4
    | 5, ht => exact absurd (by simp) ht
    | t + 6, _ => exact h6 t
  refine ⟨by decide +kernel, ?_, by kernel_rfl, hall, ?_, by kernel_rfl, by kernel_rfl⟩
  · intro e he
    simp only [writersTurn, List.mem_append, List.mem_replicate, List.mem_singleton] at he
    rcases he with ((((((⟨_, rfl⟩ | ⟨_, rfl⟩) | rfl) | ⟨_, rfl⟩) | rfl) | ⟨_, rfl⟩) | ⟨_, rfl⟩) | ⟨_, rfl⟩ <;> trivial
  · intro t
    by_cases ht : t ∈ [0, 5]
    · simp only [List.mem_cons, List.not_mem_nil, or_false] at ht
      rcases ht with rfl | rfl
      · rw [h0]; simp
      · rw [h5]; simp
    · rw [hall t ht]; simp

/-- The writers 0 and 5 take turns. -/
def writersTurns (n : Nat) : Ev Nat := .run (if n % 2 = 0 then 0 else 5)

theorem turns_over {l0 : List (MEv Nat)} (hK : TimelyM writersQueue (blank writersQueue) l0) (h0 : (afterM writersQueue l0).pc 0 = .done)
    (h5 : (afterM writersQueue l0).pc 5 = .done) (l : List Nat) :
    TimelyM writersQueue (blank writersQueue) (l0 ++ (l.map writersTurns).map .ev) := by
  refine TimelyM.join hK ?_
  have quiet : ∀ (l : List Nat) (s : St Nat), s.pc 0 = .done → s.pc 5 = .done →
      TimelyM writersQueue s ((l.map writersTurns).map .ev) := by
    intro l
    induction l with
    | nil => intro s _ _; trivial
    | cons k l ih =>
      intro s q0 q5
      have hs : ∀ t, s.pc t = .done → stepM writersQueue s (.ev (.run t)) = s ∧ timelyMEv writersQueue s (.ev (.run t)) := by
        intro t h
        simp only [stepM, step, timelyMEv, timelyEv]
        unfold stepT timelyAt
        rw [h]
        exact ⟨rfl, trivial⟩
      have hk : s.pc (if k % 2 = 0 then 0 else 5) = .done := by split <;> assumption
      refine ⟨(hs _ hk).2, ?_⟩
      have := (hs _ hk).1
      show TimelyM writersQueue (stepM writersQueue s (.ev (.run (if k % 2 = 0 then 0 else 5)))) _
      rw [this]
      exact ih s q0 q5
  exact quiet l _ h0 h5

/-- The remaining hypotheses of `C119_ends_partial`, `C119_all_output_partial` in the case of `C119_case_drained`: the writers take turns
forever. -/
theorem C119_case_ends : (∀ n, TimelyM writersQueue (blank writersQueue) (together [0, 5] (writersTurn ++ .stop :: (List.range n).map writersTurns))) ∧
    (∀ t ∈ [0, 5], ∀ n, ∃ m, n ≤ m ∧ writersTurns m = .run t) := by
  constructor
  · have e0 : ∀ n, together [0, 5] (writersTurn ++ .stop :: (List.range n).map writersTurns) =
        together [0, 5] (writersTurn ++ [.stop]) ++ ((List.range n).map writersTurns).map .ev := by
      intro n; simp [together]
    have hK : TimelyM writersQueue (blank writersQueue) (together [0, 5] (writersTurn ++ .stop :: (List.range 80).map writersTurns)) := by
      decide +kernel
    have h0 : (afterM writersQueue (together [0, 5] (writersTurn ++ .stop :: (List.range 80).map writersTurns))).pc 0 = .done := by kernel_rfl
    have h5 : (afterM writersQueue (together [0, 5] (writersTurn ++ .stop :: (List.range 80).map writersTurns))).pc 5 = .done := by kernel_rfl
    intro n
    by_cases hn : n ≤ 80
    · obtain ⟨d, hd⟩ := Nat.le.dest hn
      rw [← hd, e0, List.range_add, List.map_append, List.map_append, ← List.append_assoc] at hK
      rw [e0]
      exact (TimelyM.append hK).1
    · obtain ⟨d, rfl⟩ := Nat.le.dest (Nat.le_of_not_le hn)
      rw [e0, List.range_add, List.map_append, List.map_append, ← List.append_assoc, ← e0]
      exact turns_over hK h0 h5 _
  · intro t ht n
    simp only [List.mem_cons, List.not_mem_nil, or_false] at ht
    rcases ht with rfl | rfl
    · exact ⟨2 * n, by omega, by simp [writersTurns]⟩
    · exact ⟨2 * n + 1, by omega, by simp [writersTurns, Nat.add_mod]⟩

/-! ## What does not hold -/

/-- **C119** fails: taken together, the lines are not output in the order of the queue. -/
theorem C119_order_counterexample :
    (afterM writersQueue (together [0, 5] (writersTurn ++ [.run 0]))).acquired = [(1, [7, 0]), (1, [8, 0])] ∧
    outputs writersQueue (together [0, 5] (writersTurn ++ [.run 0])) = [(5, [8, 0]), (0, [7, 0])] ∧
    ¬ InOrderPrefix ((afterM writersQueue (together [0, 5] (writersTurn ++ [.run 0]))).acquired.map Prod.snd)
      ((outputs writersQueue (together [0, 5] (writersTurn ++ [.run 0]))).map Prod.snd) := by
  have h1 : (afterM writersQueue (together [0, 5] (writersTurn ++ [.run 0]))).acquired = [(1, [7, 0]), (1, [8, 0])] := by kernel_rfl
  have h2 : outputs writersQueue (together [0, 5] (writersTurn ++ [.run 0])) = [(5, [8, 0]), (0, [7, 0])] := by kernel_rfl
  refine ⟨h1, h2, ?_⟩
  rw [h1, h2]
  rintro ⟨rest, h⟩
  simp at h

/-- A writer that has seen the state NULL and is about to set RUNNING (fn_channel.h 187-189), while another writer has done so: a stop in
between leaves no trace. -/
theorem C119_stop_undone (c : Cfg α) (hA : c.async = true) (s : St α) (t : Nat) (hr : s.state = .running) (hp : s.pc t = .cSet) :
    stepM c (stepM c s (.ev .stop)) (.ev (.run t)) = stepM c s (.ev (.run t)) := by
  simp only [stepM, step, hA, hr, if_true]
  unfold stepT
  rw [hp]

theorem stop_undone_run (c : Cfg α) (t : Nat) (es : List (MEv α)) {s : St α} (hA : c.async = true) (hr : s.state = .running)
    (hp : s.pc t = .cSet) : runM c s ([.ev .stop, .ev (.run t)] ++ es) = runM c (stepM c s (.ev (.run t))) es := by
  rw [runM_append, ← C119_stop_undone c hA s t hr hp]
  rfl

/-- Writer 5 has seen NULL; writer 0 begins its work. -/
def writersLate : List (Ev Nat) := List.replicate 3 (.run 5) ++ List.replicate 5 (.run 0)

/-- **C119** fails: the process of writer 0 is running; it stops its logger, and then writer 5 sets RUNNING.  Whatever happens from here on,
unless somebody stops the channel once more, no writer thread ends: `StopLogger` waits forever in the `join` (fn_core.h 96). -/
theorem C119_stop_counterexample :
    (afterM writersQueue (together [0, 5] writersLate)).state = .running ∧
    (afterM writersQueue (together [0, 5] (writersLate ++ [.stop]))).state = .waitingFinish ∧
    ∀ es, TimelyM writersQueue (blank writersQueue) (together [0, 5] (writersLate ++ [.stop, .run 5] ++ es)) → (∀ e ∈ es, e.noStop) →
      ∀ t, (afterM writersQueue (together [0, 5] (writersLate ++ [.stop, .run 5] ++ es))).pc t ≠ .done := by
  have hr : (afterM writersQueue (together [0, 5] writersLate)).state = .running := by kernel_rfl
  refine ⟨hr, by kernel_rfl, ?_⟩
  intro es ht hn t
  have hp : (afterM writersQueue (together [0, 5] writersLate)).pc 5 = .cSet := by kernel_rfl
  have e0 : together [0, 5] (writersLate ++ [.stop, .run 5] ++ es) =
      together [0, 5] writersLate ++ ([.ev .stop, .ev (.run 5)] ++ es.map .ev) := by
    simp [together]
  have e1 : afterM writersQueue (together [0, 5] (writersLate ++ [.stop, .run 5] ++ es)) =
      runM writersQueue (stepM writersQueue (afterM writersQueue (together [0, 5] writersLate)) (.ev (.run 5))) (es.map .ev) := by
    rw [e0, afterM, runM_append, stop_undone_run _ _ _ rfl hr hp]
  have hne : ∀ e ∈ writersLate, Ev.noStop e := by
    intro e he
    simp only [writersLate, List.mem_append, List.mem_replicate] at he
    rcases he with ⟨_, rfl⟩ | ⟨_, rfl⟩ <;> trivial
  have ht0 : TimelyM writersQueue (blank writersQueue) (together [0, 5] writersLate) := by decide +kernel
  obtain ⟨h1, h2⟩ := come_run (by decide) rfl ht0 hne
  have hi := invM_after (c := writersQueue) (by decide) ht0
  have h1' := h1.step (c := writersQueue) rfl (.run 5) trivial
  have : ∀ (es : List (Ev Nat)) (s : St Nat), NSM [0, 5] s → (∀ e ∈ es, e.noStop) → NSM [0, 5] (runM writersQueue s (es.map .ev)) := by
    intro es
    induction es with
    | nil => intro s h _; exact h
    | cons e es ih => intro s h hn; exact ih _ (h.step rfl e (hn e (by simp))) (fun e' he' => hn e' (by simp [he']))
  have hfin := this es _ h1' hn
  rw [e1]
  intro hd
  have := hfin.wk t
  rw [hd] at this
  exact this

/-- A queue of three slots, for what follows. -/
def writersSmall : Cfg Nat := ⟨3, true, 0⟩

/-- A process with writer 0 crashes: thread 1 has logged `7` and `8`, the first line is output and its mark is cleared, its slot is not
released yet.  Two processes load the segment and run the writers 0 and 5. -/
def writersCrashed : St Nat :=
  let f := fun x : List Nat => x
  (attach writersSmall f (recover writersSmall f (run writersSmall (init writersSmall)
    (List.replicate 5 (.run 0) ++ [.started, .call 1 [7]] ++ List.replicate 21 (.run 1) ++ [.call 1 [8]] ++ List.replicate 21 (.run 1) ++
      List.replicate 5 (.run 0))))).go 5 .cLoad

/-- **C119** fails after a crash: writer 0 takes the first line again; writer 5 takes the second, and finding the mark of the first one cleared
releases both slots; thread 1 logs `1` and `2` and uses the slot writer 0 is reading.  Writer 0 outputs `2`, a line that is then output once
more. -/
theorem C119_crash_counterexample :
    let es : List (MEv Nat) := List.replicate 3 (.ev (.run 0)) ++ List.replicate 22 (.ev (.run 5)) ++ [.ev (.call 1 [1])] ++
      List.replicate 21 (.ev (.run 1)) ++ [.ev (.call 1 [2])] ++ List.replicate 21 (.ev (.run 1)) ++ List.replicate 1 (.ev (.run 0)) ++
      List.replicate 17 (.ev (.run 5))
    writersCrashed.acquired = [(1, [7, 0]), (1, [8, 0])] ∧ TimelyM writersSmall writersCrashed es ∧
    (runM writersSmall writersCrashed es).acquired = [(1, [7, 0]), (1, [8, 0]), (1, [1, 0]), (1, [2, 0])] ∧
    (outs writersSmall writersCrashed es).map (fun x => (x.1, x.2.2)) = [(5, [8, 0]), (0, [2, 0]), (5, [1, 0]), (5, [2, 0])] := by
  refine ⟨by kernel_rfl, by decide +kernel, ?_, ?_⟩ <;> kernel_rfl

end FNLog
