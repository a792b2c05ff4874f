import Verif.Proof.RingStop

/-!
# Properties C06 - C17 of the channel queue

`Ring.run c (Ring.init c) es` is the state of a channel after an arbitrary schedule `es` of log
statements, thread steps, start and stop.  `Ring.Timely` is the only restriction on schedules: no
compare-and-swap succeeds although the index went round the ring since the thread loaded it.  C12
shows that the restriction is needed, and gives three conditions under which it always holds.
-/

namespace FNLog
open Ring Spec

variable {α : Type}

/-- The state after a schedule. -/
abbrev after (c : Cfg α) (es : List (Ev α)) : St α := run c (init c) es

theorem inv_after {c : Cfg α} (hL : 0 < c.L) {es : List (Ev α)} (ht : Timely c (init c) es) :
    Inv c (after c es) := (Inv.init c hL).run ht

theorem ord_after {c : Cfg α} (hL : 0 < c.L) (hA : c.async = true) {es : List (Ev α)}
    (ht : Timely c (init c) es) : Ord c (after c es) :=
  run_induct (c := c) (Ord c) (fun _ e hi ho _ => ho.step hA hi e) (Inv.init c hL) (Ord.init c hA) ht

theorem ns_after {c : Cfg α} (hL : 0 < c.L) {es : List (Ev α)} (ht : Timely c (init c) es)
    (hn : ∀ e ∈ es, e.noStop) : NS c (after c es) ∧ Resp c (after c es) :=
  resp_run (Inv.init c hL) (NS.init c) (Resp.init c) ht hn

/-! ## A schedule used below to show that the hypotheses can be met -/

/-- The default ring size (fn_data.h 59-61), async, with `0` as the line end. -/
def demoAsync : Cfg Nat := ⟨1000, true, 0⟩

def demoSync : Cfg Nat := ⟨1000, false, 0⟩

/-- `n` steps of a thread. -/
def steps (t n : Nat) : List (Ev Nat) := List.replicate n (.run t)

/-- Two producers interleaved with the worker: thread 1 holds slot 0 and thread 2 slot 1 at the same
time, thread 2 publishes first. -/
def demoSched : List (Ev Nat) :=
  steps 0 5 ++ [.started, .call 1 [7, 8]] ++ steps 1 8 ++ [.call 2 [9]] ++ steps 2 16 ++ steps 1 30 ++
    steps 0 40

/-! ## C06 -/

/-- C06: the slot a log statement holds is not held or output by any other thread, and no step of
another thread changes it; and the slot a consumer outputs is not changed by any other thread. -/
theorem C06_exclusive_slot (c : Cfg α) (hL : 0 < c.L) (es : List (Ev α)) (ht : Timely c (init c) es)
    (t u : Nat) (htu : t ≠ u) (k : Nat)
    (hk : pown ((after c es).pc t) = some k ∨ cown ((after c es).pc t) = some k) :
    (∀ j, pown ((after c es).pc u) = some j → j % c.L ≠ k % c.L) ∧
    (∀ j, cown ((after c es).pc u) = some j → j % c.L ≠ k % c.L) ∧
    (stepT c (after c es) u).mark (k % c.L) = (after c es).mark (k % c.L) ∧
    (stepT c (after c es) u).cell (k % c.L) = (after c es).cell (k % c.L) := by
  have hi := inv_after hL ht
  have h1 : ∀ j, pown ((after c es).pc u) = some j → j % c.L ≠ k % c.L := by
    intro j hj
    rcases hk with hk | hk
    · exact (pown_slots hi htu hk hj).symm
    · exact (cown_pown_slots hi hk hj).symm
  have h2 : ∀ j, cown ((after c es).pc u) = some j → j % c.L ≠ k % c.L := by
    intro j hj
    rcases hk with hk | hk
    · exact cown_pown_slots hi hj hk
    · exact (cown_slots hi htu hk hj).symm
  refine ⟨h1, h2, ?_, ?_⟩
  · apply Classical.byContradiction
    intro hne
    obtain ⟨j, he, hj⟩ := step_touches c (after c es) u (k % c.L) (Or.inl hne)
    rcases hj with hj | hj
    · exact h1 j hj he.symm
    · exact h2 j hj he.symm
  · apply Classical.byContradiction
    intro hne
    obtain ⟨j, he, hj⟩ := step_touches c (after c es) u (k % c.L) (Or.inr hne)
    rcases hj with hj | hj
    · exact h1 j hj he.symm
    · exact h2 j hj he.symm

/-- Non-trivial case: threads 1 and 2 hold slots 0 and 1 at the same time. -/
example : Timely demoAsync (init demoAsync) (demoSched.take 22) ∧
    pown ((after demoAsync (demoSched.take 22)).pc 1) = some 0 ∧
    pown ((after demoAsync (demoSched.take 22)).pc 2) = some 1 := by decide +kernel

/-! ## C07 -/

/-- C07: on every channel the lines output are lines of distinct log statements, unaltered; and every
line belongs to a log statement made by a user thread, with its text. -/
theorem C07_at_most_once (c : Cfg α) (hL : 0 < c.L) (es : List (Ev α)) (ht : Timely c (init c) es) :
    EachAtMostOnce ((after c es).acquired.map Prod.snd) ((after c es).out.map Prod.snd) ∧
    ∀ t, (linesOf t (after c es).acquired).Sublist
      ((linesOf t (after c es).calls).map (withEnd c.nl)) := by
  refine ⟨EachAtMostOnce.of_inv (inv_after hL ht), fun t => ?_⟩
  have := (ProgOrd.run (es := es) (ProgOrd.init c)) t
  exact (List.sublist_append_left _ _).trans this

example : Timely demoAsync (init demoAsync) demoSched ∧
    (after demoAsync demoSched).out.map Prod.snd = [[7, 8, 0], [9, 0]] ∧
    (after demoAsync demoSched).calls = [(1, [7, 8]), (2, [9])] := by decide +kernel

/-! ## C08 -/

/-- C08: an async channel outputs the acquired log statements in order of acquisition, without gaps;
the statements of one thread are acquired in program order. -/
theorem C08_async_order (c : Cfg α) (hL : 0 < c.L) (hA : c.async = true) (es : List (Ev α))
    (ht : Timely c (init c) es) :
    InOrderPrefix ((after c es).acquired.map Prod.snd) ((after c es).out.map Prod.snd) ∧
    ∀ t, (linesOf t (after c es).acquired).Sublist
      ((linesOf t (after c es).calls).map (withEnd c.nl)) := by
  refine ⟨?_, (C07_at_most_once c hL es ht).2⟩
  have ho := (ord_after hL hA ht).out
  have hb : (after c es).base = 0 := base_run c es (init c)
  rw [hb] at ho
  exact prefix_of_ord (inv_after hL ht) ho

/-! ## C09 -/

/-- C09: at most `BUFFER_LEN - 1` statements hold a slot that is not released, and a step that
acquires a slot finds at most `BUFFER_LEN - 2`. -/
theorem C09_bounded (c : Cfg α) (hL : 0 < c.L) (es : List (Ev α)) (ht : Timely c (init c) es) :
    (after c es).acquired.length - (after c es).R ≤ c.L - 1 ∧
    ∀ t, timelyAt c (after c es) t →
      (after c es).acquired.length < (stepT c (after c es) t).acquired.length →
      (after c es).acquired.length + 1 < (after c es).R + c.L := by
  have hi := inv_after hL ht
  have hlen := hi.len
  have hcap := hi.cap
  refine ⟨by omega, ?_⟩
  intro t htt hlt
  have hi' := hi.stepT htt
  have hcap' := hi'.cap
  have hlen' := hi'.len
  have hR : (stepT c (after c es) t).R = (after c es).R := by
    unfold stepT at hlt ⊢
    split at hlt <;> rename_i hpc <;> (try rw [hpc]) <;> (repeat' split) <;>
      simp_all
  omega

/-- A full queue: thread 1 has acquired `BUFFER_LEN - 1 = 10` slots of a ring of size 11. -/
example : let c : Cfg Nat := ⟨11, true, 0⟩
    let es := steps 0 5 ++ [.started] ++ (List.replicate 10 (.call 1 [] :: steps 1 25)).flatten
    Timely c (init c) es ∧ (after c es).acquired.length = (after c es).R + c.L - 1 := by
  decide +kernel

/-! ## C10 -/

/-- C10: when the channel was never stopped and no thread is inside a log statement, every acquired
slot is published, and the acquired lines of each thread are exactly its log statements. -/
theorem C10_all_published (c : Cfg α) (hL : 0 < c.L) (es : List (Ev α)) (ht : Timely c (init c) es)
    (hn : ∀ e ∈ es, e.noStop)
    (hidle : ∀ t, (after c es).pc t = .idle ∨ (c.async = true ∧ t = worker)) :
    (after c es).W = (after c es).acquired.length ∧
    ∀ t, linesOf t (after c es).acquired = (linesOf t (after c es).calls).map (withEnd c.nl) := by
  have hi := inv_after hL ht
  obtain ⟨h1, h2⟩ := ns_after hL ht hn
  constructor
  · rw [hi.len]
    apply all_published hi h1 h2
    intro t
    rcases hidle t with h3 | ⟨h3, h4⟩
    · exact Or.inl h3
    · subst h4
      right
      refine ⟨h3, ?_⟩
      have := (ord_after hL h3 ht).pcw
      cases hp : (after c es).pc worker <;> rw [hp] at this <;> simp [OrdPC] at this <;> rfl
  · intro t
    have hpe : ∀ (es : List (Ev α)) (s : St α), Inv c s → NS c s → ProgEq c s → Timely c s es →
        (∀ e ∈ es, e.noStop) → ProgEq c (run c s es) := by
      intro es
      induction es with
      | nil => intro s _ _ h _ _; exact h
      | cons e es ih =>
        intro s hi hn' h ht hn
        exact ih _ (hi.step ht.1) (hn'.step hi e (hn e (by simp))) (h.step hn' e) ht.2
          (fun e' he' => hn e' (by simp [he']))
    have := hpe es (init c) (Inv.init c hL) (NS.init c) (ProgEq.init c) ht hn t
    have hp : pending ((after c es).pc t) = none := by
      rcases hidle t with h3 | ⟨h3, rfl⟩
      · rw [h3]; rfl
      · have := (ord_after hL h3 ht).pcw
        cases hp : (after c es).pc worker <;> rw [hp] at this <;> simp [OrdPC] at this <;> rfl
    rw [show pending ((run c (init c) es).pc t) = none from hp] at this
    simp only [Option.toList_none, List.map_nil, List.append_nil] at this
    exact this

/-- C10, sync channels: every line has moreover been output exactly once and its slot released. -/
theorem C10_sync_all_output (c : Cfg α) (hL : 0 < c.L) (hA : c.async = false) (es : List (Ev α))
    (ht : Timely c (init c) es) (hn : ∀ e ∈ es, e.noStop)
    (hidle : ∀ t, (after c es).pc t = .idle) :
    EachExactlyOnce ((after c es).acquired.map Prod.snd) ((after c es).out.map Prod.snd) ∧
    (after c es).R = (after c es).acquired.length := by
  have hi := inv_after hL ht
  obtain ⟨h1, h2⟩ := ns_after hL ht hn
  obtain ⟨h3, h4, _⟩ := all_processed hA hi h1 h2 hidle
  refine ⟨exactlyOnce_of_all hi (base_run c es (init c)) h4 ?_, by rw [hi.len]; exact h3⟩
  intro t k
  rw [hidle t]; simp

/-- Three statements of two threads on a sync channel, interleaved; used for C10, C13. -/
def demoSyncSched : List (Ev Nat) :=
  [.started, .call 2 [20]] ++ steps 2 34 ++ [.call 1 [11]] ++ steps 1 20 ++ steps 2 3 ++ steps 1 5 ++
    [.call 1 [12]] ++ steps 1 40 ++ steps 2 40

theorem demoSyncSched_noStop : ∀ e ∈ demoSyncSched, e.noStop := by
  have h : ∀ n t, ∀ e ∈ steps t n, e.noStop := by
    intro n t e he
    rw [steps, List.mem_replicate] at he
    rw [he.2]; trivial
  intro e he
  simp only [demoSyncSched, List.mem_append, List.mem_cons, List.not_mem_nil, or_false] at he
  rcases he with (((((((he | he) | he) | he) | he) | he) | he) | he) | he
  all_goals first
    | exact h _ _ e he
    | (rcases he with rfl | rfl <;> trivial)
    | (rw [he]; trivial)

example : Timely demoSync (init demoSync) demoSyncSched ∧
    (after demoSync demoSyncSched).pc 1 = .idle ∧ (after demoSync demoSyncSched).pc 2 = .idle ∧
    (after demoSync demoSyncSched).acquired.length = 3 := by decide +kernel

/-! ## C11 -/

/-- C11: if every log statement had returned when an async channel was stopped, then as soon as the
worker has finished all lines have been output, in order, each exactly once; this holds for every
schedule `es'` after the stop. -/
theorem C11_stop_drains (c : Cfg α) (hL : 0 < c.L) (hA : c.async = true) (es es' : List (Ev α))
    (ht : Timely c (init c) es) (hn : ∀ e ∈ es, e.noStop)
    (hrun : (after c es).state = .running) (hidle : ∀ t, t ≠ worker → (after c es).pc t = .idle)
    (hdone : (after c (es ++ .stop :: es')).pc worker = .done) :
    (after c (es ++ .stop :: es')).out.map Prod.snd = (after c es).acquired.map Prod.snd := by
  have hi := inv_after hL ht
  have ho := ord_after hL hA ht
  obtain ⟨h1, h2⟩ := ns_after hL ht hn
  have hd := Drain.enter hA hi ho h1 h2 hrun hidle
  have hi' : Inv c (step c (after c es) .stop) := hi.step trivial
  have ho' : Ord c (step c (after c es) .stop) := ho.step hA hi .stop
  obtain ⟨g1, g2, g3, g4, g5, _⟩ := Drain.run hA (es := es') hi' ho' hd
  have e : after c (es ++ .stop :: es') = run c (step c (after c es) .stop) es' := by
    rw [after, run_append]; rfl
  rw [e] at hdone ⊢
  have hacq : (step c (after c es) .stop).acquired = (after c es).acquired := by
    unfold step; simp only [hA, if_true]; split <;> rfl
  have hb : (run c (step c (after c es) .stop) es').base = 0 := by
    rw [base_run]
    have : (step c (after c es) .stop).base = (after c es).base := by
      unfold step; simp only [hA, if_true]; split <;> rfl
    rw [this]; exact base_run c es (init c)
  have hpre := prefix_of_ord g1 (n := outN (run c (step c (after c es) .stop) es')) (by
    have := g2.out; rw [hb] at this; exact this)
  obtain ⟨rest, hrest⟩ := hpre
  have hp := g3.pcw
  rw [hdone] at hp
  simp only at hp
  have hpc := g2.pcw
  rw [hdone] at hpc
  simp only [OrdPC] at hpc
  have hlen : (run c (step c (after c es) .stop) es').out.length =
      (run c (step c (after c es) .stop) es').acquired.length := by
    have := congrArg List.length g2.out
    rw [List.length_map, List.length_range', hb] at this
    rw [this, g1.len]
    unfold outN
    rw [hdone]
    simp only
    have := g3.full
    omega
  have h5 := congrArg List.length hrest
  simp only [List.length_append, List.length_map] at h5
  have : rest = [] := List.eq_nil_of_length_eq_zero (by omega)
  rw [this, List.append_nil, g5, hacq] at hrest
  exact hrest

/-- C11: and the worker does finish, after at most `30 * BUFFER_LEN + 17` of its own steps, whatever
the other threads do. -/
theorem C11_worker_finishes (c : Cfg α) (hL : 0 < c.L) (hA : c.async = true) (es es' : List (Ev α))
    (ht : Timely c (init c) es) (hn : ∀ e ∈ es, e.noStop)
    (hrun : (after c es).state = .running) (hidle : ∀ t, t ≠ worker → (after c es).pc t = .idle)
    (hsteps : 30 * c.L + 17 ≤ workerSteps es') :
    (after c (es ++ .stop :: es')).pc worker = .done := by
  have hi := inv_after hL ht
  have ho := ord_after hL hA ht
  obtain ⟨h1, h2⟩ := ns_after hL ht hn
  have hd := Drain.enter hA hi ho h1 h2 hrun hidle
  have hi' : Inv c (step c (after c es) .stop) := hi.step trivial
  have ho' : Ord c (step c (after c es) .stop) := ho.step hA hi .stop
  obtain ⟨g1, g2, g3, g4, g5, g6⟩ := Drain.run hA (es := es') hi' ho' hd
  have e : after c (es ++ .stop :: es') = run c (step c (after c es) .stop) es' := by
    rw [after, run_append]; rfl
  rw [e]
  rcases g6 with h | h
  · exact h
  · exfalso
    have hrank : ∀ (d k : Nat) (p : PC α), drainRank d k p ≤ 17 := by
      intro d k p
      cases p <;> simp only [drainRank] <;> (try split) <;> omega
    have hr := hrank ((step c (after c es) .stop).W - (step c (after c es) .stop).P)
      ((step c (after c es) .stop).P - (step c (after c es) .stop).R)
      ((step c (after c es) .stop).pc worker)
    have hcap := hi'.cap
    have h3 := hi'.leRP
    have h4 := hi'.lePW
    have h5 := hi'.leWH
    unfold drainMeasure at h
    omega

/-- Non-trivial case: two lines logged, stop while the worker has not output anything. -/
example : Timely demoAsync (init demoAsync) (demoSched.take 61) ∧
    (after demoAsync (demoSched.take 61)).state = .running ∧
    (after demoAsync (demoSched.take 61)).out = [] ∧
    (after demoAsync (demoSched.take 61)).pc 1 = .idle ∧
    (after demoAsync (demoSched.take 61)).pc 2 = .idle ∧
    (after demoAsync (demoSched.take 61 ++ .stop :: steps 0 60)).pc worker = .done ∧
    (after demoAsync (demoSched.take 61 ++ .stop :: steps 0 60)).out.length = 2 := by decide +kernel

/-! ## C12 -/

/-- C12 fails: for every ring size a thread that is delayed for one lap in the middle of HoldChannel
makes the queue look empty when it is full.  Here all log statements have returned, `BUFFER_LEN + 1`
statements were accepted and published, one line has been output, and however long the worker runs
and also when it is stopped and finishes, nothing more is output. -/
theorem C12_counterexample (c : Cfg α) (hL : 2 ≤ c.L) (hA : c.async = true) :
    ∃ es : List (Ev α), (∀ e ∈ es, e.noStop) ∧
      (∀ t, t ≠ worker → (after c es).pc t = .idle) ∧ (after c es).state = .running ∧
      (after c es).H = c.L + 1 ∧ (after c es).W = c.L + 1 ∧
      (∀ n, (after c (es ++ List.replicate n (.run worker))).out.length = 1) ∧
      (∀ n, (after c (es ++ .stop :: List.replicate n (.run worker))).out.length = 1) ∧
      (∀ n, 9 ≤ n → (after c (es ++ .stop :: List.replicate n (.run worker))).pc worker = .done) := by
  obtain ⟨es, hn, hlap⟩ := lap_exists c hA hL
  obtain ⟨hst, hs⟩ := lap_stuck hL hA hlap
  have hstop := hs.stop hA
  have e1 : after c (es ++ List.replicate 17 (.run 1)) =
      run c (after c es) (List.replicate 17 (.run 1)) := run_append _ _ _ _
  refine ⟨es ++ List.replicate 17 (.run 1), ?_, ?_, ?_, ?_, ?_, ?_, ?_, ?_⟩
  · intro e he
    rcases List.mem_append.1 he with h | h
    · exact hn e h
    · rw [List.mem_replicate] at h; rw [h.2]; trivial
  · rw [e1]; exact hs.oth
  · rw [e1]; exact hst
  · rw [e1]; exact hs.H
  · rw [e1]; exact hs.W
  · intro n
    rw [after, run_append]
    show (run c (after c (es ++ List.replicate 17 (.run 1))) _).out.length = 1
    rw [e1]; exact (hs.forever hL hA n).one
  · intro n
    rw [after, run_append]
    show (run c (step c (after c (es ++ List.replicate 17 (.run 1))) .stop) _).out.length = 1
    rw [e1]; exact (hstop.forever hL hA n).one
  · intro n hn9
    rw [after, run_append]
    show (run c (step c (after c (es ++ List.replicate 17 (.run 1))) .stop) _).pc worker = .done
    rw [e1]
    refine hstop.finish hL hA n ?_ ?_
    · left
      unfold step
      simp only [hA, if_true]
      rw [show (run c (after c es) (List.replicate 17 (.run 1))).state = .running from hst]
      simp
    · have : ∀ p : PC α, stuckRank p ≤ 9 := by intro p; cases p <;> simp [stuckRank]
      exact Nat.le_trans (this _) hn9

/-- C12, what does hold: with fewer than `BUFFER_LEN` log statements, or with a single logging thread,
no delay whatsoever can break the queue (C07 holds for every schedule); and a delay of less than a lap
never does. -/
theorem C12_stalled_thread_partial (c : Cfg α) (hL : 0 < c.L) (es : List (Ev α))
    (h : (after c es).acquired.length < c.L ∧ (after c es).acquired.length = (after c es).H ∨
      (∃ t0, SoloEvents t0 es) ∨ WithinLap c (init c) es) :
    EachAtMostOnce ((after c es).acquired.map Prod.snd) ((after c es).out.map Prod.snd) := by
  have ht : Timely c (init c) es := by
    rcases h with ⟨h, h'⟩ | ⟨t0, h⟩ | h
    · exact timely_of_short (Inv.init c hL) (by rw [h'] at h; exact h)
    · exact timely_of_solo hL (Inv.init c hL) (fun hA => Ord.init c hA) (Solo.init c t0) h
    · exact timely_of_lap (Inv.init c hL) h
  exact (C07_at_most_once c hL es ht).1

example : (after demoAsync demoSched).acquired.length < demoAsync.L ∧
    (after demoAsync demoSched).acquired.length = (after demoAsync demoSched).H := by decide +kernel

/-! ## C13 -/

/-- C13 fails on a sync channel with two threads: thread 1 logs 11 and then 12; 11 is not output when
its log statement returns, and it is output after 12. -/
theorem C13_counterexample :
    Timely demoSync (init demoSync) demoSyncSched ∧
    (after demoSync (demoSyncSched.take 65)).pc 1 = .idle ∧
    (after demoSync (demoSyncSched.take 65)).calls = [(2, [20]), (1, [11])] ∧
    (after demoSync (demoSyncSched.take 65)).out.map Prod.snd = [[20, 0]] ∧
    (after demoSync demoSyncSched).out.map Prod.snd = [[20, 0], [12, 0], [11, 0]] := by
  decide +kernel

/-- C13 holds as long as one thread logs: whenever it is outside the log statements, all its lines have
been output, in order. -/
theorem C13_single_thread_partial (c : Cfg α) (hL : 0 < c.L) (hA : c.async = false) (t0 : Nat)
    (es : List (Ev α)) (hs : SoloEvents t0 es) (hn : ∀ e ∈ es, e.noStop)
    (hidle : (after c es).pc t0 = .idle) :
    (after c es).out.map Prod.snd = (linesOf t0 (after c es).calls).map (withEnd c.nl) := by
  have hi0 := Inv.init c hL
  have ht : Timely c (init c) es :=
    timely_of_solo hL hi0 (fun h => Ord.init c h) (Solo.init c t0) hs
  have hi := inv_after hL ht
  obtain ⟨h1, h2⟩ := ns_after hL ht hn
  have key : ∀ (es : List (Ev α)) (s : St α), Inv c s → Solo c t0 s → SyncOrd c t0 s → Timely c s es →
      SoloEvents t0 es → Solo c t0 (run c s es) ∧ SyncOrd c t0 (run c s es) := by
    intro es
    induction es with
    | nil => intro s _ h1 h2 _ _; exact ⟨h1, h2⟩
    | cons e es ih =>
      intro s hi h1 h2 ht hs
      have he := hs e (by simp)
      exact ih _ (hi.step ht.1) (h1.step hi (fun h => by rw [hA] at h; cases h) e he)
        (h2.step hA hi h1 e he) ht.2 (fun e' he' => hs e' (by simp [he']))
  obtain ⟨h3, h4⟩ := key es (init c) hi0 (Solo.init c t0) (SyncOrd.init c hA t0) ht hs
  have hall : ∀ t, (after c es).pc t = .idle := by
    intro t
    by_cases h : t = t0
    · subst h; exact hidle
    · exact h3.1 t h (fun h => by rw [hA] at h; cases h)
  obtain ⟨h5, h6, h7⟩ := all_processed hA hi h1 h2 hall
  have hb : (after c es).base = 0 := base_run c es (init c)
  have ho := h4.out
  rw [show (run c (init c) es).pc t0 = .idle from hidle] at ho
  simp only at ho
  rw [show (run c (init c) es).base = 0 from hb] at ho
  obtain ⟨rest, hrest⟩ := prefix_of_ord hi ho
  have hlen : (after c es).out.length = (after c es).acquired.length := by
    have := congrArg List.length ho
    rw [List.length_map, List.length_range'] at this
    rw [hi.len]
    have h8 : (run c (init c) es).out.length = (run c (init c) es).P - 0 := this
    have h9 : (run c (init c) es).P = (run c (init c) es).H := h6
    show (run c (init c) es).out.length = (run c (init c) es).H
    omega
  have h8 := congrArg List.length hrest
  simp only [List.length_append, List.length_map] at h8
  have hr : rest = [] := List.eq_nil_of_length_eq_zero (by omega)
  rw [hr, List.append_nil] at hrest
  rw [hrest]
  have h9 := (C10_all_published c hL es ht hn (fun t => Or.inl (hall t))).2 t0
  rw [← h9]
  -- all acquired lines are of thread `t0`
  have hown : ∀ e ∈ (after c es).acquired, e.1 = t0 := by
    intro e he
    apply Classical.byContradiction
    intro hne
    have h10 := (C10_all_published c hL es ht hn (fun t => Or.inl (hall t))).2 e.1
    have hc : ∀ (es : List (Ev α)) (s : St α), SoloEvents t0 es → (∀ x ∈ s.calls, x.1 = t0) →
        ∀ x ∈ (run c s es).calls, x.1 = t0 := by
      intro es
      induction es with
      | nil => intro s _ h; exact h
      | cons e es ih =>
        intro s hs h
        refine ih _ (fun e' he' => hs e' (by simp [he'])) ?_
        have he := hs e (by simp)
        cases e with
        | run t => simp only [step]; unfold stepT; split <;> (repeat' split) <;> simpa using h
        | call t b =>
          simp only at he
          unfold step; simp only; (repeat' split)
          · intro x hx
            simp only [go_calls, List.mem_append, List.mem_singleton] at hx
            rcases hx with hx | hx
            · exact h x hx
            · rw [hx]; exact he
          · exact h
          · exact h
        | started => unfold step; simp only; (repeat' split) <;> exact h
        | closing => exact h
        | stop => unfold step; simp only; (repeat' split) <;> exact h
    have hcalls := hc es (init c) hs (by intro x hx; cases hx)
    have hempty : linesOf e.1 (after c es).calls = [] := by
      unfold linesOf
      rw [List.map_eq_nil_iff, List.filter_eq_nil_iff]
      intro x hx
      have := hcalls x hx
      simp only [beq_iff_eq]
      intro h11
      exact hne (h11.symm.trans this)
    rw [hempty] at h10
    have : e.2 ∈ linesOf e.1 (after c es).acquired := by
      unfold linesOf
      rw [List.mem_map]
      exact ⟨e, List.mem_filter.2 ⟨he, by simp⟩, rfl⟩
    rw [h10] at this
    cases this
  unfold linesOf
  rw [List.filter_eq_self.2]
  intro x hx
  simp [hown x hx]

/-- Two statements of one thread. -/
example : let es := [Ev.started, .call 3 [1]] ++ steps 3 45 ++ [.call 3 [2, 5]] ++ steps 3 46
    (after demoSync es).pc 3 = .idle ∧ (after demoSync es).calls = [(3, [1]), (3, [2, 5])] ∧
    (after demoSync es).out.map Prod.snd = [[1, 0], [2, 5, 0]] := by decide +kernel

/-! ## C14 -/

/-- Thread 1 has acquired a slot; thread 2 logs after it and returns. -/
def stopSched1 : List (Ev Nat) :=
  steps 0 5 ++ [.started, .call 1 [1]] ++ steps 1 5 ++ [.call 2 [2]] ++ steps 2 16

/-- Then the logger is stopped, thread 1 continues, and the worker finishes. -/
def stopSched2 : List (Ev Nat) := stopSched1 ++ [.closing, .stop] ++ steps 1 5 ++ steps 0 20

/-- C14 fails: the statement of thread 2 returned before the stop, the worker has finished, and its
line was not output. -/
theorem C14_counterexample :
    Timely demoAsync (init demoAsync) stopSched2 ∧
    (after demoAsync stopSched1).calls = [(1, [1]), (2, [2])] ∧
    (after demoAsync stopSched1).pc 2 = .idle ∧
    (after demoAsync stopSched2).pc worker = .done ∧
    (after demoAsync stopSched2).out = [] := by decide +kernel

/-- C14, what does hold: the lines before `write_idx_` at the time of the stop are output before the
worker finishes, whatever the threads still inside log statements do. -/
theorem C14_published_survive_partial (c : Cfg α) (hL : 0 < c.L) (hA : c.async = true)
    (es es' : List (Ev α)) (ht : Timely c (init c) (es ++ .stop :: es')) (hn : ∀ e ∈ es, e.noStop)
    (hrun : (after c es).state = .running)
    (hdone : (after c (es ++ .stop :: es')).pc worker = .done) :
    ∃ more, (after c (es ++ .stop :: es')).out.map Prod.snd =
      ((after c es).acquired.map Prod.snd).take (after c es).W ++ more := by
  rw [timely_append] at ht
  have ht1 := ht.1
  have ht2 : Timely c (step c (after c es) .stop) es' := ht.2.2
  have hi := inv_after hL ht1
  have ho := ord_after hL hA ht1
  obtain ⟨h1, h2⟩ := ns_after hL ht1 hn
  have hp := Pub.enter hA h1 hrun
  obtain ⟨g1, g2, g3⟩ := pub_run hA (hi.step (e := .stop) trivial) (ho.step hA hi .stop) hp ht2
  have e : after c (es ++ .stop :: es') = run c (step c (after c es) .stop) es' := by
    rw [after, run_append]; rfl
  rw [e] at hdone ⊢
  have hb : (run c (step c (after c es) .stop) es').base = 0 := by
    rw [base_run]
    have : (step c (after c es) .stop).base = (after c es).base := by
      unfold step; simp only [hA, if_true]; split <;> rfl
    rw [this]; exact base_run c es (init c)
  have hpre := prefix_of_ord g1 (n := outN (run c (step c (after c es) .stop) es')) (by
    have := g2.out; rw [hb] at this; exact this)
  obtain ⟨rest, hrest⟩ := hpre
  have hw := g3.pcw
  rw [hdone] at hw
  simp only at hw
  have hpc := g2.pcw
  rw [hdone] at hpc
  simp only [OrdPC] at hpc
  have hlen : (run c (step c (after c es) .stop) es').out.length =
      (run c (step c (after c es) .stop) es').P := by
    have := congrArg List.length g2.out
    rw [List.length_map, List.length_range', hb] at this
    rw [this]
    unfold outN
    rw [hdone]
    rfl
  -- the acquired lines only grow
  have hgrow : ∀ (es : List (Ev α)) (s : St α), ∃ more, (run c s es).acquired = s.acquired ++ more := by
    intro es
    induction es with
    | nil => intro s; exact ⟨[], by simp [run]⟩
    | cons e es ih =>
      intro s
      obtain ⟨m1, hm1⟩ := ih (step c s e)
      have : ∃ m2, (step c s e).acquired = s.acquired ++ m2 := by
        cases e with
        | run t =>
          simp only [step]; unfold stepT
          split <;> (repeat' split) <;> first | exact ⟨_, rfl⟩ | exact ⟨[], by simp⟩
        | call t b => unfold step; simp only; (repeat' split) <;> exact ⟨[], by simp⟩
        | started => unfold step; simp only; (repeat' split) <;> exact ⟨[], by simp⟩
        | closing => exact ⟨[], by simp [step]⟩
        | stop => unfold step; simp only; (repeat' split) <;> exact ⟨[], by simp⟩
      obtain ⟨m2, hm2⟩ := this
      refine ⟨m2 ++ m1, ?_⟩
      show (run c (step c s e) es).acquired = _
      rw [hm1, hm2, List.append_assoc]
  obtain ⟨m1, hm1⟩ := hgrow es' (step c (after c es) .stop)
  have hacq : (step c (after c es) .stop).acquired = (after c es).acquired := by
    unfold step; simp only [hA, if_true]; split <;> rfl
  rw [hacq] at hm1
  rw [hm1, List.map_append] at hrest
  have hWH := hi.leWH
  have hl := hi.len
  have htk := congrArg (List.take (after c es).W) hrest
  rw [List.take_append_of_le_length (by rw [List.length_map, hlen]; omega),
    List.take_append_of_le_length (by rw [List.length_map]; omega)] at htk
  refine ⟨((run c (step c (after c es) .stop) es').out.map Prod.snd).drop (after c es).W, ?_⟩
  rw [← htk, List.take_append_drop]

/-- Non-trivial case: thread 1 is inside a log statement at the stop, one line is published. -/
example : let es := steps 0 5 ++ [.started, .call 2 [2]] ++ steps 2 25 ++ [.call 1 [1]] ++ steps 1 5
    let es' := steps 1 10 ++ steps 0 40
    Timely demoAsync (init demoAsync) (es ++ .stop :: es') ∧ (after demoAsync es).state = .running ∧
    (after demoAsync es).W = 1 ∧ (after demoAsync es).pc 1 ≠ .idle ∧
    (after demoAsync (es ++ .stop :: es')).pc worker = .done := by decide +kernel

/-! ## C15 -/

/-- A second session: thread 1 logs 5 and publishes it, while thread 2 has just acquired slot 1. -/
def secondSched : List (Ev Nat) :=
  steps 0 5 ++ [.started, .call 1 [5]] ++ steps 1 11 ++ [.call 2 [6]] ++ steps 2 4 ++ steps 1 30 ++
    steps 0 60

/-- C15 fails: after the stop of C14 and a new start, the line `2` of the first session is output in
the second session, although nobody logged it there. -/
theorem C15_counterexample :
    (run demoAsync (restart demoAsync (after demoAsync stopSched2)) secondSched).calls =
      [(1, [5]), (2, [6])] ∧
    (run demoAsync (restart demoAsync (after demoAsync stopSched2)) secondSched).out.map Prod.snd =
      [[5, 0], [2, 0]] := by decide +kernel

/-- C15 holds if every log statement of the first session returned before the stop: in the second
session only lines of the second session are output, each at most once. -/
theorem C15_clean_restart_partial (c : Cfg α) (hL : 0 < c.L) (hA : c.async = true)
    (es es' es'' : List (Ev α))
    (ht : Timely c (init c) es) (hn : ∀ e ∈ es, e.noStop)
    (hrun : (after c es).state = .running) (hidle : ∀ t, t ≠ worker → (after c es).pc t = .idle)
    (hdone : (after c (es ++ .stop :: es')).pc worker = .done)
    (ht'' : Timely c (restart c (after c (es ++ .stop :: es'))) es'') :
    EachAtMostOnce
      ((run c (restart c (after c (es ++ .stop :: es'))) es'').acquired.map Prod.snd)
      ((run c (restart c (after c (es ++ .stop :: es'))) es'').out.map Prod.snd) := by
  have hi := inv_after hL ht
  have ho := ord_after hL hA ht
  obtain ⟨h1, h2⟩ := ns_after hL ht hn
  have hd := Drain.enter hA hi ho h1 h2 hrun hidle
  have hi' : Inv c (step c (after c es) .stop) := hi.step trivial
  have ho' : Ord c (step c (after c es) .stop) := ho.step hA hi .stop
  obtain ⟨g1, g2, g3, g4, g5, _⟩ := Drain.run hA (es := es') hi' ho' hd
  have e : after c (es ++ .stop :: es') = run c (step c (after c es) .stop) es' := by
    rw [after, run_append]; rfl
  rw [e] at hdone ht'' ⊢
  have hp := g3.pcw
  rw [hdone] at hp
  simp only at hp
  have hir : Inv c (restart c (run c (step c (after c es) .stop) es')) := by
    refine g1.restart hL (hp.trans g3.full) g3.full ?_
    intro t hnt
    exact g3.idle t (fun h => hnt ⟨hA, h⟩)
  exact EachAtMostOnce.of_inv (hir.run ht'')

example : let s := after demoAsync (demoSched.take 61 ++ .stop :: steps 0 60)
    s.pc worker = .done ∧ Timely demoAsync (restart demoAsync s) secondSched ∧
    (run demoAsync (restart demoAsync s) secondSched).out.map Prod.snd = [[5, 0]] := by decide +kernel

/-! ## C16 -/

/-- C16: the counters are the number of slots acquired, published and claimed by consumers, minus the
increments pending in running calls. Holds for every schedule, timely or not. -/
theorem C16_counters (c : Cfg α) (n : Nat) (es : List (Ev α)) (hb : ∀ e ∈ es, e.below n) :
    (after c es).nHold + cnt atHInc (after c es) n = (after c es).H ∧
    (after c es).nPush + cnt atWInc (after c es) n = (after c es).W ∧
    (after c es).nProc + cnt atProc (after c es) n = (after c es).P := by
  have := (Cnt.init c n).run (c := c) hb
  exact ⟨this.hold, this.push, this.proc⟩

/-- C16: neither the number published nor the number processed exceeds the number held. -/
theorem C16_push_le_hold (c : Cfg α) (hL : 0 < c.L) (n : Nat) (es : List (Ev α))
    (hb : ∀ e ∈ es, e.below n) (ht : Timely c (init c) es) :
    (after c es).nPush ≤ (after c es).nHold ∧ (after c es).nProc ≤ (after c es).nHold := by
  obtain ⟨h1, h2, h3⟩ := C16_counters c n es hb
  have hi := inv_after hL ht
  have h4 := cnt_hold_le hi n
  have h5 := hi.leWH
  have h6 := hi.lePW
  omega

/-- C16: when no thread is inside the channel code all three are equal to the number of lines logged
(sync), and HOLD = PUSH (async). -/
theorem C16_idle_equal (c : Cfg α) (hL : 0 < c.L) (n : Nat) (es : List (Ev α))
    (hb : ∀ e ∈ es, e.below n) (ht : Timely c (init c) es) (hn : ∀ e ∈ es, e.noStop)
    (hidle : ∀ t, (after c es).pc t = .idle ∨ (c.async = true ∧ t = worker)) :
    (after c es).nHold = (after c es).acquired.length ∧
    (after c es).nPush = (after c es).acquired.length ∧
    (c.async = false → (after c es).nProc = (after c es).acquired.length) := by
  obtain ⟨h1, h2, h3⟩ := C16_counters c n es hb
  have hi := inv_after hL ht
  have hW := (C10_all_published c hL es ht hn hidle).1
  have zero : ∀ f : PC α → Bool, f .idle = false → (∀ p, isCons p = true → f p = false) →
      cnt f (after c es) n = 0 := by
    intro f hf1 hf2
    unfold cnt
    rw [List.countP_eq_zero]
    intro t _
    rcases hidle t with h | ⟨hA, h⟩
    · rw [h]; simp [hf1]
    · subst h
      have := (ord_after hL hA ht).pcw
      have hc : isCons ((after c es).pc worker) = true := by
        cases hp : (after c es).pc worker <;> rw [hp] at this <;> simp [OrdPC] at this <;> rfl
      rw [hf2 _ hc]; simp
  have z1 := zero atHInc rfl (by intro p; cases p <;> simp [isCons, atHInc])
  have z2 := zero atWInc rfl (by intro p; cases p <;> simp [isCons, atWInc])
  have hlen := hi.len
  refine ⟨by omega, by omega, ?_⟩
  intro hA
  have hall : ∀ t, (after c es).pc t = .idle := by
    intro t
    rcases hidle t with h | ⟨h, _⟩
    · exact h
    · rw [hA] at h; cases h
  have z3 : cnt atProc (after c es) n = 0 := by
    unfold cnt
    rw [List.countP_eq_zero]
    intro t _
    rw [hall t]; simp [atProc]
  obtain ⟨g1, g2⟩ := ns_after hL ht hn
  obtain ⟨_, h6, _⟩ := all_processed hA hi g1 g2 hall
  omega

/-- C16: on an async channel PROCESSED_BYTES is the number of bytes output, apart from a line that is
just being processed. -/
theorem C16_bytes_async (c : Cfg α) (hL : 0 < c.L) (hA : c.async = true) (es : List (Ev α))
    (ht : Timely c (init c) es) :
    (after c es).nBytes + pendBytes (after c es) =
      ((after c es).out.map (fun e => e.2.length)).sum := by
  have : Ord c (after c es) ∧ Bytes (after c es) := run_induct (c := c) (fun s => Ord c s ∧ Bytes s)
    (fun _ e hi h _ => ⟨h.1.step hA hi e, h.2.step hA hi h.1 e⟩) (Inv.init c hL)
    ⟨Ord.init c hA, Bytes.init c⟩ ht
  exact this.2

example : (∀ e ∈ demoSched, e.below 3) ∧ (after demoAsync demoSched).nHold = 2 ∧
    (after demoAsync demoSched).nPush = 2 ∧ (after demoAsync demoSched).nProc = 2 ∧
    (after demoAsync demoSched).nBytes = 5 := by
  refine ⟨?_, by decide +kernel⟩
  have h : ∀ n t, t < 3 → ∀ e ∈ steps t n, e.below 3 := by
    intro n t ht e he
    rw [steps, List.mem_replicate] at he
    rw [he.2]; exact ht
  intro e he
  simp only [demoSched, List.mem_append, List.mem_cons, List.not_mem_nil, or_false] at he
  rcases he with (((((he | he) | he) | he) | he) | he) | he
  · exact h _ _ (by omega) e he
  · rcases he with rfl | rfl
    · trivial
    · show 1 < 3; omega
  · exact h _ _ (by omega) e he
  · rw [he]; show 2 < 3; omega
  · exact h _ _ (by omega) e he
  · exact h _ _ (by omega) e he
  · exact h _ _ (by omega) e he

/-- Thread 2 of a sync channel of size 11 outputs a line of 2 bytes and is delayed before counting it;
thread 1 logs 11 lines, so the slot is reused. -/
def bytesSched : List (Ev Nat) :=
  [.started, .call 2 [20]] ++ steps 2 27 ++
    (List.replicate 11 (.call 1 [1, 2, 3, 4] :: steps 1 60)).flatten ++ steps 2 40

/-- On a sync channel PROCESSED_BYTES can be wrong: 57 bytes were output, 60 are counted. -/
theorem C16_bytes_sync_counterexample : let c : Cfg Nat := ⟨11, false, 0⟩
    Timely c (init c) bytesSched ∧ (after c bytesSched).pc 1 = .idle ∧
    (after c bytesSched).pc 2 = .idle ∧
    ((after c bytesSched).out.map (fun e => e.2.length)).sum = 57 ∧
    (after c bytesSched).nBytes = 60 := by decide +kernel

/-! ## C17 -/

/-- C17: on a running async channel, when the queue is full and no thread holds an unpublished slot or
is about to publish one, 15 further steps of the worker (interleaved with anything) release a slot. -/
theorem C17_full_queue_released (c : Cfg α) (hL : 2 ≤ c.L) (hA : c.async = true)
    (es es' : List (Ev α)) (ht : Timely c (init c) (es ++ es')) (hn : ∀ e ∈ es ++ es', e.noStop)
    (hfull : (after c es).acquired.length + 1 = (after c es).R + c.L)
    (hnp : ∀ t, pown ((after c es).pc t) = none) (hnr : ∀ t, ¬ respW (after c es) ((after c es).pc t))
    (hw : 15 ≤ workerSteps es') : (after c es).R < (after c (es ++ es')).R := by
  rw [timely_append] at ht
  have hL0 : 0 < c.L := by omega
  have hn1 : ∀ e ∈ es, e.noStop := fun e he => hn e (List.mem_append_left _ he)
  have hn2 : ∀ e ∈ es', e.noStop := fun e he => hn e (List.mem_append_right _ he)
  have hi := inv_after hL0 ht.1
  have ho := ord_after hL0 hA ht.1
  obtain ⟨h1, h2⟩ := ns_after hL0 ht.1 hn1
  have hW := all_published' hi h1 h2 hnp hnr
  have hlen := hi.len
  have hrel := release_run hA hi ho h1 (by omega) ht.2 hn2
  have e : after c (es ++ es') = run c (after c es) es' := run_append _ _ _ _
  rw [e]
  rcases hrel with h | h
  · exact h
  · exfalso
    have := relRank_le ((after c es).P - (after c es).R) ((after c es).pc worker)
    unfold relMeasure at h
    omega

/-- C17: a log statement that runs alone with a free slot acquires one slot and returns, with its line
acquired; it needs a bounded number of steps. -/
theorem C17_alone_completes (c : Cfg α) (hL : 0 < c.L) (es : List (Ev α)) (ht : Timely c (init c) es)
    (t : Nat) (b : List α) (hst : (after c es).state = .running) (hlg : (after c es).lgRunning = true)
    (hpc : (after c es).pc t = .idle)
    (hroom : (after c es).acquired.length + 1 < (after c es).R + c.L)
    (n : Nat) (hn : 100 * c.L + 204 + b.length ≤ n) :
    (after c (es ++ .call t b :: List.replicate n (.run t))).pc t = .idle ∧
    (after c (es ++ .call t b :: List.replicate n (.run t))).acquired =
      (after c es).acquired ++ [(t, withEnd c.nl b)] := by
  have hi := inv_after hL ht
  have hlen := hi.len
  have hcap := hi.cap
  have h1 := hi.leRP
  have h2 := hi.lePW
  have h3 := hi.leWH
  obtain ⟨_, _, h4, h5⟩ := log_alone b hi hst hlg hpc (by omega) (n := n) (by
    unfold aloneBound; omega)
  rw [after, run_append]
  refine ⟨h5, ?_⟩
  rcases h4.ph with h6 | h6
  · rw [h5] at h6; simp [pending] at h6
  · exact h6.2.2

example : let c : Cfg Nat := ⟨11, true, 0⟩
    let es := steps 0 5 ++ [.started] ++ (List.replicate 10 (.call 1 [] :: steps 1 25)).flatten
    Timely c (init c) (es ++ steps 0 15) ∧ (after c es).acquired.length + 1 = (after c es).R + c.L ∧
    (after c es).pc 1 = .idle ∧ (after c (es ++ steps 0 15)).R = 1 := by decide +kernel

end FNLog
