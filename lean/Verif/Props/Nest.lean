import Verif.Proof.NestLock

/-!
# Property C113: statements inside of statements

An operand or a hook logs while its statement holds a slot.  When the channels can be put in an order such that an inner statement is always on
a channel in front of those of the statements around it, everything comes to an end as without nesting.  When two threads forward in opposite
directions, both can wait for ever.
-/

namespace FNLog
open Ring Spec Nest

variable {α : Type}

/-- C113: with nested statements the queue of each channel still behaves as `Model/Ring` says: it goes through the states of an execution of
its own, in which the statements of different depths are different threads; timely if the nested one is, and without a stop.  So what C06 to
C17 say of all executions holds for it. -/
theorem C113_each_channel (c : Nat → Cfg α) (σ : Nat → NEv α) (i : Nat) :
    ∃ σ' : Nat → Ev α, (∀ n, (nestAt c σ n).ring i = stateAt (c i) σ' n) ∧ (∀ n, (σ' n).noStop) ∧
    (NestTimely c σ → ∀ n, Timely (c i) (init (c i)) (upTo σ' n)) :=
  ⟨ringSched c σ i, ring_at c σ i, noStop_sched c σ i, fun ht => timely_pointwise (timely_sched ht i)⟩

/-- C113: a statement is over exactly when it is no more among the statements of its thread. -/
theorem C113_stack (c : Nat → Cfg α) (σ : Nat → NEv α) (n t : Nat) :
    (nestAt c σ n).stack t = [] ↔ ∀ i d, ((nestAt c σ n).ring i).pc (ctx t d) = .idle :=
  ⟨fun h i d => idle_of_nil (nestInv c σ n) h d i, fun h => nil_of_idle (nestInv c σ n) fun d j => h j d⟩

/-- C113, for nesting along an order of the channels: when only finitely many statements are made, outer and inner, then from some time on
every thread is outside, and on every channel the lines of each statement number are exactly its statements, everything is written exactly
once and the queue is empty.
Missing: without the order it is false (`C113_deadlock_counterexample`). -/
theorem C113_returns_partial (c : Nat → Cfg α) (σ : Nat → NEv α) (rank : Nat → Nat) (hL : ∀ i, 2 ≤ (c i).L) (ht : NestTimely c σ)
    (hf : NestFair c σ) (hr : Ranked rank c σ) {N : Nat} (hN : ∀ n, N ≤ n → ∀ t i b, σ n ≠ .log t i b) :
    (∀ t, Eventually fun n => (nestAt c σ n).stack t = []) ∧
    ∀ i, Eventually fun n =>
      (∀ u, linesOf u ((nestAt c σ n).ring i).acquired = (linesOf u ((nestAt c σ n).ring i).calls).map (withEnd (c i).nl)) ∧
      EachExactlyOnce (((nestAt c σ n).ring i).acquired.map Prod.snd) (((nestAt c σ n).ring i).out.map Prod.snd) ∧
      ((nestAt c σ n).ring i).R = ((nestAt c σ n).ring i).H := by
  have hall : ∀ i, _ := fun i => C100_all_return (c i) _ (nest_endless hL ht hf hr hN (rank i + 1) i (by omega)) (N := N)
    fun n hn u b hb => by
      obtain ⟨t, h⟩ := call_sched hb
      exact hN n hn _ _ _ h
  refine ⟨fun t => ?_, fun i => ?_⟩
  · -- the stack at `N` has finitely many channels
    suffices h : ∀ k n, N ≤ n → ((nestAt c σ n).stack t).length = k → ∃ m, n ≤ m ∧ (nestAt c σ m).stack t = [] by
      obtain ⟨m, hm, h0⟩ := h _ N (Nat.le_refl _) rfl
      refine ⟨m, fun q hq => ?_⟩
      have := stack_shrinks (c := c) hN hm hq t
      rw [h0] at this
      exact List.suffix_nil.1 this
    intro k
    induction k using Nat.strongRecOn with
    | ind k ih =>
      intro n hn hk
      cases hs : (nestAt c σ n).stack t with
      | nil => exact ⟨n, Nat.le_refl _, hs⟩
      | cons j rest =>
        obtain ⟨M, hM⟩ := hall j
        have hm1 : n ≤ max n M := Nat.le_max_left ..
        have hidle := (hM (max n M) (Nat.le_max_right ..)).1 (ctx t rest.length)
        rw [← ring_at] at hidle
        have hidle' : ((nestAt c σ (max n M)).ring j).pc (ctx t rest.length) = .idle := by
          rcases hidle with h | ⟨_, h⟩
          · exact h
          · exact absurd h (ctx_zero t rest.length)
        have hsuf := stack_shrinks (c := c) hN hn hm1 t
        have hlt : ((nestAt c σ (max n M)).stack t).length < k := by
          refine Nat.lt_of_not_le fun hle => ?_
          have heq := suffix_eq hsuf (by rw [hk]; exact hle)
          refine ((nestInv c σ (max n M)).frames t rest.length j).2 ?_ hidle'
          rw [heq, hs]
          simp only [frameAt, if_true]
        obtain ⟨m, hm, h0⟩ := ih _ hlt (max n M) (by omega) rfl
        exact ⟨m, by omega, h0⟩
  · obtain ⟨M, hM⟩ := hall i
    refine ⟨M, fun n hn => ?_⟩
    dsimp only
    rw [ring_at]
    exact (hM n hn).2

/-- C113 fails without an order.  Once thread `t` is inside a statement on channel `i` and from there in one on channel `j`, thread `u` the
other way round, both queues are full, the outer statements have the oldest slots and the inner ones wait for a slot, nothing that happens
afterwards, on whatever channels and threads, gets them out. -/
theorem C113_deadlock_stays_counterexample (c : Nat → Cfg α) (σ : Nat → NEv α) (hL : ∀ i, 0 < (c i).L) (ht : NestTimely c σ)
    {n t u i j k k' : Nat} {r r' b b' : List α}
    (hst : (nestAt c σ n).stack t = [j, i]) (hsu : (nestAt c σ n).stack u = [i, j])
    (hpt : ((nestAt c σ n).ring i).pc (ctx t 0) = .fill k r) (hpu : ((nestAt c σ n).ring j).pc (ctx u 0) = .fill k' r')
    (hfi : k + (c i).L = ((nestAt c σ n).ring i).acquired.length + 1) (hfj : k' + (c j).L = ((nestAt c σ n).ring j).acquired.length + 1)
    (hwt : ((nestAt c σ n).ring j).pc (ctx t 1) = .hChk 0 b) (hwu : ((nestAt c σ n).ring i).pc (ctx u 1) = .hChk 0 b')
    {m : Nat} (hm : n ≤ m) : (nestAt c σ m).stack t = [j, i] ∧ (nestAt c σ m).stack u = [i, j] :=
  have := Dead.run hL ht (Dead.mk hst hsu ⟨k, r, hpt, hfi⟩ ⟨k', r', hpu, hfj⟩ (by rw [hwt]; rfl) (by rw [hwu]; rfl)) hm
  ⟨this.stackT, this.stackU⟩

/-- The hypotheses can be met: two slots, the prefix of the next theorem. -/
example : let c := lockChans 2 (0 : Nat)
    let s := nestAt c (lockSched 2) 30
    NestTimely c (lockSched 2) ∧ s.stack 1 = [1, 0] ∧ s.stack 2 = [0, 1] ∧ (s.ring 0).pc (ctx 1 0) = .fill 0 [] ∧
    (s.ring 1).pc (ctx 2 0) = .fill 0 [] ∧ 0 + (c 0).L = (s.ring 0).acquired.length + 1 ∧ 0 + (c 1).L = (s.ring 1).acquired.length + 1 ∧
    (s.ring 1).pc (ctx 1 1) = .hChk 0 [] ∧ (s.ring 0).pc (ctx 2 1) = .hChk 0 [] := by
  refine ⟨lock_timely (by decide) 0, ?_⟩
  decide +kernel

/-- C113 fails without an order, for every `BUFFER_LEN`: two asynchronous channels, a fair operating system, timely compare-and-swaps and
finitely many statements; from some time on nobody begins a statement, thread 1 is inside a statement on channel 1 inside of one on channel 0,
thread 2 the other way round, and so it remains. -/
theorem C113_deadlock_counterexample {L : Nat} (hL : 2 ≤ L) (nl : α) : ∃ (c : Nat → Cfg α) (σ : Nat → NEv α) (N : Nat),
    (∀ i, (c i).L = L) ∧ NestTimely c σ ∧ NestFair c σ ∧ (∀ n, N ≤ n → ∀ t i b, σ n ≠ .log t i b) ∧
    ∀ n, N ≤ n → (nestAt c σ n).stack 1 = [1, 0] ∧ (nestAt c σ n).stack 2 = [0, 1] := by
  refine ⟨lockChans L nl, lockSched L, (lockPre (α := α) L).length, fun _ => rfl, lock_timely hL nl, lock_fair nl, fun n hn t i b h => ?_,
    fun n hn => ?_⟩
  · rw [sched_late hn] at h
    unfold lockTurn at h
    split at h <;> cases h
  · obtain ⟨k, rfl⟩ := Nat.le.dest hn
    exact ⟨(lock_state hL nl k).st1, (lock_state hL nl k).st2⟩

/-! ## The hypotheses of `C113_returns_partial` can be met

Thread 1 logs on the synchronous channel 1, its operand logs on the synchronous channel 0; two slots each. -/

def orderChan : Cfg Nat := ⟨2, false, 0⟩

def orderPre : List (NEv Nat) :=
  [.started 0] ++ ([.started 1] ++ (.log 1 1 [] :: List.replicate 7 (.run 1)) ++ [.log 1 0 []]) ++ List.replicate 37 (.run 1) ++
    List.replicate 30 (.run 1)

def orderSched : Nat → NEv Nat := follow orderPre fun _ => .run 1

/-- The innermost statement of a thread makes `n + 1` steps, returning with the last one. -/
theorem solo_deep (c : Nat → Cfg α) {i t : Nat} {rest : List Nat} : ∀ (n : Nat) {s : Nested α}, s.stack t = i :: rest →
    (∀ m, m ≤ n → (Ring.run (c i) (s.ring i) (List.replicate m (.run (ctx t rest.length)))).pc (ctx t rest.length) ≠ .idle) →
    (Ring.run (c i) (s.ring i) (List.replicate (n + 1) (.run (ctx t rest.length)))).pc (ctx t rest.length) = .idle →
    Solo c i s (List.replicate (n + 1) (.run t)) (List.replicate (n + 1) (.run (ctx t rest.length))) ∧
    (nrun c s (List.replicate (n + 1) (.run t))).stack t = rest
  | n, s, hst, hp, he => by
    have h1 : Solo c i s [.run t] [.run (ctx t rest.length)] :=
      Solo.one (by simp [ringEv, hst]) fun j hj => by simp only [ringEv, hst]; exact if_neg fun k => hj k.symm
    have hr : (nstep c s (.run t)).ring i = Ring.step (c i) (s.ring i) (.run (ctx t rest.length)) := h1.ring
    cases n with
    | zero =>
      refine ⟨h1, ?_⟩
      show stackAfter s (nstep c s (.run t)).ring (.run t) t = rest
      simp only [stackAfter, hst]
      rw [if_pos, upd_same]
      rw [over_iff, hr]
      exact he
    | succ n =>
      have hst' : (nstep c s (.run t)).stack t = i :: rest := by
        show stackAfter s (nstep c s (.run t)).ring (.run t) t = _
        simp only [stackAfter, hst]
        rw [if_neg]
        · exact hst
        · rw [over_iff, hr]
          exact hp 1 (by omega)
      obtain ⟨g1, g2⟩ := solo_deep c n hst' (fun m hm => by rw [hr]; exact hp (m + 1) (by omega)) (by rw [hr]; exact he)
      exact ⟨h1.append g1, g2⟩

theorem order_inner : ∀ m : Fin 37,
    (Ring.run orderChan (Ring.run orderChan (Ring.run orderChan (init orderChan) [.started]) [.call (ctx 1 1) []])
      (List.replicate m (.run (ctx 1 1)))).pc (ctx 1 1) ≠ .idle := by decide +kernel

theorem order_outer : ∀ m : Fin 30,
    (Ring.run orderChan (Ring.run orderChan (init orderChan) ([.started] ++ aloneEvents (ctx 1 0) [] 7))
      (List.replicate m (.run (ctx 1 0)))).pc (ctx 1 0) ≠ .idle := by decide +kernel

theorem order_pre : NT (fun _ => orderChan) (ninit fun _ => orderChan) orderPre ∧
    NestInv (fun _ => orderChan) (nrun (fun _ => orderChan) (ninit fun _ => orderChan) orderPre) ∧
    (nrun (fun _ => orderChan) (ninit fun _ => orderChan) orderPre).stack 1 = [] := by
  obtain ⟨c, hc⟩ : ∃ c : Nat → Cfg Nat, c = fun _ => orderChan := ⟨_, rfl⟩
  rw [← hc]
  have hi := NestInv.init c
  have s1 := Solo.started c 0 (ninit c)
  have s2 := Solo.started c 1 (nrun c (ninit c) [.started 0])
  have hi2 : NestInv c (nrun c (nrun c (ninit c) [.started 0]) [.started 1]) := NestInv.run _ (NestInv.run _ hi)
  have s3 := Solo.statement c 1 1 [] 7 hi2 rfl
  have s23 := s2.append s3
  obtain ⟨t2, ht2⟩ : ∃ t2, t2 = nrun c (nrun c (ninit c) [.started 0]) ([.started 1] ++ (.log 1 1 [] :: List.replicate 7 (.run 1))) := ⟨_, rfl⟩
  have hi3 : NestInv c t2 := by rw [ht2]; exact NestInv.run _ (NestInv.run _ hi)
  have r1 := s23.ring
  have r0 := s23.others 0 (by decide)
  rw [← ht2] at r1 r0
  rw [s1.others 1 (by decide)] at r1
  rw [s1.ring] at r0
  have hst2 : t2.stack 1 = [1] := by rw [ht2, hc]; decide +kernel
  have ho2 : t2.open 1 = true := by rw [ht2, hc]; decide +kernel
  have s4 := Solo.log c 0 1 [] ho2
  rw [hst2] at s4
  obtain ⟨t3, ht3⟩ : ∃ t3, t3 = nrun c t2 [.log 1 0 []] := ⟨_, rfl⟩
  have q0 := s4.ring
  have q1 := s4.others 1 (by decide)
  rw [← ht3] at q0 q1
  rw [r0] at q0
  rw [r1] at q1
  have hst3 : t3.stack 1 = [0, 1] := by rw [ht3, ht2, hc]; decide +kernel
  obtain ⟨d1, d2⟩ := solo_deep c 36 hst3 (by
    rw [q0, hc]
    exact fun m hm => order_inner ⟨m, by omega⟩) (by rw [q0, hc]; decide +kernel)
  obtain ⟨t4, ht4⟩ : ∃ t4, t4 = nrun c t3 (List.replicate 37 (.run 1)) := ⟨_, rfl⟩
  rw [← ht4] at d2
  have p1 := d1.others 1 (by decide)
  rw [← ht4, q1] at p1
  obtain ⟨e1, e2⟩ := solo_deep c 29 d2 (by
    rw [p1, hc]
    exact fun m hm => order_outer ⟨m, by omega⟩) (by rw [p1, hc]; decide +kernel)
  have hpre : nrun c (ninit c) orderPre = nrun c t4 (List.replicate 30 (.run 1)) := by
    unfold orderPre
    rw [nrun_append, nrun_append, nrun_append, nrun_append, ← ht2, ← ht3, ← ht4]
  refine ⟨?_, NestInv.run _ hi, by rw [hpre]; exact e2⟩
  unfold orderPre
  refine nt_append (nt_append (nt_append (s1.timely ?_) (nt_append (s23.timely ?_) ?_)) ?_) ?_
  · exact ⟨trivial, trivial⟩
  · rw [s1.others 1 (by decide), hc]; decide +kernel
  · rw [← ht2]; exact s4.timely ⟨trivial, trivial⟩
  · rw [nrun_append, nrun_append, ← ht2, ← ht3]; exact d1.timely (by rw [q0, hc]; decide +kernel)
  · rw [nrun_append, nrun_append, nrun_append, ← ht2, ← ht3, ← ht4]; exact e1.timely (by rw [p1, hc]; decide +kernel)

theorem run_outside (c : Nat → Cfg α) {s : Nested α} {t : Nat} (h : s.stack t = []) : nstep c s (.run t) = s := by
  unfold nstep
  simp only [ringEv, stackAfter, h, stepO]

theorem follow_end {c : Nat → Cfg α} {pre : List (NEv α)} {f : Nat → NEv α}
    (h : ∀ k, nstep c (nrun c (ninit c) pre) (f k) = nrun c (ninit c) pre) (k : Nat) :
    nestAt c (follow pre f) (pre.length + k) = nrun c (ninit c) pre := by
  induction k with
  | zero => rw [Nat.add_zero, nestAt_follow _ _ _ (Nat.le_refl _), List.take_length]
  | succ k ih =>
    rw [← Nat.add_assoc, nestAt, ih, follow, List.getElem?_eq_none (by omega), Option.getD_none, h]

theorem order_late (n : Nat) (hn : orderPre.length ≤ n) : orderSched n = .run 1 := by
  unfold orderSched follow
  rw [List.getElem?_eq_none hn]
  rfl

theorem order_log (n t i : Nat) (b : List Nat) (hl : orderSched n = .log t i b) : t = 1 ∧ ((n = 2 ∧ i = 1) ∨ (n = 10 ∧ i = 0)) := by
  by_cases hn : n < orderPre.length
  · have h := (show ∀ m : Fin 78, (match orderPre[m.1]? with
      | some (.log t i _) => decide (t = 1 ∧ ((m.1 = 2 ∧ i = 1) ∨ (m.1 = 10 ∧ i = 0)))
      | _ => true) = true by decide +kernel) ⟨n, hn⟩
    unfold orderSched follow at hl
    rw [List.getElem?_eq_getElem hn] at hl
    have hl' : orderPre[n] = .log t i b := hl
    have he : orderPre[n]? = some (.log t i b) := by rw [List.getElem?_eq_getElem hn, hl']
    simp only [he] at h
    exact of_decide_eq_true h
  · rw [order_late n (by omega)] at hl; cases hl

theorem timely_follow {c : Nat → Cfg α} {pre : List (NEv α)} {f : Nat → NEv α} (h : NT c (ninit c) pre)
    (hl : ∀ k i e, ringEv (nestAt c (follow pre f) (pre.length + k)) i (f k) = some e →
      timelyEv (c i) ((nestAt c (follow pre f) (pre.length + k)).ring i) e) : NestTimely c (follow pre f) := by
  intro n i e he
  by_cases hn : n < pre.length
  · have h := nt_at h (List.getElem?_eq_getElem hn) i e
    rw [nestAt_follow _ _ _ (by omega)] at he ⊢
    refine h ?_
    rw [← he, follow, List.getElem?_eq_getElem hn, Option.getD_some]
  · obtain ⟨k, rfl⟩ := Nat.le.dest (Nat.le_of_not_lt hn)
    refine hl k i e ?_
    rw [← he, follow, List.getElem?_eq_none (by omega), Option.getD_none, Nat.add_sub_cancel_left]

theorem order_timely : NestTimely (fun _ => orderChan) orderSched := by
  refine timely_follow order_pre.1 fun k i e he => ?_
  have h2 := order_pre.2.2
  rw [follow_end fun _ => run_outside _ h2] at he
  generalize nrun (fun _ => orderChan) (ninit fun _ => orderChan) orderPre = s at he h2
  simp only [ringEv, h2] at he
  cases he

theorem order_ranked : Ranked id (fun _ => orderChan) orderSched := by
  intro n t i b hl
  have h2 : (nestAt (fun _ => orderChan) orderSched 2).stack 1 = [] := by
    rw [orderSched, nestAt_follow _ _ _ (by decide)]; decide +kernel
  have h10 : (nestAt (fun _ => orderChan) orderSched 10).stack 1 = [1] := by
    rw [orderSched, nestAt_follow _ _ _ (by decide)]; decide +kernel
  obtain ⟨rfl, ⟨rfl, rfl⟩ | ⟨rfl, rfl⟩⟩ := order_log n t i b hl
  · rw [h2]; nofun
  · rw [h10]; decide

theorem C113_example : 2 ≤ orderChan.L ∧ NestTimely (fun _ => orderChan) orderSched ∧ NestFair (fun _ => orderChan) orderSched ∧
    Ranked id (fun _ => orderChan) orderSched ∧ (∀ n, orderPre.length ≤ n → ∀ t i b, orderSched n ≠ .log t i b) ∧
    (nestAt (fun _ => orderChan) orderSched 11).stack 1 = [0, 1] := by
  refine ⟨Nat.le_refl _, order_timely, ⟨fun t n hs => ?_, fun i n hA => by cases hA⟩, order_ranked, fun n hn t i b h => ?_, ?_⟩
  · have ht : t = 1 := Classical.byContradiction fun ht => hs (stack_nil (fun m i b hm => ht (order_log m t i b hm).1) n)
    subst ht
    exact ⟨max n orderPre.length, Nat.le_max_left .., order_late _ (Nat.le_max_right ..)⟩
  · rw [order_late n hn] at h; cases h
  · rw [orderSched, nestAt_follow _ _ _ (by decide)]; decide +kernel

end FNLog
