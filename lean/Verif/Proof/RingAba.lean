import Verif.Proof.RingSync

/-! # A schedule with a full lap inside one compare-and-swap window -/

namespace FNLog.Ring
open FNLog

variable {α : Type}

/-- Everything that a timely run without stop keeps on an async channel. -/
structure Good (c : Cfg α) (s : St α) : Prop where
  inv : Inv c s
  ord : Ord c s
  ns : NS c s
  resp : Resp c s

theorem Good.run {c : Cfg α} (hA : c.async = true) : ∀ {es : List (Ev α)} {s : St α}, Good c s →
    Timely c s es → (∀ e ∈ es, e.noStop) → Good c (run c s es) := by
  intro es
  induction es with
  | nil => intro s h _ _; exact h
  | cons e es ih =>
    intro s h ht hn
    exact ih ⟨h.inv.step ht.1, h.ord.step hA h.inv e, h.ns.step h.inv e (hn e (by simp)),
      h.resp.step h.inv h.ns e ht.1⟩ ht.2 (fun e' he' => hn e' (by simp [he']))

theorem Good.init (c : Cfg α) (hA : c.async = true) (hL : 0 < c.L) : Good c (init c) :=
  ⟨Inv.init c hL, Ord.init c hA, NS.init c, Resp.init c⟩

/-- Thread 2 logs `m` times while nobody else moves. -/
theorem log_many {c : Cfg α} (hA : c.async = true) : ∀ (m : Nat) {s : St α}, Good c s →
    s.state = .running → s.lgRunning = true → s.pc 2 = .idle → s.H + m < s.R + c.L →
    ∃ es : List (Ev α), (∀ e ∈ es, e.noStop) ∧ Good c (run c s es) ∧
      (run c s es).state = .running ∧ (run c s es).lgRunning = true ∧ (run c s es).H = s.H + m ∧
      (run c s es).P = s.P ∧ (run c s es).R = s.R ∧ (run c s es).out = s.out ∧
      (∀ t, (run c s es).pc t = s.pc t) := by
  intro m
  induction m with
  | zero =>
    intro s h hst hlg _ _
    exact ⟨[], by simp, h, hst, hlg, rfl, rfl, rfl, rfl, fun _ => rfl⟩
  | succ m ih =>
    intro s h hst hlg hpc hroom
    obtain ⟨h1, h2, h3, h4⟩ := log_alone (c := c) (s := s) (t := 2) [] h.inv hst hlg hpc (by omega)
      (Nat.le_refl _)
    have hno : ∀ e ∈ aloneEvents 2 ([] : List α) (aloneBound s []), e.noStop := by
      intro e he
      simp only [aloneEvents, List.mem_cons, List.mem_replicate] at he
      rcases he with rfl | ⟨_, rfl⟩ <;> trivial
    have hg := h.run hA h1 hno
    obtain ⟨hp, hr, ho⟩ := h3.pr hA
    have hH : (run c s (aloneEvents 2 [] (aloneBound s []))).H = s.H + 1 := by
      rcases h3.ph with h5 | h5
      · rw [h4] at h5; simp [pending] at h5
      · exact h5.2.1
    have hpcs : ∀ t, (run c s (aloneEvents 2 [] (aloneBound s []))).pc t = s.pc t := by
      intro t
      by_cases ht : t = 2
      · subst ht; rw [h4, hpc]
      · exact h3.oth t ht
    obtain ⟨es, g1, g2, g3, g4, g5, g6, g7, g8, g9⟩ := ih hg h3.st (h3.lg.trans hlg) h4
      (by omega)
    refine ⟨aloneEvents 2 [] (aloneBound s []) ++ es, ?_, ?_⟩
    · intro e he
      rcases List.mem_append.1 he with h5 | h5
      · exact hno e h5
      · exact g1 e h5
    · rw [run_append]
      exact ⟨g2, g3, g4, by omega, by omega, by omega, g8.trans ho, fun t => (g9 t).trans (hpcs t)⟩

theorem timely_worker {c : Cfg α} (hA : c.async = true) : ∀ (n : Nat) {s : St α}, Good c s →
    Timely c s (List.replicate n (.run worker)) := by
  intro n
  induction n with
  | zero => intro s _; trivial
  | succ n ih =>
    intro s h
    have ht : timelyEv c s (.run worker) := by
      apply timelyAt_of_exact
      · have := h.ord.pcw
        cases hp : s.pc worker <;> rw [hp] at this <;> simp_all [OrdPC, Exact]
    rw [List.replicate_succ]
    exact ⟨ht, ih ⟨h.inv.step ht, h.ord.step hA h.inv _, h.ns.step h.inv _ trivial,
      h.resp.step h.inv h.ns _ ht⟩⟩

/-- The state before the late compare-and-swap: the queue is full, `hold_idx_` has come round to the
value loaded by thread 1. -/
structure Lap (c : Cfg α) (s : St α) : Prop where
  good : Good c s
  st : s.state = .running
  H : s.H = c.L
  W : s.W = c.L
  P : s.P = 1
  R : s.R = 1
  one : s.out.length = 1
  a : s.pc 1 = .hCas 0 0 []
  oth : ∀ t, t ≠ 1 → t ≠ worker → s.pc t = .idle
  nocas : ∀ tk, s.pc worker ≠ .cCas tk

theorem lap_exists (c : Cfg α) (hA : c.async = true) (hL : 2 ≤ c.L) :
    ∃ es : List (Ev α), (∀ e ∈ es, e.noStop) ∧ Lap c (run c (init c) es) := by
  let pre : List (Ev α) := List.replicate 5 (.run worker) ++ [.started, .call 1 [], .run 1, .run 1, .run 1]
  have m1 : 1 % c.L = 1 := Nat.mod_eq_of_lt (by omega)
  have m0 : 0 % c.L = 0 := Nat.mod_eq_of_lt (by omega)
  have hpre : ∀ e ∈ pre, e.noStop := by
    intro e he
    simp only [pre, List.mem_append, List.mem_replicate, List.mem_cons, List.not_mem_nil, or_false] at he
    rcases he with ⟨_, rfl⟩ | rfl | rfl | rfl | rfl | rfl <;> trivial
  let s1 := run c (init c) pre
  have hs1 : s1 = { init c with
      state := .running, lgRunning := true, calls := [(1, [])],
      pc := fun t => if t = 1 then .hCas 0 0 [] else if t = 0 then .cLoad else .idle } := by
    simp [s1, pre, run, step, stepT, init, hA, worker, St.go, List.replicate, m1, m0]
    funext t
    split <;> simp_all
  have ht1 : Timely c (init c) pre := by
    simp [pre, Timely, timelyEv, timelyAt, step, stepT, init, hA, worker, St.go, List.replicate, m0]
  have hg1 : Good c s1 := (Good.init c hA (by omega)).run hA ht1 hpre
  -- thread 2 logs once
  obtain ⟨es2, hn2, hg2, st2, lg2, H2, P2, R2, o2, pc2⟩ := log_many hA 1 hg1 (by rw [hs1]) (by rw [hs1])
    (by rw [hs1]; simp) (by rw [hs1]; simp [init]; omega)
  have hs1H : s1.H = 0 := by rw [hs1]; rfl
  have hs1P : s1.P = 0 := by rw [hs1]; rfl
  have hs1R : s1.R = 0 := by rw [hs1]; rfl
  have hs1o : s1.out = [] := by rw [hs1]; rfl
  have hs1pc : s1.pc = fun t => if t = 1 then .hCas 0 0 [] else if t = 0 then .cLoad else .idle := by
    rw [hs1]
  have quiet : ∀ s : St α, (∀ t, t ≠ worker → s.pc t = s1.pc t) → Good c s → s.W = s.H := by
    intro s hpc hg
    have hw : isCons (s.pc worker) = true := by
      have := hg.ord.pcw
      cases hp : s.pc worker <;> rw [hp] at this <;> simp [OrdPC] at this <;> rfl
    apply all_published' hg.inv hg.ns hg.resp
    · intro t
      by_cases ht : t = worker
      · subst ht; revert hw; cases s.pc worker <;> simp [isCons, pown]
      · rw [hpc t ht, hs1pc]; simp only
        split
        · rfl
        · rw [if_neg (show ¬ t = 0 from ht)]; rfl
    · intro t
      by_cases ht : t = worker
      · subst ht; revert hw; cases s.pc worker <;> simp [isCons, respW]
      · rw [hpc t ht, hs1pc]; simp only
        split
        · exact id
        · rw [if_neg (show ¬ t = 0 from ht)]; exact id
  let s2 := run c s1 es2
  have W2 : s2.W = s2.H := quiet s2 (fun t _ => pc2 t) hg2
  -- the worker releases it
  have ht3 := timely_worker hA 15 hg2
  have hn3 : ∀ e ∈ List.replicate 15 (Ev.run (α := α) worker), e.noStop := by
    intro e he
    rw [List.mem_replicate] at he
    rw [he.2]; trivial
  let s3 := run c s2 (List.replicate 15 (.run worker))
  have hg3 : Good c s3 := hg2.run hA ht3 hn3
  have hrel := release_run hA hg2.inv hg2.ord hg2.ns (by
    show s2.R < s2.W
    have : s2.R = s1.R := R2
    have : s2.H = s1.H + 1 := H2
    omega) ht3 hn3
  have hws : workerSteps (List.replicate 15 (Ev.run (α := α) worker)) = 15 := by
    simp [workerSteps, Ev.isWorker, worker, List.replicate]
  have hR3 : s2.R < s3.R := by
    rcases hrel with h | h
    · exact h
    · exfalso
      have := relRank_le (s2.P - s2.R) (s2.pc worker)
      unfold relMeasure at h
      rw [hws] at h
      have e : relRank ((run c s1 es2).P - (run c s1 es2).R) ((run c s1 es2).pc worker) =
        relRank (s2.P - s2.R) (s2.pc worker) := rfl
      omega
  have only : ∀ n (s : St α), Good c s →
      (run c s (List.replicate n (.run worker))).H = s.H ∧
      (run c s (List.replicate n (.run worker))).W = s.W ∧
      ((s.state = .running → (run c s (List.replicate n (.run worker))).state = .running) ∧
      (run c s (List.replicate n (.run worker))).lgRunning = s.lgRunning) ∧
      ∀ t, t ≠ worker → (run c s (List.replicate n (.run worker))).pc t = s.pc t := by
    intro n
    induction n with
    | zero => intro s _; exact ⟨rfl, rfl, ⟨id, rfl⟩, fun _ _ => rfl⟩
    | succ n ih =>
      intro s hg
      have hcons : isCons (s.pc worker) = true := by
        have := hg.ord.pcw
        cases hp : s.pc worker <;> rw [hp] at this <;> simp [OrdPC] at this <;> rfl
      have ht := (timely_worker hA 1 hg).1
      have hg' : Good c (step c s (.run worker)) :=
        ⟨hg.inv.step ht, hg.ord.step hA hg.inv _, hg.ns.step hg.inv _ trivial,
          hg.resp.step hg.inv hg.ns _ ht⟩
      obtain ⟨a1, a2, ⟨a3, a5⟩, a4⟩ := ih _ hg'
      have hf := stepT_cons_frame c s hcons
      rw [List.replicate_succ]
      refine ⟨a1.trans hf.1, a2.trans hf.2, ⟨fun hr => a3 ?_, a5.trans ?_⟩, fun t ht => (a4 t ht).trans
        (stepT_pc_other c s ht)⟩
      · have hwk := hg.ns.wk worker
        simp only [step]
        unfold stepT
        split <;> rename_i hpc <;> rw [hpc] at hwk <;> (try exact absurd hwk id) <;> (repeat' split) <;>
          simp [hr]
      · simp only [step]
        unfold stepT
        split <;> (repeat' split) <;> simp
  obtain ⟨H3, W3, ⟨st3, lg3⟩, pc3⟩ := only 15 s2 hg2
  have e2R : s2.R = s1.R := R2
  have e2P : s2.P = s1.P := P2
  have e2H : s2.H = s1.H + 1 := H2
  have e3H : s3.H = s2.H := H3
  have e3W : s3.W = s2.W := W3
  have hle1 := hg3.inv.leRP
  have hle2 := hg3.inv.lePW
  have pcs3 : ∀ t, t ≠ worker → s3.pc t = s1.pc t := fun t ht => (pc3 t ht).trans (pc2 t)
  -- thread 2 fills the queue
  obtain ⟨es4, hn4, hg4, st4, lg4, H4, P4, R4, o4, pc4⟩ := log_many hA (c.L - 1) hg3 (st3 st2)
    (lg3.trans lg2) (by rw [pcs3 2 (by simp [worker]), hs1pc]; simp) (by omega)
  let s4 := run c s3 es4
  have pcs4 : ∀ t, t ≠ worker → s4.pc t = s1.pc t := fun t ht => (pc4 t).trans (pcs3 t ht)
  have e4H : s4.H = s3.H + (c.L - 1) := H4
  have e4R : s4.R = s3.R := R4
  have e4P : s4.P = s3.P := P4
  have W4 : s4.W = s4.H := quiet s4 pcs4 hg4
  refine ⟨pre ++ (es2 ++ (List.replicate 15 (.run worker) ++ es4)), ?_, ?_⟩
  · intro e he
    simp only [List.mem_append] at he
    rcases he with h | h | h | h
    · exact hpre e h
    · exact hn2 e h
    · exact hn3 e h
    · exact hn4 e h
  · rw [run_append, run_append, run_append]
    show Lap c s4
    refine ⟨hg4, st4, by omega, by omega, by omega, by omega, ?_, ?_, ?_, ?_⟩
    · -- one record was dispatched
      have ho := hg4.ord.out
      have hlen := congrArg List.length ho
      rw [List.length_map, List.length_range'] at hlen
      have hb : s4.base = 0 := by
        have : ∀ (es : List (Ev α)) (s : St α), (run c s es).base = s.base := by
          intro es
          induction es with
          | nil => intro s; rfl
          | cons e es ih =>
            intro s
            refine (ih _).trans ?_
            cases e with
            | run t => simp only [step]; unfold stepT; split <;> (repeat' split) <;> simp
            | call t b => unfold step; simp only; (repeat' split) <;> simp
            | started => unfold step; simp only; (repeat' split) <;> simp
            | closing => rfl
            | stop => unfold step; simp only; (repeat' split) <;> simp
        calc s4.base = s3.base := this _ _
          _ = s2.base := this _ _
          _ = s1.base := this _ _
          _ = 0 := by rw [hs1]; rfl
      have hout : outN s4 = s4.P := by
        unfold outN
        have := hg4.ord.pcw
        split
        · rename_i k hk
          have h5 : (run c s3 es4).pc worker = .cDisp k := hk
          rw [h5] at this
          simp only [OrdPC] at this
          have : s4.P = s4.R + 1 := this.1
          omega
        · rfl
      have : s4.out.length = outN s4 - s4.base := hlen
      rw [this, hout, hb]; omega
    · rw [pcs4 1 (by simp [worker]), hs1pc]; simp
    · intro t h1 h2
      rw [pcs4 t h2, hs1pc]; simp only; rw [if_neg h1, if_neg (show ¬ t = 0 from h2)]
    · intro tk he
      have e : s3.pc worker = .cCas tk := (pc4 worker).symm.trans he
      have h1 := hg3.ord.pcw
      have h2 := hg3.inv.ti worker
      rw [e] at h1 h2
      simp only [OrdPC, TI] at h1 h2
      omega

/-- After the late compare-and-swap and the rest of that log statement the consumer takes the full
queue for an empty one. -/
structure Stuck (c : Cfg α) (s : St α) : Prop where
  H : s.H = c.L + 1
  W : s.W = c.L + 1
  P : s.P = 1
  R : s.R = 1
  one : s.out.length = 1
  oth : ∀ t, t ≠ worker → s.pc t = .idle
  pcw : match s.pc worker with
    | .cLoad | .cEnd | .cLoop | .rLoad | .cLoopW | .cFin | .done => True
    | .cWrite tk | .rProc tk => tk = 1
    | .cLoopR w => w = c.L + 1
    | _ => False
  st : s.state ≠ .null

theorem lap_stuck {c : Cfg α} {s : St α} (hL : 2 ≤ c.L) (hA : c.async = true) (h : Lap c s) :
    (run c s (List.replicate 17 (.run 1))).state = .running ∧
    Stuck c (run c s (List.replicate 17 (.run 1))) := by
  have m1 : 1 % c.L = 1 := Nat.mod_eq_of_lt (by omega)
  have m0 : 0 % c.L = 0 := Nat.mod_eq_of_lt (by omega)
  have mL : c.L % c.L = 0 := Nat.mod_self _
  have mL1 : (c.L + 1) % c.L = 1 := by rw [Nat.add_mod_left, m1]
  obtain ⟨hg, hst, hH, hW, hP, hR, hone, ha, hoth, hnc⟩ := h
  have hw := hg.ord.pcw
  have hti := hg.inv.ti worker
  have key : run c s (List.replicate 17 (.run 1)) = { s with
      H := c.L + 1, W := c.L + 1, acquired := s.acquired ++ [(1, [c.nl])],
      nHold := s.nHold + 1, nPush := s.nPush + 1,
      mark := upd (upd s.mark 0 .hold) 0 .ready,
      cell := upd (upd s.cell 0 []) 0 [c.nl],
      pc := fun t => if t = 1 then .idle else s.pc t } := by
    simp [run, step, stepT, St.go, List.replicate, m0, mL1, ha, hH, hW, hst, hA, upd_same]
    funext t
    split <;> simp_all
  rw [key]
  refine ⟨hst, rfl, rfl, hP, hR, hone, ?_, ?_, by simp [hst]⟩
  · intro t ht
    simp only; split
    · rfl
    · rename_i h1; exact hoth t h1 ht
  · simp only [worker, Nat.zero_ne_one, if_false]
    have hwk := hg.ns.wk worker
    have hw' : OrdPC c s (s.pc 0) := hw
    have hti' : TI c s 0 (s.pc 0) := hti
    have hwk' : wkOk s (s.pc 0) := hwk
    revert hw' hti' hwk'
    cases hp : s.pc 0 <;> simp only [OrdPC, TI, wkOk] <;> intros <;> 
      first
      | trivial
      | omega
      | (rename_i tk _ _ _; exact absurd hp (hnc tk))
      | (simp_all; done)

theorem Stuck.step {c : Cfg α} {s : St α} (hL : 2 ≤ c.L) (hA : c.async = true) (h : Stuck c s) :
    Stuck c (stepT c s worker) := by
  have m1 : 1 % c.L = 1 := Nat.mod_eq_of_lt (by omega)
  have mL1 : (c.L + 1) % c.L = 1 := by rw [Nat.add_mod_left, m1]
  obtain ⟨h1, h2, h3, h4, h5, h6, h7, h8⟩ := h
  have hoth : ∀ t, t ≠ worker → (stepT c s worker).pc t = .idle := fun t ht =>
    (stepT_pc_other c s ht).trans (h6 t ht)
  revert hoth
  unfold stepT
  cases hp : s.pc worker <;> rw [hp] at h7 <;> simp only at h7 <;> (try contradiction) <;>
    simp only [h2, h3, h4, h8, hA, h7, m1, mL1, if_true, Bool.true_eq_false, if_false, ne_eq,
      not_true_eq_false] <;> (repeat' split) <;> intro hoth <;>
    refine ⟨by simp [h1], by simp [h2], by simp [h3], by simp [h4], by simp [h5], hoth, ?_, ?_⟩ <;>
    simp [hp, h8]

theorem Stuck.forever {c : Cfg α} (hL : 2 ≤ c.L) (hA : c.async = true) : ∀ (n : Nat) {s : St α},
    Stuck c s → Stuck c (run c s (List.replicate n (.run worker))) := by
  intro n
  induction n with
  | zero => intro s h; exact h
  | succ n ih =>
    intro s h
    rw [List.replicate_succ]
    exact ih (h.step hL hA)

theorem Stuck.stop {c : Cfg α} {s : St α} (hA : c.async = true) (h : Stuck c s) :
    Stuck c (Ring.step c s .stop) := by
  obtain ⟨h1, h2, h3, h4, h5, h6, h7, h8⟩ := h
  unfold Ring.step
  simp only [hA, if_true]
  split
  · exact ⟨h1, h2, h3, h4, h5, h6, h7, by simp⟩
  · exact ⟨h1, h2, h3, h4, h5, h6, h7, h8⟩

/-- Steps of the worker until it has finished. -/
def stuckRank : PC α → Nat
  | .rLoad => 9
  | .rProc _ => 8
  | .cLoad => 7
  | .cWrite _ => 6
  | .cEnd => 5
  | .cLoop => 4
  | .cLoopW => 3
  | .cLoopR _ => 2
  | .cFin => 1
  | _ => 0

theorem Stuck.finish {c : Cfg α} (hL : 2 ≤ c.L) (hA : c.async = true) : ∀ (n : Nat) {s : St α},
    Stuck c s → (s.state = .waitingFinish ∨ s.pc worker = .done) → stuckRank (s.pc worker) ≤ n →
    (run c s (List.replicate n (.run worker))).pc worker = .done := by
  have m1 : 1 % c.L = 1 := Nat.mod_eq_of_lt (by omega)
  have mL1 : (c.L + 1) % c.L = 1 := by rw [Nat.add_mod_left, m1]
  intro n
  induction n with
  | zero =>
    intro s h _ hr
    have := h.pcw
    show s.pc worker = .done
    cases hp : s.pc worker <;> rw [hp] at this hr <;> simp [stuckRank] at this hr <;> rfl
  | succ n ih =>
    intro s h hst hr
    rw [List.replicate_succ]
    have h' := h.step hL hA
    have hp' := h.pcw
    obtain ⟨h1, h2, h3, h4, h5, h6, h7, h8⟩ := h
    refine ih h' ?_ ?_
    · simp only [Ring.step]
      unfold stepT
      cases hp : s.pc worker <;> rw [hp] at hst hp' hr <;> simp only [reduceCtorEq, or_false] at hst hp' <;>
        (try contradiction) <;> (try simp only [hst, hp, h2, h3, h4, hA, hp', m1, mL1]) <;>
        (repeat' split) <;> simp_all
    · simp only [Ring.step]
      unfold stepT
      cases hp : s.pc worker <;> rw [hp] at hst hp' hr <;> simp only [reduceCtorEq, or_false] at hst hp' <;>
        (try contradiction) <;> (try simp only [hst, hp, h2, h3, h4, hA, hp', m1, mL1]) <;>
        simp only [stuckRank] at hr <;>
        (repeat' split) <;> (try simp only [go_pc, if_true, stuckRank]) <;> (try omega) <;>
        simp_all [stuckRank]


end FNLog.Ring
