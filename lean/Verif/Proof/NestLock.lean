import Verif.Proof.Nest
import Verif.Proof.Stalled

/-! # Two threads that wait for each other (for C113) -/

namespace FNLog.Nest
open FNLog.Ring FNLog.Spec

variable {α : Type}

/-! ## Once they wait for each other, they wait for ever -/

/-- Thread `t` holds the oldest slot of the full queue of channel `i`. -/
def Holds (c : Cfg α) (s : St α) (u : Nat) : Prop := ∃ k rest, s.pc u = .fill k rest ∧ k + c.L = s.acquired.length + 1

theorem ring_inv {c : Nat → Cfg α} {σ : Nat → NEv α} (hL : ∀ i, 0 < (c i).L) (ht : NestTimely c σ) (i n : Nat) :
    Inv (c i) ((nestAt c σ n).ring i) ∧ NS (c i) ((nestAt c σ n).ring i) := by
  have h1 := timely_pointwise (timely_sched ht i) n
  rw [ring_at]
  exact ⟨inv_after (hL i) h1, (ns_after (hL i) h1 fun e he => by
    obtain ⟨q, _, rfl⟩ := List.mem_map.mp he; exact noStop_sched c σ i q).1⟩

/-- One event that is not of the holder. -/
theorem holds_step {c : Nat → Cfg α} {σ : Nat → NEv α} (hL : ∀ i, 0 < (c i).L) (ht : NestTimely c σ) {i n o w : Nat}
    (hh : Holds (c i) ((nestAt c σ n).ring i) o) (hw : waiting (((nestAt c σ n).ring i).pc w) = true)
    (hne : ringSched c σ i n ≠ .run o) :
    Holds (c i) ((nestAt c σ (n + 1)).ring i) o ∧ waiting (((nestAt c σ (n + 1)).ring i).pc w) = true := by
  obtain ⟨k, rest, hpc, hk⟩ := hh
  obtain ⟨h1, h2⟩ := ring_inv hL ht i n
  have htm := timely_sched ht i n
  rw [← ring_at] at htm
  have hst := stalled_run (es := [ringSched c σ i n]) h1 h2 hpc hk (fun e he => by
    simp only [List.mem_singleton] at he; subst he; exact hne) (fun e he => by
    simp only [List.mem_singleton] at he; subst he; exact noStop_sched c σ i n) ⟨htm, trivial⟩
  have hs : (nestAt c σ (n + 1)).ring i = run (c i) ((nestAt c σ n).ring i) [ringSched c σ i n] := by
    rw [ring_at, stateAt_succ, ← ring_at]; rfl
  rw [hs]
  refine ⟨⟨k, rest, ?_, ?_⟩, hst.2 w hw⟩
  · exact (step_pc_other hne (by rw [hpc]; nofun)).trans hpc
  · rw [hst.1]; exact hk

/-- Thread `t` is inside a statement on channel `i` and, inside of it, in one on channel `j`; thread `u` the other way round.  Both queues
are full, the outer statements have the oldest slots, the inner ones wait for a slot. -/
structure Dead (c : Nat → Cfg α) (s : Nested α) (t u i j : Nat) : Prop where
  stackT : s.stack t = [j, i]
  stackU : s.stack u = [i, j]
  holdT : Holds (c i) (s.ring i) (ctx t 0)
  holdU : Holds (c j) (s.ring j) (ctx u 0)
  waitT : waiting ((s.ring j).pc (ctx t 1)) = true
  waitU : waiting ((s.ring i).pc (ctx u 1)) = true

theorem waiting_open {s : Nested α} {t j : Nat} {rest : List Nat} (hst : s.stack t = j :: rest)
    (hw : waiting ((s.ring j).pc (ctx t rest.length)) = true) : s.open t = false := by
  unfold Nested.open
  rw [hst]
  dsimp only
  split
  · rename_i h; rw [h] at hw; cases hw
  · rfl

theorem waiting_over {s : St α} {u : Nat} (hw : waiting (s.pc u) = true) : over s u = false :=
  over_false.2 fun h => by rw [h] at hw; cases hw

/-- A thread whose innermost statement waits before and after the event keeps its statements. -/
theorem stack_waits {c : Nat → Cfg α} {s : Nested α} {t j : Nat} {rest : List Nat} (e : NEv α) (hst : s.stack t = j :: rest)
    (hw : waiting ((s.ring j).pc (ctx t rest.length)) = true)
    (hw' : waiting (((nstep c s e).ring j).pc (ctx t rest.length)) = true) : (nstep c s e).stack t = j :: rest := by
  show stackAfter s (nstep c s e).ring e t = _
  cases e with
  | log v k b =>
    simp only [stackAfter]
    split
    · rename_i h
      by_cases hv : t = v
      · subst hv
        rw [waiting_open hst hw] at h
        cases h.1
      · rw [upd_ne _ _ hv]; exact hst
    · exact hst
  | run v =>
    by_cases hv : t = v
    · subst hv
      simp only [stackAfter, hst, waiting_over hw']
      exact hst
    · cases hsv : s.stack v with
      | nil => simp only [stackAfter, hsv]; exact hst
      | cons k r =>
        simp only [stackAfter, hsv]
        split
        · rw [upd_ne _ _ hv]; exact hst
        · exact hst
  | work v => exact hst
  | started v => exact hst

theorem dead_sched {c : Nat → Cfg α} {σ : Nat → NEv α} {n t i j : Nat} (hs : (nestAt c σ n).stack t = [j, i])
    : ringSched c σ i n ≠ .run (ctx t 0) := by
  unfold ringSched
  have h2 := ctx_two t 0
  cases hσ : σ n with
  | log v k b => simp only [ringEv]; split
                 · nofun
                 · intro h; injection h with h; omega
  | run v =>
    cases hsv : (nestAt c σ n).stack v with
    | nil => simp only [ringEv, hsv]; intro h; injection h with h; omega
    | cons k r =>
      simp only [ringEv, hsv]
      split
      · intro h
        injection h with h
        obtain ⟨rfl, hr⟩ := ctx_inj h
        rw [hs] at hsv
        injection hsv with _ hsv
        rw [← hsv] at hr
        cases hr
      · intro h; injection h with h; omega
  | work v => simp only [ringEv]; split
              · intro h; injection h with h; rw [← h] at h2; exact absurd h2 (by decide)
              · intro h; injection h with h; omega
  | started v => simp only [ringEv]; split
                 · nofun
                 · intro h; injection h with h; omega

theorem Dead.step {c : Nat → Cfg α} {σ : Nat → NEv α} (hL : ∀ i, 0 < (c i).L) (ht : NestTimely c σ) {n t u i j : Nat}
    (h : Dead c (nestAt c σ n) t u i j) : Dead c (nestAt c σ (n + 1)) t u i j := by
  obtain ⟨h1, h2⟩ := holds_step hL ht h.holdT h.waitU (dead_sched h.stackT)
  obtain ⟨h3, h4⟩ := holds_step hL ht h.holdU h.waitT (dead_sched h.stackU)
  exact ⟨stack_waits (σ n) h.stackT h.waitT h4, stack_waits (σ n) h.stackU h.waitU h2, h1, h3, h4, h2⟩

theorem Dead.run {c : Nat → Cfg α} {σ : Nat → NEv α} (hL : ∀ i, 0 < (c i).L) (ht : NestTimely c σ) {n t u i j : Nat}
    (h : Dead c (nestAt c σ n) t u i j) {m : Nat} (hm : n ≤ m) : Dead c (nestAt c σ m) t u i j := by
  obtain ⟨k, rfl⟩ := Nat.le.dest hm
  clear hm
  induction k with
  | zero => exact h
  | succ k ih => exact Dead.step hL ht ih

/-! ## It happens -/

/-- A finite schedule is timely. -/
def NT (c : Nat → Cfg α) : Nested α → List (NEv α) → Prop
  | _, [] => True
  | s, e :: es => (∀ i x, ringEv s i e = some x → timelyEv (c i) (s.ring i) x) ∧ NT c (nstep c s e) es

theorem nt_append {c : Nat → Cfg α} : ∀ {es es' : List (NEv α)} {s : Nested α}, NT c s es → NT c (nrun c s es) es' → NT c s (es ++ es')
  | [], _, _, _, h => h
  | _ :: _, _, _, h, h' => ⟨h.1, nt_append h.2 h'⟩

theorem nrun_append (c : Nat → Cfg α) (s : Nested α) (es es' : List (NEv α)) : nrun c s (es ++ es') = nrun c (nrun c s es) es' := by
  simp [nrun, List.foldl_append]

theorem NestInv.run {c : Nat → Cfg α} : ∀ (es : List (NEv α)) {s : Nested α}, NestInv c s → NestInv c (nrun c s es)
  | [], _, h => h
  | e :: es, _, h => NestInv.run es (h.step e)

/-- The events `nes` happen on ring `i` only, as `es`. -/
structure Solo (c : Nat → Cfg α) (i : Nat) (s : Nested α) (nes : List (NEv α)) (es : List (Ev α)) : Prop where
  ring : (nrun c s nes).ring i = Ring.run (c i) (s.ring i) es
  others : ∀ j, j ≠ i → (nrun c s nes).ring j = s.ring j
  timely : Timely (c i) (s.ring i) es → NT c s nes

theorem Solo.append {c : Nat → Cfg α} {i : Nat} {s : Nested α} {nes nes' : List (NEv α)} {es es' : List (Ev α)} (h : Solo c i s nes es)
    (h' : Solo c i (nrun c s nes) nes' es') : Solo c i s (nes ++ nes') (es ++ es') := by
  refine ⟨?_, fun j hj => ?_, fun ht => ?_⟩
  · rw [nrun_append, run_append, h'.ring, h.ring]
  · rw [nrun_append, h'.others j hj, h.others j hj]
  · rw [timely_append] at ht
    exact nt_append (h.timely ht.1) (h'.timely (by rw [h.ring]; exact ht.2))

theorem Solo.nil (c : Nat → Cfg α) (i : Nat) (s : Nested α) : Solo c i s [] [] := ⟨rfl, fun _ _ => rfl, fun _ => trivial⟩

theorem Solo.one {c : Nat → Cfg α} {i : Nat} {s : Nested α} {e : NEv α} {x : Ev α} (h : ringEv s i e = some x)
    (ho : ∀ j, j ≠ i → ringEv s j e = none) : Solo c i s [e] [x] := by
  refine ⟨?_, fun j hj => ?_, fun ht => ⟨fun j y hy => ?_, trivial⟩⟩
  · show stepO _ _ (ringEv s i e) = _
    rw [h]; rfl
  · show stepO _ _ (ringEv s j e) = _
    rw [ho j hj]; rfl
  · by_cases hj : j = i
    · subst hj
      rw [h] at hy
      cases hy
      exact ht.1
    · rw [ho j hj] at hy; cases hy

theorem Solo.work (c : Nat → Cfg α) (i : Nat) (s : Nested α) : Solo c i s [.work i] [.run 0] :=
  Solo.one (by simp [ringEv, Ring.worker]) fun j hj => by simp only [ringEv]; exact if_neg fun h => hj h.symm

theorem Solo.works (c : Nat → Cfg α) (i : Nat) (n : Nat) (s : Nested α) : Solo c i s (List.replicate n (.work i)) (List.replicate n (.run 0)) := by
  induction n generalizing s with
  | zero => exact Solo.nil c i s
  | succ n ih => exact (Solo.work c i s).append (ih _)

theorem Solo.started (c : Nat → Cfg α) (i : Nat) (s : Nested α) : Solo c i s [.started i] [.started] :=
  Solo.one (by simp [ringEv]) fun j hj => by simp only [ringEv]; exact if_neg fun h => hj h.symm

theorem Solo.log (c : Nat → Cfg α) (i t : Nat) (b : List α) {s : Nested α} (ho : s.open t = true) :
    Solo c i s [.log t i b] [.call (ctx t (s.stack t).length) b] :=
  Solo.one (by simp [ringEv, ho]) fun j hj => by simp only [ringEv]; exact if_neg fun h => hj h.1.symm

/-- The stack of thread `t` is empty or has channel `i` alone, and says so. -/
theorem Solo.runs (c : Nat → Cfg α) (i t : Nat) (n : Nat) {s : Nested α} (hi : NestInv c s) (hst : s.stack t = [] ∨ s.stack t = [i]) :
    Solo c i s (List.replicate n (.run t)) (List.replicate n (.run (ctx t 0))) := by
  induction n generalizing s with
  | zero => exact Solo.nil c i s
  | succ n ih =>
    rcases hst with h | h
    · have hs : nstep c s (.run t) = s := by
        unfold nstep
        simp only [ringEv, stackAfter, h, stepO]
      have hid : (s.ring i).pc (ctx t 0) = .idle := Classical.byContradiction fun hx => by
        have := (hi.frames t 0 i).1 hx
        rw [h] at this
        cases this
      have := ih hi (Or.inl h)
      rw [List.replicate_succ, List.replicate_succ]
      refine ⟨?_, fun j hj => ?_, fun ht => ⟨fun j y hy => ?_, ?_⟩⟩
      · show (nrun c (nstep c s (.run t)) _).ring i = Ring.run (c i) (Ring.step (c i) (s.ring i) (.run (ctx t 0))) _
        rw [hs, idle_run hid]
        exact this.ring
      · show (nrun c (nstep c s (.run t)) _).ring j = _
        rw [hs]
        exact this.others j hj
      · simp only [ringEv, h] at hy; cases hy
      · rw [hs]
        have h2 := ht.2
        rw [idle_run hid] at h2
        exact this.timely h2
    · refine (Solo.one (x := .run (ctx t 0)) (by simp [ringEv, h]) fun j hj => ?_).append (ih (hi.step _) ?_)
      · simp only [ringEv, h]; exact if_neg fun hx => hj hx.symm
      · show stackAfter s (nstep c s (.run t)).ring (.run t) t = [] ∨ stackAfter s (nstep c s (.run t)).ring (.run t) t = [i]
        simp only [stackAfter, h]
        split
        · rw [upd_same]; exact Or.inl rfl
        · exact Or.inr h

/-- An outermost statement of a thread, with `n` steps. -/
theorem Solo.statement (c : Nat → Cfg α) (i t : Nat) (b : List α) (n : Nat) {s : Nested α} (hi : NestInv c s) (hst : s.stack t = []) :
    Solo c i s (.log t i b :: List.replicate n (.run t)) (aloneEvents (ctx t 0) b n) := by
  have ho : s.open t = true := by unfold Nested.open; rw [hst]
  have h1 := Solo.log c i t b ho
  rw [hst] at h1
  refine h1.append (Solo.runs c i t n (hi.step _) ?_)
  show stackAfter s (nstep c s (.log t i b)).ring (.log t i b) t = [] ∨ stackAfter s (nstep c s (.log t i b)).ring (.log t i b) t = [i]
  simp only [stackAfter]
  split
  · rw [upd_same, hst]; exact Or.inr rfl
  · exact Or.inl hst

/-- The statements of a thread, from the rings. -/
theorem stack_of {c : Nat → Cfg α} {s : Nested α} (hi : NestInv c s) {t : Nat} {l : List Nat}
    (h : ∀ d i, (s.ring i).pc (ctx t d) ≠ .idle ↔ frameAt l d = some i) : s.stack t = l := by
  have hf : ∀ d, frameAt (s.stack t) d = frameAt l d := fun d => by
    refine Option.ext fun i => ?_
    rw [← h d i, hi.frames t d i]
  generalize s.stack t = k at hf
  clear h hi
  induction k generalizing l with
  | nil =>
    cases l with
    | nil => rfl
    | cons j l =>
      have := hf l.length
      simp [frameAt] at this
  | cons j k ih =>
    cases l with
    | nil =>
      have := hf k.length
      simp [frameAt] at this
    | cons j' l =>
      have hlen : k.length = l.length := by
        rcases Nat.lt_trichotomy k.length l.length with h | h | h
        · have := hf l.length
          rw [frameAt_none (by simp; omega)] at this
          simp [frameAt] at this
        · exact h
        · have := hf k.length
          rw [frameAt_none (l := j' :: l) (by simp; omega)] at this
          simp [frameAt] at this
      have hj := hf k.length
      simp only [frameAt, if_true, hlen] at hj
      cases hj
      rw [ih fun d => ?_]
      by_cases hd : k.length ≤ d
      · rw [frameAt_none hd, frameAt_none (by omega)]
      · have := hf d
        simp only [frameAt] at this
        rwa [if_neg (by omega), if_neg (by omega)] at this

set_option linter.unusedSimpArgs false

/-- The channel starts, and a statement of ring thread `o` gets the first slot and begins to write its record. -/
def lockStart (o : Nat) : List (Ev α) := List.replicate 5 (.run 0) ++ [.started] ++ aloneEvents o [] 7

/-- `k` further statements have gone into the queue behind it. -/
structure Filled (c : Cfg α) (o k : Nat) (s : St α) : Prop where
  inv : Inv c s
  st : s.state = .running
  lg : s.lgRunning = true
  pcO : s.pc o = .fill 0 []
  pcW : s.pc 0 = .cLoad
  pcs : ∀ u, u ≠ o → u ≠ 0 → s.pc u = .idle
  H : s.H = 1 + k
  W : s.W = 0

theorem lock_start {c : Cfg α} (hA : c.async = true) (hL : 2 ≤ c.L) {o : Nat} (ho : o ≠ 0) :
    Timely c (init c) (lockStart o) ∧ Filled c o 0 (Ring.run c (init c) (lockStart o)) := by
  have h1 : ¬ (c.L = 1) := by omega
  have ho' : ¬ (0 = o) := fun h => ho h.symm
  have ht : Timely c (init c) (lockStart o) := by
    simp [lockStart, aloneEvents, List.replicate, Timely, timelyEv, timelyAt, Ring.step, Ring.stepT, St.go, init, Ring.worker, hA, ho, h1]
  refine ⟨ht, ?_⟩
  have hi := inv_after (by omega) ht
  unfold after at hi
  refine ⟨hi, ?_, ?_, ?_, ?_, fun u h3 h4 => ?_, ?_, ?_⟩
  all_goals simp [lockStart, aloneEvents, List.replicate, Ring.run, Ring.step, Ring.stepT, St.go, init, Ring.worker, hA, ho, ho', h1, *]


theorem filled_P {c : Cfg α} {o k : Nat} {s : St α} (h : Filled c o k s) : s.P = 0 ∧ s.R = 0 := by
  have h1 := h.inv.leRP
  have h2 := h.inv.lePW
  have h3 := h.W
  omega

theorem filled_more {c : Cfg α} {o f k n : Nat} (hof : f ≠ o) (hf : f ≠ 0) {s : St α} (h : Filled c o k s)
    (hk : k + 2 < c.L) (hn : 100 * c.L + 204 ≤ n) :
    Timely c s (aloneEvents f [] n) ∧ Filled c o (k + 1) (Ring.run c s (aloneEvents f [] n)) := by
  obtain ⟨hP, hR⟩ := filled_P h
  have hH := h.H
  have hW := h.W
  obtain ⟨h1, h2, h3, h4⟩ := log_alone (c := c) (t := f) [] h.inv h.st h.lg (h.pcs f hof hf) (by omega) (n := n)
    (by unfold aloneBound; simp only [List.length_nil]; omega)
  refine ⟨h1, h2, h3.st, h3.lg.trans h.lg, (h3.oth o (Ne.symm hof)).trans h.pcO, (h3.oth 0 (Ne.symm hf)).trans h.pcW, fun u hu hu0 => ?_, ?_, ?_⟩
  · by_cases huf : u = f
    · rw [huf]; exact h4
    · exact (h3.oth u huf).trans (h.pcs u hu hu0)
  · rcases h3.ph with ⟨hp, _⟩ | ⟨_, hH', _⟩
    · rw [h4] at hp; cases hp
    · omega
  · have hpc := (h3.oth o (Ne.symm hof)).trans h.pcO
    have := h2.ti o
    rw [hpc] at this
    have := this.1.1
    omega

/-- Of a full queue: the statement `w` and the channel thread go round and round. -/
structure Blk (c : Cfg α) (o w : Nat) (s : St α) : Prop where
  st : s.state = .running
  full : (s.H + 1) % c.L = s.R % c.L
  empty : s.P % c.L = s.W % c.L
  pcO : s.pc o = .fill 0 []
  pcS : s.pc w = .hChk 0 [] ∨ s.pc w = .hLoad 0 [] ∨ s.pc w = .hRead 0 s.H [] ∨ s.pc w = .hOut [] ∨ s.pc w = .hSleep []
  pcW : s.pc 0 = .cLoad ∨ s.pc 0 = .cWrite s.P ∨ s.pc 0 = .cEnd ∨ s.pc 0 = .cLoop

theorem Blk.waiter {c : Cfg α} {o w : Nat} {s : St α} (how : o ≠ w) (hw : w ≠ 0) (h : Blk c o w s) :
    Blk c o w (Ring.step c s (.run w)) ∧ timelyAt c s w := by
  have hO := h.pcO
  have hW := h.pcW
  have hfull := h.full
  have hst := h.st
  have h0 : (Ring.stepT c s w).pc 0 = s.pc 0 := stepT_pc_other c s (Ne.symm hw)
  have h1 : (Ring.stepT c s w).pc o = s.pc o := stepT_pc_other c s how
  simp only [Ring.step]
  rcases h.pcS with hp | hp | hp | hp | hp
  all_goals
    refine ⟨⟨?_, ?_, ?_, h1.trans hO, ?_, ?_⟩, ?_⟩
    · unfold stepT; simp only [hp, hst, hfull, if_true, St.go]
    · unfold stepT; simp only [hp, hst, hfull, if_true, St.go]
    · unfold stepT; simp only [hp, hst, hfull, if_true, St.go]; exact h.empty
    · unfold stepT; simp [hp, hst, hfull, St.go]
    · rw [h0]; unfold stepT; simp only [hp, hst, hfull, if_true, St.go]; exact hW
    · unfold timelyAt; rw [hp]; trivial

theorem Blk.chan {c : Cfg α} (hA : c.async = true) {o w : Nat} {s : St α} (ho : o ≠ 0) (hw : w ≠ 0) (h : Blk c o w s) :
    Blk c o w (Ring.step c s (.run 0)) ∧ timelyAt c s 0 := by
  have hO := h.pcO
  have hS := h.pcS
  have hem := h.empty
  have hst := h.st
  have h0 : (Ring.stepT c s 0).pc w = s.pc w := stepT_pc_other c s hw
  have h1 : (Ring.stepT c s 0).pc o = s.pc o := stepT_pc_other c s ho
  simp only [Ring.step]
  rcases h.pcW with hp | hp | hp | hp
  all_goals
    refine ⟨⟨?_, ?_, ?_, h1.trans hO, ?_, ?_⟩, ?_⟩
    · unfold stepT; simp [hp, hst, hem, hA, St.go]
    · unfold stepT; simp [hp, hst, hem, hA, St.go]; exact h.full
    · unfold stepT; simp [hp, hst, hem, hA, St.go]
    · rw [h0]; unfold stepT; simp only [hp, hst, hem, hA, if_true, St.go, reduceCtorEq, if_false]; exact hS
    · unfold stepT; simp [hp, hst, hem, hA, St.go]
    · unfold timelyAt; rw [hp]; trivial

theorem blk_of {c : Cfg α} {o w : Nat} {s : St α} (h : Filled c o (c.L - 2) s) (hL : 2 ≤ c.L) (hwo : w ≠ o) (hw : w ≠ 0) :
    Blk c o w (Ring.step c s (.call w [])) := by
  obtain ⟨hP, hR⟩ := filled_P h
  have hH := h.H
  have e : Ring.step c s (.call w []) = { s with calls := s.calls ++ [(w, [])] }.go w (.hChk 0 []) := by
    unfold Ring.step; simp [h.pcs w hwo hw, h.st, h.lg]
  rw [e]
  refine ⟨h.st, ?_, ?_, ?_, Or.inl ?_, Or.inl ?_⟩
  · show (s.H + 1) % c.L = s.R % c.L
    rw [hH, hR, show 1 + (c.L - 2) + 1 = c.L by omega, Nat.mod_self, Nat.zero_mod]
  · show s.P % c.L = s.W % c.L
    rw [hP, h.W]
  · show (if o = w then _ else _) = _
    rw [if_neg (Ne.symm hwo)]; exact h.pcO
  · exact if_pos rfl
  · show (if 0 = w then _ else _) = _
    rw [if_neg (Ne.symm hw)]; exact h.pcW


/-- Channel `i` starts; a statement of thread `t` begins to write its record in the first slot; thread `f` makes `k` statements. -/
def chanLock (i t f n k : Nat) : List (NEv α) :=
  (List.replicate 5 (.work i) ++ [.started i] ++ (.log t i [] :: List.replicate 7 (.run t))) ++
    (List.replicate k (.log f i [] :: List.replicate n (.run f))).flatten

theorem idle_of_nil {c : Nat → Cfg α} {s : Nested α} (hi : NestInv c s) {t : Nat} (h : s.stack t = []) (d j : Nat) :
    (s.ring j).pc (ctx t d) = .idle := Classical.byContradiction fun hx => by
  have := (hi.frames t d j).1 hx
  rw [h] at this
  cases this

theorem nil_of_idle {c : Nat → Cfg α} {s : Nested α} (hi : NestInv c s) {t : Nat} (h : ∀ d j, (s.ring j).pc (ctx t d) = .idle) :
    s.stack t = [] :=
  stack_of hi fun d j => ⟨fun hx => absurd (h d j) hx, nofun⟩

theorem ctx_zero (t d : Nat) : ctx t d ≠ 0 := by have := ctx_two t d; omega

theorem chan_lock {c : Nat → Cfg α} {i : Nat} (hA : (c i).async = true) (hL : 2 ≤ (c i).L) {t f n : Nat} (htf : f ≠ t)
    (hn : 100 * (c i).L + 204 ≤ n) {s : Nested α} (hi : NestInv c s) (hr : s.ring i = Ring.init (c i)) (hst : s.stack t = [])
    (hsf : s.stack f = []) {k : Nat} (hk : k + 2 ≤ (c i).L) :
    NT c s (chanLock i t f n k) ∧ Filled (c i) (ctx t 0) k ((nrun c s (chanLock i t f n k)).ring i) ∧
    ∀ j, j ≠ i → (nrun c s (chanLock i t f n k)).ring j = s.ring j := by
  have h0 : Solo c i s (List.replicate 5 (.work i) ++ [.started i] ++ (.log t i [] :: List.replicate 7 (.run t))) (lockStart (ctx t 0)) := by
    refine ((Solo.works c i 5 s).append (Solo.started c i _)).append (Solo.statement c i t [] 7 (NestInv.run _ hi) ?_)
    rw [nrun_append]
    exact hst
  obtain ⟨g1, g2⟩ := lock_start hA hL (ctx_zero t 0)
  rw [← hr] at g1 g2
  induction k with
  | zero =>
    have e : chanLock (α := α) i t f n 0 = List.replicate 5 (.work i) ++ [.started i] ++ (.log t i [] :: List.replicate 7 (.run t)) := by
      simp [chanLock]
    rw [e]
    exact ⟨h0.timely g1, by rw [h0.ring]; exact g2, h0.others⟩
  | succ k ih =>
    obtain ⟨i1, i2, i3⟩ := ih (by omega)
    have e : chanLock (α := α) i t f n (k + 1) = chanLock i t f n k ++ (.log f i [] :: List.replicate n (.run f)) := by
      simp [chanLock, List.replicate_succ', List.flatten_append]
    rw [e, nrun_append]
    have hi' := NestInv.run (chanLock i t f n k) hi
    have hf' : (nrun c s (chanLock i t f n k)).stack f = [] := nil_of_idle hi' fun d j => by
      by_cases hj : j = i
      · subst hj
        exact i2.pcs _ (fun h => htf (ctx_inj h).1) (ctx_zero f d)
      · rw [i3 j hj]; exact idle_of_nil hi hsf d j
    have hs := Solo.statement c i f [] n hi' hf'
    obtain ⟨m1, m2⟩ := filled_more (f := ctx f 0) (n := n) (fun h => htf (ctx_inj h).1) (ctx_zero f 0) i2 (by omega) hn
    refine ⟨nt_append i1 (hs.timely m1), ?_, fun j hj => ?_⟩
    · rw [hs.ring]; exact m2
    · rw [hs.others j hj, i3 j hj]

/-! ### The two channels -/

/-- Channels 0 and 1 are asynchronous. -/
def lockChans (L : Nat) (nl : α) (i : Nat) : Cfg α := ⟨L, decide (i < 2), nl⟩

/-- Both channels are filled; thread 1 logs to channel 1 inside of its statement on channel 0, thread 2 the other way round. -/
def lockPre (L : Nat) : List (NEv α) :=
  chanLock 0 1 3 (100 * L + 204) (L - 2) ++ chanLock 1 2 4 (100 * L + 204) (L - 2) ++ [.log 1 1 []] ++ [.log 2 0 []]

/-- What goes on afterwards. -/
def lockTurn (n : Nat) : NEv α :=
  match n % 6 with
  | 0 => .work 0
  | 1 => .work 1
  | t + 2 => .run (t + 1)

structure Locked (L : Nat) (nl : α) (s : Nested α) : Prop where
  inv : NestInv (lockChans L nl) s
  st1 : s.stack 1 = [1, 0]
  st2 : s.stack 2 = [0, 1]
  oth : ∀ t, t ≠ 1 → t ≠ 2 → s.stack t = []
  r0 : Blk (lockChans L nl 0) (ctx 1 0) (ctx 2 1) (s.ring 0)
  r1 : Blk (lockChans L nl 1) (ctx 2 0) (ctx 1 1) (s.ring 1)

theorem locked_pre {L : Nat} (hL : 2 ≤ L) (nl : α) :
    NT (lockChans L nl) (ninit (lockChans L nl)) (lockPre L) ∧ Locked L nl (nrun (lockChans L nl) (ninit (lockChans L nl)) (lockPre L)) := by
  obtain ⟨c, hc⟩ : ∃ c, c = lockChans L nl := ⟨_, rfl⟩
  rw [← hc]
  have hL' : ∀ i, (c i).L = L := fun i => by rw [hc]; rfl
  have hA0 : (c 0).async = true := by rw [hc]; rfl
  have hA1 : (c 1).async = true := by rw [hc]; rfl
  have hi0 := NestInv.init c
  obtain ⟨a1, a2, a3⟩ := chan_lock (c := c) (i := 0) (t := 1) (f := 3) (n := 100 * L + 204) (k := L - 2) hA0 (by rw [hL']; exact hL)
    (by decide) (by rw [hL']; omega) hi0 rfl rfl rfl (by rw [hL']; omega)
  obtain ⟨s1, hs1⟩ : ∃ s1, s1 = nrun c (ninit c) (chanLock 0 1 3 (100 * L + 204) (L - 2)) := ⟨_, rfl⟩
  rw [← hs1] at a2 a3
  have hi1 : NestInv c s1 := by rw [hs1]; exact NestInv.run _ hi0
  have hidle0 : ∀ j u, u ≠ 0 → ((ninit c).ring j).pc u = .idle := fun j u hu => if_neg fun h => hu h.2
  have hnil1 : ∀ t, t ≠ 1 → s1.stack t = [] := fun t ht => nil_of_idle hi1 fun d j => by
    by_cases hj : j = 0
    · subst hj
      exact a2.pcs _ (fun h => ht (ctx_inj h).1) (ctx_zero t d)
    · rw [a3 j hj]; exact hidle0 j _ (ctx_zero t d)
  obtain ⟨b1, b2, b3⟩ := chan_lock (c := c) (i := 1) (t := 2) (f := 4) (n := 100 * L + 204) (k := L - 2) hA1 (by rw [hL']; exact hL)
    (by decide) (by rw [hL']; omega) hi1 (a3 1 (by decide)) (hnil1 2 (by decide)) (hnil1 4 (by decide)) (by rw [hL']; omega)
  obtain ⟨s2, hs2⟩ : ∃ s2, s2 = nrun c s1 (chanLock 1 2 4 (100 * L + 204) (L - 2)) := ⟨_, rfl⟩
  rw [← hs2] at b2 b3
  have hi2 : NestInv c s2 := by rw [hs2]; exact NestInv.run _ hi1
  have hr0 := b3 0 (by decide)
  have hpc1 : ∀ t d j, ((s2.ring j).pc (ctx t d) ≠ .idle ↔ (t = 1 ∧ d = 0 ∧ j = 0) ∨ (t = 2 ∧ d = 0 ∧ j = 1)) := by
    intro t d j
    by_cases hj0 : j = 0
    · subst hj0
      rw [hr0]
      by_cases ht : ctx t d = ctx 1 0
      · obtain ⟨rfl, rfl⟩ := ctx_inj ht
        rw [a2.pcO]; simp
      · rw [a2.pcs _ ht (ctx_zero t d)]
        have : ¬ (t = 1 ∧ d = 0) := fun h => ht (by rw [h.1, h.2])
        simp; omega
    · by_cases hj1 : j = 1
      · subst hj1
        by_cases ht : ctx t d = ctx 2 0
        · obtain ⟨rfl, rfl⟩ := ctx_inj ht
          rw [b2.pcO]; simp
        · rw [b2.pcs _ ht (ctx_zero t d)]
          have : ¬ (t = 2 ∧ d = 0) := fun h => ht (by rw [h.1, h.2])
          simp; omega
      · rw [b3 j hj1, a3 j hj0, hidle0 j _ (ctx_zero t d)]
        simp; omega
  have hst1 : s2.stack 1 = [0] := stack_of hi2 fun d j => by
    rw [hpc1]; simp only [frameAt, List.length_nil]; split <;> simp <;> omega
  have hst2 : s2.stack 2 = [1] := stack_of hi2 fun d j => by
    rw [hpc1]; simp only [frameAt, List.length_nil]; split <;> simp <;> omega
  have hstO : ∀ t, t ≠ 1 → t ≠ 2 → s2.stack t = [] := fun t h1 h2 => nil_of_idle hi2 fun d j =>
    Classical.byContradiction fun hx => by
      have := (hpc1 t d j).1 hx
      omega
  have ho1 : s2.open 1 = true := by
    unfold Nested.open; rw [hst1]; dsimp only; rw [hr0, List.length_nil, a2.pcO]
  have g1 := Solo.log c 1 1 [] ho1
  rw [hst1] at g1
  obtain ⟨s3, hs3⟩ : ∃ s3, s3 = nrun c s2 [.log 1 1 []] := ⟨_, rfl⟩
  have g1r := g1.ring
  have g1o := g1.others
  rw [← hs3] at g1r g1o
  have hi3 : NestInv c s3 := by rw [hs3]; exact NestInv.run _ hi2
  have hst2' : s3.stack 2 = [1] := by
    rw [hs3]
    show stackAfter s2 (nstep c s2 (.log 1 1 [])).ring (.log 1 1 []) 2 = [1]
    simp only [stackAfter]
    split
    · rw [upd_ne _ _ (by decide)]; exact hst2
    · exact hst2
  have hbl1 : Blk (c 1) (ctx 2 0) (ctx 1 1) (s3.ring 1) := by
    rw [g1r]
    exact blk_of (by rw [hL']; exact b2) (by rw [hL']; exact hL) (fun h => absurd (ctx_inj h).1 (by decide)) (ctx_zero 1 1)
  have ho2 : s3.open 2 = true := by
    unfold Nested.open; rw [hst2']; dsimp only; rw [List.length_nil, hbl1.pcO]
  have g2 := Solo.log c 0 2 [] ho2
  rw [hst2'] at g2
  obtain ⟨s4, hs4⟩ : ∃ s4, s4 = nrun c s3 [.log 2 0 []] := ⟨_, rfl⟩
  have g2r := g2.ring
  have g2o := g2.others
  rw [← hs4] at g2r g2o
  have hi4 : NestInv c s4 := by rw [hs4]; exact NestInv.run _ hi3
  have hbl0 : Blk (c 0) (ctx 1 0) (ctx 2 1) (s4.ring 0) := by
    rw [g2r, g1o 0 (by decide), hr0]
    exact blk_of (by rw [hL']; exact a2) (by rw [hL']; exact hL) (fun h => absurd (ctx_inj h).1 (by decide)) (ctx_zero 2 1)
  have e : nrun c (ninit c) (lockPre L) = s4 := by
    unfold lockPre
    rw [nrun_append, nrun_append, nrun_append, ← hs1, ← hs2, ← hs3, ← hs4]
  rw [e]
  have hov1 : over (s3.ring 1) (ctx 1 1) = false := over_false.2 fun h => by
    rcases hbl1.pcS with k | k | k | k | k <;> (rw [h] at k; cases k)
  have hov2 : over (s4.ring 0) (ctx 2 1) = false := over_false.2 fun h => by
    rcases hbl0.pcS with k | k | k | k | k <;> (rw [h] at k; cases k)
  have hs3s : s3.stack = upd s2.stack 1 [1, 0] := by
    rw [hs3]
    show stackAfter s2 (nrun c s2 [.log 1 1 []]).ring (.log 1 1 []) = _
    rw [← hs3]
    simp only [stackAfter, hst1]
    exact if_pos ⟨ho1, hov1⟩
  have hs4s : s4.stack = upd s3.stack 2 [0, 1] := by
    rw [hs4]
    show stackAfter s3 (nrun c s3 [.log 2 0 []]).ring (.log 2 0 []) = _
    rw [← hs4]
    simp only [stackAfter, hst2']
    exact if_pos ⟨ho2, hov2⟩
  refine ⟨?_, ?_⟩
  · unfold lockPre
    refine nt_append (nt_append (nt_append a1 ?_) ?_) ?_
    · rw [← hs1]; exact b1
    · rw [nrun_append, ← hs1, ← hs2]; exact g1.timely ⟨trivial, trivial⟩
    · rw [nrun_append, nrun_append, ← hs1, ← hs2, ← hs3]; exact g2.timely ⟨trivial, trivial⟩
  · subst hc
    refine ⟨hi4, ?_, ?_, fun t h1 h2 => ?_, hbl0, ?_⟩
    · rw [hs4s, upd_ne _ _ (by decide), hs3s, upd_same]
    · rw [hs4s, upd_same]
    · rw [hs4s, upd_ne _ _ h2, hs3s, upd_ne _ _ h1]; exact hstO t h1 h2
    · rw [g2o 1 (by decide)]; exact hbl1


theorem locked_solo {L : Nat} {nl : α} {s : Nested α} {i : Nat} {e : NEv α} {x : Ev α}
    (hs : Solo (lockChans L nl) i s [e] [x]) (hx : timelyEv (lockChans L nl i) (s.ring i) x) :
    ∀ j y, ringEv s j e = some y → timelyEv (lockChans L nl j) (s.ring j) y := (hs.timely ⟨hx, trivial⟩).1

theorem blk_waiting {c : Cfg α} {o w : Nat} {s : St α} (h : Blk c o w s) : waiting (s.pc w) = true := by
  rcases h.pcS with k | k | k | k | k <;> (rw [k]; rfl)

theorem Locked.step {L : Nat} {nl : α} {s : Nested α} (h : Locked L nl s) (n : Nat) :
    Locked L nl (nstep (lockChans L nl) s (lockTurn n)) ∧
    ∀ j y, ringEv s j (lockTurn n) = some y → timelyEv (lockChans L nl j) (s.ring j) y := by
  have hA : ∀ i, i < 2 → (lockChans L nl i).async = true := fun i hi => decide_eq_true hi
  have n1 : ctx 1 0 ≠ ctx 2 1 := fun k => absurd (ctx_inj k).1 (by decide)
  have n2 : ctx 2 0 ≠ ctx 1 1 := fun k => absurd (ctx_inj k).1 (by decide)
  have hn : n % 6 < 6 := Nat.mod_lt _ (by decide)
  unfold lockTurn
  split
  · have hs := Solo.work (lockChans L nl) 0 s
    obtain ⟨b1, b2⟩ := h.r0.chan (hA 0 (by decide)) (ctx_zero 1 0) (ctx_zero 2 1)
    exact ⟨⟨h.inv.step _, h.st1, h.st2, h.oth, by rw [show (nstep _ s _).ring 0 = _ from hs.ring]; exact b1,
      by rw [show (nstep _ s _).ring 1 = _ from hs.others 1 (by decide)]; exact h.r1⟩, locked_solo hs b2⟩
  · have hs := Solo.work (lockChans L nl) 1 s
    obtain ⟨b1, b2⟩ := h.r1.chan (hA 1 (by decide)) (ctx_zero 2 0) (ctx_zero 1 1)
    exact ⟨⟨h.inv.step _, h.st1, h.st2, h.oth, by rw [show (nstep _ s _).ring 0 = _ from hs.others 0 (by decide)]; exact h.r0,
      by rw [show (nstep _ s _).ring 1 = _ from hs.ring]; exact b1⟩, locked_solo hs b2⟩
  · rename_i t ht
    by_cases h1 : t + 1 = 1
    · rw [h1]
      have hs : Solo (lockChans L nl) 1 s [.run 1] [.run (ctx 1 1)] :=
        Solo.one (by simp [ringEv, h.st1]) fun j hj => by simp only [ringEv, h.st1]; exact if_neg fun k => hj k.symm
      obtain ⟨b1, b2⟩ := h.r1.waiter n2 (ctx_zero 1 1)
      have hr1 : (nstep (lockChans L nl) s (.run 1)).ring 1 = _ := hs.ring
      have b3 : Blk (lockChans L nl 1) (ctx 2 0) (ctx 1 1) ((nstep (lockChans L nl) s (.run 1)).ring 1) := by rw [hr1]; exact b1
      have hst : (nstep (lockChans L nl) s (.run 1)).stack = s.stack := by
        show stackAfter s (nstep (lockChans L nl) s (.run 1)).ring (.run 1) = _
        have hov := waiting_over (blk_waiting b3)
        simp only [stackAfter, h.st1]
        rw [if_neg]
        show ¬ over _ (ctx 1 1) = true
        rw [hov]; nofun
      exact ⟨⟨h.inv.step _, by rw [hst]; exact h.st1, by rw [hst]; exact h.st2, by rw [hst]; exact h.oth,
        by rw [show (nstep _ s _).ring 0 = _ from hs.others 0 (by decide)]; exact h.r0, b3⟩, locked_solo hs b2⟩
    · by_cases h2 : t + 1 = 2
      · rw [h2]
        have hs : Solo (lockChans L nl) 0 s [.run 2] [.run (ctx 2 1)] :=
          Solo.one (by simp [ringEv, h.st2]) fun j hj => by simp only [ringEv, h.st2]; exact if_neg fun k => hj k.symm
        obtain ⟨b1, b2⟩ := h.r0.waiter n1 (ctx_zero 2 1)
        have hr1 : (nstep (lockChans L nl) s (.run 2)).ring 0 = _ := hs.ring
        have b3 : Blk (lockChans L nl 0) (ctx 1 0) (ctx 2 1) ((nstep (lockChans L nl) s (.run 2)).ring 0) := by rw [hr1]; exact b1
        have hst : (nstep (lockChans L nl) s (.run 2)).stack = s.stack := by
          show stackAfter s (nstep (lockChans L nl) s (.run 2)).ring (.run 2) = _
          have hov := waiting_over (blk_waiting b3)
          simp only [stackAfter, h.st2]
          rw [if_neg]
          show ¬ over _ (ctx 2 1) = true
          rw [hov]; nofun
        exact ⟨⟨h.inv.step _, by rw [hst]; exact h.st1, by rw [hst]; exact h.st2, by rw [hst]; exact h.oth, b3,
          by rw [show (nstep _ s _).ring 1 = _ from hs.others 1 (by decide)]; exact h.r1⟩, locked_solo hs b2⟩
      · have hnil := h.oth (t + 1) h1 h2
        have hs : nstep (lockChans L nl) s (.run (t + 1)) = s := by
          unfold nstep
          simp only [ringEv, stackAfter, hnil, stepO]
        rw [hs]
        refine ⟨h, fun j y hy => ?_⟩
        simp only [ringEv, hnil] at hy
        cases hy

/-! ### An endless schedule with a given beginning -/

def follow (pre : List (NEv α)) (f : Nat → NEv α) (n : Nat) : NEv α := (pre[n]?).getD (f (n - pre.length))

theorem nestAt_follow (c : Nat → Cfg α) (pre : List (NEv α)) (f : Nat → NEv α) {n : Nat} (hn : n ≤ pre.length) :
    nestAt c (follow pre f) n = nrun c (ninit c) (pre.take n) := by
  induction n with
  | zero => rfl
  | succ n ih =>
    rw [nestAt, ih (by omega), List.take_add_one, nrun_append]
    have e : pre[n]? = some pre[n] := List.getElem?_eq_getElem (by omega)
    rw [follow, e]
    rfl

theorem nt_at {c : Nat → Cfg α} : ∀ {pre : List (NEv α)} {s : Nested α}, NT c s pre → ∀ {n : Nat} {e : NEv α}, pre[n]? = some e →
    ∀ i x, ringEv (nrun c s (pre.take n)) i e = some x → timelyEv (c i) ((nrun c s (pre.take n)).ring i) x
  | [], _, _, _, _, he => by cases he
  | _ :: _, _, h, 0, _, he => by
    cases he
    exact h.1
  | _ :: _, _, h, n + 1, _, he => nt_at h.2 he

/-- A thread that makes no statement is outside. -/
theorem stack_nil {c : Nat → Cfg α} {σ : Nat → NEv α} {t : Nat} (h : ∀ n i b, σ n ≠ .log t i b) (n : Nat) :
    (nestAt c σ n).stack t = [] := by
  induction n with
  | zero => rfl
  | succ n ih =>
    show stackAfter (nestAt c σ n) (nstep c (nestAt c σ n) (σ n)).ring (σ n) t = []
    cases hσ : σ n with
    | log u i b =>
      simp only [stackAfter]
      split
      · rw [upd_ne _ _ fun k => h n i b (by rw [hσ, k])]; exact ih
      · exact ih
    | run u =>
      cases hsu : (nestAt c σ n).stack u with
      | nil => simp only [stackAfter, hsu]; exact ih
      | cons k r =>
        simp only [stackAfter, hsu]
        split
        · by_cases hu : t = u
          · subst hu; rw [ih] at hsu; cases hsu
          · rw [upd_ne _ _ hu]; exact ih
        · exact ih
    | work u => exact ih
    | started u => exact ih

/-- Two threads that wait for each other, for ever. -/
def lockSched (L : Nat) : Nat → NEv α := follow (lockPre L) lockTurn

theorem lock_state {L : Nat} (hL : 2 ≤ L) (nl : α) (k : Nat) :
    Locked L nl (nestAt (lockChans L nl) (lockSched L) ((lockPre (α := α) L).length + k)) := by
  induction k with
  | zero =>
    unfold lockSched
    rw [Nat.add_zero, nestAt_follow _ _ _ (Nat.le_refl _), List.take_length]
    exact (locked_pre hL nl).2
  | succ k ih =>
    rw [← Nat.add_assoc, nestAt]
    have e : lockSched (α := α) L ((lockPre (α := α) L).length + k) = lockTurn k := by
      unfold lockSched follow
      rw [List.getElem?_eq_none (by omega), Nat.add_sub_cancel_left]
      rfl
    rw [e]
    exact (ih.step k).1

theorem sched_late {L n : Nat} (hn : (lockPre (α := α) L).length ≤ n) : lockSched (α := α) L n = lockTurn (n - (lockPre (α := α) L).length) := by
  unfold lockSched follow
  rw [List.getElem?_eq_none hn]
  rfl

theorem lock_timely {L : Nat} (hL : 2 ≤ L) (nl : α) : NestTimely (lockChans L nl) (lockSched L) := by
  intro n i e he
  by_cases hn : n < (lockPre (α := α) L).length
  · have h := nt_at (locked_pre hL nl).1 (List.getElem?_eq_getElem hn) i e
    unfold lockSched at he ⊢
    rw [nestAt_follow _ _ _ (by omega)] at he ⊢
    refine h ?_
    rw [← he, follow, List.getElem?_eq_getElem hn]
    rfl
  · obtain ⟨k, rfl⟩ := Nat.le.dest (Nat.le_of_not_lt hn)
    rw [sched_late (by omega), Nat.add_sub_cancel_left] at he
    exact ((lock_state hL nl k).step k).2 i e he

theorem log_threads {L t i : Nat} {b : List α} (h : NEv.log t i b ∈ lockPre (α := α) L) : t = 1 ∨ t = 2 ∨ t = 3 ∨ t = 4 := by
  simp [lockPre, chanLock, List.mem_flatten, List.mem_replicate] at h
  grind

theorem turn_every (N r : Nat) (hr : r < 6) : ∃ m, N ≤ m ∧ m % 6 = r := ⟨6 * N + r, by omega, by omega⟩

theorem lock_fair {L : Nat} (nl : α) : NestFair (lockChans L nl) (lockSched L) := by
  have late : ∀ n r, r < 6 → ∃ m, n ≤ m ∧ ∃ k, k % 6 = r ∧ lockSched (α := α) L m = lockTurn k := fun n r hr => by
    obtain ⟨k, hk, hr'⟩ := turn_every n r hr
    refine ⟨(lockPre (α := α) L).length + k, by omega, k, hr', ?_⟩
    rw [sched_late (by omega), Nat.add_sub_cancel_left]
  refine ⟨fun t n hst => ?_, fun i n hA => ?_⟩
  · by_cases ht : 1 ≤ t ∧ t ≤ 4
    · obtain ⟨m, hm, k, hk, he⟩ := late n (t + 1) (by omega)
      refine ⟨m, hm, ?_⟩
      rw [he]
      obtain ⟨q, rfl⟩ : ∃ q, t = q + 1 := ⟨t - 1, by omega⟩
      unfold lockTurn
      rw [hk]
    · refine absurd (stack_nil (fun m i b hm => ?_) n) hst
      by_cases hm' : m < (lockPre (α := α) L).length
      · unfold lockSched follow at hm
        rw [List.getElem?_eq_getElem hm'] at hm
        have hmem : NEv.log t i b ∈ lockPre (α := α) L := by
          rw [← (show (lockPre (α := α) L)[m] = NEv.log t i b from hm)]
          exact List.getElem_mem _
        have := log_threads hmem
        omega
      · rw [sched_late (by omega)] at hm
        unfold lockTurn at hm
        split at hm <;> cases hm
  · have hi : i < 2 := of_decide_eq_true hA
    obtain ⟨m, hm, k, hk, he⟩ := late n i (by omega)
    refine ⟨m, hm, ?_⟩
    rw [he]
    unfold lockTurn
    rw [hk]
    match i, hi with
    | 0, _ => rfl
    | 1, _ => rfl

end FNLog.Nest
