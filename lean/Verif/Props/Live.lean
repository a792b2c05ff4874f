import Verif.Proof.Starve
import Verif.Proof.Stalled
import Verif.Proof.Threads
import Verif.Proof.KernelRfl

/-!
# Property C100: what happens in the end

The other theorems about the queue say what may happen at any time.  Here an execution goes on for ever and the
operating system is fair: every thread that is inside a log statement, and the thread of the channel, makes a further
step at some time (`Spec.Fair`).  Nothing is said about when, or in which order.

`Endless c σ`: at least two slots, every compare-and-swap timely (C12), nobody stops the channel, fair.
-/

namespace FNLog
open Ring Spec

variable {α : Type}

theorem acquired_at (c : Cfg α) (σ : Nat → Ev α) {n m : Nat} (h : n ≤ m) :
    (stateAt c σ n).acquired <+: (stateAt c σ m).acquired := by
  obtain ⟨d, rfl⟩ := Nat.le.dest h
  clear h
  induction d with
  | zero => exact List.prefix_refl _
  | succ d ih => rw [← Nat.add_assoc, stateAt_succ]; exact ih.trans (step_acquired c _ _)

/-- C100: a record that got its slot is written, whatever the threads do, and stays written. -/
theorem C100_output (c : Cfg α) (σ : Nat → Ev α) (h : Endless c σ) {n k t : Nat} {line : List α}
    (hk : (stateAt c σ n).acquired[k]? = some (t, line)) :
    Eventually fun m => (k, line) ∈ (stateAt c σ m).out := by
  have hkH : k < (stateAt c σ n).H := by rw [← (h.inv n).len]; exact (List.getElem?_eq_some_iff.mp hk).1
  obtain ⟨M, hM, hR⟩ := h.released hkH
  refine ⟨M, fun m hm => ?_⟩
  have hi := h.inv m
  have hR' : k < (stateAt c σ m).R := Nat.lt_of_lt_of_le hR (stateAt_mono c σ hm).2.2.2
  have hmem : k ∈ (stateAt c σ m).out.map Prod.fst := by
    rw [hi.outMem]
    refine ⟨?_, Nat.lt_of_lt_of_le hR' hi.leRP, fun u hu => ?_⟩
    · rw [show (stateAt c σ m).base = 0 from base_run c (upTo σ m) (init c)]; exact Nat.zero_le _
    · have := hi.ti u
      rw [hu] at this
      exact absurd this.1 (by omega)
  obtain ⟨⟨k', v⟩, he, rfl⟩ := List.mem_map.mp hmem
  have hv := hi.outVal _ he
  obtain ⟨rest, hrest⟩ := acquired_at c σ (show n ≤ m by omega)
  rw [← hrest, List.getElem?_append_left (List.getElem?_eq_some_iff.mp hk).1, hk] at hv
  simp only [Option.map_some, Option.some.injEq] at hv
  rw [hv]
  exact he

/-- C100: every slot becomes free again: `read_idx_` passes every position that was acquired. -/
theorem C100_room (c : Cfg α) (σ : Nat → Ev α) (h : Endless c σ) (n : Nat) :
    Eventually fun m => (stateAt c σ n).acquired.length ≤ (stateAt c σ m).R := by
  rw [(h.inv n).len]
  by_cases h0 : (stateAt c σ n).H = 0
  · exact ⟨0, fun m _ => by rw [h0]; exact Nat.zero_le _⟩
  · obtain ⟨M, hM, hR⟩ := h.released (n := n) (k := (stateAt c σ n).H - 1) (by omega)
    refine ⟨M, fun m hm => ?_⟩
    have := (stateAt_mono c σ hm).2.2.2
    omega

theorem progEq_at {c : Cfg α} {σ : Nat → Ev α} (h : Endless c σ) (n : Nat) : ProgEq c (stateAt c σ n) := by
  induction n with
  | zero => exact ProgEq.init c
  | succ n ih => rw [stateAt_succ]; exact ih.step (h.ns n) _

/-- C100: while some statement waits for a slot, some statement gets one. -/
theorem C100_lock_free (c : Cfg α) (σ : Nat → Ev α) (h : Endless c σ) {n t : Nat}
    (hw : (linesOf t (stateAt c σ n).acquired).length < (linesOf t (stateAt c σ n).calls).length) :
    ∃ m, n ≤ m ∧ (stateAt c σ n).acquired.length < (stateAt c σ m).acquired.length := by
  have hp := congrArg List.length (progEq_at h n t)
  rw [List.length_append, List.length_map, List.length_map, ofThread_eq, ofThread_eq] at hp
  have : (pending ((stateAt c σ n).pc t)).isSome = true := by
    cases hq : pending ((stateAt c σ n).pc t) with
    | none => rw [hq] at hp; simp at hp; omega
    | some b => rfl
  obtain ⟨m, hm, hH⟩ := h.acquire this
  exact ⟨m, hm, by rw [(h.inv n).len, (h.inv m).len]; exact hH⟩

/-- C100: when only finitely many statements are made, all of them return: from some time on no thread is inside a log
statement, the lines of each thread are exactly its statements, everything is written exactly once and the queue is
empty. -/
theorem C100_all_return (c : Cfg α) (σ : Nat → Ev α) (h : Endless c σ) {N : Nat}
    (hN : ∀ n, N ≤ n → ∀ t b, σ n ≠ .call t b) :
    Eventually fun n => (∀ t, (stateAt c σ n).pc t = .idle ∨ (c.async = true ∧ t = worker)) ∧
      (∀ t, linesOf t (stateAt c σ n).acquired = (linesOf t (stateAt c σ n).calls).map (withEnd c.nl)) ∧
      EachExactlyOnce ((stateAt c σ n).acquired.map Prod.snd) ((stateAt c σ n).out.map Prod.snd) ∧
      (stateAt c σ n).R = (stateAt c σ n).H := by
  obtain ⟨M, _, hM⟩ := h.quiet hN
  refine ⟨M, fun n hn => ?_⟩
  obtain ⟨h1, h2⟩ := hM n hn
  have hi := h.inv n
  have hL : 0 < c.L := by have := h.big; omega
  refine ⟨h1, ?_, ?_, h2⟩
  · exact (C10_all_published c hL (upTo σ n) (h.timely n) (fun e he => by
      obtain ⟨i, _, rfl⟩ := List.mem_map.mp he; exact h.noStop i) h1).2
  · refine exactlyOnce_of_all hi (base_run c (upTo σ n) (init c)) ?_ ?_
    · have := hi.leRP; have := hi.lePW; have := hi.leWH; omega
    · intro t k hk
      have := hi.ti t
      rw [hk] at this
      have h3 := this.1
      have h4 := this.2.1
      have := hi.lePW; have := hi.leWH
      omega

/-! ## A thread that never gets a slot

Thread 1 logs again and again; thread 2 made one statement.  Each time thread 2 has loaded `hold_idx_` and found room,
thread 1 takes the slot before the compare-and-swap of thread 2, and the channel thread empties the queue. -/

/-- Two slots, asynchronous. -/
def tinyAsync : Cfg Nat := ⟨2, true, 0⟩

/-- The channel starts; thread 2 makes its statement. -/
def starveStart : List (Ev Nat) := steps 0 5 ++ [.started, .call 2 []]

/-- One attempt of thread 2 that fails. -/
def starveOnce : List (Ev Nat) := steps 2 3 ++ [.call 1 []] ++ steps 1 20 ++ steps 0 13 ++ steps 2 1

/-- Ten attempts (the loop at fn_channel.h 437-461), then the sleep and the next round. -/
def starveRound : List (Ev Nat) := (List.replicate 10 starveOnce).flatten ++ steps 2 2

attribute [irreducible] starveRound

/-- For ever. -/
def starve : Nat → Ev Nat := periodic starveStart starveRound

/-- In every state of the first round: the next event is timely, and not a successful compare-and-swap of thread 2 on
`hold_idx_`. -/
def starveOk (s : St Nat) (e : Ev Nat) : Prop :=
  timelyEv tinyAsync s e ∧ ∀ i tk b, e = .run 2 → s.pc 2 = .hCas i tk b → s.H % 2 ≠ tk % 2

def starveCheck (s : St Nat) (e : Ev Nat) : Bool :=
  decide (timelyEv tinyAsync s e) && match e, s.pc 2 with
    | .run 2, .hCas _ tk _ => s.H % 2 != tk % 2
    | _, _ => true

theorem starveCheck_ok {s : St Nat} {e : Ev Nat} (h : starveCheck s e = true) : starveOk s e := by
  unfold starveCheck at h
  rw [Bool.and_eq_true] at h
  refine ⟨of_decide_eq_true h.1, ?_⟩
  rintro i tk b rfl hpc
  have h2 := h.2
  rw [hpc] at h2
  simpa using h2

theorem starve_checked : alongRun tinyAsync starveCheck (init tinyAsync) (starveStart ++ starveRound) = true := by
  decide +kernel

/-- Calls are made by threads 1 and 2, thread 2 calls in the beginning only, and nobody stops. -/
def starveEv (e : Ev Nat) : Bool :=
  match e with
  | .run t => t < 3
  | .call t _ => t == 1
  | .started => true
  | _ => false

theorem starve_round_events : ∀ e ∈ starveRound, starveEv e = true := by
  rw [← List.all_eq_true]; decide +kernel

theorem starve_ev (n : Nat) : starveEv (starve n) = true ∨ n = 6 ∧ starve n = .call 2 [] := by
  by_cases hn : n < 7
  · match n, hn with
    | 0, _ | 1, _ | 2, _ | 3, _ | 4, _ | 5, _ => exact Or.inl rfl
    | 6, _ => exact Or.inr ⟨rfl, rfl⟩
  · left
    apply starve_round_events
    unfold starve periodic
    have h0 : starveStart.length = 7 := rfl
    have h1 : 0 < starveRound.length := by decide +kernel
    rw [if_neg (by omega)]
    have h : (n - starveStart.length) % starveRound.length < starveRound.length := Nat.mod_lt _ h1
    rw [List.getD_eq_getElem?_getD, List.getElem?_eq_getElem h]
    exact List.getElem_mem h

theorem starve_noStop (n : Nat) : (starve n).noStop := by
  rcases starve_ev n with h | ⟨_, h⟩
  · revert h
    cases starve n <;> simp [starveEv, Ev.noStop]
  · rw [h]; trivial

theorem starve_others (n t : Nat) (ht : 3 ≤ t) : (stateAt tinyAsync starve n).pc t = .idle := by
  induction n with
  | zero =>
    show (if tinyAsync.async = true ∧ t = worker then PC.cLoad else PC.idle) = PC.idle
    rw [if_neg]
    rintro ⟨_, rfl⟩
    exact absurd ht (by decide)
  | succ n ih =>
    rw [stateAt_succ]
    refine idle_stays ?_ ih
    intro b hb
    rcases starve_ev n with h | ⟨_, h⟩
    · rw [hb] at h
      simp only [starveEv, beq_iff_eq] at h
      omega
    · rw [hb] at h; injection h; omega

theorem starve_at {n : Nat} (h : n ≤ 7 + starveRound.length) :
    stateAt tinyAsync starve n = run tinyAsync (init tinyAsync) ((starveStart ++ starveRound).take n) := by
  unfold stateAt starve
  exact congrArg _ (upTo_periodic starveStart starveRound n h)

theorem starve_shift : Shift tinyAsync 10 (run tinyAsync (init tinyAsync) starveStart)
    (run tinyAsync (init tinyAsync) (starveStart ++ starveRound)) := by
  refine ⟨by decide +kernel, by decide +kernel, by decide +kernel, by decide +kernel, ?_, by decide +kernel,
    by decide +kernel, ?_⟩
  · intro i hi
    match i, (show i < 2 from hi) with
    | 0, _ => decide +kernel
    | 1, _ => decide +kernel
  · intro t
    by_cases h0 : t = 0
    · rw [h0]; kernel_rfl
    by_cases h1 : t = 1
    · rw [h1]; kernel_rfl
    by_cases h2 : t = 2
    · rw [h2]; kernel_rfl
    · obtain ⟨t, rfl⟩ : ∃ u, t = u + 3 := ⟨t - 3, by omega⟩
      have h1 := starve_others 7 (t + 3) (by omega)
      have h2 := starve_others (7 + starveRound.length) (t + 3) (by omega)
      rw [starve_at (by omega)] at h1
      rw [starve_at (Nat.le_refl _)] at h2
      rw [show (starveStart ++ starveRound).take 7 = starveStart from List.take_left (l₁ := starveStart)] at h1
      rw [show 7 + starveRound.length = (starveStart ++ starveRound).length by rw [List.length_append]; rfl,
        List.take_length] at h2
      rw [h1, h2]
      rfl

theorem starve_ok (n : Nat) : starveOk (stateAt tinyAsync starve n) (starve n) := by
  refine periodic_all (c := tinyAsync) (d := 10) (by decide) (by decide) (fun h => absurd (congrArg List.length h) (by decide +kernel)) starve_shift (Q := starveOk) ?_ ?_ n
  · intro s s' e h ⟨h1, h2⟩
    refine ⟨h.timely (by decide) e h1, ?_⟩
    intro i tk b he hpc
    have := h.pc 2
    rw [hpc] at this
    cases hp : s.pc 2 <;> rw [hp] at this <;> simp only [shiftPC, reduceCtorEq, PC.hCas.injEq] at this
    obtain ⟨rfl, rfl, rfl⟩ := this
    have := h2 _ _ _ he hp
    have := h.H
    omega
  · intro n hn
    have h1 := alongRun_at starve_checked n (by rw [List.length_append]; exact hn)
    rw [show stateAt tinyAsync (periodic starveStart starveRound) n = _ from starve_at (Nat.le_of_lt hn)]
    refine starveCheck_ok ?_
    have h2 : periodic starveStart starveRound n = (starveStart ++ starveRound)[n]'(by rw [List.length_append]; exact hn) := by
      unfold periodic
      split
      · rename_i h
        rw [List.getElem_append_left h, List.getD_eq_getElem?_getD, List.getElem?_eq_getElem h]
        rfl
      · rename_i h
        have h3 : (n - starveStart.length) % starveRound.length = n - starveStart.length := Nat.mod_eq_of_lt (by omega)
        rw [List.getElem_append_right (by omega), h3, List.getD_eq_getElem?_getD, List.getElem?_eq_getElem (by omega)]
        rfl
    show starveCheck _ (periodic starveStart starveRound n) = true
    rw [h2]
    exact h1

/-- Every thread of the round comes again and again. -/
theorem starve_again {i t : Nat} (hi : starveRound[i]? = some (.run t)) (n : Nat) : ∃ m, n ≤ m ∧ starve m = .run t := by
  have hlen := (List.getElem?_eq_some_iff.mp hi).1
  refine ⟨7 + i + starveRound.length * n, ?_, ?_⟩
  · have : 1 * n ≤ starveRound.length * n := Nat.mul_le_mul_right _ (by omega)
    omega
  · unfold starve periodic
    have h0 : starveStart.length = 7 := rfl
    rw [if_neg (by omega), show 7 + i + starveRound.length * n - starveStart.length = i + starveRound.length * n by omega,
      Nat.add_mul_mod_self_left, Nat.mod_eq_of_lt hlen, List.getD_eq_getElem?_getD, hi]
    rfl

theorem starve_endless : Endless tinyAsync starve := by
  refine ⟨by decide, timely_pointwise fun n => (starve_ok n).1, starve_noStop, ?_⟩
  intro t n hp
  match t with
  | 0 => exact starve_again (i := 24) (by kernel_rfl) n
  | 1 => exact starve_again (i := 4) (by kernel_rfl) n
  | 2 => exact starve_again (i := 0) (by kernel_rfl) n
  | t + 3 => exact absurd (starve_others n (t + 3) (by omega)) hp

/-- C100: the counterexample to a stronger claim.  A fair execution in which thread 2 makes one statement that never
gets a slot and never returns, while the others get slots without end. -/
theorem C100_starvation_counterexample : Endless tinyAsync starve ∧
    (∀ n, 7 ≤ n → linesOf 2 (stateAt tinyAsync starve n).calls = [[]] ∧
      linesOf 2 (stateAt tinyAsync starve n).acquired = [] ∧ (stateAt tinyAsync starve n).pc 2 ≠ .idle) ∧
    ∀ K, ∃ n, K ≤ (stateAt tinyAsync starve n).acquired.length := by
  have hacq : ∀ n, linesOf 2 (stateAt tinyAsync starve n).acquired = [] := by
    intro n
    induction n with
    | zero => rfl
    | succ n ih =>
      rw [stateAt_succ]
      have hok := (starve_ok n).2
      generalize hs : stateAt tinyAsync starve n = s at ih hok ⊢
      generalize starve n = e at hok ⊢
      have keep : ∀ s' : St Nat, s'.acquired = s.acquired → linesOf 2 s'.acquired = [] := fun s' h => by rw [h]; exact ih
      cases e with
      | run t =>
        simp only [Ring.step]
        unfold Ring.stepT
        split <;> (repeat' split) <;> try exact keep _ rfl
        rename_i i tk b hpc heq
        show linesOf 2 (s.acquired ++ [(t, _)]) = []
        rw [linesOf_append, ih, linesOf_one, if_neg, List.nil_append]
        rintro rfl
        exact hok _ _ _ rfl hpc heq
      | call t b => simp only [Ring.step]; (repeat' split) <;> exact keep _ rfl
      | started => simp only [Ring.step]; (repeat' split) <;> exact keep _ rfl
      | closing => exact keep _ rfl
      | stop => simp only [Ring.step]; (repeat' split) <;> exact keep _ rfl
  have hcalls : ∀ n, 7 ≤ n → linesOf 2 (stateAt tinyAsync starve n).calls = [[]] := by
    intro n hn
    obtain ⟨d, rfl⟩ := Nat.le.dest hn
    clear hn
    induction d with
    | zero => rw [starve_at (by omega)]; decide +kernel
    | succ d ih =>
      rw [← Nat.add_assoc, stateAt_succ]
      have hev : starveEv (starve (7 + d)) = true := by
        rcases starve_ev (7 + d) with h | ⟨h, _⟩
        · exact h
        · omega
      generalize stateAt tinyAsync starve (7 + d) = s at ih ⊢
      generalize starve (7 + d) = e at hev ⊢
      have keep : ∀ s' : St Nat, s'.calls = s.calls → linesOf 2 s'.calls = [[]] := fun s' h => by rw [h]; exact ih
      cases e with
      | run t =>
        simp only [Ring.step]
        unfold Ring.stepT
        split <;> (repeat' split) <;> exact keep _ rfl
      | call t b =>
        simp only [starveEv, beq_iff_eq] at hev
        subst hev
        simp only [Ring.step]
        (repeat' split) <;> try exact keep _ rfl
        show linesOf 2 (s.calls ++ [(1, b)]) = [[]]
        rw [linesOf_append, ih, linesOf_one, if_neg (by decide)]
        rfl
      | started => simp only [Ring.step]; (repeat' split) <;> exact keep _ rfl
      | closing => exact keep _ rfl
      | stop => simp only [Ring.step]; (repeat' split) <;> exact keep _ rfl
  refine ⟨starve_endless, fun n hn => ⟨hcalls n hn, hacq n, fun hp => ?_⟩, fun K => ?_⟩
  · have h := progEq_at starve_endless n 2
    rw [ofThread_eq, ofThread_eq, hacq n, hcalls n hn, hp] at h
    exact absurd h (by decide)
  · induction K with
    | zero => exact ⟨0, Nat.zero_le _⟩
    | succ K ih =>
      obtain ⟨n, hn⟩ := ih
      have hmono := (acquired_at tinyAsync starve (show n ≤ n + 7 by omega)).length_le
      obtain ⟨m, _, hm⟩ := C100_lock_free tinyAsync starve starve_endless (n := n + 7) (t := 2) (by
        rw [hacq, hcalls _ (by omega)]; decide)
      exact ⟨m, by omega⟩

/-- The hypothesis of `C100_output` is met: the first record of thread 1 in this execution. -/
example : (stateAt tinyAsync starve 20).acquired[0]? = some (1, [0]) := by
  rw [starve_at (by decide +kernel)]; decide +kernel

/-! ## The hypotheses are met, in both modes, with finitely many statements -/

/-- The channel starts, threads 1 and 2 make three statements; then only the channel thread is active. -/
def calmStart : List (Ev Nat) :=
  steps 0 5 ++ [.started, .call 1 [7], .call 2 [8, 9]] ++ steps 1 6 ++ steps 2 40 ++ steps 1 15 ++ steps 0 13 ++
  [.call 1 []] ++ steps 1 20 ++ steps 2 60 ++ steps 0 13 ++ steps 2 60 ++ steps 0 13

/-- The loop of the channel thread with an empty queue. -/
def calmRound : List (Ev Nat) := steps 0 4 ++ steps 1 1 ++ steps 2 1

def calm : Nat → Ev Nat := periodic calmStart calmRound

theorem calm_events : ∀ e ∈ calmStart ++ calmRound, evBelow 3 e = true := by
  rw [← List.all_eq_true]; decide +kernel

theorem calm_go : ∀ e ∈ calmStart ++ calmRound, evGoes e = true := by
  rw [← List.all_eq_true]; decide +kernel

theorem calm_endless : Endless tinyAsync calm := by
  refine periodic_endless (d := 0) (K := 3) (by decide) (by decide) (by decide) ?_ calm_events calm_go
    (shift_of (K := 3) (by decide) calm_events (by decide +kernel) ?_) (by decide +kernel)
  · intro t ht
    by_cases h0 : t = 0
    · rw [h0]; simp [calmRound, steps]
    by_cases h1 : t = 1
    · rw [h1]; simp [calmRound, steps]
    · rw [show t = 2 by omega]; simp [calmRound, steps]
  · intro t ht
    by_cases h0 : t = 0
    · rw [h0]; kernel_rfl
    by_cases h1 : t = 1
    · rw [h1]; kernel_rfl
    · rw [show t = 2 by omega]; kernel_rfl

theorem periodic_no_call {pre per : List (Ev α)} (h : ∀ t b, .call t b ∉ per) (hp : per ≠ []) {n : Nat} (hn : pre.length ≤ n) :
    ∀ t b, periodic pre per n ≠ .call t b := by
  intro t b hc
  have : periodic pre per n ∈ per := by
    unfold periodic
    rw [if_neg (by omega)]
    have h : (n - pre.length) % per.length < per.length := Nat.mod_lt _ (List.length_pos_iff.mpr hp)
    rw [List.getD_eq_getElem?_getD, List.getElem?_eq_getElem h]
    exact List.getElem_mem h
  rw [hc] at this
  exact h t b this

/-- `C100_all_return` applies to it, with three lines. -/
example : Endless tinyAsync calm ∧ (∀ n, calmStart.length ≤ n → ∀ t b, calm n ≠ .call t b) ∧
    (run tinyAsync (init tinyAsync) calmStart).out.map Prod.snd = [[7, 0], [0], [8, 9, 0]] :=
  ⟨calm_endless, fun _ hn => periodic_no_call (by simp [calmRound, steps]) (by simp [calmRound, steps]) hn, by decide +kernel⟩

/-- Two slots, synchronous. -/
def tinySync : Cfg Nat := ⟨2, false, 0⟩

def calmSyncStart : List (Ev Nat) :=
  [.started, .call 1 [7], .call 2 [8, 9]] ++ steps 1 6 ++ steps 2 40 ++ steps 1 60 ++ steps 2 60

def calmSyncRound : List (Ev Nat) := steps 0 1 ++ steps 1 1 ++ steps 2 1

theorem calmSync_events : ∀ e ∈ calmSyncStart ++ calmSyncRound, evBelow 3 e = true := by
  rw [← List.all_eq_true]; decide +kernel

theorem calmSync_go : ∀ e ∈ calmSyncStart ++ calmSyncRound, evGoes e = true := by
  rw [← List.all_eq_true]; decide +kernel

theorem calmSync_endless : Endless tinySync (periodic calmSyncStart calmSyncRound) := by
  refine periodic_endless (d := 0) (K := 3) (by decide) (by decide) (by decide) ?_ calmSync_events calmSync_go
    (shift_of (K := 3) (by decide) calmSync_events (by decide +kernel) ?_) (by decide +kernel)
  · intro t ht
    by_cases h0 : t = 0
    · rw [h0]; simp [calmSyncRound, steps]
    by_cases h1 : t = 1
    · rw [h1]; simp [calmSyncRound, steps]
    · rw [show t = 2 by omega]; simp [calmSyncRound, steps]
  · intro t ht
    by_cases h0 : t = 0
    · rw [h0]; kernel_rfl
    by_cases h1 : t = 1
    · rw [h1]; kernel_rfl
    · rw [show t = 2 by omega]; kernel_rfl

example : Endless tinySync (periodic calmSyncStart calmSyncRound) ∧
    (∀ n, calmSyncStart.length ≤ n → ∀ t b, periodic calmSyncStart calmSyncRound n ≠ .call t b) ∧
    (run tinySync (init tinySync) calmSyncStart).out.map Prod.snd = [[7, 0], [8, 9, 0]] :=
  ⟨calmSync_endless, fun _ hn => periodic_no_call (by simp [calmSyncRound, steps]) (by simp [calmSyncRound, steps]) hn,
    by decide +kernel⟩

end FNLog
