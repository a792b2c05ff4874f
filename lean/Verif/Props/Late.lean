import Verif.Proof.LateSim
import Verif.Props.Api

/-!
# Property theorem C114: the life cycle while log statements are in progress
-/

namespace FNLog
open Spec Api

/-! ## Whatever the statements do -/

/-- **C114.** Whatever threads call, log or destroy, and however their lateSteps interleave: what the calls bring about is a sequence of
sessions (as in C105). -/
theorem C114_sessions (es : List LEv) : ∃ l, Sessions .empty (lrun {} es).api.done l := by
  obtain ⟨l, hl, _⟩ := (xInv es).hist
  exact ⟨l, hl⟩

/-- **C114.** A call that returns 0 has done what it is for. -/
theorem C114_result (es : List LEv) (t : Nat) :
    (∀ o, (lrun {} es).api.pc t = .stUnlock o true → (lrun {} es).api.done.getLast? = some (.started t)) ∧
    ((lrun {} es).api.pc t = .spUnlock true → (lrun {} es).api.done.getLast? = some (.stopped t)) ∧
    (∀ o, (lrun {} es).api.pc t = .inUnlock o true → (lrun {} es).api.done.getLast? = some (.loaded t)) ∧
    ((lrun {} es).api.pc t = .whUnlock true → (lrun {} es).api.done.getLast? = some (.started t)) := by
  have h := (xInv es).here t
  refine ⟨fun o hp => ?_, fun hp => ?_, fun o hp => ?_, fun hp => ?_⟩ <;> rw [hp] at h <;> exact h

/-- **C114.** No thread is created for a channel that still has one, and a logger that is stopped has none. -/
theorem C114_threads (es : List LEv) : (lrun {} es).api.terminate = false ∧
    ((lrun {} es).api.state = .uninit → ∀ i, (lrun {} es).api.worker i = .none) := by
  have h := xInv es
  generalize lrun {} es = s at h
  refine ⟨h.term, fun hs => ?_⟩
  have hout : WOut s.api → ∀ i, s.api.worker i = .none := by
    rintro (k | k)
    · exact k.2
    · rw [hs] at k; cases k
  by_cases hd : ∃ t, 0 < (s.api.pc t).depth
  · obtain ⟨t, ht⟩ := hd
    have hh := h.w.here t ht
    generalize s.api.pc t = p at hh
    have h1 : s.api.state = .initing → False := fun k => by rw [hs] at k; cases k
    have h2 : s.api.state = .closing → False := fun k => by rw [hs] at k; cases k
    have h3 : s.api.state = .running → False := fun k => by rw [hs] at k; cases k
    have hu : ∀ u : Up, s.api.state = u.state → False := fun u hx => by
      cases u
      · exact h2 hx
      · exact h1 hx
    cases p <;> first
      | exact hout hh
      | exact hh.2
      | exact (h1 hh).elim
      | exact (h3 hh).elim
      | exact (h1 hh.1).elim
      | exact (h2 hh.1).elim
      | exact (hu _ hh.1).elim
  · exact hout (h.w.outside fun t => Nat.eq_zero_of_not_pos fun k => hd ⟨t, k⟩)

/-! ## Configurations with the same kinds of channels -/

/-- **C114**, if the channels have the same kinds in every configuration that is loaded: whatever statements are in progress, while the
logger runs every async channel is in the state RUNNING and has a thread that has not ended. -/
theorem C114_running_partial {f : Nat → Bool} {es : List LEv} (h : ∀ e ∈ es, Typed f e) (hs : (lrun {} es).api.state = .running)
    {i : Nat} (hi : i < (lrun {} es).api.size) (ha : (lrun {} es).api.async i = true) :
    (lrun {} es).api.chan i = .running ∧ (lrun {} es).api.worker i ≠ .none ∧ (lrun {} es).api.worker i ≠ .ended := by
  obtain ⟨es', k, _⟩ := sim_run h
  obtain ⟨f1, _, _, f4, f5, f6, _⟩ := k.twin.fields
  obtain ⟨c, hc, hg⟩ := k.twin
  rw [f1] at hs
  rw [f4] at hi
  rw [f5] at ha
  obtain ⟨k1, k2⟩ := (C105_threads es').2.1 hs i hi
  refine ⟨?_, ?_⟩
  · rw [hc]
    exact (hg i hi ha).trans k1
  · rw [f6]
    exact k2 ha

/-- **C114**, if the channels have the same kinds in every configuration that is loaded: exactly when `StopLogger` returns, under a fair
operating system and if the queues get empty.  Statements may be in progress and may stop anywhere; they make no difference to C104. -/
theorem C114_returns_partial {f : Nat → Bool} {σ : Nat → LEv} (h : ∀ n, Typed f (σ n)) (hf : LateFair σ) (hd : LateDrained σ)
    {n t : Nat} {e : Env} (hp : (logAt σ n).api.pc t = .spMark) (he : σ n = .api (.run t e)) :
    (∃ m, n < m ∧ (logAt σ m).api.pc t = .idle) ↔ ∀ i, (logAt σ n).api.worker i ≠ .hot .lock := by
  have k := fun n => (sim_at h n).1.twin.fields
  have h1 : ∀ n, (logAt σ n).api.pc = (apiAt (eraseAll σ) n).pc := fun n => (k n).2.2.2.2.2.2.1
  have h2 : ∀ n, (logAt σ n).api.worker = (apiAt (eraseAll σ) n).worker := fun n => (k n).2.2.2.2.2.1
  simp only [h1, h2] at hp ⊢
  refine C104_returns_partial (erase_fair h hf) (erase_drained hd) hp (e := e) ?_
  unfold eraseAll
  rw [he]
  rfl

/-- A schedule with given first events, fair to every call and every thread of a channel thereafter. -/
def lateRobin (es : List LEv) (n : Nat) : LEv :=
  match es[n]? with
  | some e => e
  | none => if n % 2 = 0 then .api (.run (n / 2 - 2 ^ (n / 2).log2) {}) else .api (.work (n / 2 - 2 ^ (n / 2).log2) {})

theorem lateRobin_late (es : List LEv) {n : Nat} (h : es.length ≤ n) : lateRobin es n =
    if n % 2 = 0 then .api (.run (n / 2 - 2 ^ (n / 2).log2) {}) else .api (.work (n / 2 - 2 ^ (n / 2).log2) {}) := by
  unfold lateRobin
  rw [List.getElem?_eq_none h]

theorem lateRobin_typed {f : Nat → Bool} {es : List LEv} (h : ∀ e ∈ es, Typed f e) (n : Nat) : Typed f (lateRobin es n) := by
  unfold lateRobin
  split
  · rename_i e he
    exact h e (List.mem_of_getElem? he)
  · split <;> trivial

theorem lateRobin_fair (es : List LEv) : LateFair (lateRobin es) ∧ LateDrained (lateRobin es) := by
  have pick : ∀ i n, ∃ m, n ≤ m ∧ es.length ≤ m ∧ m - 2 ^ m.log2 = i := by
    intro i n
    have hk : i + n + es.length < 2 ^ (i + n + es.length) := Nat.lt_two_pow_self
    refine ⟨2 ^ (i + n + es.length) + i, by omega, by omega, ?_⟩
    rw [log2_pow_add (by omega)]
    omega
  refine ⟨⟨fun t n _ => ?_, fun i n _ _ => ?_⟩, ⟨es.length, fun m i e hm he => ?_⟩⟩
  · obtain ⟨m, h1, h2, h3⟩ := pick t n
    refine ⟨2 * m, {}, by omega, ?_⟩
    rw [lateRobin_late es (by omega), if_pos (by omega), show 2 * m / 2 = m by omega, h3]
  · obtain ⟨m, h1, h2, h3⟩ := pick i n
    refine ⟨2 * m + 1, {}, by omega, ?_⟩
    rw [lateRobin_late es (by omega), if_neg (by omega), show (2 * m + 1) / 2 = m by omega, h3]
  · rw [lateRobin_late es hm] at he
    split at he
    · cases he
    · injection he with he
      injection he with _ he
      rw [← he]

/-- `n` steps of thread `t` inside of a call. -/
def lateSteps (t n : Nat) : List LEv := List.replicate n (.api (.run t {}))

/-- `n` steps of the statement of thread `t`. -/
def lateGoes (t n : Nat) : List LEv := List.replicate n (.go t {})

/-- Channel 0 is sync and channel 1 async. -/
def mixed : Conf := ⟨2, fun i => i != 0, false, true⟩

/-- Thread 0 starts the logger, thread 1 logs to channel 0 and is in `EnterProcChannel`, thread 0 calls `StopLogger`. -/
def lateStop : List LEv :=
  .api (.call 0 (.loadStart (some mixed))) :: lateSteps 0 15 ++ [.api (.work 1 {}), .api (.work 1 {})] ++ lateSteps 0 8 ++
  .say 1 0 :: lateGoes 1 8 ++ .api (.call 0 .stop) :: lateSteps 0 5

theorem typed_append {f : Nat → Bool} {a b : List LEv} (ha : ∀ e ∈ a, Typed f e) (hb : ∀ e ∈ b, Typed f e) : ∀ e ∈ a ++ b, Typed f e :=
  fun e he => (List.mem_append.1 he).elim (ha e) (hb e)

theorem lateSteps_typed (f : Nat → Bool) (t n : Nat) : ∀ e ∈ lateSteps t n, Typed f e := fun e he => by
  rw [(List.mem_replicate.1 he).2]; trivial

theorem lateGoes_typed (f : Nat → Bool) (t n : Nat) : ∀ e ∈ lateGoes t n, Typed f e := fun e he => by
  rw [(List.mem_replicate.1 he).2]; trivial


theorem typed_cons {f : Nat → Bool} {x : LEv} {b : List LEv} (hx : Typed f x) (hb : ∀ e ∈ b, Typed f e) : ∀ e ∈ x :: b, Typed f e :=
  fun e he => (List.mem_cons.1 he).elim (fun k => k ▸ hx) (hb e)

theorem lateStop_typed : ∀ e ∈ lateStop, Typed (fun i => i != 0) e := by
  have hm : Typed (fun i => i != 0) (.api (.call 0 (.loadStart (some mixed)))) := by
    intro x hx
    cases hx
    intro i
    show (i != 0) = if i < 2 then i != 0 else true
    split
    · rfl
    · rw [bne_iff_ne]; omega
  unfold lateStop
  refine typed_append (typed_append (typed_append (typed_append (typed_cons hm (lateSteps_typed _ _ _)) ?_) (lateSteps_typed _ _ _))
    (typed_cons trivial (lateGoes_typed _ _ _))) (typed_cons nofun (lateSteps_typed _ _ _))
  exact typed_cons trivial (typed_cons trivial nofun)

/-- The hypotheses can be met, with a statement that has begun and never goes on. -/
example : ∃ σ n, (∀ n, Typed (fun i => i != 0) (σ n)) ∧ LateFair σ ∧ LateDrained σ ∧ (logAt σ n).api.pc 0 = .spMark ∧
    σ n = .api (.run 0 {}) ∧ (∀ i, (logAt σ n).api.worker i ≠ .hot .lock) ∧ (logAt σ n).log 1 = .queue 0 := by
  refine ⟨lateRobin lateStop, 40, lateRobin_typed lateStop_typed, (lateRobin_fair _).1, (lateRobin_fair _).2, by kernel_rfl,
    by kernel_rfl, fun i => ?_, by kernel_rfl⟩
  match i with
  | 0 =>
    have : (logAt (lateRobin lateStop) 40).api.worker 0 = .none := by kernel_rfl
    rw [this]; nofun
  | 1 =>
    have : (logAt (lateRobin lateStop) 40).api.worker 1 = .hot .enter := by kernel_rfl
    rw [this]; nofun
  | i + 2 =>
    have : (logAt (lateRobin lateStop) 40).api.worker (i + 2) = .none := by kernel_rfl
    rw [this]; nofun

/-! ## A channel that was sync and is async -/

/-- Thread 0 starts a logger with one sync channel; thread 1 logs to it and is in `EnterProcChannel` (fn_channel.h 187) when thread 0 has
stopped the logger: it finds the channel in the state NULL and is about to set RUNNING (line 189). -/
def lateSync : List LEv :=
  .api (.call 0 (.loadStart (some ⟨1, fun i => i != 0, false, true⟩))) :: lateSteps 0 18 ++
  .say 1 0 :: lateGoes 1 8 ++ .api (.call 0 .stop) :: lateSteps 0 9 ++ lateGoes 1 1

/-- Thread 0 starts the logger again, the channel is async now; its thread runs.  Then thread 0 calls `StopLogger`, which tells the thread
to end, and waits. -/
def lateAsync : List LEv :=
  .api (.call 0 (.loadStart (some ⟨1, fun _ => true, false, true⟩))) :: lateSteps 0 14 ++
  [.api (.work 0 {}), .api (.work 0 {})] ++ lateSteps 0 7 ++ .api (.call 0 .stop) :: lateSteps 0 8

/-- **C114** fails: one step of a statement that was begun in an earlier session, on a channel that was sync then, sets the state of the
channel to RUNNING after `StopLogger` has told its thread to end.  Whatever happens then, the thread does not end, and `StopLogger`
never returns.  Without that step it does. -/
theorem C114_hang_counterexample :
    (lrun {} lateSync).api.done = [.loaded 0, .started 0, .stopped 0] ∧ (lrun {} lateSync).api.pc 0 = .idle ∧
    (lrun {} lateSync).log 1 = .run 0 ∧
    (lrun {} (lateSync ++ lateAsync)).api.pc 0 = .scJoin .stop 0 ∧ (lrun {} (lateSync ++ lateAsync)).api.chan 0 = .waitingFinish ∧
    (lrun {} (lateSync ++ lateAsync ++ List.replicate 3 (.api (.work 0 {})) ++ lateSteps 0 5)).api.pc 0 = .idle ∧
    ∀ es, (lrun {} (lateSync ++ lateAsync ++ lateGoes 1 1 ++ es)).api.state = .closing ∧
      (lrun {} (lateSync ++ lateAsync ++ lateGoes 1 1 ++ es)).api.pc 0 = .scJoin .stop 0 := by
  refine ⟨by kernel_rfl, by kernel_rfl, by kernel_rfl, by kernel_rfl, by kernel_rfl, by kernel_rfl, fun es => ?_⟩
  have h : Stuck (lrun {} (lateSync ++ lateAsync ++ lateGoes 1 1)) 0 0 := by
    refine ⟨wInv _, by kernel_rfl, by kernel_rfl, ?_, fun u => ?_⟩
    · have : (lrun {} (lateSync ++ lateAsync ++ lateGoes 1 1)).api.worker 0 = .hot .enter := by kernel_rfl
      rw [this]; trivial
    · have : (lrun {} (lateSync ++ lateAsync ++ lateGoes 1 1)).dtor = .no := by kernel_rfl
      rw [this]; nofun
  rw [lrun_append]
  exact ⟨(h.run es).closing, (h.run es).pc⟩

end FNLog
