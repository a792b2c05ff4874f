import Verif.Proof.Shut
import Verif.Props.Flush

/-!
# C95: what StopLogger leaves behind

When StopLogger has returned, every file is complete and closed, and nothing is written any more.  True of an async channel, whose
thread has been joined; on a sync channel a log statement may still be in progress.
-/

namespace FNLog
open Spec Ring

/-- **C95**: the thread of an async channel has ended, or no thread is inside a log statement of a sync channel; StopLogger then
closes files while other threads go on (`es'`).  The files `s` are those of C72.  Missing: as for C91; sync channels with a log
statement in progress (`C95_late_statement_counterexample`). -/
theorem C95_stopped_partial {S : Setup} (hS : Ready S) (hap : FilesApart S.fenv S.channel.id S.channel.devices)
    {o : OutSt} (ho : Own S.fenv S.channel.id S.channel.devices o)
    (hex : ∀ (j : Nat) (d : Device) (p : List Char), S.channel.devices[j]? = some d → d.outType = .file →
      (o.dev j).handle = some p → o.fs p ≠ none)
    (B : Stdio) {es : List Act}
    (hG : (S.cfg.async = true ∨ Steady S) ∨ Serial S B es (fCrew S o)) (he : ∀ e ∈ es, SoundAct S e)
    (ht : FOnTime S B es (fCrew S o)) {f : FCrew} (hf : fActs S B es (fCrew S o) = some f)
    (hl : f.crew.ring.lgRunning = false) (hst : f.crew.ring.state ≠ .running)
    (hend : (S.cfg.async = true ∧ f.crew.ring.pc worker = .done) ∨
      (S.cfg.async = false ∧ ∀ e ∈ es, ∀ t, e.thread = some t → f.crew.ring.pc t = .idle))
    (es' : List FEv) (hJ : ∀ j, .shut j ∈ es' → ∃ d, S.channel.devices[j]? = some d ∧ d.outType = .file) :
    ∃ (rs : List Act) (s : Crew) (f' : FCrew), (∀ t, statementsOf t rs = statementsOf t es) ∧ acts S rs (crew S o) = some s ∧
      fEvents S B es' f = some f' ∧ f'.crew.visits = s.visits ∧
      (∀ (j : Nat) (d : Device) (p : List Char), S.channel.devices[j]? = some d → d.outType = .file →
        FilesOf S.fenv S.channel.id d p → bytesOf f'.crew.out.fs p = bytesOf s.out.fs p) ∧
      (∀ j, (f'.crew.out.dev j).handle = none ∨ (f'.crew.out.dev j).handle = (f.crew.out.dev j).handle) ∧
      ∀ j, .shut j ∈ es' → (f'.crew.out.dev j).handle = none := by
  obtain ⟨g, rs, s, h1, h2, h3, _, h5, h6⟩ := (FInv.init B hS ho hex).acts hS hap hG he ht
  rw [hf] at h1
  obtain rfl := Option.some.inj h1
  have hr : f.crew.ring = s.ring := by rw [h6.rel.crew_eq]
  have hend : (S.cfg.async = true ∧ f.crew.ring.pc worker = .done) ∨ (S.cfg.async = false ∧ ∀ t, f.crew.ring.pc t = .idle) := by
    rcases hend with h | ⟨hn, hi⟩
    · exact Or.inl h
    · refine Or.inr ⟨hn, fun t => ?_⟩
      by_cases hx : ∃ e ∈ es, e.thread = some t
      · obtain ⟨e, he, ht⟩ := hx
        exact hi e he t ht
      · rw [hr, acts_pc_other rs h5 fun e he ht => hx ⟨e, h2.subset he, ht⟩]
        show (Ring.init S.cfg).pc t = _
        simp [Ring.init, hn]
  obtain ⟨f', a1, a2, a3, a4, a5⟩ := h6.shut hl hst hend es' hJ
  exact ⟨rs, s, f', h3, h5, a1, a2, a3, a4, a5⟩

/-- StopLogger from line 189 on, for the two devices of the channel. -/
def demoClose : List FEv := [.act .closing, .act .stop, .clean, .shut 0, .shut 1]

/-- **C95** fails on a sync channel: StopLogger does not wait for log statements in progress.  Thread 1 is about to hand its record
to the devices when StopLogger closes the files; it then opens its file again, writes to it, and sets the channel back to
CHANNEL_STATE_RUNNING (fn_channel.h 187-190): the logger is stopped, no thread is inside a log statement, but the file is open
and the channel is running. -/
theorem C95_late_statement_counterexample : ∃ (S : Setup) (o : OutSt) (B : Stdio) (es : List Act) (n : Nat), Ready S ∧
    S.cfg.async = false ∧ Steady S ∧ FilesApart S.fenv S.channel.id S.channel.devices ∧
    Own S.fenv S.channel.id S.channel.devices o ∧ (∀ j, (o.dev j).handle = none) ∧ (∀ e ∈ es, SoundAct S e) ∧
    S.channel.devices.length = 2 ∧
    (fEvents S B (es.map .act ++ demoClose) (fCrew S o)).map
      (fun f => (f.crew.ring.state, (f.crew.out.dev 0).handle, bytesOf f.crew.out.fs "a.log".toList)) =
    some (.null, none, none) ∧
    (fEvents S B (es.map .act ++ demoClose ++ List.replicate n (.act (.run 1))) (fCrew S o)).map
      (fun f => (f.crew.ring.pc 1, f.crew.ring.state, (f.crew.out.dev 0).handle, bytesOf f.crew.out.fs "a.log".toList)) =
    some (.idle, .running, some "a.log".toList, some "[20261116 11:33:20.417][ERROR][a.cpp:17](f) one\n".toList) := by
  refine ⟨demoSetup, demoOut, demoStdio, [.started, demoLog 1 "one".toList] ++ demoRuns 1 71, 40, demo_ready, rfl, demo_steady,
    demo_apart, fun _ _ _ _ _ h => absurd h (by simp [demoOut]), fun _ => rfl, ?_, rfl, by kernel_rfl, by kernel_rfl⟩
  intro e he
  simp only [demoRuns, List.mem_append, List.mem_cons, List.not_mem_nil, or_false, List.mem_replicate] at he
  rcases he with (rfl | rfl) | ⟨_, rfl⟩
  all_goals first
    | trivial
    | exact demoCall_sound demoSetup rfl rfl rfl rfl rfl _ _

/-- **C92** fails on a sync channel also without rotation: thread 1 is about to call `fflush` when StopLogger closes the file. -/
theorem C92_stop_counterexample : ∃ (S : Setup) (o : OutSt) (B : Stdio) (es : List Act), Ready S ∧
    S.cfg.async = false ∧ Steady S ∧ FilesApart S.fenv S.channel.id S.channel.devices ∧
    Own S.fenv S.channel.id S.channel.devices o ∧ (∀ j, (o.dev j).handle = none) ∧ (∀ e ∈ es, SoundAct S e) ∧
    (fEvents S B (es.map .act ++ demoClose) (fCrew S o)).map (fun f => (f.fl 1, (f.crew.out.dev 0).handle)) =
      some (.call 0 1, none) ∧
    fEvents S B (es.map .act ++ demoClose ++ [.act (.run 1)]) (fCrew S o) = none := by
  refine ⟨demoSetup, demoOut, demoStdio, [.started, demoLog 1 "one".toList] ++ demoRuns 1 87, demo_ready, rfl, demo_steady,
    demo_apart, fun _ _ _ _ _ h => absurd h (by simp [demoOut]), fun _ => rfl, ?_, by kernel_rfl, by kernel_rfl⟩
  intro e he
  simp only [demoRuns, List.mem_append, List.mem_cons, List.not_mem_nil, or_false, List.mem_replicate] at he
  rcases he with (rfl | rfl) | ⟨_, rfl⟩
  all_goals first
    | trivial
    | exact demoCall_sound demoSetup rfl rfl rfl rfl rfl _ _

/-- The hypotheses of `C95_stopped_partial` on an async channel: the thread of the channel ends after `stop`. -/
example : demoAsyncSetup.cfg.async = true ∧
    FOnTime demoAsyncSetup demoStdio (demoAsyncRace ++ [.closing, .stop] ++ demoRuns 0 200) (fCrew demoAsyncSetup demoOut) ∧
    (fActs demoAsyncSetup demoStdio (demoAsyncRace ++ [.closing, .stop] ++ demoRuns 0 200) (fCrew demoAsyncSetup demoOut)).map
      (fun f => (f.crew.ring.pc 0, f.crew.ring.lgRunning, f.crew.ring.state, (f.crew.out.dev 0).handle)) =
    some (.done, false, .finish, some "a.log".toList) :=
  ⟨rfl, fOnTime_of (by kernel_rfl), by kernel_rfl⟩

/-- The hypotheses on a sync channel. -/
example : Steady demoSetup ∧
    (∀ e ∈ demoRace ++ [.closing, .stop], ∀ t, e.thread = some t → t = 1 ∨ t = 2) ∧
    FOnTime demoSetup demoStdio (demoRace ++ [.closing, .stop]) (fCrew demoSetup demoOut) ∧
    (fActs demoSetup demoStdio (demoRace ++ [.closing, .stop]) (fCrew demoSetup demoOut)).map
      (fun f => (f.crew.ring.pc 1, f.crew.ring.pc 2, f.crew.ring.lgRunning, f.crew.ring.state, (f.crew.out.dev 0).handle)) =
    some (.idle, .idle, false, .null, some "a.log".toList) :=
  ⟨demo_steady, by
    intro e he t ht
    simp only [demoRace, demoRuns, List.mem_append, List.mem_cons, List.not_mem_nil, or_false, List.mem_replicate] at he
    rcases he with (((((rfl | rfl) | ⟨_, rfl⟩) | rfl) | ⟨_, rfl⟩) | ⟨_, rfl⟩) | (rfl | rfl) <;>
      simp only [Act.thread, demoLog, Option.some.injEq, reduceCtorEq] at ht <;> omega, fOnTime_of (by kernel_rfl), by kernel_rfl⟩

end FNLog
