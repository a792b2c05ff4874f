import Verif.Proof.ApiLive
import Verif.Proof.KernelRfl

/-! # Property theorems C104, C105: the life cycle from several threads -/

namespace FNLog
open Spec Api

/-! ## C105 -/

/-- **C105.** Whatever threads call, and however their steps interleave: what the calls bring about is a sequence of sessions.  A
logger is started when a configuration is loaded and it does not run, stopped when it runs, and no configuration is loaded while
it runs. -/
theorem C105_sessions (es : List Api.Ev) : ∃ l, Sessions .empty (Api.run {} es).done l := by
  obtain ⟨l, hl, _⟩ := (Api.inv es).hist
  exact ⟨l, hl⟩

/-- **C105.** A call that returns 0 has done what it is for, and nothing else has happened in between: it still has the lock. -/
theorem C105_result (es : List Api.Ev) (t : Nat) :
    (∀ o, (Api.run {} es).pc t = .stUnlock o true → (Api.run {} es).done.getLast? = some (.started t)) ∧
    ((Api.run {} es).pc t = .spUnlock true → (Api.run {} es).done.getLast? = some (.stopped t)) ∧
    (∀ o, (Api.run {} es).pc t = .inUnlock o true → (Api.run {} es).done.getLast? = some (.loaded t)) ∧
    ((Api.run {} es).pc t = .whUnlock true → (Api.run {} es).done.getLast? = some (.started t)) := by
  have h := (Api.inv es).here t
  refine ⟨fun o hp => ?_, fun hp => ?_, fun o hp => ?_, fun hp => ?_⟩ <;> rw [hp] at h
  · exact (h (Nat.succ_pos _)).2
  · exact (h (Nat.succ_pos _)).2
  · exact (h (Nat.succ_pos _)).2
  · exact (h (Nat.succ_pos _)).2

/-- **C105.** Threads: none is created for a channel that still has one.  While the logger runs every channel is in the state
RUNNING, and every async channel has a thread that has not ended; when it is stopped no channel has one. -/
theorem C105_threads (es : List Api.Ev) :
    (Api.run {} es).terminate = false ∧
    ((Api.run {} es).state = .running → ∀ i, i < (Api.run {} es).size → (Api.run {} es).chan i = .running ∧
      ((Api.run {} es).async i = true → (Api.run {} es).worker i ≠ .none ∧ (Api.run {} es).worker i ≠ .ended)) ∧
    ((Api.run {} es).state = .uninit → ∀ i, (Api.run {} es).chan i = .null ∧ (Api.run {} es).worker i = .none) := by
  exact (Api.inv es).threads

/-- **C105.** A function that loads and starts does not wait for its own lock. -/
theorem C105_nested (es : List Api.Ev) (t : Nat) (e : Env) :
    (∀ x, (Api.run {} es).pc t = .inLock true x → (runT (Api.run {} es) t e).pc t = .inState2 true x) ∧
    ((Api.run {} es).pc t = .stLock true → (runT (Api.run {} es) t e).pc t = .stState2 true) := by
  have h := (Api.inv es).lock
  have take1 : ∀ {l : Option (Who × Nat)} {w : Who}, 0 < holds l w → ∃ l', take l w = some l' := by
    intro l w hl
    unfold holds at hl
    unfold take
    split at hl
    · omega
    · rename_i v n
      by_cases hv : v = w
      · exact ⟨_, if_pos hv⟩
      · rw [if_neg hv] at hl; omega
  have key : 0 < ((Api.run {} es).pc t).depth → ∃ l', take (Api.run {} es).lock (.api t) = some l' := by
    intro hd
    refine take1 ?_
    rw [h]; exact hd
  refine ⟨fun x hp => ?_, fun hp => ?_⟩
  · obtain ⟨l, hl⟩ := key (by rw [hp]; exact Nat.one_pos)
    simp only [runT, hp, locked, hl, goto_pc]
  · obtain ⟨l, hl⟩ := key (by rw [hp]; exact Nat.one_pos)
    simp only [runT, hp, locked, hl, goto_pc]

/-- Two threads start the same logger at the same time, thread 1 is first at the lock; thread 0 finds the logger in use. -/
example :
    let s := Api.run {} ([.call 0 (.init (some ⟨1, fun _ => false, false, true⟩))] ++ List.replicate 5 (.run 0 {}) ++
      [.call 0 .start, .call 1 .start] ++ List.replicate 2 (.run 0 {}) ++ List.replicate 10 (.run 1 {}) ++ List.replicate 3 (.run 0 {}))
    s.done = [.loaded 0, .started 1] ∧ s.state = .running ∧ s.lock = none := ⟨by kernel_rfl, by kernel_rfl, by kernel_rfl⟩

/-! ## C104 -/

theorem apiAt_add (σ : Nat → Api.Ev) (n : Nat) (d : Nat) : ∃ es, apiAt σ (n + d) = Api.run (apiAt σ n) es := by
  induction d with
  | zero => exact ⟨[], rfl⟩
  | succ d ih =>
    obtain ⟨es, h⟩ := ih
    refine ⟨es ++ [σ (n + d)], ?_⟩
    rw [← Nat.add_assoc, apiAt_succ, h]
    unfold Api.run
    rw [List.foldl_append]
    rfl

/-- **C104**: exactly when `StopLogger` returns, under a fair operating system and if the queues get empty.  Event `n` is the
assignment in line 189 of fn_core.h by thread `t`.  `StopLogger` returns if and only if at this time no thread of a channel is in
`HotUpdateLogger` in front of the lock (line 326 of fn_load.h), behind its check of the state (line 311). -/
theorem C104_returns_partial {σ : Nat → Api.Ev} (hf : ApiFair σ) (hd : Drained σ) {n t : Nat} {e : Env}
    (hp : (apiAt σ n).pc t = .spMark) (he : σ n = .run t e) :
    (∃ m, n < m ∧ (apiAt σ m).pc t = .idle) ↔ ∀ i, (apiAt σ n).worker i ≠ .hot .lock := by
  constructor
  · rintro ⟨m, hm, h⟩ i hw
    have h1 : Doomed (apiAt σ (n + 1)) t i := by
      rw [apiAt_succ, he]
      exact doomed_mark (apiAt_inv σ n) e hp hw
    obtain ⟨es, h2⟩ := apiAt_add σ (n + 1) (m - (n + 1))
    rw [show n + 1 + (m - (n + 1)) = m by omega] at h2
    rw [h2] at h
    exact (h1.run es).closing.2 h
  · exact stop_returns hf hd hp he

/-- Starting a logger with one async channel and hot update, by thread 0. -/
def hotStart : List Api.Ev :=
  [.call 0 (.loadStart (some ⟨1, fun _ => true, true, true⟩))] ++ List.replicate 14 (.run 0 {}) ++
  [.work 0 {}, .work 0 {}] ++ List.replicate 7 (.run 0 {})

/-- The file has changed: the thread of the channel has read it and is in front of the lock. -/
def hotChanged : List Api.Ev := [.work 0 { changed := true }, .work 0 { parsed := some true }]

/-- Thread 1 calls `StopLogger`. -/
def hotStop : List Api.Ev := .call 1 .stop :: List.replicate 5 (.run 1 {})

/-- **C104** fails: the thread of a channel reads a changed configuration file, checks that the logger runs, and comes to the lock
when `StopLogger` has just taken it.  `StopLogger` waits for the end of this thread, which waits for the lock: whatever happens
then, `StopLogger` never returns and the logger is never stopped. -/
theorem C104_hang_counterexample :
    (Api.run {} hotStart).state = .running ∧ (Api.run {} hotStart).lock = none ∧
    (Api.run {} (hotStart ++ hotChanged ++ hotStop)).null = false ∧
    ∀ es, (Api.run {} (hotStart ++ hotChanged ++ hotStop ++ es)).state = .closing ∧
      (Api.run {} (hotStart ++ hotChanged ++ hotStop ++ es)).pc 1 ≠ .idle := by
  refine ⟨by kernel_rfl, by kernel_rfl, by kernel_rfl, fun es => ?_⟩
  have h : Doomed (Api.run {} (hotStart ++ hotChanged ++ hotStop)) 1 0 := by
    have h1 : Api.run {} (hotStart ++ hotChanged ++ hotStop) =
        runT (Api.run {} (hotStart ++ hotChanged ++ (.call 1 .stop :: List.replicate 4 (.run 1 {})))) 1 {} := by
      unfold hotStop Api.run
      rw [show List.replicate 5 (Api.Ev.run 1 {}) = List.replicate 4 (Api.Ev.run 1 {}) ++ [.run 1 {}] from rfl,
        ← List.cons_append, ← List.append_assoc, List.foldl_append]
      rfl
    rw [h1]
    exact doomed_mark (Api.inv _) {} (by kernel_rfl) (by kernel_rfl)
  have h2 : Api.run {} (hotStart ++ hotChanged ++ hotStop ++ es) = Api.run (Api.run {} (hotStart ++ hotChanged ++ hotStop)) es := by
    unfold Api.run
    rw [List.foldl_append]
  rw [h2]
  exact (h.run es).closing

/-- A schedule with given first events, fair to everyone thereafter. -/
def apiRobin (es : List Api.Ev) (n : Nat) : Api.Ev :=
  match es[n]? with
  | some e => e
  | none => if n % 2 = 0 then .run (n / 2 - 2 ^ (n / 2).log2) {} else .work (n / 2 - 2 ^ (n / 2).log2) {}

theorem apiRobin_late (es : List Api.Ev) {n : Nat} (h : es.length ≤ n) :
    apiRobin es n = if n % 2 = 0 then .run (n / 2 - 2 ^ (n / 2).log2) {} else .work (n / 2 - 2 ^ (n / 2).log2) {} := by
  unfold apiRobin
  rw [List.getElem?_eq_none h]

theorem log2_pow_add {i k : Nat} (h : i < 2 ^ k) : (2 ^ k + i).log2 = k := by
  have hp : 0 < 2 ^ k := Nat.two_pow_pos k
  have h1 : k ≤ (2 ^ k + i).log2 := (Nat.le_log2 (by omega)).2 (by omega)
  have h2 : (2 ^ k + i).log2 < k + 1 := (Nat.log2_lt (by omega)).2 (by rw [Nat.pow_succ]; omega)
  omega

theorem apiRobin_fair (es : List Api.Ev) : ApiFair (apiRobin es) ∧ Drained (apiRobin es) := by
  have pick : ∀ i n, ∃ m, n ≤ m ∧ es.length ≤ m ∧ m - 2 ^ m.log2 = i := by
    intro i n
    have hk : i + n + es.length < 2 ^ (i + n + es.length) := Nat.lt_two_pow_self
    refine ⟨2 ^ (i + n + es.length) + i, by omega, by omega, ?_⟩
    rw [log2_pow_add (by omega)]
    omega
  refine ⟨⟨fun t n _ => ?_, fun i n _ _ => ?_⟩, ⟨es.length, fun m i e hm he => ?_⟩⟩
  · obtain ⟨m, h1, h2, h3⟩ := pick t n
    refine ⟨2 * m, {}, by omega, ?_⟩
    rw [apiRobin_late es (by omega), if_pos (by omega), show 2 * m / 2 = m by omega, h3]
  · obtain ⟨m, h1, h2, h3⟩ := pick i n
    refine ⟨2 * m + 1, {}, by omega, ?_⟩
    rw [apiRobin_late es (by omega), if_neg (by omega), show (2 * m + 1) / 2 = m by omega, h3]
  · rw [apiRobin_late es hm] at he
    split at he
    · cases he
    · injection he with _ he
      rw [← he]

/-- The hypotheses can be met, with hot update and a file that changes: the thread of the channel gets the lock first. -/
example : ∃ σ n, ApiFair σ ∧ Drained σ ∧ (apiAt σ n).pc 1 = .spMark ∧ σ n = .run 1 {} ∧
    ∀ i, (apiAt σ n).worker i ≠ .hot .lock := by
  refine ⟨apiRobin (hotStart ++ hotChanged ++ List.replicate 4 (.work 0 { parsed := some true }) ++ hotStop), 35,
    (apiRobin_fair _).1, (apiRobin_fair _).2, by kernel_rfl, by kernel_rfl, fun i => ?_⟩
  cases i with
  | zero =>
    have : (apiAt (apiRobin (hotStart ++ hotChanged ++ List.replicate 4 (.work 0 { parsed := some true }) ++ hotStop)) 35).worker 0
      = .check := by kernel_rfl
    rw [this]; nofun
  | succ i =>
    have : (apiAt (apiRobin (hotStart ++ hotChanged ++ List.replicate 4 (.work 0 { parsed := some true }) ++ hotStop)) 35).worker (i + 1)
      = .none := by kernel_rfl
    rw [this]; nofun

end FNLog
