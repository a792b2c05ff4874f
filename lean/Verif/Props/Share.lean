import Verif.Proof.Share
import Verif.Proof.KernelRfl
import Verif.Props.Recover
import Verif.Props.Late

/-!
# Property theorem C115: two processes with the same `shm_key`
-/

namespace FNLog
open Spec Api

/-! ## Processes that take turns -/

/-- **C115**, for processes that take turns: each does something only while the other has stopped its logger and is outside of it.  In
each of them, at all times: no thread is created for a channel that still has one; while its logger runs every channel is in the state
RUNNING and every async channel has a thread that has not ended; when it is stopped it has no threads. -/
theorem C115_turns_partial {es : List (Bool × LEv)} (h : Turns es) (p : Bool) :
    (trun (fun _ => {}) es p).api.terminate = false ∧
    ((trun (fun _ => {}) es p).api.state = .running → ∀ i, i < (trun (fun _ => {}) es p).api.size →
      (trun (fun _ => {}) es p).api.chan i = .running ∧ ((trun (fun _ => {}) es p).api.async i = true →
        (trun (fun _ => {}) es p).api.worker i ≠ .none ∧ (trun (fun _ => {}) es p).api.worker i ≠ .ended)) ∧
    ((trun (fun _ => {}) es p).api.state = .uninit → ∀ i, (trun (fun _ => {}) es p).api.worker i = .none) := by
  obtain ⟨q, hq⟩ := turns h
  generalize trun (fun _ => {}) es = s at hq
  by_cases hp : p = q
  · subst hp
    obtain ⟨d, hf⟩ := hq.fit
    obtain ⟨h1, h2, h3⟩ := hf.inv.threads
    exact ⟨h1, h2, fun hs i => (h3 hs i).2⟩
  · have : p = !q := by cases p <;> cases q <;> first | rfl | exact absurd rfl hp
    subst this
    refine ⟨hq.away.term, fun hs => ?_, fun _ => hq.away.worker⟩
    rw [hq.away.rests.1] at hs
    cases hs

/-- `n` steps of thread 0 of process `p` inside of a call. -/
def shareSteps (p : Bool) (n : Nat) : List (Bool × LEv) := (lateSteps 0 n).map (p, ·)

/-- Process `p` starts its logger, with one async channel; the thread of the channel has come to `HotUpdateLogger`. -/
def shareStart (p : Bool) : List (Bool × LEv) :=
  (p, .api (.call 0 (.loadStart (some ⟨1, fun _ => true, false, true⟩)))) :: shareSteps p 14 ++
  [(p, .api (.work 0 {})), (p, .api (.work 0 {}))] ++ shareSteps p 7

/-- Process `p` stops its logger. -/
def shareStop (p : Bool) : List (Bool × LEv) :=
  (p, .api (.call 0 .stop)) :: shareSteps p 8 ++ List.replicate 3 (p, .api (.work 0 {})) ++ shareSteps p 5

/-- Process `p` loads a configuration with one async channel. -/
def shareLoad (p : Bool) : List (Bool × LEv) :=
  (p, .api (.call 0 (.init (some ⟨1, fun _ => true, false, true⟩)))) :: shareSteps p 5

/-- One process after the other, the first has been stopped: they take turns. -/
theorem turns_phases {es1 es2 : List (Bool × LEv)} (h1 : ∀ x ∈ es1, x.1 = false ∧ ∃ e, x.2 = .api e)
    (h2 : ∀ x ∈ es2, x.1 = true ∧ ∃ e, x.2 = .api e) (hr : Rests (trun (fun _ => {}) es1 false)) : Turns (es1 ++ es2) := by
  have log : ∀ (es : List (Bool × LEv)) (s : Two), (∀ x ∈ es, ∃ e, x.2 = .api e) → (∀ p t, (s p).log t = .idle) →
      ∀ p t, (trun s es p).log t = .idle := by
    intro es
    induction es with
    | nil => exact fun s _ h => h
    | cons x es ih =>
      intro s hx h
      refine ih _ (fun y hy => hx y (List.mem_cons_of_mem _ hy)) fun p t => ?_
      obtain ⟨q, e⟩ := x
      obtain ⟨e', rfl⟩ := hx (q, e) (List.mem_cons_self ..)
      have k : ∀ t, (lstep (s q) (.api e')).log t = .idle := by
        intro t
        cases e' <;> simp only [lstep] <;> first | exact h q t | (split <;> exact h q t)
      unfold tstep
      by_cases hp : p = q
      · rw [if_pos hp]; exact k t
      · rw [if_neg hp]; unfold seen; split <;> exact h p t
  have quiet : ∀ (es : List (Bool × LEv)) (s : Two) (p : Bool), (∀ x ∈ es, x.1 = !p) → Rests (s p) → Rests (trun s es p) := by
    intro es
    induction es with
    | nil => exact fun s _ _ h => h
    | cons x es ih =>
      intro s p hx h
      refine ih _ _ (fun y hy => hx y (List.mem_cons_of_mem _ hy)) ?_
      obtain ⟨q, e⟩ := x
      have hq : q = !p := hx (q, e) (List.mem_cons_self ..)
      unfold tstep
      rw [if_neg (by rw [hq]; exact fun k => not_ne p k.symm)]
      unfold seen
      split <;> exact h
  have rest0 : ∀ p, Rests ((fun _ => {} : Two) p) := fun _ => ⟨rfl, fun _ => rfl, fun _ => rfl⟩
  intro a p e b hab
  have hmem : ∀ x ∈ a ++ (p, e) :: b, ∃ e, x.2 = .api e := fun x hx => by
    rw [← hab] at hx
    rcases List.mem_append.1 hx with k | k
    · exact (h1 x k).2
    · exact (h2 x k).2
  refine ⟨?_, ?_, ?_⟩
  · rcases List.append_eq_append_iff.1 hab with ⟨c, rfl, hc⟩ | ⟨c, hc, hb⟩
    · have hp : p = true := (h2 (p, e) (by rw [hc]; simp)).1
      subst hp
      rw [trun_append]
      refine quiet c _ false (fun x hx => ?_) hr
      exact (h2 x (by rw [hc]; exact List.mem_append_left _ hx)).1
    · cases c with
      | nil =>
        have hp : p = true := (h2 (p, e) (by rw [← List.nil_append es2, ← hb]; simp)).1
        subst hp
        rw [List.append_nil] at hc
        rw [← hc]
        exact hr
      | cons y c =>
        have : y = (p, e) := (List.cons.inj hb).1.symm
        subst this
        have hp : p = false := (h1 (p, e) (by rw [hc]; simp)).1
        subst hp
        refine quiet a _ true (fun x hx => ?_) (rest0 true)
        exact (h1 x (by rw [hc]; exact List.mem_append_left _ hx)).1
  · rintro ⟨t, ht⟩
    exact absurd (log a _ (fun x hx => hmem x (List.mem_append_left _ hx)) (fun _ _ => rfl) p t) ht
  · intro t he
    obtain ⟨e', hk⟩ := hmem (p, e) (by simp)
    rw [show e = _ from he] at hk
    cases hk

theorem share_api (p : Bool) : (∀ x ∈ shareStart p, x.1 = p ∧ ∃ e, x.2 = .api e) ∧ (∀ x ∈ shareStop p, x.1 = p ∧ ∃ e, x.2 = .api e) := by
  have st : ∀ n, ∀ x ∈ shareSteps p n, x.1 = p ∧ ∃ e, x.2 = .api e := by
    intro n x hx
    obtain ⟨e, he, rfl⟩ := List.mem_map.1 hx
    exact ⟨rfl, _, (List.mem_replicate.1 he).2⟩
  constructor <;> intro x hx
  · unfold shareStart at hx
    simp only [List.mem_append, List.mem_cons, List.not_mem_nil, or_false] at hx
    rcases hx with ((rfl | k) | rfl | rfl) | k
    · exact ⟨rfl, _, rfl⟩
    · exact st _ x k
    · exact ⟨rfl, _, rfl⟩
    · exact ⟨rfl, _, rfl⟩
    · exact st _ x k
  · unfold shareStop at hx
    simp only [List.mem_append, List.mem_cons] at hx
    rcases hx with ((rfl | k) | k) | k
    · exact ⟨rfl, _, rfl⟩
    · exact st _ x k
    · rw [(List.mem_replicate.1 k).2]; exact ⟨rfl, _, rfl⟩
    · exact st _ x k

/-- The hypothesis can be met: the first process starts and stops its logger, then the second starts its own, which runs. -/
example : ∃ es, Turns es ∧ (trun (fun _ => {}) es false).api.done = [.loaded 0, .started 0, .stopped 0] ∧
    (trun (fun _ => {}) es true).api.state = .running ∧ (trun (fun _ => {}) es true).api.size = 1 := by
  refine ⟨(shareStart false ++ shareStop false) ++ shareStart true, turns_phases ?_ ?_ ⟨by kernel_rfl, fun t => ?_, fun t => ?_⟩,
    by kernel_rfl, by kernel_rfl, by kernel_rfl⟩
  · intro x hx
    rcases List.mem_append.1 hx with k | k
    · exact (share_api false).1 x k
    · exact (share_api false).2 x k
  · exact (share_api true).1
  · have k0 : (trun (fun _ => {}) (shareStart false ++ shareStop false) false).api.pc 0 = .idle := by kernel_rfl
    have k1 : ∀ t, (trun (fun _ => {}) (shareStart false ++ shareStop false) false).api.pc (t + 1) = .idle := fun t => by kernel_rfl
    cases t with
    | zero => exact k0
    | succ t => exact k1 t
  · kernel_rfl

/-! ## Processes that do not -/

/-- The events in which the second process only loads its configuration while the logger of the first one runs; then the thread of the
channel in the first process makes three steps. -/
def shareLose : List (Bool × LEv) := shareStart false ++ shareLoad true ++ List.replicate 3 (false, .api (.work 0 {}))

/-- **C115** fails: the second process only loads its configuration.  The thread of the channel in the first process ends, though no
function was called there after the start.  The logger of the first process stays in the state RUNNING, and from then on, as long as
neither process makes a call of the life cycle, none of its statements is let in. -/
theorem C115_load_counterexample :
    (trun (fun _ => {}) (shareStart false)  false).api.chan 0 = .running ∧
    (trun (fun _ => {}) shareLose false).api.done = [.loaded 0, .started 0] ∧
    (trun (fun _ => {}) shareLose true).api.done = [.loaded 0] ∧
    (trun (fun _ => {}) shareLose false).api.worker 0 = .ended ∧
    ∀ es, (∀ x ∈ es, NoCall x.2) → (trun (fun _ => {}) (shareLose ++ es) false).api.state = .running ∧
      ∀ t, Outer ((trun (fun _ => {}) (shareLose ++ es) false).log t) := by
  refine ⟨by kernel_rfl, by kernel_rfl, by kernel_rfl, by kernel_rfl, fun es hes => ?_⟩
  have h : Lost (trun (fun _ => {}) shareLose) := by
    have c0 : (trun (fun _ => {}) shareLose false).api.chan 0 = .finish := by kernel_rfl
    have c1 : ∀ i, (trun (fun _ => {}) shareLose false).api.chan (i + 1) = .null := fun i => by kernel_rfl
    have d0 : (trun (fun _ => {}) shareLose true).api.chan 0 = .finish := by kernel_rfl
    have d1 : ∀ i, (trun (fun _ => {}) shareLose true).api.chan (i + 1) = .null := fun i => by kernel_rfl
    have w0 : (trun (fun _ => {}) shareLose false).api.worker 0 = .ended := by kernel_rfl
    have w1 : ∀ i, (trun (fun _ => {}) shareLose false).api.worker (i + 1) = .none := fun i => by kernel_rfl
    have hw : ∀ i, (trun (fun _ => {}) shareLose false).api.worker i = .none ∨ (trun (fun _ => {}) shareLose false).api.worker i = .ended := by
      intro i
      cases i with
      | zero => exact .inr w0
      | succ i => exact .inl (w1 i)
    have p0 : ∀ p, (trun (fun _ => {}) shareLose p).api.pc 0 = .idle := fun p => by cases p <;> kernel_rfl
    have p1 : ∀ t, (trun (fun _ => {}) shareLose false).api.pc (t + 1) = .idle := fun t => by kernel_rfl
    have p2 : ∀ t, (trun (fun _ => {}) shareLose true).api.pc (t + 1) = .idle := fun t => by kernel_rfl
    have l0 : ∀ t, (trun (fun _ => {}) shareLose false).log t = .idle := fun t => by kernel_rfl
    have l1 : ∀ t, (trun (fun _ => {}) shareLose true).log t = .idle := fun t => by kernel_rfl
    refine ⟨⟨by kernel_rfl, fun i => ?_, fun t => ?_, hw, fun t => ?_⟩, ⟨by kernel_rfl, ?_, fun t => ?_, fun i => ?_, fun t => ?_⟩,
      fun i => ?_, by kernel_rfl, hw⟩
    · cases i with
      | zero => rw [c0]; nofun
      | succ i => rw [c1]; nofun
    · cases t with
      | zero => exact p0 _
      | succ t => exact p1 t
    · rw [l0]; trivial
    · have : (trun (fun _ => {}) shareLose true).api.state = .uninit := by kernel_rfl
      rw [this]; nofun
    · cases t with
      | zero => exact p0 _
      | succ t => exact p2 t
    · kernel_rfl
    · rw [l1]; trivial
    · cases i with
      | zero => rw [d0]; nofun
      | succ i => rw [d1]; nofun
  rw [trun_append]
  have k := h.run hes
  exact ⟨k.state, k.one.log⟩

/-- The first process runs, the thread of its channel is in fn_channel.h 101; it calls `StopLogger`, which has told the thread to end. -/
def shareHalt : List (Bool × LEv) :=
  shareStart false ++ List.replicate 2 (false, .api (.work 0 {})) ++ (false, .api (.call 0 .stop)) :: shareSteps false 8

/-- Then the second process loads its configuration, and the thread makes two steps. -/
def shareJam : List (Bool × LEv) := shareHalt ++ shareLoad true ++ List.replicate 2 (false, .api (.work 0 {}))

/-- **C115** fails: the second process loads its configuration, no more, while `StopLogger` of the first one waits for a thread.
`StopLogger` never returns.  Without that it does. -/
theorem C115_hang_counterexample :
    (trun (fun _ => {}) shareHalt false).api.pc 0 = .scJoin .stop 0 ∧
    (trun (fun _ => {}) (shareHalt ++ List.replicate 4 (false, .api (.work 0 {})) ++ shareSteps false 5) false).api.pc 0 = .idle ∧
    ∀ es, Leaves true es →
      (trun (fun _ => {}) (shareJam ++ es) false).api.state = .closing ∧
      (trun (fun _ => {}) (shareJam ++ es) false).api.pc 0 = .scJoin .stop 0 := by
  refine ⟨by kernel_rfl, by kernel_rfl, fun es hes => ?_⟩
  rw [trun_append]
  have h : Jam (trun (fun _ => {}) shareJam) 0 0 := by
    have p0 : (trun (fun _ => {}) shareJam false).api.pc 0 = .scJoin .stop 0 := by kernel_rfl
    have p1 : ∀ t, (trun (fun _ => {}) shareJam false).api.pc (t + 1) = .idle := fun t => by kernel_rfl
    have w0 : (trun (fun _ => {}) shareJam false).api.worker 0 = .hot .enter := by kernel_rfl
    have w1 : ∀ i, (trun (fun _ => {}) shareJam false).api.worker (i + 1) = .none := fun t => by kernel_rfl
    have lk : (trun (fun _ => {}) shareJam false).api.lock = some (.api 0, 1) := by kernel_rfl
    have q0 : (trun (fun _ => {}) shareJam true).api.pc 0 = .idle := by kernel_rfl
    have q1 : ∀ t, (trun (fun _ => {}) shareJam true).api.pc (t + 1) = .idle := fun t => by kernel_rfl
    have l1 : ∀ t, (trun (fun _ => {}) shareJam true).log t = .idle := fun t => by kernel_rfl
    have st : (trun (fun _ => {}) shareJam true).api.state = .uninit := by kernel_rfl
    have dt : (trun (fun _ => {}) shareJam false).dtor = .no := by kernel_rfl
    have s1 : (trun (fun _ => {}) shareJam false).api.state = .closing := by kernel_rfl
    have z1 : (trun (fun _ => {}) shareJam false).api.size = 1 := by kernel_rfl
    have a1 : ∀ i, (trun (fun _ => {}) shareJam false).api.async i = true := fun i => by kernel_rfl
    have n1 : (trun (fun _ => {}) shareJam true).api.size = 1 := by kernel_rfl
    have n2 : (trun (fun _ => {}) shareJam true).api.async = (trun (fun _ => {}) shareJam false).api.async :=
      funext fun i => by kernel_rfl
    have c1 : (trun (fun _ => {}) shareJam true).api.chan = (trun (fun _ => {}) shareJam false).api.chan :=
      funext fun i => by kernel_rfl
    have c0 : (trun (fun _ => {}) shareJam false).api.chan 0 = .running := by kernel_rfl
    have d2 : (trun (fun _ => {}) shareJam true).dtor = .no := by kernel_rfl
    have v1 : ∀ i, (trun (fun _ => {}) shareJam true).api.worker i = .none := fun i => by kernel_rfl
    have m1 : (trun (fun _ => {}) shareJam false).api.loaded = true := by kernel_rfl
    have m2 : (trun (fun _ => {}) shareJam true).api.loaded = true := by kernel_rfl
    refine ⟨⟨⟨fun w => ?_, fun j hj => ?_, fun t ht => ?_, fun ht => ?_⟩, p0, c0, by rw [w0]; trivial, by rw [dt]; nofun⟩,
      ⟨d2, by rw [st]; nofun, fun t => ?_, v1, fun t => ?_⟩, m1, m2, n1.trans z1.symm, n2, c1⟩
    · rw [lk]
      cases w with
      | api t =>
        cases t with
        | zero => show 1 = ((trun (fun _ => {}) shareJam false).api.pc 0).depth; rw [p0]; rfl
        | succ t =>
          show holds _ _ = ((trun (fun _ => {}) shareJam false).api.pc (t + 1)).depth
          rw [p1]
          have : Who.api 0 ≠ Who.api (t + 1) := fun k => by have := Who.api.inj k; omega
          exact if_neg (c := Who.api 0 = Who.api (t + 1)) (t := 1) this
      | worker i =>
        show holds _ _ = ((trun (fun _ => {}) shareJam false).api.worker i).depth
        cases i with
        | zero => rw [w0]; rfl
        | succ i => rw [w1]; rfl
    · cases j with
      | zero => exact ⟨by rw [z1]; exact Nat.one_pos, a1 0⟩
      | succ j => exact absurd (w1 j) hj
    · cases t with
      | zero => rw [p0]; exact ⟨s1, fun j hj => absurd hj (Nat.not_lt_zero j)⟩
      | succ t => rw [p1] at ht; cases ht
    · have := ht 0
      rw [p0] at this
      cases this
    · cases t with
      | zero => exact q0
      | succ t => exact q1 t
    · rw [l1]; trivial
  exact ⟨(h.run hes).one.closing, (h.run hes).one.pc⟩

/-! ## The queue -/

/-- What `LoadSharedMemory` does to the image of a queue in use is what `Ring.attach` says (as C17 for a crash). -/
theorem C115_attach (c : Ring.Cfg Char) (hL : 0 < c.L) (N fuel : Nat) (hN : 20 ≤ N) (es : List (Ring.Ev Char))
    (ht : Ring.Timely c (Ring.init c) es) (m : RingMem) (hm : Repr c N (Ring.run c (Ring.init c) es) m) (hf : c.L ≤ fuel) :
    ∃ m', recoverRing c.L N fuel m = .val (.ok, m') ∧
      Repr c N (Ring.attach c (recoveredLine N) (Ring.run c (Ring.init c) es)) m' := by
  obtain ⟨m', h1, h2, _⟩ := C18_image_recovered_partial c hL N hN es ht m hm fuel hf
  exact ⟨m', h1, h2.write, h2.hold, h2.read, h2.proc, h2.mark, h2.len, h2.size, h2.text⟩

/-- One async channel with a queue of four slots. -/
def shareQueue : Ring.Cfg Char := ⟨4, true, '\n'⟩

/-- The thread of the channel has set RUNNING, and thread 1 of the same process logs a text and has made `n` steps. -/
def shareWrites (text : List Char) (n : Nat) : List (Ring.Ev Char) :=
  List.replicate 5 (.run 0) ++ [.started, .call 1 text] ++ List.replicate n (.run 1)

/-- **C115** fails: another process loads its configuration while a statement writes its text.  A line is output that nobody has
written: the beginning of the text with the mark of a crash, though nothing has crashed.  The statement goes on and returns as if its
line had been accepted; it is not output. -/
theorem C115_torn_counterexample :
    let s := Ring.run shareQueue (Ring.attach shareQueue (recoveredLine 1000)
      (Ring.run shareQueue (Ring.init shareQueue) (shareWrites "abc".toList 9)))
      (List.replicate 18 (.run 0) ++ List.replicate 8 (.run 1) ++ List.replicate 4 (.run 0))
    s.acquired = [(1, "abc\n".toList)] ∧ s.out = [(0, "ab!!!core recover!!!\n".toList)] ∧
    s.pc 1 = .idle ∧ s.lost = [] ∧ s.pc 0 = .cLoad ∧ s.P = s.W ∧ s.W = s.H := by
  refine ⟨?_, ?_, ?_, ?_, ?_, ?_, ?_⟩ <;> kernel_rfl

/-- **C115** fails: another process loads its configuration while a line is being output.  The line is output twice, by the same
thread. -/
theorem C115_twice_counterexample :
    let s := Ring.attach shareQueue (recoveredLine 1000)
      (Ring.run shareQueue (Ring.init shareQueue) (shareWrites "a".toList 24 ++ List.replicate 4 (.run 0)))
    s.pc 1 = .idle ∧ s.pc 0 = .cClear 0 ∧ s.acquired = [(1, "a\n".toList)] ∧ s.out = [(0, "a\n".toList)] ∧
    (Ring.run shareQueue s (List.replicate 9 (.run 0))).out = [(0, "a\n".toList), (0, "a\n".toList)] := by
  refine ⟨?_, ?_, ?_, ?_, ?_⟩ <;> kernel_rfl

end FNLog
