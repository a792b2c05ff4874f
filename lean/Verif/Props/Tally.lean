import Verif.Proof.TallyMax
import Verif.Props.Ring
import Verif.Spec.Tally

/-!
# Properties C78, C79: bytes per priority, longest queue, longest delay

`Tally.run c f (Tally.init c) es` is the state of a channel and its statistics after the schedule `es`;
`f` says which priority, length and time a record with a given content has.
-/

namespace FNLog
open Ring Spec

variable {α : Type}

/-- The state after a schedule. -/
abbrev tafter (c : Cfg α) (f : Tally.Reads α) (es : List (Tally.TEv α)) : Tally.TSt α :=
  Tally.run c f (Tally.init c) es

theorem tafter_snoc (c : Cfg α) (f : Tally.Reads α) (es : List (Tally.TEv α)) (e : Tally.TEv α) :
    tafter c f (es ++ [e]) = Tally.step c f (tafter c f es) e := by simp [tafter, Tally.run]

theorem tinv_after {c : Cfg α} {f : Tally.Reads α} (hL : 0 < c.L) {es : List (Tally.TEv α)}
    (ht : Tally.Timely c f (Tally.init c) es) : Tally.TInv c f (tafter c f es) :=
  (Tally.TInv.init c f hL).run ht

theorem minv_after {c : Cfg α} {f : Tally.Reads α} (hL : 0 < c.L) (hA : c.async = true)
    {es : List (Tally.TEv α)} (ht : Tally.Timely c f (Tally.init c) es) : Tally.MInv c (tafter c f es) :=
  (Tally.MInv.init c hL hA).run hA ht

theorem bytesOf_eq_lengthOf (f : Tally.Reads α) (p : Nat) (l : List (List α)) :
    Tally.bytesOf f p l = lengthOf f.prio f.len p l := by
  induction l with
  | nil => rfl
  | cons a l ih =>
    have e : Tally.bytesOf f p (a :: l) = (if f.prio a = p then f.len a else 0) + Tally.bytesOf f p l := by
      unfold Tally.bytesOf
      by_cases h : f.prio a = p <;> simp [h]
    rw [e, ih]; rfl

theorem base_tally (c : Cfg α) (f : Tally.Reads α) (es : List (Tally.TEv α)) : (tafter c f es).s.base = 0 := by
  have step : ∀ (x : Tally.TSt α) e, (Tally.step c f x e).s.base = x.s.base := by
    intro x e
    unfold Tally.step
    split
    · rename_i t _
      unfold Tally.stepT
      split
      · exact base_run c [.run t] x.s
      all_goals (try dsimp only); (try split) <;> rfl
    · exact base_run c [e.ev] x.s
  have : ∀ (es : List (Tally.TEv α)) x, (Tally.run c f x es).s.base = x.s.base := by
    intro es
    induction es with
    | nil => intro x; rfl
    | cons e es ih => intro x; exact (ih _).trans (step x e)
  exact this es _

/-- A priority, length and time for lines of numbers: the first number is the priority, the second the
time. -/
def demoReads : Tally.Reads Nat := ⟨fun l => l.headD 0, List.length, fun l => (l.getD 1 0 : Nat)⟩

/-- `k` steps of thread `t` at the given time. -/
def tsteps (t k : Nat) (now : Int := 0) : List (Tally.TEv Nat) := List.replicate k ⟨.run t, now⟩

def tcall (t : Nat) (l : List Nat) : Tally.TEv Nat := ⟨.call t l, 0⟩

/-- Three threads log, 2 overtakes 1; the worker outputs the first two lines at time 12 and the third
at time 9. -/
def demoTally : List (Tally.TEv Nat) :=
  tsteps 0 5 ++ [⟨.started, 0⟩, tcall 1 [3, 5]] ++ tsteps 1 8 ++ [tcall 2 [1, 6, 6]] ++ tsteps 2 16 ++
    tsteps 1 30 ++ [tcall 3 [3]] ++ tsteps 3 30 ++ tsteps 2 10 ++ tsteps 0 46 12 ++ tsteps 0 46 9

/-! ## C78 -/

/-- C78: when no log statement is under way and none was refused at the end for a stopping channel, the
counter of each priority is the total length of the lines logged with it - for any number of threads,
sync or async, provided no thread is held up for a full lap of the queue, neither so that a compare-and-swap succeeds
after it nor between marking its record ready (499) and reading it again (500). -/
theorem C78_priority_bytes_partial (c : Cfg α) (hL : 0 < c.L) (f : Tally.Reads α) (es : List (Tally.TEv α))
    (ht : Tally.Timely c f (Tally.init c) es) (hp : Tally.Prompt c f (Tally.init c) es)
    (hidle : ∀ t, ((tafter c f es).s.pc t = .idle ∧ (tafter c f es).sub t = .none) ∨
      (c.async = true ∧ t = worker))
    (hlost : (tafter c f es).s.lost = []) (p : Nat) :
    (tafter c f es).tally p = lengthOf f.prio f.len p ((tafter c f es).s.acquired.map Prod.snd) := by
  have hi := tinv_after hL ht
  have he : Tally.Exact (tafter c f es) := Tally.Exact.run (Tally.TInv.init c f hL) (by intro e h; cases h) ht hp
  rw [← bytesOf_eq_lengthOf]
  have hw : c.async = true → pown ((tafter c f es).s.pc worker) = none := by
    intro hA
    have := (minv_after hL hA ht).ord.pcw
    cases hpc : (tafter c f es).s.pc worker <;> rw [hpc] at this <;> simp [OrdPC] at this <;> rfl
  refine Tally.sum_exact hi he hlost ?_ ?_ p
  · intro t
    rcases hidle t with h | ⟨hA, rfl⟩
    · rw [h.1]; rfl
    · exact hw hA
  · intro t k hk
    rcases hidle t with h | ⟨hA, rfl⟩
    · rw [h.2] at hk; cases hk
    · exact (minv_after hL hA ht).np k hk

example : Tally.Timely demoAsync demoReads (Tally.init demoAsync) demoTally ∧
    Tally.Prompt demoAsync demoReads (Tally.init demoAsync) demoTally ∧
    (tafter demoAsync demoReads demoTally).s.acquired.map Prod.snd = [[3, 5, 0], [1, 6, 6, 0], [3, 0]] ∧
    (tafter demoAsync demoReads demoTally).s.lost = [] ∧
    (∀ t ∈ [1, 2, 3], (tafter demoAsync demoReads demoTally).s.pc t = .idle ∧
      (tafter demoAsync demoReads demoTally).sub t = .none) ∧
    (tafter demoAsync demoReads demoTally).tally 1 = 4 ∧
    (tafter demoAsync demoReads demoTally).tally 3 = 5 := by decide +kernel

/-- A queue of 11 slots. Thread 1 marks its record of priority 3 ready and is held up; thread 2 logs 11
lines of priority 1, the last into the slot of the first record; then thread 1 goes on. -/
def lateSched : List (Tally.TEv Nat) :=
  tsteps 0 5 ++ [⟨.started, 0⟩, tcall 1 [3]] ++ tsteps 1 12 ++
    (List.replicate 11 (tcall 2 [1, 1] :: (tsteps 2 30 ++ tsteps 0 30))).flatten ++ tsteps 0 30 ++
    tsteps 1 30

/-- C78 fails when a log statement is held up between 499 and 500: all lines are logged and output
unaltered, one of them with priority 3, but nothing is counted for priority 3 and too much for
priority 1. -/
theorem C78_counterexample :
    let c : Cfg Nat := ⟨11, true, 0⟩
    let x := tafter c demoReads lateSched
    Tally.Timely c demoReads (Tally.init c) lateSched ∧ x.s.lost = [] ∧
    x.s.acquired.map Prod.snd = [3, 0] :: List.replicate 11 [1, 1, 0] ∧
    x.s.out.map Prod.snd = x.s.acquired.map Prod.snd ∧
    lengthOf demoReads.prio demoReads.len 3 (x.s.acquired.map Prod.snd) = 2 ∧ x.tally 3 = 0 ∧
    lengthOf demoReads.prio demoReads.len 1 (x.s.acquired.map Prod.snd) = 33 ∧ x.tally 1 = 36 := by
  decide +kernel

/-! ## C79 -/

/-- C79: on an async channel, the queue length computed after a line is the number of lines published
and not output before that line; it is between 1 and `BUFFER_LEN - 1`. -/
theorem C79_queue_length (c : Cfg α) (hL : 0 < c.L) (hA : c.async = true) (f : Tally.Reads α)
    (es : List (Tally.TEv α)) (ht : Tally.Timely c f (Tally.init c) es) (k : Nat) (now : Int)
    (hk : (tafter c f es).sub worker = .qLoad k) :
    ∃ n, (tafter c f (es ++ [⟨.run worker, now⟩])).sizes = (tafter c f es).sizes ++ [n] ∧
      n + ((tafter c f es).s.out.length - 1) = (tafter c f es).s.W ∧ 1 ≤ n ∧ n ≤ c.L - 1 := by
  have hm := minv_after hL hA ht
  obtain ⟨h1, h2, h3⟩ := hm.size hk
  obtain ⟨h4, h5⟩ := hm.pos k (by rw [hk]; rfl)
  have ho := congrArg List.length hm.ord.out
  have hpw := hm.pcw (by rw [hk]; rfl)
  have hn : outN (tafter c f es).s = (tafter c f es).s.P := by unfold outN; rw [hpw]
  rw [List.length_map, List.length_range', base_tally, hn, Nat.sub_zero, h5] at ho
  refine ⟨(tafter c f es).s.W - k, ?_, ?_, h2, h3⟩
  · rw [tafter_snoc]
    show (Tally.stepT c f (tafter c f es) worker now).sizes = _
    unfold Tally.stepT
    rw [hk]
    dsimp only [Tally.TSt.at]
    rw [h1]
  · omega

/-- C79: on an async channel CHANNEL_LOG_MAX_PROC_QUE_SIZE is the largest queue length computed so far,
when the worker is not just comparing them; and it never decreases. -/
theorem C79_queue_maximum (c : Cfg α) (hL : 0 < c.L) (hA : c.async = true) (f : Tally.Reads α)
    (es : List (Tally.TEv α)) (ht : Tally.Timely c f (Tally.init c) es) :
    ((tafter c f es).sub worker = .none →
      LargestOf 0 (tafter c f es).sizes (tafter c f es).maxQ) ∧
    ∀ e, (tafter c f es).maxQ ≤ (tafter c f (es ++ [e])).maxQ := by
  have hm := minv_after hL hA ht
  refine ⟨?_, ?_⟩
  · intro hs
    have hq := hm.q
    rw [hs] at hq
    have hq' : (tafter c f es).maxQ = Tally.maxN (tafter c f es).sizes := by
      rw [← hq]; simp [Tally.Sub.q]
    rw [hq']
    exact Tally.maxN_largest _
  · intro e
    rw [tafter_snoc]
    exact Tally.maxQ_mono hm e

/-- C79: the delay computed after a line on an async channel is the time minus 1 minus the time of that
line, the last one output. -/
theorem C79_delay (c : Cfg α) (hL : 0 < c.L) (hA : c.async = true) (f : Tally.Reads α)
    (es : List (Tally.TEv α)) (ht : Tally.Timely c f (Tally.init c) es) (k : Nat) (now : Int)
    (hk : (tafter c f es).sub worker = .dRead k) :
    ∃ l, ((tafter c f es).s.out.map Prod.snd).getLast? = some l ∧
      (tafter c f (es ++ [⟨.run worker, now⟩])).delays =
        (tafter c f es).delays ++ (if 0 < f.time l then [now - 1 - f.time l] else []) := by
  have hm := minv_after hL hA ht
  obtain ⟨h4, h5⟩ := hm.pos k (by rw [hk]; rfl)
  have hpw := hm.pcw (by rw [hk]; rfl)
  have hn : outN (tafter c f es).s = (tafter c f es).s.P := by unfold outN; rw [hpw]
  have ho := hm.ord.out
  rw [hn, base_tally, Nat.sub_zero, h5] at ho
  have hW := hm.inv.lePW
  refine ⟨(tafter c f es).s.cell (k % c.L), ?_, ?_⟩
  · have hlast : ((tafter c f es).s.out.map Prod.fst).getLast? = some k := by
      rw [ho, h4]; simp [List.range'_concat]
    rw [List.getLast?_map] at hlast ⊢
    cases hl : (tafter c f es).s.out.getLast? with
    | none => rw [hl] at hlast; cases hlast
    | some e =>
      rw [hl] at hlast
      simp only [Option.map_some, Option.some.injEq] at hlast ⊢
      have hv := hm.inv.outVal e (List.mem_of_getLast? hl)
      have hs := hm.inv.sealedW k (by omega) (by omega)
      rw [hlast, hs] at hv
      exact (Option.some.inj hv).symm
  · rw [tafter_snoc]
    show (Tally.stepT c f (tafter c f es) worker now).delays = _
    unfold Tally.stepT
    rw [hk]
    dsimp only [Tally.TSt.at]
    split
    · rfl
    · simp

/-- C79: on an async channel CHANNEL_LOG_MAX_DELAY_TIME_S is the longest delay so far, 0 if there was
none, and it never decreases. -/
theorem C79_delay_maximum (c : Cfg α) (hL : 0 < c.L) (hA : c.async = true) (f : Tally.Reads α)
    (es : List (Tally.TEv α)) (ht : Tally.Timely c f (Tally.init c) es) :
    ((tafter c f es).sub worker = .none →
      LargestOf 0 (tafter c f es).delays (tafter c f es).maxD) ∧
    ∀ e, (tafter c f es).maxD ≤ (tafter c f (es ++ [e])).maxD := by
  have hm := minv_after hL hA ht
  refine ⟨?_, ?_⟩
  · intro hs
    have hd := hm.d
    rw [hs] at hd
    have hd' : (tafter c f es).maxD = Tally.maxI (tafter c f es).delays := by
      rw [← hd]; have := hm.d0; simp only [Tally.Sub.d]; omega
    rw [hd']
    exact Tally.maxI_largest _
  · intro e
    rw [tafter_snoc]
    exact Tally.maxD_mono hm e

/-- Both kinds of state occur, and the maxima are not those of the last line. -/
example : Tally.Timely demoAsync demoReads (Tally.init demoAsync) demoTally ∧
    (tafter demoAsync demoReads (demoTally.take 129)).sub worker = .qLoad 1 ∧
    (tafter demoAsync demoReads (demoTally.take 131)).sub worker = .dRead 1 ∧
    (tafter demoAsync demoReads demoTally).sub worker = .none ∧
    (tafter demoAsync demoReads demoTally).sizes = [3, 2, 1] ∧
    (tafter demoAsync demoReads demoTally).maxQ = 3 ∧
    (tafter demoAsync demoReads demoTally).delays = [6, 5] ∧
    (tafter demoAsync demoReads demoTally).maxD = 6 := by decide +kernel

/-- Three threads log on a sync channel; 1 and 2 each claim a line and compare at the same time. -/
def clashSched : List (Tally.TEv Nat) :=
  [⟨.started, 0⟩, tcall 1 [3, 4]] ++ tsteps 1 23 ++ [tcall 2 [3, 4]] ++ tsteps 2 23 ++ [tcall 3 [3, 4]] ++
    tsteps 3 23 ++ tsteps 1 3 ++ tsteps 2 9 ++ tsteps 1 7 ++ tsteps 2 1 ++ tsteps 2 2 9 ++ tsteps 1 3 20 ++
    tsteps 2 40 9 ++ tsteps 3 50 9 ++ tsteps 1 40 9

/-- C79 fails on a sync channel: threads load, compare and store the maxima in separate steps, so a
smaller value can replace a larger one. Here all log statements have returned; a queue length of 3 and
a delay of 15 were seen, but the maxima are 2 and 4. -/
theorem C79_sync_counterexample :
    let x := tafter demoSync demoReads clashSched
    Tally.Timely demoSync demoReads (Tally.init demoSync) clashSched ∧
    (∀ t ∈ [1, 2, 3], x.s.pc t = .idle ∧ x.sub t = .none) ∧ x.s.out.length = 3 ∧
    3 ∈ x.sizes ∧ x.maxQ = 2 ∧ (15 : Int) ∈ x.delays ∧ x.maxD = 4 := by
  decide +kernel

end FNLog
