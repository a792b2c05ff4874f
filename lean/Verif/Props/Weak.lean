import Verif.Proof.WeakSolo
import Verif.Proof.WeakAlone
import Verif.Props.Ring

/-!
# Properties C74 - C77: the queue when loads may return old values

`Weak.run c (Weak.init c) es` is the state of a channel after a schedule `es` in which every load of an
index or a mark returns any value that the C++ memory model allows for the memory orders written in
fn_channel.h, and every test of the plain variable `channel_state_` gives any answer.
-/

namespace FNLog
open Ring Spec

variable {α : Type}

/-- The state after a schedule. -/
abbrev wafter (c : Cfg α) (es : List (Weak.WEv α)) : Weak.WSt α := Weak.run c (Weak.init c) es

theorem winv_after {c : Cfg α} (hL : 0 < c.L) {es : List (Weak.WEv α)} (ht : Weak.Timely c (Weak.init c) es) :
    Weak.WInv c (wafter c es) := (Weak.WInv.init c hL).run ht

theorem word_after {c : Cfg α} (hL : 0 < c.L) (hA : c.async = true) {es : List (Weak.WEv α)}
    (ht : Weak.Timely c (Weak.init c) es) : Weak.WOrd c (wafter c es) :=
  Weak.WOrd.run hA (Weak.WInv.init c hL) (Weak.WOrd.init hA) ht

/-- `k` steps of a thread; loads return the value number `n`, or the nearest that is allowed; the
channel is found running. -/
def wsteps (t k n : Nat) : List (Weak.WEv Nat) := List.replicate k (.run t n true)

/-- Threads 1 and 2 take slots 0 and 1 and write their texts; 2 marks its record ready, and finds the
first record not ready; then 1 marks its record and publishes both; the worker outputs them. -/
def demoWeak : List (Weak.WEv Nat) :=
  [.call 1 [7, 8]] ++ wsteps 1 12 0 ++ [.call 2 [9]] ++ wsteps 2 12 1000 ++ wsteps 2 4 0 ++
    wsteps 1 20 1000 ++ wsteps 0 40 1000

/-! ## C74 -/

/-- C74: with old values too, the lines output are lines of distinct log statements, complete and
unaltered; an async channel outputs them in order of acquisition without gaps; the statements of one
thread are acquired in program order; and at most `BUFFER_LEN - 1` slots are in use. -/
theorem C74_weak_safe (c : Cfg α) (hL : 0 < c.L) (es : List (Weak.WEv α))
    (ht : Weak.Timely c (Weak.init c) es) :
    EachAtMostOnce ((wafter c es).s.acquired.map Prod.snd) ((wafter c es).s.out.map Prod.snd) ∧
    (c.async = true →
      InOrderPrefix ((wafter c es).s.acquired.map Prod.snd) ((wafter c es).s.out.map Prod.snd)) ∧
    (∀ t, (linesOf t (wafter c es).s.acquired).Sublist
      ((linesOf t (wafter c es).s.calls).map (withEnd c.nl))) ∧
    (wafter c es).s.acquired.length - (wafter c es).s.R ≤ c.L - 1 := by
  have hi := winv_after hL ht
  refine ⟨EachAtMostOnce.of_inv hi.inv, ?_, ?_, ?_⟩
  · intro hA
    have ho := (word_after hL hA ht).ord.out
    have hb : (wafter c es).s.base = 0 := Weak.base_wrun c es (Weak.init c)
    rw [hb] at ho
    exact prefix_of_ord hi.inv ho
  · intro t
    have := (Weak.progOrd_run (es := es) (x := Weak.init c) (ProgOrd.init c)) t
    exact (List.sublist_append_left _ _).trans this
  · have := hi.inv.len; have := hi.inv.cap; omega

example : Weak.Timely demoAsync (Weak.init demoAsync) demoWeak ∧
    (wafter demoAsync demoWeak).s.out.map Prod.snd = [[7, 8, 0], [9, 0]] ∧
    (wafter demoAsync demoWeak).s.calls = [(1, [7, 8]), (2, [9])] := by decide +kernel

/-- Every schedule of the model of C06 - C17, in which all loads return the newest value, is among the
schedules of C74: it gives the same indices, program counters, calls, acquired lines and output. -/
theorem C74_includes_sequential (c : Cfg α) (hL : 0 < c.L) (es : List (Ev α)) (ht : Timely c (init c) es) :
    ∃ ws, Weak.Timely c (Weak.init c) ws ∧
      (wafter c ws).s.calls = (after c es).calls ∧ (wafter c ws).s.acquired = (after c es).acquired ∧
      (wafter c ws).s.out = (after c es).out ∧ (wafter c ws).s.pc = (after c es).pc ∧
      (wafter c ws).s.H = (after c es).H ∧ (wafter c ws).s.W = (after c es).W ∧
      (wafter c ws).s.P = (after c es).P ∧ (wafter c ws).s.R = (after c es).R := by
  obtain ⟨ws, h1, h2⟩ := Weak.sc_included es (Weak.init c) (init c) (Weak.WInv.init c hL) rfl ht
  obtain ⟨a1, a2, a3, a4, a5, a6, a7, a8⟩ := Weak.strip_inj h2
  exact ⟨ws, h1, a6, a7, a8, a5, a1, a2, a3, a4⟩

/-! ## C75 -/

/-- C75: any two accesses to the text of one record are ordered by the memory orders of fn_channel.h,
from InitLogData to the output (no data race); and whoever sets a mark knows the last change of it. -/
theorem C75_no_race (c : Cfg α) (hL : 0 < c.L) (es : List (Weak.WEv α))
    (ht : Weak.Timely c (Weak.init c) es) :
    (wafter c es).race = false ∧ (wafter c es).unordered = false :=
  (winv_after hL ht).clean

/-- The flags do get set: the same records written by two threads without any synchronisation. -/
example : ((Weak.init demoAsync).touch 1 0 |>.touch 2 0).race = true ∧
    ((Weak.init demoAsync).store 1 0 .hold |>.store 2 0 .hold).unordered = true := by decide

/-- Slot 0 is written, output and written again; seven accesses in all. -/
example : let c : Cfg Nat := ⟨2, true, 0⟩
    let es := [.call 1 [7]] ++ wsteps 1 30 9 ++ wsteps 0 60 9 ++ [.call 2 []] ++ wsteps 2 30 9 ++
      wsteps 0 60 9 ++ [.call 1 [5]] ++ wsteps 1 30 9 ++ wsteps 0 60 9
    Weak.Timely c (Weak.init c) es ∧ (wafter c es).acc 0 = 8 ∧
      (wafter c es).s.out.map Prod.snd = [[7, 0], [0], [5, 0]] := by decide +kernel

/-! ## C76 -/

/-- Two threads take slots 0 and 1.  1 marks its record ready, publishes it, and does not yet see the
mark of the second record.  2 marks its record ready, and sees neither that the first record is ready nor
that it is published. -/
def stuckSched : List (Weak.WEv Nat) :=
  [.call 1 [7]] ++ wsteps 1 11 0 ++ [.call 2 [9]] ++ wsteps 2 11 1000 ++
  wsteps 1 8 1000 ++ wsteps 1 1 1000 ++ wsteps 1 2 0 ++ wsteps 2 5 0

/-- C76 does not hold: both log statements have returned, both found the channel running throughout, and
the second record is not published: the worker outputs the first line only, no matter how long it
runs and how new the values are that it sees. -/
theorem C76_counterexample :
    Weak.Timely demoAsync (Weak.init demoAsync) stuckSched ∧
    (∀ t, t ≠ worker → (wafter demoAsync stuckSched).s.pc t = .idle) ∧
    (wafter demoAsync stuckSched).s.acquired = [(1, [7, 0]), (2, [9, 0])] ∧
    (wafter demoAsync stuckSched).s.W = 1 ∧
    (∀ ws : List (Weak.WEv Nat), (∀ e ∈ ws, ∃ n b, e = .run worker n b) →
      Weak.Timely demoAsync (wafter demoAsync stuckSched) ws →
      (wafter demoAsync (stuckSched ++ ws)).s.out.length ≤ 1) ∧
    (wafter demoAsync (stuckSched ++ wsteps 0 60 1000)).s.out.map Prod.snd = [[7, 0]] := by
  have ht : Weak.Timely demoAsync (Weak.init demoAsync) stuckSched := by decide +kernel
  have hi := winv_after (by decide) ht
  have hw := word_after (by decide) rfl ht
  have hW : (wafter demoAsync stuckSched).s.W = 1 := by decide +kernel
  refine ⟨ht, ?_, by decide +kernel, hW, ?_, by decide +kernel⟩
  · intro t htw
    by_cases h1 : t = 1
    · subst h1; decide +kernel
    · by_cases h2 : t = 2
      · subst h2; decide +kernel
      · exact Weak.pc_untouched demoAsync stuckSched (Weak.init demoAsync) t
          (by intro e he
              have : ∀ e ∈ stuckSched, e.tid = 1 ∨ e.tid = 2 := by decide +kernel
              rcases this e he with h | h <;> omega) |>.trans (by simp [Weak.init, init, htw])
  · intro ws hws htw
    have key : ∀ (ws : List (Weak.WEv Nat)) (x : Weak.WSt Nat), Weak.WInv demoAsync x →
        Weak.WOrd demoAsync x → x.s.W = 1 → (∀ e ∈ ws, ∃ n b, e = .run worker n b) →
        Weak.Timely demoAsync x ws → (Weak.run demoAsync x ws).s.out.length ≤ 1 := by
      intro ws
      induction ws with
      | nil =>
        intro x hi ho hW _ _
        show x.s.out.length ≤ 1
        have h1 := hi.inv.outMem
        have h2 := hi.inv.lePW
        have h3 := congrArg List.length ho.ord.out
        rw [List.length_map, List.length_range'] at h3
        have h4 : outN x.s ≤ x.s.P := by unfold outN; split <;> omega
        omega
      | cons e ws ih =>
        intro x hi ho hW hws ht
        obtain ⟨n, b, rfl⟩ := hws e (List.mem_cons_self ..)
        have hi' := hi.stepT (n := n) (b := b) ht.1
        obtain ⟨p, _, _, hW', _⟩ := Weak.worker_frame (rfl : demoAsync.async = true) ho n b
        exact ih _ hi' (ho.workerStep rfl hi hi') (hW'.trans hW)
          (fun e' he' => hws e' (List.mem_cons_of_mem _ he')) ht.2
    have := key ws _ hi hw hW hws htw
    rw [wafter, Weak.run, List.foldl_append]; exact this

/-- C76 for one logging thread (and the worker): when its log statements have returned and it found the
channel running throughout, every statement is acquired, in program order, and published. -/
theorem C76_one_thread_partial (c : Cfg α) (hL : 0 < c.L) (hA : c.async = true) (t0 : Nat)
    (ht0 : t0 ≠ worker) (es : List (Weak.WEv α)) (ht : Weak.Timely c (Weak.init c) es)
    (hes : ∀ e ∈ es, e.solo t0) (hidle : (wafter c es).s.pc t0 = .idle) :
    (wafter c es).s.W = (wafter c es).s.acquired.length ∧
    linesOf t0 (wafter c es).s.acquired = (linesOf t0 (wafter c es).s.calls).map (withEnd c.nl) := by
  have hi := winv_after hL ht
  have hs := Weak.Solo.run hA ht0 (Weak.WInv.init c hL) (Weak.WOrd.init hA) (Weak.Solo.init ht0) ht hes
  have hp := hs.pct
  have heq := hs.eq t0
  rw [show (Weak.run c (Weak.init c) es).s.pc t0 = .idle from hidle] at hp heq
  refine ⟨?_, ?_⟩
  · rw [hi.inv.len]; exact hp
  · simp only [pending, Option.toList_none, List.map_nil, List.append_nil] at heq
    exact heq

/-- Thread 1 logs twice; every load it may choose returns the oldest value allowed. -/
def demoSolo : List (Weak.WEv Nat) :=
  [.call 1 [7]] ++ wsteps 1 30 0 ++ [.call 1 [9]] ++ wsteps 1 30 0

example : Weak.Timely demoAsync (Weak.init demoAsync) demoSolo ∧ (∀ e ∈ demoSolo, e.solo 1) ∧
    (wafter demoAsync demoSolo).s.pc 1 = .idle ∧ (wafter demoAsync demoSolo).s.W = 2 := by
  refine ⟨by decide +kernel, ?_, by decide +kernel, by decide +kernel⟩
  intro e he
  simp only [demoSolo, wsteps, List.mem_append, List.mem_cons, List.not_mem_nil, or_false,
    List.mem_replicate] at he
  rcases he with ((h | h) | h) | h
  · subst h; rfl
  · rw [h.2]; exact fun _ => rfl
  · subst h; rfl
  · rw [h.2]; exact fun _ => rfl

/-- C76 for a sync channel used by one thread: the memory model makes no difference, the run is one of
the model of C06 - C17, and all lines have been output in order. -/
theorem C76_sync_one_thread_partial (c : Cfg α) (hL : 0 < c.L) (hA : c.async = false) (t0 : Nat)
    (es : List (Weak.WEv α)) (ht : Weak.Timely c (Weak.init c) es) (hes : ∀ e ∈ es, e.by t0)
    (hh : Weak.Honest c (Weak.init c) es) (hidle : (wafter c es).s.pc t0 = .idle) :
    (wafter c es).s.out.map Prod.snd = (linesOf t0 (wafter c es).s.calls).map (withEnd c.nl) ∧
    (wafter c es).s.R = (wafter c es).s.acquired.length := by
  have h0 : Ring.Timely c (step c (init c) .started) (es.map Weak.WEv.sc) ∧
      Weak.strip (wafter c es).s = Weak.strip (run c (step c (init c) .started) (es.map Weak.WEv.sc)) := by
    have e : step c (init c) .started = { init c with lgRunning := true } := by
      simp [step, init, hA]
    refine Weak.alone_same hA es (Weak.init c) (step c (init c) .started) (Weak.WInv.init c hL)
      ⟨Nat.le_refl _, Nat.le_refl _, Nat.le_refl _, Nat.le_refl _, fun _ => Nat.le_refl _⟩ ?_ ?_ ?_ ?_ ht hes hh
    · rw [e]; rfl
    · rw [e]
    · rw [e]; simp [init, hA]
    · rw [e]; simp [init, hA]
  obtain ⟨h1, h2⟩ := h0
  obtain ⟨a1, a2, a3, a4, a5, a6, a7, a8⟩ := Weak.strip_inj h2
  have hT : Timely c (init c) (.started :: es.map Weak.WEv.sc) := ⟨trivial, h1⟩
  have hsolo : SoloEvents t0 (.started :: es.map Weak.WEv.sc) := by
    intro e he
    rcases List.mem_cons.1 he with rfl | he
    · trivial
    · obtain ⟨w, hw, rfl⟩ := List.mem_map.1 he
      have := hes w hw
      cases w
      · exact this
      · trivial
  have hns : ∀ e ∈ (.started :: es.map Weak.WEv.sc : List (Ev α)), e.noStop := by
    intro e he
    rcases List.mem_cons.1 he with rfl | he
    · trivial
    · obtain ⟨w, hw, rfl⟩ := List.mem_map.1 he
      cases w <;> trivial
  have hid : (after c (.started :: es.map Weak.WEv.sc)).pc t0 = .idle := by
    rw [← hidle, a5]; rfl
  have h3 := C13_single_thread_partial c hL hA t0 _ hsolo hns hid
  have hall : ∀ t, (after c (.started :: es.map Weak.WEv.sc)).pc t = .idle := by
    intro t
    by_cases h : t = t0
    · subst h; exact hid
    · have h5 : (wafter c es).s.pc t = .idle := by
        refine (Weak.pc_untouched c es (Weak.init c) t ?_).trans (by simp [Weak.init, init, hA])
        intro e he
        have := hes e he
        cases e with
        | call u body => exact fun h6 => h (h6.symm.trans this)
        | run u n b => exact fun h6 => h (h6.symm.trans this)
      rw [← h5, a5]; rfl
  have h4 := (C10_sync_all_output c hL hA _ hT hns hall).2
  refine ⟨?_, ?_⟩
  · rw [a8, a6]; exact h3
  · rw [a4, a7]; exact h4

/-- Thread 1 logs twice on a sync channel. -/
example : let es := [.call 1 [7]] ++ wsteps 1 36 0 ++ [.run 1 0 false, .run 1 0 true, .call 1 [9]] ++
      wsteps 1 36 0 ++ [.run 1 0 false, .run 1 0 true]
    Weak.Timely demoSync (Weak.init demoSync) es ∧ Weak.Honest demoSync (Weak.init demoSync) es ∧
    (∀ e ∈ es, e.tid = 1) ∧ (wafter demoSync es).s.pc 1 = .idle ∧ (wafter demoSync es).s.R = 2 := by
  decide +kernel

/-! ## C77 -/

/-- Thread 1 logs and returns; then the channel is stopped: the worker finds `channel_state_` changed, but
does not yet see the new `write_idx_`. -/
def stopWeak : List (Weak.WEv Nat) :=
  [.call 1 [7]] ++ wsteps 1 30 1000 ++ wsteps 0 4 0 ++ [.run 0 0 false] ++ wsteps 0 2 0

/-- C77 does not hold: the record is published, the worker has left its loop and will return, nothing is
output. -/
theorem C77_counterexample :
    Weak.Timely demoAsync (Weak.init demoAsync) stopWeak ∧
    (wafter demoAsync stopWeak).s.pc 1 = .idle ∧ (wafter demoAsync stopWeak).s.W = 1 ∧
    (wafter demoAsync stopWeak).s.pc worker = .cFin ∧ (wafter demoAsync stopWeak).s.out = [] := by
  decide +kernel

/-- C77 if the last load of `write_idx_` (fn_channel.h 264) returned the newest value: the worker leaves its
loop only when every published record has been output, in order. -/
theorem C77_newest_partial (c : Cfg α) (hL : 0 < c.L) (hA : c.async = true) (es : List (Weak.WEv α))
    (ht : Weak.Timely c (Weak.init c) es)
    (hpc : (wafter c es).s.pc worker = .cLoopR (wafter c es).s.W) (n : Nat) (b : Bool)
    (hfin : (wafter c (es ++ [.run worker n b])).s.pc worker = .cFin) :
    (wafter c es).s.out.map Prod.snd = ((wafter c es).s.acquired.map Prod.snd).take (wafter c es).s.W := by
  have hi := winv_after hL ht
  have ho := word_after hL hA ht
  have hR : (wafter c es).s.R = (wafter c es).s.P := by have := ho.ord.pcw; rw [hpc] at this; exact this
  have h1 := hi.inv.lePW
  have h2 := hi.inv.leWH
  have h3 := hi.inv.cap
  have hP : (wafter c es).s.P = (wafter c es).s.W := by
    have e : (wafter c (es ++ [.run worker n b])) = Weak.stepT c (wafter c es) worker n b := by
      rw [wafter, Weak.run, List.foldl_append]; rfl
    rw [e] at hfin
    unfold Weak.stepT at hfin
    simp only [hpc, ho.vr, Weak.choose_self] at hfin
    split at hfin
    · simp [Weak.WSt.put] at hfin
    · rename_i he
      have he : (wafter c es).s.W % c.L = (wafter c es).s.R % c.L := Classical.not_not.1 he
      have := mod_inj he.symm (by omega) (by omega)
      omega
  have hout := ho.ord.out
  have hb : (wafter c es).s.base = 0 := Weak.base_wrun c es (Weak.init c)
  have hn : outN (wafter c es).s = (wafter c es).s.W := by unfold outN; rw [hpc]; exact hP
  rw [hb, hn] at hout
  obtain ⟨rest, hr⟩ := prefix_of_ord hi.inv hout
  have hlen : ((wafter c es).s.out.map Prod.snd).length = (wafter c es).s.W := by
    have := congrArg List.length hout
    simpa using this
  rw [← hr, ← hlen, List.take_left]

example : let es := [.call 1 [7]] ++ wsteps 1 30 1000 ++ wsteps 0 22 1000 ++ [.run 0 0 false, .run 0 1000 true]
    Weak.Timely demoAsync (Weak.init demoAsync) es ∧
    (wafter demoAsync es).s.pc worker = .cLoopR (wafter demoAsync es).s.W ∧
    (wafter demoAsync (es ++ [.run worker 0 true])).s.pc worker = .cFin ∧
    (wafter demoAsync es).s.W = 1 := by decide +kernel

end FNLog
