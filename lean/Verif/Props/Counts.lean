import Verif.Props.Ring

/-! # Counters of an idle and drained channel -/

namespace FNLog
open Ring

variable {α : Type}

/-- C16: when no writer is inside the channel code, and the consumer (of an async channel: the writer thread) has released every slot and is not
about to count one, all three counters are equal to the number of lines logged. -/
theorem C16_drained (c : Cfg α) (hL : 0 < c.L) (n : Nat) (es : List (Ev α))
    (hb : ∀ e ∈ es, e.below n) (ht : Timely c (init c) es) (hn : ∀ e ∈ es, e.noStop)
    (hidle : ∀ t, (after c es).pc t = .idle ∨ (c.async = true ∧ t = worker))
    (hempty : (after c es).R = (after c es).H) (hcount : atProc ((after c es).pc worker) = false) :
    (after c es).nHold = (after c es).acquired.length ∧
    (after c es).nPush = (after c es).acquired.length ∧
    (after c es).nProc = (after c es).acquired.length := by
  obtain ⟨a, b, _⟩ := C16_idle_equal c hL n es hb ht hn hidle
  refine ⟨a, b, ?_⟩
  obtain ⟨_, _, h3⟩ := C16_counters c n es hb
  have hi := inv_after hL ht
  have z3 : cnt atProc (after c es) n = 0 := by
    unfold cnt
    rw [List.countP_eq_zero]
    intro t _
    rcases hidle t with h | ⟨_, h⟩
    · rw [h]; simp [atProc]
    · rw [h, hcount]; simp
  have h4 := hi.len
  have h5 := hi.leRP
  have h6 := hi.lePW
  have h7 := hi.leWH
  omega

/-- The hypotheses hold at the end of the demo run of an async channel: two lines, logged by two threads and output by the writer thread
(`demoSched` has no stop). -/
example : Timely demoAsync (init demoAsync) demoSched ∧
    (after demoAsync demoSched).pc 1 = .idle ∧ (after demoAsync demoSched).pc 2 = .idle ∧
    (after demoAsync demoSched).R = (after demoAsync demoSched).H ∧ atProc ((after demoAsync demoSched).pc worker) = false ∧
    (after demoAsync demoSched).nProc = 2 := by decide +kernel

end FNLog
