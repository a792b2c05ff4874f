import Verif.Props.Recover
import Verif.Props.Load

/-!
# C96: the queues of a new logger

The queues that LoadSharedMemory provides when there is no segment of an earlier process (memory of the process, or a new segment,
which the operating system fills with zeros) are those the theorems about the queue start from.
-/

namespace FNLog
open Ring Spec

/-- Zeroed slots of a queue, whatever its indices. -/
def Spec.Blank (m : RingMem) : Prop :=
  ∀ i, i < BUFFER_LEN → (m.buffer i).mark = 0 ∧ (m.buffer i).len = 0 ∧ (m.buffer i).content.length = LOG_SIZE

theorem repr_init {c : Cfg Char} (hL : c.L = BUFFER_LEN) {m : RingMem} (h : Blank m) (hw : m.write = 0) (hh : m.hold = 0)
    (hr : m.read = 0) (hp : m.proc = 0) : Repr c LOG_SIZE (init c) m := by
  refine ⟨?_, ?_, ?_, ?_, fun i hi => ?_, fun i hi => ?_, fun i hi => ?_, fun i hi => ?_⟩
  · rw [hw]; simp [init]
  · rw [hh]; simp [init]
  · rw [hr]; simp [init]
  · rw [hp]; simp [init]
  all_goals rw [hL] at hi
  · exact (h i hi).1
  · exact (h i hi).2.1
  · exact (h i hi).2.2
  · exact List.take_zero

/-- **C96**, `shm_key_` not positive: the logger gets memory of the process with empty queues and no channels. -/
theorem C96_process_memory (e : LgEnv) (l : Lg) (hk : l.shmKey ≤ 0) : ∃ s : LgShm,
    loadShm e l = .val (.ok, { l with shm := some s }) ∧ s.seg.channelSize = 0 ∧
    (∀ i, (s.chans i).chan.devices = [] ∧ (∀ k, (s.chans i).logs k = 0) ∧ ∀ j k, (s.chans i).devLogs j k = 0) ∧
    ∀ (c : Cfg Char) (i : Nat), c.L = BUFFER_LEN → Repr c LOG_SIZE (init c) (s.seg.rings i) := by
  refine ⟨freshShm, ?_, rfl, fun i => ⟨rfl, fun _ => rfl, fun _ _ => rfl⟩, fun c i hL => ?_⟩
  · unfold loadShm
    rw [if_pos hk]
  · refine repr_init hL (fun j _ => ⟨rfl, rfl, ?_⟩) rfl rfl rfl rfl
    exact List.length_replicate

/-- **C96**, a new segment: the same, and the segment carries its identifier and size, by which later processes recognise it (C22).
`g` is its content before ResetSHMLogger: any, but for the slots. -/
theorem C96_new_segment (e : LgEnv) (l : Lg) (hk : 0 < l.shmKey) {idx : Int} {g : Shm} (ho : e.os = .created idx g)
    (hg : ∀ i, Blank (g.rings i)) : ∃ s : LgShm,
    loadShm e l = .val (.ok, { l with shm := some s }) ∧ s.seg.channelSize = 0 ∧ s.seg.id = idx ∧ s.seg.size = e.shmSize ∧
    (∀ i, (s.chans i).chan.devices = [] ∧ (∀ k, (s.chans i).logs k = 0) ∧ ∀ j k, (s.chans i).devLogs j k = 0) ∧
    ∀ (c : Cfg Char) (i : Nat), c.L = BUFFER_LEN → Repr c LOG_SIZE (init c) (s.seg.rings i) := by
  refine ⟨⟨{ resetShm g with size := e.shmSize, id := idx }, fun _ => {}⟩, ?_, rfl, rfl, rfl,
    fun i => ⟨rfl, fun _ => rfl, fun _ _ => rfl⟩, fun c i hL => repr_init hL (hg i) rfl rfl rfl rfl⟩
  unfold loadShm
  rw [if_neg (by omega), ho]
  simp only [loadSharedMemory, loadSharedMemory.go, ne_eq, not_true_eq_false, or_self, if_false]
  rfl

/-- A segment as the operating system creates it. -/
example : ∃ (e : LgEnv) (l : Lg) (g : Shm), 0 < l.shmKey ∧ e.os = .created 5 g ∧ ∀ i, Blank (g.rings i) :=
  ⟨{ os := .created 5 freshShm.seg }, { shmKey := 7 }, freshShm.seg, by decide, rfl,
    fun _ _ _ => ⟨rfl, rfl, List.length_replicate⟩⟩

end FNLog
