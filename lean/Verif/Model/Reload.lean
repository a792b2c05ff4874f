import Verif.Model.Recover

/-!
# A process killed inside LoadSharedMemory

The memory images a process leaves behind when it is killed between two stores of `LoadSharedMemory`
(fn_load.h 38-141), as relations between the segment before the call and the segment left behind.
The stores of one function are taken in program order, except where the language leaves it open: the
bytes of a `memcpy` (113) may be written in any order, and so may the two stores of line 116.
Re-ordering by the compiler or the processor is not modelled.
-/

namespace FNLog

/-- Line 112: the length of the text that is kept. -/
def slotLen (N : Nat) (s : Slot) : Int := min s.len ((N : Int) - (coreDesc.length : Int) - 2)

/-- A `memcpy` of `src` to offset `off` of `b` that has written some of its bytes (113). -/
def MidCopy (off : Nat) (src b b' : List Char) : Prop :=
  b'.length = b.length ∧ ∀ i : Nat, b'[i]? = b[i]? ∨ ∃ j, j < src.length ∧ i = off + j ∧ b'[i]? = src[j]?

/-- The images of the slot between the stores of lines 108-117. -/
inductive SlotCut (N : Nat) (s : Slot) : Slot → Prop
  /-- before 109 -/
  | start : SlotCut N s s
  /-- after 109 -/
  | mark : SlotCut N s { s with mark := 2 }
  /-- after 110 -/
  | priority : SlotCut N s { s with mark := 2, priority := PRIORITY_FATAL }
  /-- after 112, and inside and after the `memcpy` of 113 -/
  | copy (b : List Char) : 0 ≤ slotLen N s → MidCopy (slotLen N s).toNat coreDesc s.content b →
      SlotCut N s ⟨2, PRIORITY_FATAL, slotLen N s, b⟩
  /-- after 115 -/
  | copied (b : List Char) : 0 ≤ slotLen N s → writeAt s.content (slotLen N s).toNat coreDesc = some b →
      SlotCut N s ⟨2, PRIORITY_FATAL, slotLen N s + coreDesc.length, b⟩
  /-- inside 116: the line feed is stored, the length not yet -/
  | feed (b b' : List Char) : 0 ≤ slotLen N s → writeAt s.content (slotLen N s).toNat coreDesc = some b →
      writeAt b ((slotLen N s).toNat + coreDesc.length) ['\n'] = some b' →
      SlotCut N s ⟨2, PRIORITY_FATAL, slotLen N s + coreDesc.length, b'⟩
  /-- inside 116: the length is stored, the line feed not yet -/
  | longer (b : List Char) : 0 ≤ slotLen N s → writeAt s.content (slotLen N s).toNat coreDesc = some b →
      SlotCut N s ⟨2, PRIORITY_FATAL, slotLen N s + coreDesc.length + 1, b⟩
  /-- after 116 -/
  | fed (b b' : List Char) : 0 ≤ slotLen N s → writeAt s.content (slotLen N s).toNat coreDesc = some b →
      writeAt b ((slotLen N s).toNat + coreDesc.length) ['\n'] = some b' →
      SlotCut N s ⟨2, PRIORITY_FATAL, slotLen N s + coreDesc.length + 1, b'⟩
  /-- after 117, before `write_idx_` is stored (119) -/
  | done (s' : Slot) : recoverSlot N s = some s' → SlotCut N s s'

/-- Some complete rounds of the loop of lines 106-120. -/
inductive Rounds (L N : Nat) : RingMem → RingMem → Prop
  | refl (m : RingMem) : Rounds L N m m
  | step {m m1 : RingMem} (s : Slot) : Rounds L N m m1 → m1.write ≠ m1.hold →
      recoverSlot N (m1.buffer m1.write.toNat) = some s →
      Rounds L N m { m1 with
        buffer := Ring.upd m1.buffer m1.write.toNat s, write := (m1.write + 1) % (L : Int) }

/-- The images of one ring between the stores of lines 100-128. -/
inductive RingCut (L N : Nat) (m : RingMem) : RingMem → Prop
  /-- before the test of 100, or refused by it -/
  | start : RingCut L N m m
  /-- inside a round of the loop -/
  | slot (m1 : RingMem) (s : Slot) : 0 ≤ m.write → m.write < (L : Int) → Rounds L N m m1 →
      m1.write ≠ m1.hold → SlotCut N (m1.buffer m1.write.toNat) s →
      RingCut L N m { m1 with buffer := Ring.upd m1.buffer m1.write.toNat s }
  /-- after 121 -/
  | held (m1 : RingMem) : 0 ≤ m.write → m.write < (L : Int) → Rounds L N m m1 → m1.write = m1.hold →
      RingCut L N m { m1 with hold := m1.write }
  /-- after 128 -/
  | proc (m1 : RingMem) : 0 ≤ m.write → m.write < (L : Int) → Rounds L N m m1 → m1.write = m1.hold →
      0 ≤ m1.read → m1.read < (L : Int) → RingCut L N m { m1 with hold := m1.write, proc := m1.read }

/-- The images of an existing segment between the stores of lines 86-135: some rings are done, the next
one is in work, the others are untouched. -/
inductive SegCut (L N maxCh fuel : Nat) (size idx : Int) (s : Shm) : Shm → Prop
  /-- before the loop of 93, or refused by the test of 86 -/
  | start : SegCut L N maxCh fuel size idx s s
  | ring (i : Nat) (s1 : Shm) (m : RingMem) : s.size = size → s.id = idx → i < s.channelSize.toNat → i < maxCh →
      recoverRings L N maxCh fuel i 0 s = .val (.ok, s1) → RingCut L N (s1.rings i) m →
      SegCut L N maxCh fuel size idx s { s1 with rings := Ring.upd s1.rings i m }

/-- Any number of processes, one after the other, each killed inside LoadSharedMemory. -/
inductive Killed (L N maxCh fuel : Nat) (size idx : Int) (s : Shm) : Shm → Prop
  | none : Killed L N maxCh fuel size idx s s
  | more {s1 s2 : Shm} : Killed L N maxCh fuel size idx s s1 → SegCut L N maxCh fuel size idx s1 s2 →
      Killed L N maxCh fuel size idx s s2

/-- The segment as `shmget(…, IPC_CREAT | IPC_EXCL | 0600)` (58) makes it: all bytes are zero. -/
def zeroShm (N : Nat) : Shm :=
  ⟨0, 0, 0, fun _ => ⟨0, 0, 0, 0, fun _ => ⟨0, 0, 0, List.replicate N '\x00'⟩⟩⟩

/-- The images of a new segment between the stores of lines 58-73.  `ResetSHMLogger` stores zeros over
zeros. -/
inductive BirthCut (N : Nat) (size idx : Int) : Shm → Prop
  /-- after 58, and inside and after 71 -/
  | zero : BirthCut N size idx (zeroShm N)
  /-- after 72 -/
  | size : BirthCut N size idx { zeroShm N with size := size }
  /-- after 73 -/
  | id : BirthCut N size idx { zeroShm N with size := size, id := idx }

end FNLog
