import Verif.Model.Ring
import Verif.Model.Mem

/-!
# Re-attaching to the shared-memory queue after a crash

Transcribed from `LoadSharedMemory` (fn_load.h 38-141).  Two layers:

* `loadSharedMemory` works on the memory image of the segment: four `int` indices per ring, and per
  slot the mark, priority, `content_len_` and the `LOG_SIZE` bytes of `content_`;
* `Ring.recover` is the effect on the transition system of `Verif/Model/Ring.lean`; the theorem
  `recover_refines` (Verif/Proof/Recover.lean) relates the two.

Not modelled: the operating-system calls themselves (`shmget`, `shmat`) are inputs (`ShmOs`); console
messages; the other members of `LogData` (unchanged by recovery).
-/

namespace FNLog

/-- The members of `LogData` (fn_data.h 125-146) that recovery reads or writes. `content` has
`LOG_SIZE` elements. -/
structure Slot where
  mark : Int
  priority : Int
  len : Int
  content : List Char
deriving DecidableEq, Repr

/-- `RingBuffer` (fn_data.h 280-298); the padding and `udp_buffer_` are left out. -/
structure RingMem where
  write : Int
  hold : Int
  read : Int
  proc : Int
  buffer : Nat → Slot

/-- `SHMLogger` (fn_data.h 342-352); `channels_` is left out, it is overwritten by InitFromYMAL. -/
structure Shm where
  id : Int
  size : Int
  channelSize : Int
  rings : Nat → RingMem

/-- The text appended to an unfinished log, fn_load.h 111. -/
def coreDesc : List Char := "!!!core recover!!!".toList

/-- Lines 108-117 on one slot; `N` is LOG_SIZE. A negative `content_len_` makes the `memcpy` write in
front of the buffer. -/
def recoverSlot (N : Nat) (s : Slot) : Option Slot :=
  -- 112: FN_MIN(log.content_len_, LOG_SIZE - core_desc.length() - 2)
  let len := min s.len ((N : Int) - (coreDesc.length : Int) - 2)
  if len < 0 then none
  else do
    let b1 ← writeAt s.content len.toNat coreDesc
    let b2 ← writeAt b1 (len.toNat + coreDesc.length) ['\n']
    let b3 ← writeAt b2 (len.toNat + coreDesc.length + 1) ['\x00']
    some { mark := 2, priority := PRIORITY_FATAL, len := len + coreDesc.length + 1, content := b3 }

/-- The loop of lines 106-120, with a bound on the number of rounds. `write` is in range on entry
(100-104). -/
def recoverLoop (L N : Nat) : Nat → RingMem → Out RingMem
  | 0, m => if m.write = m.hold then .val m else .running
  | n + 1, m =>
    if m.write = m.hold then .val m
    else match recoverSlot N (m.buffer m.write.toNat) with
      | none => .ub
      | some s => recoverLoop L N n
          { m with
            buffer := Ring.upd m.buffer m.write.toNat s
            write := (m.write + 1) % (L : Int) }

/-- Return codes of LoadSharedMemory. -/
inductive LoadCode where
  | ok | probeError | createError | attachError | versionWrong
  /-- `return -10` (123-127) -/
  | badRead
deriving DecidableEq, Repr

/-- Lines 100-128 for one ring: the new ring image and a code. -/
def recoverRing (L N fuel : Nat) (m : RingMem) : Out (LoadCode × RingMem) :=
  if m.write ≥ (L : Int) ∨ m.write < 0 then .val (.versionWrong, m)
  else match recoverLoop L N fuel m with
    | .ub => .ub
    | .running => .running
    | .val m =>
      let m := { m with hold := m.write }
      if m.read ≥ (L : Int) ∨ m.read < 0 then .val (.badRead, m)
      else .val (.ok, { m with proc := m.read })

/-- The `for` loop of lines 93-134, from channel `i` on, `n` channels left. -/
def recoverRings (L N maxCh fuel : Nat) : Nat → Nat → Shm → Out (LoadCode × Shm)
  | 0, _, s => .val (.ok, s)
  | n + 1, i, s =>
    if i ≥ maxCh then .val (.versionWrong, s)
    else match recoverRing L N fuel (s.rings i) with
      | .ub => .ub
      | .running => .running
      | .val (c, m) =>
        let s := { s with rings := Ring.upd s.rings i m }
        if c = .ok then recoverRings L N maxCh fuel n (i + 1) s else .val (c, s)

/-- What the operating system answers: `shmget` probe (48), `shmget` create (58), `shmat` (64, 77). -/
inductive ShmOs where
  /-- probe fails with an error other than ENOENT -/
  | probeError
  /-- no segment and it cannot be created -/
  | createError
  /-- attaching fails -/
  | attachError
  /-- no segment yet; a new one with identifier `idx` and arbitrary content -/
  | created (idx : Int) (garbage : Shm)
  /-- an existing segment with identifier `idx` -/
  | existing (idx : Int) (seg : Shm)

/-- ResetSHMLogger (fn_load.h 23-36); the slots keep their content. -/
def resetShm (s : Shm) : Shm :=
  { id := 0, size := 0, channelSize := 0
    rings := fun i => { s.rings i with write := 0, hold := 0, read := 0, proc := 0 } }

/-- What LoadSharedMemory leaves behind: return code, the segment, and the segment `logger.shm_` points
to (if any). -/
structure Loaded where
  code : LoadCode
  seg : Option Shm
  attached : Option Shm

/-- LoadSharedMemory for `shm_key_ > 0`. `size` is `sizeof(SHMLogger)`. -/
def loadSharedMemory (L N maxCh : Nat) (size : Int) (fuel : Nat) : ShmOs → Out Loaded
  | .probeError => .val ⟨.probeError, none, none⟩
  | .createError => .val ⟨.createError, none, none⟩
  | .attachError => .val ⟨.attachError, none, none⟩
  | .created idx g => go idx { resetShm g with size := size, id := idx }
  | .existing idx s => go idx s
where
  /-- Lines 86-135. -/
  go (idx : Int) (s : Shm) : Out Loaded :=
    if s.size ≠ size ∨ s.id ≠ idx then .val ⟨.versionWrong, some s, none⟩
    else match recoverRings L N maxCh fuel s.channelSize.toNat 0 s with
      | .ub => .ub
      | .running => .running
      | .val (c, s) => .val ⟨c, some s, if c = .ok then some s else none⟩

namespace Ring

variable {α : Type}

/-- Marks after lines 106-120: `n` slots from position `k` on become ready. -/
def recMarks (L : Nat) : Nat → Nat → (Nat → Mark) → (Nat → Mark)
  | 0, _, m => m
  | n + 1, k, m => recMarks L n (k + 1) (upd m (k % L) .ready)

/-- Contents after lines 106-120; `f` is the effect on one content (lines 111-117). -/
def recCells (L : Nat) (f : List α → List α) : Nat → Nat → (Nat → List α) → (Nat → List α)
  | 0, _, m => m
  | n + 1, k, m => recCells L f n (k + 1) (upd m (k % L) (f (m (k % L))))

/-- A crash followed by LoadSharedMemory, InitFromYMAL (which resets the channel state, fn_load.h 237)
and StartChannels (fn_core.h 39-44): all threads of the crashed process are gone, the held slots are
completed (`write = hold`), `proc = read`.  History: the recovered logs now carry the completed text;
`out`, `calls` are those of the new session; the statistics survive (fn_load.h 229-236). -/
def recover (c : Cfg α) (f : List α → List α) (s : St α) : St α :=
  { s with
    W := s.H
    P := s.R
    mark := recMarks c.L (s.H - s.W) s.W s.mark
    cell := recCells c.L f (s.H - s.W) s.W s.cell
    state := if c.async then .null else .running
    lgRunning := false
    pc := fun t => if c.async = true ∧ t = worker then .cLoad else .idle
    calls := []
    acquired := s.acquired.mapIdx (fun k e => if k < s.W then e else (e.1, f (s.cell (k % c.L))))
    out := []
    lost := []
    base := s.R
    old := if c.async then max s.old s.P else s.R }

/-- A crash inside CleanChannels (fn_core.h 150-168), after the mark loop and the first `n` of the four
stores `read_idx_ = 0`, `proc_idx_ = 0`, `write_idx_ = 0`, `hold_idx_ = 0` (161-164).  The loop leaves
`read_idx_ = write_idx_` (156).  The totals are chosen such that the stored indices are the totals modulo `BUFFER_LEN`. -/
def cleanCut (c : Cfg α) (n : Nat) (s : St α) : St α :=
  { s with
    R := if 1 ≤ n then 0 else s.W % c.L
    P := if 2 ≤ n then 0 else s.P % c.L
    W := if 3 ≤ n then 0 else s.W % c.L
    H := if 4 ≤ n then 0 else s.H % c.L
    mark := cleanMarks c.L c.L s.R s.W s.mark }

end Ring

end FNLog
