import Verif.Proof.Reload
import Verif.Proof.KernelRfl
import Verif.Props.Recover

/-!
# C124: LoadSharedMemory can be repeated after a process was killed inside it
-/

namespace FNLog

open Ring Spec

/-- The cyclic distance and the plain comparison of indices say the same. -/
theorem between_iff {L : Nat} {w h : Int} (hw : 0 ≤ w ∧ w < (L : Int)) (hh : 0 ≤ h ∧ h < (L : Int)) {j : Nat} (hj : j < L) :
    Between w h j ↔ ∃ q, q < (((h - w) % (L : Int)).toNat) ∧ j = (w.toNat + q) % L := by
  unfold Between
  by_cases hle : w ≤ h
  · rw [if_pos hle, Int.emod_eq_of_lt (by omega) (by omega)]
    constructor
    · intro hb
      refine ⟨j - w.toNat, by omega, ?_⟩
      rw [Nat.mod_eq_of_lt (by omega)]; omega
    · intro ⟨q, h1, h2⟩
      rw [Nat.mod_eq_of_lt (by omega)] at h2; omega
  · have hd : (h - w) % (L : Int) = h - w + L := by
      rw [← Int.add_emod_right, Int.emod_eq_of_lt (by omega) (by omega)]
    rw [if_neg hle, hd]
    constructor
    · intro hb
      rcases Nat.lt_or_ge j w.toNat with h1 | h1
      · refine ⟨L - w.toNat + j, by omega, ?_⟩
        rw [show w.toNat + (L - w.toNat + j) = j + L by omega, Nat.add_mod_right, Nat.mod_eq_of_lt hj]
      · refine ⟨j - w.toNat, by omega, ?_⟩
        rw [Nat.mod_eq_of_lt (by omega)]; omega
    · intro ⟨q, h1, h2⟩
      rcases Nat.lt_or_ge (w.toNat + q) L with h3 | h3
      · rw [Nat.mod_eq_of_lt h3] at h2; omega
      · rw [Nat.mod_eq_sub_mod h3, Nat.mod_eq_of_lt (by omega)] at h2; omega

/-- A segment the header and the indices of which are in order. -/
structure Sane (L N maxCh : Nat) (size idx : Int) (s : Shm) : Prop where
  size : s.size = size
  id : s.id = idx
  channels : s.channelSize ≤ (maxCh : Int)
  write : ∀ i, i < s.channelSize.toNat → 0 ≤ (s.rings i).write ∧ (s.rings i).write < (L : Int)
  hold : ∀ i, i < s.channelSize.toNat → 0 ≤ (s.rings i).hold ∧ (s.rings i).hold < (L : Int)
  read : ∀ i, i < s.channelSize.toNat → 0 ≤ (s.rings i).read ∧ (s.rings i).read < (L : Int)
  slots : ∀ i, i < s.channelSize.toNat → ∀ j, j < L → ((s.rings i).buffer j).Fine N

/-- C124, what holds: whatever processes were killed inside LoadSharedMemory, wherever and however many, the
next call succeeds; it finds the indices an undisturbed call would have found; every unfinished log is a
fatal error the text of which begins with what had been written, completed at least once; every other slot
and every other ring is as it was.  What is missing for the full property: that the text is the one of an
undisturbed call (`C124_twice_counterexample`, `C124_stale_counterexample`). -/
theorem C124_reload_partial (L N maxCh fuel : Nat) (size idx : Int) (hN : 20 ≤ N) (hf : L ≤ fuel) (s0 s : Shm)
    (h : Sane L N maxCh size idx s0) (hk : Killed L N maxCh fuel size idx s0 s) :
    ∃ s', loadSharedMemory L N maxCh size fuel (.existing idx s) = .val ⟨.ok, some s', some s'⟩ ∧
      s'.size = size ∧ s'.id = idx ∧ s'.channelSize = s0.channelSize ∧
      (∀ i, s0.channelSize.toNat ≤ i → s'.rings i = s0.rings i) ∧
      (∀ i, i < s0.channelSize.toNat →
        (s'.rings i).write = (s0.rings i).hold ∧ (s'.rings i).hold = (s0.rings i).hold ∧
        (s'.rings i).read = (s0.rings i).read ∧ (s'.rings i).proc = (s0.rings i).read) ∧
      (∀ i, i < s0.channelSize.toNat → ∀ j, j < L → ¬ Between (s0.rings i).write (s0.rings i).hold j →
        (s'.rings i).buffer j = (s0.rings i).buffer j) ∧
      (∀ i, i < s0.channelSize.toNat → ∀ j : Nat, j < L → Between (s0.rings i).write (s0.rings i).hold j →
        ((s'.rings i).buffer j).Fine N ∧ ((s'.rings i).buffer j).mark = 2 ∧
        ((s'.rings i).buffer j).priority = PRIORITY_FATAL ∧
        ∃ t, Marked N ((s0.rings i).buffer j).text t ∧ ((s'.rings i).buffer j).text = recoveredLine N t) := by
  have hs : ∀ i, i < s0.channelSize.toNat → 0 ≤ (s0.rings i).write ∧ (s0.rings i).write < (L : Int) ∧
      0 ≤ (s0.rings i).read ∧ (s0.rings i).read < (L : Int) :=
    fun i hi => ⟨(h.write i hi).1, (h.write i hi).2, h.read i hi⟩
  have g0 : SegResumed L N s0 s0 :=
    ⟨rfl, rfl, rfl, fun i hi => ⟨0, .init (h.write i hi) (h.hold i hi) (h.slots i hi)⟩, fun _ _ => rfl⟩
  have g := SegResumed.killed hN hf h.channels hs g0 hk
  obtain ⟨s', e, g', g1, _⟩ := SegResumed.load hN hf h.channels hs s0.channelSize.toNat 0 g (by omega)
  refine ⟨s', ?_, g'.size.trans h.size, g'.id.trans h.id, g'.channelSize, g'.rest, ?_, ?_, ?_⟩
  · simp only [loadSharedMemory, loadSharedMemory.go]
    rw [if_neg (by rw [g.size, g.id, h.size, h.id]; omega), g.channelSize, e]
    simp only [if_pos]
  · intro i hi
    obtain ⟨r, rp⟩ := g1 i (Nat.zero_le _) (by omega)
    have r0 := Resumed.init (h.write i hi) (h.hold i hi) (h.slots i hi)
    exact ⟨r.write.trans r0.hold.symm, r.hold.trans r0.hold.symm, r.read, rp⟩
  · intro i hi j hj hb
    obtain ⟨r, _⟩ := g1 i (Nat.zero_le _) (by omega)
    refine r.rest j hj fun q hq he => hb ?_
    exact (between_iff (h.write i hi) (h.hold i hi) hj).2 ⟨q, hq, he⟩
  · intro i hi j hj hb
    obtain ⟨r, _⟩ := g1 i (Nat.zero_le _) (by omega)
    obtain ⟨q, hq, he⟩ := (between_iff (h.write i hi) (h.hold i hi) hj).1 hb
    subst he
    obtain ⟨c1, c2, c3⟩ := r.done q hq
    exact ⟨r.fine _ hj, c1, c2, c3⟩

/-- C124: in particular nothing of what the unfinished log had is lost beyond what an undisturbed recovery
cuts off. -/
theorem C124_text_kept (N : Nat) (t t' : List Char) (h : Marked N t t') :
    t.take (N - 20) <+: recoveredLine N t' := by
  obtain ⟨rest, e⟩ := Marked.keeps h
  exact ⟨rest ++ "!!!core recover!!!".toList ++ ['\n'], by
    unfold recoveredLine
    rw [e, List.append_assoc, List.append_assoc, List.append_assoc]⟩

/-- C124: a process killed before the length with the marker is stored (fn_load.h 115) leaves no trace: the
next one makes the same text of the slot. -/
theorem C124_before_marker (N : Nat) (hN : 20 ≤ N) (s s' r r' : Slot) (hf : s.Fine N)
    (hs : (s'.content = s.content ∧ s'.len = s.len) ∨
      (s'.len = slotLen N s ∧ MidCopy (slotLen N s).toNat coreDesc s.content s'.content))
    (e : recoverSlot N s = some r) (e' : recoverSlot N s' = some r') :
    r'.text = r.text ∧ r'.mark = r.mark ∧ r'.priority = r.priority ∧ r'.len = r.len := by
  have hl := slotLen_eq hN hf
  have hf' := hf
  obtain ⟨f1, f2, f3⟩ := hf
  have key : s'.Fine N ∧ s'.text.take (N - 20) = s.text.take (N - 20) := by
    rcases hs with ⟨h1, h2⟩ | ⟨h1, h2⟩
    · unfold Slot.Fine Slot.text
      rw [h1, h2]
      exact ⟨⟨f1, f2, f3⟩, rfl⟩
    · have hc := SlotCut.spec hN (s' := ⟨2, PRIORITY_FATAL, slotLen N s, s'.content⟩)
        (.copy s'.content (by rw [hl]; omega) h2) hf'
      refine ⟨⟨hc.1.1, by rw [h1, hl]; omega, by rw [h1, hl]; omega⟩, ?_⟩
      have hm := h2.take
      unfold Slot.text
      rw [h1, List.take_take, List.take_take, hl] at *
      rw [Int.toNat_natCast] at *
      rw [Nat.min_eq_right (by omega), hm, Nat.min_comm]
  obtain ⟨⟨k1, k2, k3⟩, k4⟩ := key
  obtain ⟨q, eq, q1, q2, q3, q4, q5, q6, _⟩ := recoverSlot_spec N hN s f1 f2 f3
  obtain ⟨q', eq', q1', q2', q3', q4', q5', q6', _⟩ := recoverSlot_spec N hN s' k1 k2 k3
  rw [e] at eq; cases eq
  rw [e'] at eq'; cases eq'
  have ht : r'.text = r.text := (q6'.trans (recoveredLine_cut k4)).trans q6.symm
  refine ⟨ht, q1'.trans q1.symm, q2'.trans q2.symm, ?_⟩
  have := congrArg List.length ht
  simp only [Slot.text, List.length_take] at this
  omega

/-- C124: the images of `RingCut` are those of the program: what LoadSharedMemory leaves of a ring is one of
them, whatever it returns. -/
theorem C124_last_image (L N fuel : Nat) (m m' : RingMem) (c : LoadCode)
    (h : recoverRing L N fuel m = .val (c, m')) : RingCut L N m m' := RingCut.last h

/-! ## A segment with one channel and one unfinished log -/

/-- `abc` in a record of 64 bytes. -/
def cutSlot : Slot := ⟨1, 1, 3, "abcOLDOLDOLDOLDOLDOLDOLDOLDOLDOLDOLDOLDOLDOLDOLDOLDOLDOLDOLDOLDO".toList⟩

/-- Ring of three slots; the second one is held. -/
def cutRing : RingMem := ⟨1, 2, 1, 1, fun _ => cutSlot⟩

def cutSeg : Shm := ⟨7, 1000, 1, fun _ => cutRing⟩

theorem C124_case_sane : Sane 3 64 8 1000 7 cutSeg :=
  ⟨rfl, rfl, by decide, fun _ _ => by show (0 : Int) ≤ 1 ∧ (1 : Int) < 3; decide,
    fun _ _ => by show (0 : Int) ≤ 2 ∧ (2 : Int) < 3; decide, fun _ _ => by show (0 : Int) ≤ 1 ∧ (1 : Int) < 3; decide,
    fun _ _ _ _ => by show cutSlot.content.length = 64 ∧ (0 : Int) ≤ 3 ∧ (3 : Int) ≤ 64; decide⟩

theorem C124_case_unfinished : Between (cutSeg.rings 0).write (cutSeg.rings 0).hold ((1 : Nat) : Int) := by
  show if (1 : Int) ≤ 2 then (1 : Int) ≤ 1 ∧ (1 : Int) < 2 else (1 : Int) ≤ 1 ∨ (1 : Int) < 2
  decide

/-- The segment of a process killed with the slot in state `x`. -/
def cutSeg.with (x : Slot) : Shm := { cutSeg with rings := upd cutSeg.rings 0 { cutRing with buffer := upd cutRing.buffer 1 x } }

theorem cutSeg.killed {x : Slot} (h : SlotCut 64 cutSlot x) : Killed 3 64 8 3 1000 7 cutSeg (cutSeg.with x) :=
  .more .none (.ring 0 cutSeg { cutRing with buffer := upd cutRing.buffer 1 x } rfl rfl (by decide) (by decide) rfl
    (.slot cutRing x (by decide) (by decide) (.refl _) (by decide) h))

/-- The text LoadSharedMemory makes of the slot. -/
def lineOf (s : Shm) : Option (List Char) :=
  match loadSharedMemory 3 64 8 1000 3 (.existing 7 s) with
  | .val ⟨.ok, some s', _⟩ => some ((s'.rings 0).buffer 1).text
  | _ => none

/-- C124, the property is violated: a process killed after it has completed the text of a log but before it
has stored `write_idx_` (fn_load.h 119) leaves a log the next one completes again: one unfinished log is
written as two lines. -/
theorem C124_twice_counterexample :
    lineOf cutSeg = some "abc!!!core recover!!!\n".toList ∧
    ∃ s, Killed 3 64 8 3 1000 7 cutSeg s ∧
      lineOf s = some "abc!!!core recover!!!\n!!!core recover!!!\n".toList := by
  refine ⟨by decide +kernel, cutSeg.with (((recoverSlot 64 cutSlot).getD cutSlot)), cutSeg.killed (.done _ ?_), ?_⟩
  · decide +kernel
  · decide +kernel

/-- C124, the property is violated: killed inside `log.content_[log.content_len_++] = '\n'` (fn_load.h 116)
with the length stored and the byte not, a byte of an older log becomes part of the text. -/
theorem C124_stale_counterexample :
    ∃ s, Killed 3 64 8 3 1000 7 cutSeg s ∧
      lineOf s = some "abc!!!core recover!!!O!!!core recover!!!\n".toList := by
  refine ⟨cutSeg.with ⟨2, PRIORITY_FATAL, 22,
    (writeAt cutSlot.content 3 coreDesc).getD []⟩, cutSeg.killed (.longer _ (by decide) (by decide +kernel)), ?_⟩
  decide +kernel

/-! ## A process killed while it creates the segment -/

/-- C124, the property is violated: a process killed after `shmget` has created the segment (fn_load.h 58)
and before `shm_id_` is stored (73) leaves a segment that is refused by every later call and is not changed
by it, so the logger cannot be started until somebody removes the segment by hand. -/
theorem C124_birth_counterexample (L N maxCh fuel : Nat) (size idx : Int) (hi : idx ≠ 0) (s : Shm)
    (hs : s = zeroShm N ∨ s = { zeroShm N with size := size }) :
    BirthCut N size idx s ∧
    loadSharedMemory L N maxCh size fuel (.existing idx s) = .val ⟨.versionWrong, some s, none⟩ ∧
    ∀ s', SegCut L N maxCh fuel size idx s s' → s' = s := by
  have hid : s.id ≠ idx := by
    rcases hs with rfl | rfl
    · exact fun e => hi e.symm
    · exact fun e => hi e.symm
  refine ⟨?_, C22_mismatch_refused L N maxCh size fuel idx s (.inr hid), ?_⟩
  · rcases hs with rfl | rfl
    · exact .zero
    · exact .size
  · intro s' h
    cases h with
    | start => rfl
    | ring i s1 m _ h2 => exact absurd h2 hid

/-- C124: killed after `shm_id_` is stored, the next call takes the segment over: it is empty. -/
theorem C124_born (L N maxCh fuel : Nat) (size idx : Int) (s : Shm) (h : BirthCut N size idx s)
    (h1 : s.size = size) (h2 : s.id = idx) :
    loadSharedMemory L N maxCh size fuel (.existing idx s) = .val ⟨.ok, some s, some s⟩ := by
  have hc : s.channelSize = 0 := by cases h <;> rfl
  simp only [loadSharedMemory, loadSharedMemory.go]
  rw [if_neg (by rw [h1, h2]; omega), hc]
  rfl

/-- The hypotheses of `C124_born` are met. -/
theorem C124_case_born : ∃ s, BirthCut 64 1000 7 s ∧ s.size = 1000 ∧ s.id = 7 :=
  ⟨{ zeroShm 64 with size := 1000, id := 7 }, .id, rfl, rfl⟩

end FNLog
