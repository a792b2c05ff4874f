import Verif.Props.Ring
import Verif.Proof.RecoverLife

/-!
# Properties C18 - C22: crash recovery

`Ring.Life c f s past` says that `s` is the state of a channel in shared memory after any history of
log statements, thread steps, starts, stops and crashes followed by re-attachment; `past` are the
positions (of log statements in order of acquisition) output in the sessions before the last crash.
-/

namespace FNLog
open Ring Spec

/-- The published lines that were not released yet. -/
def publishedLines (s : St Char) : List (List Char) :=
  ((s.acquired.map Prod.snd).drop s.R).take (s.W - s.R)

/-- What the slots of acquired, unpublished logs contain. -/
def unpublishedTexts (c : Cfg Char) (s : St Char) : List (List Char) :=
  (List.range' s.W (s.H - s.W)).map (fun k => s.cell (k % c.L))

theorem recovered_lines (c : Cfg Char) (f : List Char → List Char) {s : St Char} (hi : Inv c s) :
    ((recover c f s).acquired.map Prod.snd).drop s.R = publishedLines s ++ (unpublishedTexts c s).map f := by
  have h1 := hi.leRP
  have h2 := hi.lePW
  have h3 := hi.leWH
  have hlen := hi.len
  apply List.ext_getElem?
  intro i
  rw [List.getElem?_drop, List.getElem?_map, recover_acquired]
  have hpl : (publishedLines s).length = s.W - s.R := by
    simp only [publishedLines, List.length_take, List.length_drop, List.length_map]; omega
  by_cases hiW : s.R + i < s.W
  · rw [List.getElem?_append_left (by omega)]
    simp only [publishedLines, hiW, if_true, Option.map_id']
    rw [List.getElem?_take_of_lt (by omega), List.getElem?_drop, List.getElem?_map]
  · rw [List.getElem?_append_right (by omega), hpl]
    simp only [hiW, if_false, Option.map_map]
    simp only [unpublishedTexts, List.map_map, List.getElem?_map]
    by_cases hiH : s.R + i < s.H
    · rw [List.getElem?_eq_getElem (by omega), List.getElem?_range' (by omega)]
      simp only [Option.map_some, Function.comp_apply, Option.some.injEq]
      rw [show s.W + 1 * (i - (s.W - s.R)) = s.R + i by omega]
    · rw [List.getElem?_eq_none (by omega), List.getElem?_eq_none (by simp only [List.length_range']; omega)]
      rfl

/-! ## C18 -/

/-- C18, memory level, async and sync: LoadSharedMemory succeeds on the memory image of every reachable
queue; the published and not released slots are untouched, the unpublished ones become FATAL, and
the image then represents the queue `recover c (recoveredLine N) s`. -/
theorem C18_image_recovered_partial (c : Cfg Char) (hL : 0 < c.L) (N : Nat) (hN : 20 ≤ N)
    (es : List (Ev Char)) (ht : Timely c (init c) es) (m : RingMem) (hm : Repr c N (after c es) m) (fuel : Nat)
    (hf : c.L ≤ fuel) :
    ∃ m', recoverRing c.L N fuel m = .val (.ok, m') ∧
      Repr c N (recover c (recoveredLine N) (after c es)) m' ∧
      (∀ k, (after c es).W ≤ k → k < (after c es).H → (m'.buffer (k % c.L)).priority = PRIORITY_FATAL) ∧
      (∀ k, (after c es).R ≤ k → k < (after c es).W → m'.buffer (k % c.L) = m.buffer (k % c.L)) :=
  recover_refines c N fuel hN _ (inv_after hL ht) m hm hf

/-- C18, async channels: after a crash at any point of any history (itself possibly with crashes), the
next session outputs first the published lines that were not released, unchanged and in order, then
the unpublished ones completed by the marker, then the new ones: at any time a prefix of that.
Missing from the full statement: sync channels (`C18_sync_counterexample`), and that the text of an
unpublished log is its own (`C18_stale_text_counterexample`). -/
theorem C18_async_order_partial (c : Cfg Char) (hL : 0 < c.L) (hA : c.async = true) (N : Nat)
    (s : St Char) (past : List Nat) (h : Life c (recoveredLine N) s past) (es : List (Ev Char))
    (ht : Timely c (recover c (recoveredLine N) s) es) :
    ∃ new, (run c (recover c (recoveredLine N) s) es).acquired =
        (recover c (recoveredLine N) s).acquired ++ new ∧
      InOrderPrefix (publishedLines s ++ (unpublishedTexts c s).map (recoveredLine N) ++ new.map Prod.snd)
        ((run c (recover c (recoveredLine N) s) es).out.map Prod.snd) := by
  obtain ⟨hi, ho, _, _⟩ := h.inv hL hA
  obtain ⟨new, hnew⟩ := acquired_mono c es (recover c (recoveredLine N) s)
  refine ⟨new, hnew, ?_⟩
  obtain ⟨hi', ho', _, _⟩ := ((h.crash).run ht).inv hL hA
  have hseg := out_segment hi' ho'
  have hb : (run c (recover c (recoveredLine N) s) es).base = s.R := base_run c es _
  rw [hb, hnew, List.map_append] at hseg
  have hlen : s.R ≤ ((recover c (recoveredLine N) s).acquired.map Prod.snd).length := by
    have := hi.leRP
    have := hi.lePW
    have := hi.leWH
    have := hi.len
    simp only [recover, List.length_map, List.length_mapIdx]; omega
  rw [List.drop_append_of_le_length hlen, recovered_lines c _ hi] at hseg
  exact ⟨_, by rw [hseg]; exact List.take_append_drop _ _⟩

/-- C18, async channels: and nothing is forgotten: when the new session is stopped after its log
statements have returned, all of it has been output when the worker ends, which it does within a
bounded number of its own steps. -/
theorem C18_async_complete_partial (c : Cfg Char) (hL : 0 < c.L) (hA : c.async = true) (N : Nat)
    (s : St Char) (past : List Nat) (h : Life c (recoveredLine N) s past) (es es' : List (Ev Char))
    (ht : Timely c (recover c (recoveredLine N) s) es) (hn : ∀ e ∈ es, e.noStop)
    (hrun : (run c (recover c (recoveredLine N) s) es).state = .running)
    (hidle : ∀ t, t ≠ worker → (run c (recover c (recoveredLine N) s) es).pc t = .idle)
    (hsteps : 30 * c.L + 17 ≤ workerSteps es') :
    ∃ new, (run c (recover c (recoveredLine N) s) es).acquired =
        (recover c (recoveredLine N) s).acquired ++ new ∧
      (run c (recover c (recoveredLine N) s) (es ++ .stop :: es')).out.map Prod.snd =
        publishedLines s ++ (unpublishedTexts c s).map (recoveredLine N) ++ new.map Prod.snd := by
  obtain ⟨hi, ho, _, _⟩ := h.inv hL hA
  obtain ⟨new, hnew⟩ := acquired_mono c es (recover c (recoveredLine N) s)
  refine ⟨new, hnew, ?_⟩
  obtain ⟨hi', ho', _, _⟩ := ((h.crash).run ht).inv hL hA
  obtain ⟨hns, hresp⟩ := resp_run (hi.recover (recoveredLine N) (Or.inl hA)) (NS.recover _ s)
    (Resp.recover _ s hA) ht hn
  obtain ⟨g1, g2⟩ := drains_from hA hi' ho' hns hresp hrun hidle es'
  rw [run_append, g1 (g2 hsteps), base_run, hnew, List.map_append]
  have hlen : s.R ≤ ((recover c (recoveredLine N) s).acquired.map Prod.snd).length := by
    have := hi.leRP
    have := hi.lePW
    have := hi.leWH
    have := hi.len
    simp only [recover, List.length_map, List.length_mapIdx]; omega
  have := recovered_lines c (recoveredLine N) hi
  show (List.map Prod.snd (recover c (recoveredLine N) s).acquired ++ new.map Prod.snd).drop s.R = _
  rw [List.drop_append_of_le_length hlen, this]

/-- C18: what an unpublished slot contains: the complete line if the log statement had finished
writing; the part written so far if it was writing; whatever was there before if the log statement had
acquired the slot but not begun to write. -/
theorem C18_unpublished_text_partial (c : Cfg Char) (hL : 0 < c.L) (es : List (Ev Char))
    (ht : Timely c (init c) es) (k : Nat) (h1 : (after c es).W ≤ k) (h2 : k < (after c es).H) (x : Nat × List Char)
    (hx : (after c es).acquired[k]? = some x) :
    (∃ rest, x.2 = (after c es).cell (k % c.L) ++ rest) ∨
    ((∃ t b, (after c es).pc t = .hInc k b ∨ (after c es).pc t = .hMark k b ∨ (after c es).pc t = .fInit k b)) ∨
    k ∈ (after c es).lost := by
  have hi := inv_after hL ht
  rcases hi.mWH k h1 h2 with h | ⟨t, h⟩ | ⟨_, h⟩
  · left
    have := hi.sealedH k h1 h2 h
    rw [hx] at this
    simp only [Option.map_some, Option.some.injEq] at this
    exact ⟨[], by rw [this, List.append_nil]⟩
  · have hti := hi.ti t
    cases hp : (after c es).pc t <;> rw [hp] at h hti <;> simp only [pown, Option.some.injEq, reduceCtorEq] at h <;>
      subst h <;> simp only [TI] at hti <;> rw [hx] at hti <;> simp only [Option.some.injEq] at hti
    case hInc b => exact Or.inr (Or.inl ⟨t, b, Or.inl hp⟩)
    case hMark b => exact Or.inr (Or.inl ⟨t, b, Or.inr (Or.inl hp)⟩)
    case fInit b => exact Or.inr (Or.inl ⟨t, b, Or.inr (Or.inr hp)⟩)
    case fill r => exact Or.inl ⟨r ++ [c.nl], by rw [hti.2]; simp⟩
    case pChk => exact Or.inl ⟨[c.nl], by rw [hti.2]⟩
    case pSeal => exact Or.inl ⟨[c.nl], by rw [hti.2]⟩
    case pMark => exact Or.inl ⟨[], by rw [hti.2]; simp⟩
  · exact Or.inr (Or.inr h)

/-- `n` steps of a thread, on characters. -/
def stepsC (t n : Nat) : List (Ev Char) := List.replicate n (.run t)

/-- Async ring of 11 slots (the smallest the static_assert of fn_data.h 284 allows). -/
def ring11 : Cfg Char := ⟨11, true, '\n'⟩

/-- Eleven logs are output, then thread 1 acquires a slot for the text "new" and the process dies. -/
def staleSched : List (Ev Char) :=
  stepsC 0 5 ++ [.started] ++
    ((List.range 11).map (fun i => .call 1 ['o', 'l', 'd', Char.ofNat (65 + i)] :: (stepsC 1 25 ++ stepsC 0 30))).flatten ++
    (.call 1 "new".toList :: stepsC 1 4)

/-- C18 is false for a log whose statement had acquired its slot but not yet begun to write: the
recovered line is the text of an older log, already output, with the marker appended. -/
theorem C18_stale_text_counterexample :
    Timely ring11 (init ring11) staleSched ∧
    (after ring11 staleSched).acquired[11]? = some (1, "new\n".toList) ∧
    (after ring11 staleSched).out[0]? = some (0, "oldA\n".toList) ∧
    (unpublishedTexts ring11 (after ring11 staleSched)).map (recoveredLine 10000) =
      ["oldA\n!!!core recover!!!\n".toList] := by decide +kernel

/-- Non-trivial case for the theorems above: one published log, one half written. -/
def crashSched : List (Ev Char) :=
  stepsC 0 5 ++ [.started, .call 1 "first".toList] ++ stepsC 1 30 ++ [.call 2 "second".toList] ++ stepsC 2 10

example : Timely ring11 (init ring11) crashSched ∧
    publishedLines (after ring11 crashSched) = ["first\n".toList] ∧
    (unpublishedTexts ring11 (after ring11 crashSched)).map (recoveredLine 10000) =
      ["sec!!!core recover!!!\n".toList] := by decide +kernel

/-- The session after the crash meets the hypotheses of `C18_async_complete_partial`. -/
example : let s := recover ring11 (recoveredLine 10000) (after ring11 crashSched)
    let es := stepsC 0 40 ++ [.started, .call 3 "third".toList] ++ stepsC 3 30
    Timely ring11 s es ∧ (run ring11 s es).state = .running ∧ (run ring11 s es).pc 3 = .idle ∧
    (run ring11 s (es ++ .stop :: stepsC 0 (30 * 11 + 17))).out.map Prod.snd =
      ["first\n".toList, "sec!!!core recover!!!\n".toList, "third\n".toList] := by decide +kernel

/-- A crash of a sync channel: thread 1 is outputting log 0, thread 2 has output log 1. -/
def syncCrashSched : List (Ev Char) :=
  [.started, .call 1 ['a']] ++ stepsC 1 24 ++ [.call 2 ['b']] ++ stepsC 2 50

/-- The session after it, two threads. -/
def syncAfterSched : List (Ev Char) :=
  [.started, .call 1 ['c']] ++ stepsC 1 37 ++
    ((List.range 11).map (fun i => .call 2 [Char.ofNat (65 + i)] :: stepsC 2 80)).flatten ++ stepsC 1 2

def ring11s : Cfg Char := ⟨11, false, '\n'⟩

/-- C18 on a sync channel: the slot of log 1 is released while thread 1 is outputting it, because its
mark was already cleared before the crash; a new log is written into it, so the recovered line is not
output and the new one twice. -/
theorem C18_sync_counterexample :
    Timely ring11s (init ring11s) syncCrashSched ∧
    Timely ring11s (recover ring11s (recoveredLine 10000) (after ring11s syncCrashSched)) syncAfterSched ∧
    publishedLines (after ring11s syncCrashSched) = ["a\n".toList, "b\n".toList] ∧
    (run ring11s (recover ring11s (recoveredLine 10000) (after ring11s syncCrashSched)) syncAfterSched).out.map
      Prod.snd = ["a\n", "c\n", "A\n", "B\n", "C\n", "D\n", "E\n", "F\n", "G\n", "H\n", "I\n", "J\n", "K\n",
        "J\n"].map String.toList := by decide +kernel

/-- C18, sync channels: if no log was completely output but unreleased at the crash, the recovered
channel satisfies all invariants of a running channel, so each recovered and each new line is output
at most once, unaltered. -/
theorem C18_sync_partial (c : Cfg Char) (hL : 0 < c.L) (es : List (Ev Char))
    (ht : Timely c (init c) es) (N : Nat)
    (hs : ∀ k, (after c es).R ≤ k → k < (after c es).P → (after c es).mark (k % c.L) = .ready)
    (es' : List (Ev Char)) (ht' : Timely c (recover c (recoveredLine N) (after c es)) es') :
    ∃ new, (run c (recover c (recoveredLine N) (after c es)) es').acquired =
        (recover c (recoveredLine N) (after c es)).acquired ++ new ∧
      EachAtMostOnce
        (publishedLines (after c es) ++ (unpublishedTexts c (after c es)).map (recoveredLine N) ++ new.map Prod.snd)
        ((run c (recover c (recoveredLine N) (after c es)) es').out.map Prod.snd) := by
  have hi := inv_after hL ht
  have hi' := (hi.recover (recoveredLine N) (Or.inr hs)).run ht'
  obtain ⟨new, hnew⟩ := acquired_mono c es' (recover c (recoveredLine N) (after c es))
  refine ⟨new, hnew, ?_⟩
  have hlen : (after c es).R ≤ ((recover c (recoveredLine N) (after c es)).acquired.map Prod.snd).length := by
    have := hi.leRP
    have := hi.lePW
    have := hi.leWH
    have := hi.len
    simp only [recover, List.length_map, List.length_mapIdx]; omega
  rw [← recovered_lines c _ hi, ← List.drop_append_of_le_length hlen, ← List.map_append, ← hnew]
  have hb : (run c (recover c (recoveredLine N) (after c es)) es').base = (after c es).R := base_run c es' _
  have h1 := outLines hi'
  refine atMostOnce_of_positions _ _
    (((run c (recover c (recoveredLine N) (after c es)) es').out.map Prod.fst).map (· - (after c es).R)) ?_ ?_
  · rw [List.Nodup, List.pairwise_map]
    refine List.Pairwise.imp_of_mem ?_ hi'.outND
    intro a b ha hb' hne he
    have h2 := ((hi'.outMem a).1 ha).1
    have h3 := ((hi'.outMem b).1 hb').1
    omega
  · rw [List.map_map, List.map_map]
    have : (run c (recover c (recoveredLine N) (after c es)) es').out.map (some ∘ Prod.snd) =
        (run c (recover c (recoveredLine N) (after c es)) es').out.map (fun e => some e.2) := rfl
    rw [this, h1, List.map_map, List.map_map]
    apply List.map_congr_left
    intro e he
    simp only [Function.comp_apply, List.getElem?_drop]
    have h2 := ((hi'.outMem e.1).1 (List.mem_map_of_mem he)).1
    rw [show (after c es).R + (e.1 - (after c es).R) = e.1 by omega]

/-- Non-trivial case: thread 1 was outputting log 0, log 1 of thread 2 was published. -/
example : let s := after ring11s ([.started, .call 1 ['a']] ++ stepsC 1 24 ++ [.call 2 ['b']] ++ stepsC 2 19)
    s.R = 0 ∧ s.P = 1 ∧ s.W = 2 ∧ s.mark 0 = .ready := by decide +kernel

/-! ## C19 -/

/-- C19, async channels, crash while the logger is starting, running or draining (any history,
including earlier crashes): a log output before the crash and output again after it is the one at the
read position, so there is at most one.
Missing from the full statement: a crash inside the index reset at the end of StopLogger
(`C19_counterexample`). -/
theorem C19_one_repeat_partial (c : Cfg Char) (hL : 0 < c.L) (hA : c.async = true) (N : Nat)
    (s : St Char) (past : List Nat) (h : Life c (recoveredLine N) s past) (es : List (Ev Char))
    (ht : Timely c (recover c (recoveredLine N) s) es) (k : Nat)
    (h1 : k ∈ past ∨ k ∈ s.out.map Prod.fst)
    (h2 : k ∈ (run c (recover c (recoveredLine N) s) es).out.map Prod.fst) :
    k = s.R := by
  obtain ⟨hi, ho, hp, hout⟩ := h.inv hL hA
  obtain ⟨hi', _, _, _⟩ := ((h.crash).run ht).inv hL hA
  have hge := ((hi'.outMem k).1 h2).1
  rw [base_run] at hge
  have hge' : s.R ≤ k := hge
  have hle := ho.le
  rcases h1 with h1 | h1
  · have h3 := hp k h1; omega
  · have h3 := hout k h1; omega

/-- Non-trivial case: the worker has output log 0 and dies before releasing it. -/
def repeatSched : List (Ev Char) := stepsC 0 5 ++ [.started, .call 1 "first".toList] ++ stepsC 1 30 ++ stepsC 0 8

example : Timely ring11 (init ring11) repeatSched ∧
    (after ring11 repeatSched).out = [(0, "first\n".toList)] ∧ (after ring11 repeatSched).R = 0 ∧
    (run ring11 (recover ring11 (recoveredLine 10000) (after ring11 repeatSched)) (stepsC 0 9)).out =
      [(0, "first\n".toList)] := by decide +kernel

/-- Three logs, a stop, everything is output and the worker has ended. -/
def stoppedSched : List (Ev Char) :=
  stepsC 0 5 ++ [.started] ++ ((List.range 3).map (fun i => .call 1 [Char.ofNat (65 + i)] :: stepsC 1 25)).flatten ++
    [.closing, .stop] ++ stepsC 0 70

/-- C19 is false for a crash in the index reset of StopLogger: if the process dies right after
`read_idx_ = 0` (fn_core.h 161) all three logs are output again; and if it dies after
`write_idx_ = 0` they are output again with the marker. -/
theorem C19_counterexample :
    (after ring11 stoppedSched).pc worker = .done ∧
    (after ring11 stoppedSched).out.map Prod.snd = [['A', '\n'], ['B', '\n'], ['C', '\n']] ∧
    (run ring11 (recover ring11 (recoveredLine 10000) (cleanCut ring11 1 (after ring11 stoppedSched)))
      (stepsC 0 60)).out.map Prod.snd = [['A', '\n'], ['B', '\n'], ['C', '\n']] ∧
    (run ring11 (recover ring11 (recoveredLine 10000) (cleanCut ring11 3 (after ring11 stoppedSched)))
      (stepsC 0 60)).out.map Prod.snd =
      ["A\n!!!core recover!!!\n", "B\n!!!core recover!!!\n", "C\n!!!core recover!!!\n"].map String.toList := by
  decide +kernel

/-- C19 in CleanChannels: how many records the next session outputs of a channel that had output everything.  None, if the
process dies before the first store or after the last one; otherwise as many as the index says (`C19_counterexample`: they had
been output already). -/
theorem C19_clean_cut (c : Cfg Char) (N n : Nat) (s : St Char) (hW : s.W = s.H) :
    let r := recover c (recoveredLine N) (cleanCut c n s)
    r.W - r.R = (if n = 0 ∨ 4 ≤ n then 0 else s.H % c.L) ∧ r.P = r.R ∧ r.W = r.H := by
  refine ⟨?_, rfl, rfl⟩
  simp only [recover, cleanCut, hW]
  by_cases h0 : n = 0
  · subst h0; simp
  · by_cases h4 : 4 ≤ n
    · simp [h4]
    · rw [if_neg h4, if_pos (by omega : 1 ≤ n), if_neg (by omega)]
      rfl

example : (after ring11 stoppedSched).W = (after ring11 stoppedSched).H ∧ (after ring11 stoppedSched).H % ring11.L = 3 := by
  decide +kernel

/-! ## C20 -/

/-- C20: for every content and every length between 0 and LOG_SIZE the repair of a slot is defined (no
write outside of the record), the line it leaves is the written text, cut if necessary, with the marker
and a newline, and a NUL follows inside the record. -/
theorem C20_recovered_slot (N : Nat) (hN : 20 ≤ N) (s : Slot) (hc : s.content.length = N)
    (h0 : 0 ≤ s.len) (h1 : s.len ≤ N) :
    ∃ s', recoverSlot N s = some s' ∧ s'.mark = 2 ∧ s'.priority = PRIORITY_FATAL ∧
      s'.content.length = N ∧ 0 ≤ s'.len ∧ s'.len < N ∧
      s'.content.take s'.len.toNat = recoveredLine N (s.content.take s.len.toNat) ∧
      s'.content[s'.len.toNat]? = some '\x00' :=
  recoverSlot_spec N hN s hc h0 h1

/-- LOG_SIZE of the code, a full record. -/
example : ∃ s : Slot, s.content.length = LOG_SIZE ∧ s.len = LOG_SIZE ∧ 20 ≤ LOG_SIZE :=
  ⟨⟨1, 0, LOG_SIZE, List.replicate LOG_SIZE 'x'⟩, List.length_replicate, rfl, by decide⟩

/-- A negative stored length is undefined behaviour: the marker is written in front of the record. -/
theorem C20_negative_length (N : Nat) (s : Slot) (h : s.len < 0) : recoverSlot N s = none := by
  unfold recoverSlot
  simp only
  rw [if_pos]
  have := Int.min_le_left s.len ((N : Int) - (coreDesc.length : Int) - 2)
  omega

/-! ## C21 -/

/-- C21, for stored indices with `hold_idx_` in range (and sane lengths): the recovery of a ring ends
within `BUFFER_LEN` rounds for every value of the other indices; an out-of-range write or read position
is refused.
Missing from the full statement: `hold_idx_` out of range (`C21_counterexample`). -/
theorem C21_terminates_partial (L N : Nat) (hL : 0 < L) (hN : 20 ≤ N) (m : RingMem)
    (hh : 0 ≤ m.hold ∧ m.hold < L)
    (hb : ∀ i, i < L → (m.buffer i).content.length = N ∧ 0 ≤ (m.buffer i).len) (fuel : Nat) (hf : L ≤ fuel) :
    ∃ code m', recoverRing L N fuel m = .val (code, m') ∧
      ((m.write < 0 ∨ (L : Int) ≤ m.write) → code = .versionWrong) ∧
      ((0 ≤ m.write ∧ m.write < L) → (m.read < 0 ∨ (L : Int) ≤ m.read) → code = .badRead) ∧
      ((0 ≤ m.write ∧ m.write < L) → (0 ≤ m.read ∧ m.read < L) → code = .ok ∧ m'.write = m.hold ∧
        m'.hold = m.hold ∧ m'.read = m.read ∧ m'.proc = m.read) := by
  by_cases hw : m.write ≥ (L : Int) ∨ m.write < 0
  · refine ⟨.versionWrong, m, by unfold recoverRing; rw [if_pos hw], fun _ => rfl, ?_, ?_⟩ <;>
      intro h <;> omega
  · have hn : ∃ n : Nat, n < L ∧ m.hold = (m.write + n) % L := by
      refine ⟨((m.hold - m.write) % L).toNat, ?_, ?_⟩
      · have h1 := Int.emod_lt_of_pos (m.hold - m.write) (show (0 : Int) < L by omega)
        have h2 := Int.emod_nonneg (m.hold - m.write) (show (L : Int) ≠ 0 by omega)
        omega
      · have h2 := Int.emod_nonneg (m.hold - m.write) (show (L : Int) ≠ 0 by omega)
        rw [Int.toNat_of_nonneg h2, Int.add_emod_emod, show m.write + (m.hold - m.write) = m.hold by omega]
        exact (Int.emod_eq_of_lt hh.1 hh.2).symm
    obtain ⟨n, hn1, hn2⟩ := hn
    obtain ⟨m', e1, e2, e3⟩ := recoverLoop_ends L N hL hN n fuel m (by omega) (by omega) (by omega) hn2 hn1 hb
    unfold recoverRing
    rw [if_neg hw, e1]
    simp only
    by_cases hr : m'.read ≥ (L : Int) ∨ m'.read < 0
    · rw [if_pos hr]
      refine ⟨_, _, rfl, fun h => by omega, fun _ _ => rfl, fun _ h => by omega⟩
    · rw [if_neg hr]
      exact ⟨_, _, rfl, fun h => by omega, fun _ h => by omega,
        fun _ _ => ⟨rfl, e2, e2, e3, e3⟩⟩

/-- Non-trivial case: wrapped indices, two held slots. -/
example : ∃ m : RingMem, m.write = 10 ∧ m.hold = 1 ∧ m.read = 7 ∧
    ∀ i, i < 11 → (m.buffer i).content.length = 100 ∧ 0 ≤ (m.buffer i).len :=
  ⟨⟨10, 1, 7, 8, fun _ => ⟨1, 0, 5, List.replicate 100 'x'⟩⟩, rfl, rfl, rfl,
    fun _ _ => ⟨List.length_replicate, by show (0 : Int) ≤ 5; decide⟩⟩

/-- C21 is false: with `hold_idx_` out of range and everything else sane, re-attaching never ends: no
number of rounds is enough. -/
theorem C21_counterexample (L N : Nat) (hL : 0 < L) (hN : 20 ≤ N) (m : RingMem)
    (hw : 0 ≤ m.write ∧ m.write < L) (hh : m.hold < 0 ∨ (L : Int) ≤ m.hold)
    (hb : ∀ i, i < L → (m.buffer i).content.length = N ∧ 0 ≤ (m.buffer i).len ∧ (m.buffer i).len ≤ N) :
    ∀ fuel, recoverRing L N fuel m = .running := by
  intro fuel
  unfold recoverRing
  rw [if_neg (by omega), recoverLoop_runs L N hL hN fuel m hw.1 hw.2 hh hb]

example : ∃ m : RingMem, (0 ≤ m.write ∧ m.write < (11 : Nat)) ∧ ((11 : Nat) : Int) ≤ m.hold ∧
    ∀ i, i < 11 → (m.buffer i).content.length = 100 ∧ 0 ≤ (m.buffer i).len ∧ (m.buffer i).len ≤ (100 : Nat) :=
  ⟨⟨0, 11, 0, 0, fun _ => ⟨0, 0, 0, List.replicate 100 'x'⟩⟩, by decide, by decide,
    fun _ _ => ⟨List.length_replicate, Int.le_refl 0, by show (0 : Int) ≤ 100; decide⟩⟩

theorem recoverRings_beyond (L N maxCh fuel : Nat) : ∀ (n i : Nat) (s s' : Shm) (code : LoadCode),
    recoverRings L N maxCh fuel n i s = .val (code, s') →
    (∀ j, i + n ≤ j → s'.rings j = s.rings j) ∧ s'.id = s.id ∧ s'.size = s.size ∧
      s'.channelSize = s.channelSize := by
  intro n
  induction n with
  | zero => intro i s s' code h; simp only [recoverRings] at h; cases h; exact ⟨fun _ _ => rfl, rfl, rfl, rfl⟩
  | succ n ih =>
    intro i s s' code h
    simp only [recoverRings] at h
    split at h
    · cases h; exact ⟨fun _ _ => rfl, rfl, rfl, rfl⟩
    · split at h
      · cases h
      · cases h
      · rename_i c m e
        split at h
        · obtain ⟨h1, h2, h3, h4⟩ := ih _ _ _ _ h
          refine ⟨fun j hj => ?_, h2, h3, h4⟩
          rw [h1 j (by omega)]
          simp only
          exact upd_ne _ _ (by omega)
        · cases h
          exact ⟨fun j hj => upd_ne _ _ (by omega), rfl, rfl, rfl⟩

/-- C21: only the rings below the recorded number of channels are checked and repaired; a configuration
with more channels than the crashed one finds the remaining rings as they are. -/
theorem C21_only_recorded_channels (L N maxCh : Nat) (size : Int) (fuel : Nat) (idx : Int) (seg s' : Shm)
    (att : Option Shm) (code : LoadCode)
    (h : loadSharedMemory L N maxCh size fuel (.existing idx seg) = .val ⟨code, some s', att⟩) (j : Nat)
    (hj : seg.channelSize.toNat ≤ j) : s'.rings j = seg.rings j := by
  simp only [loadSharedMemory, loadSharedMemory.go] at h
  split at h
  · cases h; rfl
  · split at h
    · cases h
    · cases h
    · rename_i c s e
      cases h
      exact (recoverRings_beyond _ _ _ _ _ _ _ _ _ e).1 j (by omega)

/-- Non-trivial case: a segment with one recorded channel loads; its second ring, with a held slot, is
left as it was. -/
example : ∃ s' att, loadSharedMemory 11 100 2 77 11 (.existing 5 ⟨5, 77, 1, fun i =>
      if i = 0 then ⟨0, 0, 0, 0, fun _ => ⟨0, 0, 0, List.replicate 100 'x'⟩⟩
      else ⟨0, 1, 0, 0, fun _ => ⟨1, 0, 0, List.replicate 100 'x'⟩⟩⟩) = .val ⟨.ok, some s', att⟩ ∧
    (s'.rings 1).write = 0 ∧ (s'.rings 1).hold = 1 := ⟨_, _, rfl, by decide⟩

/-! ## C22 -/

/-- C22: an existing segment whose recorded size or id differs is refused with the version error; it is
left as it is and the logger does not get a queue. -/
theorem C22_mismatch_refused (L N maxCh : Nat) (size : Int) (fuel : Nat) (idx : Int) (seg : Shm)
    (h : seg.size ≠ size ∨ seg.id ≠ idx) :
    loadSharedMemory L N maxCh size fuel (.existing idx seg) = .val ⟨.versionWrong, some seg, none⟩ := by
  simp only [loadSharedMemory, loadSharedMemory.go, if_pos h]

/-- C22: conversely, whenever the logger gets a queue from an existing segment the call reports success,
the header matched, every recorded channel was in range and has in-range, consistent indices. -/
theorem C22_attached_only_if_valid (L N maxCh : Nat) (size : Int) (fuel : Nat) (idx : Int)
    (seg s' : Shm) (code : LoadCode) (seg' : Option Shm) (hL : 0 < L)
    (h : loadSharedMemory L N maxCh size fuel (.existing idx seg) = .val ⟨code, seg', some s'⟩) :
    code = .ok ∧ seg.size = size ∧ seg.id = idx ∧ seg.channelSize ≤ maxCh ∧
      ∀ i, i < seg.channelSize.toNat → (s'.rings i).write = (s'.rings i).hold ∧
        (s'.rings i).proc = (s'.rings i).read ∧ 0 ≤ (s'.rings i).read ∧ (s'.rings i).read < L ∧
        0 ≤ (s'.rings i).write ∧ (s'.rings i).write < L := by
  simp only [loadSharedMemory, loadSharedMemory.go] at h
  split at h
  · cases h
  · rename_i hm
    split at h
    · cases h
    · cases h
    · rename_i c s e
      by_cases hc : c = .ok
      · simp only [hc, if_true, Out.val.injEq, Loaded.mk.injEq, Option.some.injEq] at h
        obtain ⟨h1, _, h3⟩ := h
        subst h3
        subst hc
        have loop : ∀ (fuel : Nat) (m m' : RingMem), 0 ≤ m.write → m.write < L →
            recoverLoop L N fuel m = .val m' → 0 ≤ m'.write ∧ m'.write < L := by
          intro fuel
          induction fuel with
          | zero =>
            intro m m' h1 h2 h
            simp only [recoverLoop] at h
            split at h
            · cases h; exact ⟨h1, h2⟩
            · cases h
          | succ n ih =>
            intro m m' h1 h2 h
            simp only [recoverLoop] at h
            split at h
            · cases h; exact ⟨h1, h2⟩
            · split at h
              · cases h
              · exact ih _ _ (Int.emod_nonneg _ (by omega)) (Int.emod_lt_of_pos _ (by omega)) h
        have ring : ∀ (m m' : RingMem), recoverRing L N fuel m = .val (.ok, m') →
            m'.write = m'.hold ∧ m'.proc = m'.read ∧ 0 ≤ m'.read ∧ m'.read < L ∧ 0 ≤ m'.write ∧ m'.write < L := by
          intro m m' h
          unfold recoverRing at h
          split at h
          · cases h
          · split at h
            · cases h
            · cases h
            · rename_i m1 e1
              have := loop _ _ _ (by omega) (by omega) e1
              simp only at h
              split at h
              · cases h
              · cases h
                exact ⟨rfl, rfl, by simp only; omega, by simp only; omega, this⟩
        have rings : ∀ (n i : Nat) (s s' : Shm), recoverRings L N maxCh fuel n i s = .val (.ok, s') →
            (n = 0 ∨ i + n ≤ maxCh) ∧ (∀ j, j < i → s'.rings j = s.rings j) ∧
            ∀ j, i ≤ j → j < i + n → (s'.rings j).write = (s'.rings j).hold ∧
              (s'.rings j).proc = (s'.rings j).read ∧ 0 ≤ (s'.rings j).read ∧ (s'.rings j).read < L ∧
              0 ≤ (s'.rings j).write ∧ (s'.rings j).write < L := by
          intro n
          induction n with
          | zero =>
            intro i s s' h
            simp only [recoverRings] at h
            cases h
            exact ⟨Or.inl rfl, fun _ _ => rfl, fun j h1 h2 => by omega⟩
          | succ n ih =>
            intro i s s' h
            simp only [recoverRings] at h
            split at h
            · cases h
            · split at h
              · cases h
              · cases h
              · rename_i hlt _ c m e
                split at h
                · rename_i hok
                  subst hok
                  obtain ⟨h1, h2, h3⟩ := ih _ _ _ h
                  refine ⟨Or.inr (by omega), ?_, ?_⟩
                  · intro j hj
                    rw [h2 j (by omega)]
                    exact upd_ne _ _ (by omega)
                  · intro j hj1 hj2
                    by_cases hj : j = i
                    · subst hj
                      rw [h2 j (by omega)]
                      simp only [upd_same]
                      exact ring _ _ e
                    · exact h3 j (by omega) (by omega)
                · rename_i hne
                  cases h
                  exact absurd rfl hne
        obtain ⟨r1, _, r3⟩ := rings _ _ _ _ e
        refine ⟨h1.symm, ?_, ?_, by omega, fun i hi => r3 i (by omega) (by omega)⟩
        · exact Classical.byContradiction (fun h => hm (Or.inl h))
        · exact Classical.byContradiction (fun h => hm (Or.inr h))
      · simp only [hc, if_false, Out.val.injEq, Loaded.mk.injEq] at h
        exact absurd h.2.2 (by simp)

/-- Non-trivial case: a segment left by a crash with one held slot is attached. -/
example : ∃ s' seg', loadSharedMemory 11 100 2 77 11 (.existing 5 ⟨5, 77, 2, fun _ =>
      ⟨10, 0, 7, 8, fun _ => ⟨1, 0, 3, List.replicate 100 'x'⟩⟩⟩) = .val ⟨.ok, seg', some s'⟩ :=
  ⟨_, _, rfl⟩

end FNLog
