import Verif.Proof.FlushRun
import Verif.Proof.FlushRound
import Verif.Props.Threads

/-!
# C91 to C93: when the lines reach the files

C91: what is written to the file devices reaches the operating system in order and completely: at every moment, the files hold
what the channel without buffering (C72) would have written, except for the last bytes of the open file of a device, which
are in its stream buffer.  No thread leaves more than FN_LOG_FORCE_FLUSH_QUE + 1 records in a buffer, and none at all when its
log statement has returned, or, for the thread of an async channel, when it sleeps or has ended.
C92: no stream is flushed after it was closed.
C93: a line that a file device has received by UDP reaches the file at the latest when the thread of the channel sleeps.
-/

namespace FNLog
open Spec Ring

/-! ## C91 -/

/-- The records of a thread in a buffer. -/
def Spec.unflushed (f : FCrew) (t j : Nat) : Nat := ((f.buf j).filter fun x => x.1 == t).length

theorem unflushed_eq (f : FCrew) (t j : Nat) : unflushed f t j = lagOf (f.buf j) t := by
  unfold unflushed lagOf
  rw [List.filter_map, List.length_map]
  rfl

/-- **C91**: `s` is the state that C72 describes, reached by the same statements.  Missing: schedules in which a
compare-and-swap succeeds although its index went round the ring (`FOnTime`, see C12); sync channels on which files are
rotated or writes fail while log statements overlap (C92). -/
theorem C91_flushed_partial {S : Setup} (hS : Ready S) (hap : FilesApart S.fenv S.channel.id S.channel.devices)
    {o : OutSt} (ho : Own S.fenv S.channel.id S.channel.devices o)
    (hex : ∀ (j : Nat) (d : Device) (p : List Char), S.channel.devices[j]? = some d → d.outType = .file →
      (o.dev j).handle = some p → o.fs p ≠ none)
    (B : Stdio) {es : List Act}
    (hG : (S.cfg.async = true ∨ Steady S) ∨ Serial S B es (fCrew S o)) (he : ∀ e ∈ es, SoundAct S e)
    (ht : FOnTime S B es (fCrew S o)) :
    ∃ (f : FCrew) (rs : List Act) (s : Crew), fActs S B es (fCrew S o) = some f ∧
      rs.Sublist es ∧ (∀ t, statementsOf t rs = statementsOf t es) ∧ OnTime S rs (crew S o) ∧
      acts S rs (crew S o) = some s ∧
      f.crew = { s with out := { s.out with fs := f.crew.out.fs } } ∧
      (∀ p, Foreign S.fenv S.channel.id S.channel.devices p → f.crew.out.fs p = s.out.fs p) ∧
      (∀ (j : Nat) (d : Device) (p : List Char), S.channel.devices[j]? = some d → d.outType = .file →
        FilesOf S.fenv S.channel.id d p →
        bytesOf s.out.fs p = bytesOf f.crew.out.fs p ∨
        (s.out.dev j).handle = some p ∧ ∃ x, bytesOf f.crew.out.fs p = some x ∧
          bytesOf s.out.fs p = some (x ++ (f.buf j).bytes)) ∧
      (∀ t j, unflushed f t j ≤ B.queue + 1) ∧
      (∀ t, AtRest f t → ∀ j, unflushed f t j = 0) ∧
      ((∀ t, AtRest f t) → ∀ (j : Nat) (d : Device) (p : List Char), S.channel.devices[j]? = some d → d.outType = .file →
        FilesOf S.fenv S.channel.id d p → bytesOf f.crew.out.fs p = bytesOf s.out.fs p) := by
  obtain ⟨f, rs, s, h1, h2, h3, h4, h5, h6⟩ := (FInv.init B hS ho hex).acts hS hap hG he ht
  refine ⟨f, rs, s, h1, h2, h3, h4, h5, ?_, h6.rel.foreign, ?_, ?_, ?_, ?_⟩
  · have e : f.crew.out = { s.out with fs := f.crew.out.fs } := by
      have e1 := h6.rel.dev; have e2 := h6.rel.screen; have e3 := h6.rel.net
      generalize f.crew.out = a at e1 e2 e3
      obtain ⟨_, _, _, _⟩ := a
      simp only at e1 e2 e3
      subst e1 e2 e3
      rfl
    rw [← e]
    exact h6.rel.crew_eq
  · intro j d p hj hd hp
    have hr := h6.rel.files j d hj hd
    have hb := hr.files p hp
    unfold pendingAt at hb
    by_cases hh : (f.file j).handle = some p
    · rw [if_pos hh] at hb
      refine Or.inr ⟨by rw [← hh, hr.handle]; rfl, ?_⟩
      cases hx : bytesOf f.crew.out.fs p with
      | none => exact absurd ((bytesOf_none _ _).mp hx) (hr.own p hh).2
      | some x =>
        refine ⟨x, rfl, ?_⟩
        have hx' : bytesOf (f.file j).fs p = some x := hx
        rw [hx'] at hb
        exact hb
    · rw [if_neg hh, option_map_append_nil] at hb
      exact Or.inl hb
  · intro t j
    rw [unflushed_eq]
    exact h6.few t j
  · intro t hr j
    rw [unflushed_eq]
    exact h6.rest hr j
  · intro hall j d p hj hd hp
    have hr := h6.rel.files j d hj hd
    have hb := hr.files p hp
    have hnil : f.buf j = [] := lagOf_all fun t => h6.rest (hall t) j
    have : pendingAt (f.file j) p = [] := by
      unfold pendingAt
      split
      · show (f.buf j).bytes = []
        rw [hnil]; rfl
      · rfl
    rw [this, option_map_append_nil] at hb
    exact hb.symm

/-! ## C92 -/

/-- **C92**: no thread ever flushes a closed stream.  Missing: as for C91; on a sync channel with rotation and overlapping statements it is
false. -/
theorem C92_streams_partial {S : Setup} (hS : Ready S) (hap : FilesApart S.fenv S.channel.id S.channel.devices)
    {o : OutSt} (ho : Own S.fenv S.channel.id S.channel.devices o)
    (hex : ∀ (j : Nat) (d : Device) (p : List Char), S.channel.devices[j]? = some d → d.outType = .file →
      (o.dev j).handle = some p → o.fs p ≠ none)
    (B : Stdio) {es : List Act}
    (hG : (S.cfg.async = true ∨ Steady S) ∨ Serial S B es (fCrew S o)) (he : ∀ e ∈ es, SoundAct S e)
    (ht : FOnTime S B es (fCrew S o)) :
    ∃ f, fActs S B es (fCrew S o) = some f ∧
      ∀ t j g, f.fl t = .call j g → (f.crew.out.dev j).handle ≠ none ∧ f.gen j = g := by
  obtain ⟨f, _, _, h1, _, _, _, _, h6⟩ := (FInv.init B hS ho hex).acts hS hap hG he ht
  exact ⟨f, h1, h6.live⟩

/-! The channel of C64 with a limit of the size of its file. -/

def rollDevice : Device := { demoFile 0 'a' 1 with cfg := { able := 1, priority := 1, limitSize := 60, rollback := 1 } }

def rollChannel : Channel := { type := .sync, state := .running, devices := [rollDevice] }

def rollSetup : Setup := { demoSetup with
  channel := rollChannel
  lg := ⟨.running, some [rollChannel]⟩ }

/-- A C library that hands on nothing by itself. -/
def demoStdio : Stdio := ⟨10000, fun _ _ => 0⟩

theorem roll_path (ts : Int) : fullPath rollSetup.fenv.proc (rollSetup.fenv.tm ts) rollSetup.fenv.fuel rollDevice
    rollSetup.channel.id = some "a.log".toList := by
  show fullPath ⟨"p".toList, 1⟩ ⟨126, 10, 16, 11, 33, 20⟩ 50 rollDevice 0 = _
  decide +kernel

theorem roll_ready : Ready rollSetup :=
  ⟨demo_ready.lib, demo_ready.zone, by decide, rfl, by decide, ⟨_, rfl, rfl⟩,
    fun h => absurd h (by decide), by
      intro d hd _ ts
      obtain rfl := List.mem_singleton.mp hd
      exact ⟨_, roll_path ts⟩⟩

theorem roll_apart : FilesApart rollSetup.fenv rollSetup.channel.id rollSetup.channel.devices := by
  intro i j a b hij ha hb
  have h1 := (List.getElem?_eq_some_iff.mp ha).1
  have h2 := (List.getElem?_eq_some_iff.mp hb).1
  simp only [rollSetup, rollChannel, List.length_cons, List.length_nil] at h1 h2
  omega

theorem rollCall_sound (t : Nat) (text : List Char) : SoundAct rollSetup (demoLog t text) := by
  have hd : ∀ c i, ∀ d ∈ rollSetup.channel.devices, DevDefined d c i := by
    intro c i d hd
    obtain rfl := List.mem_singleton.mp hd
    exact ⟨by decide, by decide, by decide, by decide, Or.inl (by decide), Or.inl (by decide)⟩
  refine ⟨rfl, ⟨⟨by decide, by decide, by decide, by decide, Or.inl (by decide), Or.inl (by decide)⟩, hd _ _⟩, hd _ _,
    "a.cpp".toList, demo_fits 4 (by decide) _ ?_⟩
  intro v hv
  simp only [written, List.mem_cons, List.not_mem_nil, or_false] at hv
  rcases hv with rfl; simp [Val.All, Val.Fine]

/-- **C92** fails on a sync channel: the flush loops (fn_channel.h 175-181, 194-200) do not take the lock that EnterProcDevice
takes.  Thread 1 has written its line and is about to call `fflush`; thread 2 dispatches a line that makes the device rotate its
file, which closes the stream (fn_out_file_device.h 242); thread 1 flushes the closed stream. -/
theorem C92_closed_stream_counterexample : ∃ (S : Setup) (o : OutSt) (B : Stdio) (es : List Act), Ready S ∧
    S.cfg.async = false ∧ FilesApart S.fenv S.channel.id S.channel.devices ∧ Own S.fenv S.channel.id S.channel.devices o ∧
    (∀ j, (o.dev j).handle = none) ∧ (∀ n j, (S.os n j).short = none) ∧ (∀ e ∈ es, SoundAct S e) ∧ (∀ e ∈ es, e.noStop) ∧
    FOnTime S B (es ++ [.run 1]) (fCrew S o) ∧
    (fActs S B es (fCrew S o)).map (fun f => (f.fl 1, f.gen 0, f.fl 2)) = some (.call 0 1, 2, .off) ∧
    fActs S B (es ++ [.run 1]) (fCrew S o) = none := by
  refine ⟨rollSetup, demoOut, demoStdio,
    [.started, demoLog 1 "one".toList] ++ demoRuns 1 86 ++ [demoLog 2 "two".toList] ++ demoRuns 2 72, roll_ready, rfl,
    roll_apart, fun _ _ _ _ _ h => absurd h (by simp [demoOut]), fun _ => rfl, fun _ _ => rfl, ?_, ?_,
    fOnTime_of (by kernel_rfl), by kernel_rfl, by kernel_rfl⟩
  · intro e he
    simp only [demoRuns, List.mem_append, List.mem_cons, List.not_mem_nil, or_false, List.mem_replicate] at he
    rcases he with (((rfl | rfl) | ⟨_, rfl⟩) | rfl) | ⟨_, rfl⟩
    all_goals first
      | trivial
      | exact rollCall_sound _ _
  · intro e he
    simp only [demoRuns, List.mem_append, List.mem_cons, List.not_mem_nil, or_false, List.mem_replicate] at he
    rcases he with (((rfl | rfl) | ⟨_, rfl⟩) | rfl) | ⟨_, rfl⟩ <;> trivial

/-! The hypotheses of C91 and C92 on the channels of C72 and C73. -/

theorem demo_steady : Steady demoSetup := by
  refine ⟨?_, fun _ _ => rfl⟩
  intro d hd _
  simp only [demoSetup, demoChannel, List.mem_cons, List.not_mem_nil, or_false] at hd
  rcases hd with rfl | rfl <;> exact ⟨rfl, rfl, Or.inl (by decide)⟩

/-- Two threads on a sync channel without rotation.  When thread 1 is about to flush, its line is still in the buffers; at the
end, everything is in the files. -/
example : Steady demoSetup ∧ (∀ j, (demoOut.dev j).handle = none) ∧
    FOnTime demoSetup demoStdio demoRace (fCrew demoSetup demoOut) ∧
    (fActs demoSetup demoStdio ([.started, demoLog 1 "one".toList] ++ demoRuns 1 86) (fCrew demoSetup demoOut)).map
      (fun f => (f.fl 1, unflushed f 1 0, bytesOf f.crew.out.fs "a.log".toList)) = some (.look 0, 1, some []) ∧
    (fActs demoSetup demoStdio demoRace (fCrew demoSetup demoOut)).map
      (fun f => (f.crew.ring.pc 1, f.crew.ring.pc 2, bytesOf f.crew.out.fs "a.log".toList)) =
    some (.idle, .idle, some ("[20261116 11:33:20.417][ERROR][a.cpp:17](f) one\n[20261116 11:33:20.417][ERROR][a.cpp:17](f) two\n".toList)) :=
  ⟨demo_steady, fun _ => rfl, fOnTime_of (by kernel_rfl), by kernel_rfl, by kernel_rfl⟩

/-- The same threads on an async channel: the thread of the channel flushes at the end of its round, before it sleeps. -/
example : demoAsyncSetup.cfg.async = true ∧
    FOnTime demoAsyncSetup demoStdio (demoAsyncRace ++ demoRuns 0 50) (fCrew demoAsyncSetup demoOut) ∧
    (fActs demoAsyncSetup demoStdio (demoAsyncRace ++ demoRuns 0 20) (fCrew demoAsyncSetup demoOut)).map
      (fun f => (unflushed f 0 0, bytesOf f.crew.out.fs "a.log".toList)) = some (2, some []) ∧
    (fActs demoAsyncSetup demoStdio (demoAsyncRace ++ demoRuns 0 50) (fCrew demoAsyncSetup demoOut)).map
      (fun f => (f.crew.ring.pc 0, f.fl 0, unflushed f 0 0, bytesOf f.crew.out.fs "a.log".toList)) =
    some (.cLoop, .off, 0, some ("[20261116 11:33:20.417][ERROR][a.cpp:17](f) one\n[20261116 11:33:20.417][ERROR][a.cpp:17](f) two\n".toList)) :=
  ⟨rfl, fOnTime_of (by kernel_rfl), by kernel_rfl, by kernel_rfl⟩

/-! ## C93 -/

/-- **C93**: at any time the file of the device lacks at most the last bytes, which are in the buffer; everything is in the files
after a round that dispatches a record, if no datagram comes with it or later.  Missing: rounds that dispatch no record flush
nothing, however many there are (`C93_idle_counterexample`). -/
theorem C93_received_partial {E : FileEnv} {ch : Int} {d : Device} (queue N : Nat) {s : FileSt} (gen : Nat)
    (ho : ∀ p, s.handle = some p → FilesOf E ch d p ∧ s.fs p ≠ none) {u u' : UdpBuf} {s' : FileSt} {rs : List Round}
    (hs : plainRounds E ch d N rs (u, s) = some (u', s')) :
    ∃ b, bufRounds E ch d queue N rs (u, ⟨s.fs, s.handle, [], gen, s.logs⟩) = some (u', b) ∧
      b.handle = s'.handle ∧ b.logs = s'.logs ∧
      (∀ p, FilesOf E ch d p → bytesOf s'.fs p = bytesOf b.fs p ∨ s'.handle = some p ∧
        ∃ x, bytesOf b.fs p = some x ∧ bytesOf s'.fs p = some (x ++ b.buf.bytes)) ∧
      ((∀ r ∈ rs, r.grams = []) → ∀ p, FilesOf E ch d p → bytesOf b.fs p = bytesOf s'.fs p) ∧
      ∀ (before : List Round) (r : Round) (after : List Round), rs = before ++ r :: after → r.recs ≠ [] →
        (∀ x ∈ r :: after, x.grams = []) → ∀ p, FilesOf E ch d p → bytesOf b.fs p = bytesOf s'.fs p := by
  have hc := filesOf_closed E ch d
  have hP : ∀ ts p, fullPath E.proc (E.tm ts) E.fuel d ch = some p → FilesOf E ch d p := fun _ _ h => filesOf_path h
  have h0 : BufRel (FilesOf E ch d) ⟨s.fs, s.handle, [], gen, s.logs⟩ s := by
    refine ⟨rfl, rfl, ho, fun _ => rfl, fun p _ => ?_⟩
    have : pendingAt (⟨s.fs, s.handle, [], gen, s.logs⟩ : BufSt) p = [] := by unfold pendingAt; split <;> rfl
    rw [this, option_map_append_nil]
  have hempty : ∀ {b : BufSt}, BufRel (FilesOf E ch d) b s' → b.buf = [] → ∀ p, FilesOf E ch d p →
      bytesOf b.fs p = bytesOf s'.fs p := by
    intro b hb hn p hp
    have hf := hb.files p hp
    have : pendingAt b p = [] := by unfold pendingAt; rw [hn]; split <;> rfl
    rw [this, option_map_append_nil] at hf
    exact hf.symm
  obtain ⟨b, h1, h2, h3⟩ := rounds_sim hc hP queue N rs h0 hs
  refine ⟨b, h1, h2.handle, h2.logs, ?_, fun hg => hempty h2 (h3 hg rfl), ?_⟩
  · intro p hp
    have hf := h2.files p hp
    unfold pendingAt at hf
    by_cases hh : b.handle = some p
    · rw [if_pos hh] at hf
      refine Or.inr ⟨by rw [← h2.handle]; exact hh, ?_⟩
      cases hx : bytesOf b.fs p with
      | none => exact absurd ((bytesOf_none _ _).mp hx) (h2.own p hh).2
      | some x => rw [hx] at hf; exact ⟨x, rfl, hf⟩
    · rw [if_neg hh, option_map_append_nil] at hf
      exact Or.inl hf
  · intro before r after e hr hg
    subst e
    unfold plainRounds at hs
    unfold bufRounds at h1
    rw [roundsIn_append] at hs h1
    simp only [Option.bind_eq_some_iff] at hs h1
    obtain ⟨⟨u1, s1⟩, hs1, hs⟩ := hs
    obtain ⟨b1, g1, g2, _⟩ := rounds_sim hc hP queue N before h0 hs1
    obtain ⟨y, hy, h1⟩ := h1
    unfold bufRounds at g1
    rw [hy] at g1
    obtain rfl := Option.some.inj g1
    simp only [roundsIn, Option.bind_eq_bind, Option.bind_eq_some_iff] at hs h1
    obtain ⟨⟨u2, s2⟩, hs2, hs⟩ := hs
    obtain ⟨b2, a1, a2, a3⟩ := round_sim hc hP queue N g2 hs2
    obtain ⟨y, hy, h1⟩ := h1
    rw [hy] at a1
    obtain rfl := Option.some.inj a1
    obtain ⟨b3, c1, c2, c3⟩ := rounds_sim hc hP queue N after a2 hs
    unfold bufRounds at c1
    rw [h1] at c1
    obtain ⟨_, rfl⟩ := Prod.mk.inj (Option.some.inj c1)
    exact hempty h2 (c3 (fun x hx => hg x (List.mem_cons_of_mem _ hx)) (a3 (hg r (List.mem_cons_self ..)) (Or.inl hr)))

def relayRound : Round := ⟨[], [("hello\n".toList, 1794800000, {}, 0)]⟩

def relayStart : UdpBuf × BufSt := (⟨List.replicate 16 '\x00', 0⟩, ⟨fun _ => none, none, [], 0, fun _ => 0⟩)

/-- **C93** fails: a file device receives one line by UDP, and then nothing happens any more.  However many rounds follow (each
sleeps), the line is not in the file. -/
theorem C93_idle_counterexample : ∃ (E : FileEnv) (d : Device) (N : Nat) (r : Round) (u u' : UdpBuf) (s s' : FileSt) (b : BufSt)
    (p : List Char), d.outType = .file ∧ FilesOf E 0 d p ∧ s.handle = none ∧
    (∀ n, plainRounds E 0 d N (r :: List.replicate n ⟨[], []⟩) (u, s) = some (u', s')) ∧
    (∀ n, bufRounds E 0 d 10000 N (r :: List.replicate n ⟨[], []⟩) (u, ⟨s.fs, s.handle, [], 0, s.logs⟩) = some (u', b)) ∧
    bytesOf s'.fs p = some "hello\n".toList ∧ bytesOf b.fs p = some [] := by
  have hp : ∀ n x, plainRounds demoSetup.fenv 0 (demoFile 0 'a' 1) 16 [relayRound] (relayStart.1, ⟨fun _ => none, none, fun _ => 0⟩)
      = some x → plainRounds demoSetup.fenv 0 (demoFile 0 'a' 1) 16 (relayRound :: List.replicate n ⟨[], []⟩)
        (relayStart.1, ⟨fun _ => none, none, fun _ => 0⟩) = some x := by
    intro n x h
    unfold plainRounds at h ⊢
    simp only [roundsIn, Option.bind_eq_bind, Option.bind_eq_some_iff] at h ⊢
    obtain ⟨y, h1, h2⟩ := h
    refine ⟨y, h1, ?_⟩
    rw [← h2]
    clear h1 h2
    induction n with
    | zero => rfl
    | succ n ih => rw [List.replicate_succ]; exact ih
  have hb : ∀ n x, bufRounds demoSetup.fenv 0 (demoFile 0 'a' 1) 10000 16 [relayRound] relayStart = some x →
      bufRounds demoSetup.fenv 0 (demoFile 0 'a' 1) 10000 16 (relayRound :: List.replicate n ⟨[], []⟩) relayStart = some x := by
    intro n x h
    have h1 : bufRounds demoSetup.fenv 0 (demoFile 0 'a' 1) 10000 16 ([relayRound] ++ List.replicate n ⟨[], []⟩) relayStart = _ :=
      roundsIn_append ..
    rw [show relayRound :: List.replicate n ⟨[], []⟩ = [relayRound] ++ List.replicate n ⟨[], []⟩ from rfl, h1]
    unfold bufRounds at h
    rw [h]
    exact rounds_empty 10000 16 x n
  have e1 : (plainRounds demoSetup.fenv 0 (demoFile 0 'a' 1) 16 [relayRound] (relayStart.1, ⟨fun _ => none, none, fun _ => 0⟩)).map
      (fun x => (x.1, bytesOf x.2.fs "a.log".toList)) =
    (bufRounds demoSetup.fenv 0 (demoFile 0 'a' 1) 10000 16 [relayRound] relayStart).map
      (fun x => (x.1, some "hello\n".toList)) := by kernel_rfl
  have e2 : (bufRounds demoSetup.fenv 0 (demoFile 0 'a' 1) 10000 16 [relayRound] relayStart).map
      (fun x => bytesOf x.2.fs "a.log".toList) = some (some []) := by kernel_rfl
  cases hx : bufRounds demoSetup.fenv 0 (demoFile 0 'a' 1) 10000 16 [relayRound] relayStart with
  | none => rw [hx] at e2; exact absurd e2 (by simp)
  | some x =>
    rw [hx] at e1 e2
    cases hy : plainRounds demoSetup.fenv 0 (demoFile 0 'a' 1) 16 [relayRound] (relayStart.1, ⟨fun _ => none, none, fun _ => 0⟩) with
    | none => rw [hy] at e1; exact absurd e1 (by simp)
    | some y =>
      rw [hy] at e1
      obtain ⟨f1, f2⟩ := Prod.mk.inj (Option.some.inj e1)
      refine ⟨demoSetup.fenv, demoFile 0 'a' 1, 16, relayRound, relayStart.1, x.1, ⟨fun _ => none, none, fun _ => 0⟩, y.2, x.2,
        "a.log".toList, rfl, filesOf_path (ts := 0) (demo_path 0 'a' (Or.inl rfl) 1 0), rfl, fun n => ?_, fun n => ?_, f2,
        Option.some.inj e2⟩
      · rw [hp n y hy, ← f1]
      · exact hb n x hx

/-- The hypotheses of `C93_received_partial`, and the last part: the record of the second round takes the line along. -/
example : ∃ u' s', plainRounds demoSetup.fenv 0 (demoFile 0 'a' 1) 16
      [relayRound, ⟨[(⟨1794800001, 2, "x\n".toList, true, none⟩, 0)], []⟩, ⟨[], []⟩]
      (relayStart.1, ⟨fun _ => none, none, fun _ => 0⟩) = some (u', s') ∧
    bytesOf s'.fs "a.log".toList = some "hello\nx\n".toList := by
  have e : (plainRounds demoSetup.fenv 0 (demoFile 0 'a' 1) 16
      [relayRound, ⟨[(⟨1794800001, 2, "x\n".toList, true, none⟩, 0)], []⟩, ⟨[], []⟩]
      (relayStart.1, ⟨fun _ => none, none, fun _ => 0⟩)).map (fun x => bytesOf x.2.fs "a.log".toList) =
    some (some "hello\nx\n".toList) := by kernel_rfl
  rw [Option.map_eq_some_iff] at e
  obtain ⟨⟨u', s'⟩, h1, h2⟩ := e
  exact ⟨u', s', h1, h2⟩

end FNLog
