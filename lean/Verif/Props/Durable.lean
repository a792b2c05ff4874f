import Verif.Proof.Durable
import Verif.Props.Shut

/-!
# C102: what is on the disk

A file that the logger has closed is meant to survive a power failure: `FileHandler::close` calls `fsync` before `fclose`
(fn_file.h 152-159).  What is in the buffer of the stream at that moment gets to the operating system only with `fclose`, after the
`fsync`.
-/

namespace FNLog
open Spec Ring

/-- **C102**, at any moment of any schedule: a power failure leaves a first part of each file, and no other files.  Missing: as for
C91; StopLogger (see `C102_stopped_partial`). -/
theorem C102_first_part_partial {S : Setup} (hS : Ready S) (hap : FilesApart S.fenv S.channel.id S.channel.devices)
    {o : OutSt} (ho : Own S.fenv S.channel.id S.channel.devices o)
    (hex : ∀ (j : Nat) (d : Device) (p : List Char), S.channel.devices[j]? = some d → d.outType = .file →
      (o.dev j).handle = some p → o.fs p ≠ none)
    (B : Stdio) {es : List Act}
    (hG : (S.cfg.async = true ∨ Steady S) ∨ Serial S B es (fCrew S o)) (he : ∀ e ∈ es, SoundAct S e)
    (ht : FOnTime S B es (fCrew S o)) {disk : Fs} (hd : Behind o.fs disk) :
    ∃ (f : FCrew) (disk' : Fs), fActs S B es (fCrew S o) = some f ∧
      diskEvents S B (es.map .act) (fCrew S o) disk = some (f, disk') ∧ Behind f.crew.out.fs disk' := by
  obtain ⟨f, disk', h1, h2, h3⟩ := DAll.acts (K := False) hS hap nofun (FInv.init B hS ho hex)
    (disk := disk) ⟨hd, fun _ _ _ _ h => h.elim⟩ hG he ht nofun
  exact ⟨f, disk', h1, h2, h3.1⟩

/-- **C102**, after StopLogger: if no `fwrite` is incomplete and no file is closed while its stream has something in its buffer,
then what StopLogger leaves in the files of the devices whose files it has closed (C95) is on the disk.  Missing: as for C95; files
closed with something in the buffer (`C102_rotation_counterexample`). -/
theorem C102_stopped_partial {S : Setup} (hS : Ready S) (hap : FilesApart S.fenv S.channel.id S.channel.devices)
    {o : OutSt} (ho : Own S.fenv S.channel.id S.channel.devices o)
    (hex : ∀ (j : Nat) (d : Device) (p : List Char), S.channel.devices[j]? = some d → d.outType = .file →
      (o.dev j).handle = some p → o.fs p ≠ none)
    (B : Stdio) {es : List Act}
    (hG : (S.cfg.async = true ∨ Steady S) ∨ Serial S B es (fCrew S o)) (he : ∀ e ∈ es, SoundAct S e)
    (ht : FOnTime S B es (fCrew S o)) {f : FCrew} (hf : fActs S B es (fCrew S o) = some f)
    (hw : ∀ n j, (S.os n j).short = none) (hfl : FlushedRun S B es (fCrew S o))
    (hl : f.crew.ring.lgRunning = false) (hst : f.crew.ring.state ≠ .running)
    (hend : (S.cfg.async = true ∧ f.crew.ring.pc worker = .done) ∨
      (S.cfg.async = false ∧ ∀ e ∈ es, ∀ t, e.thread = some t → f.crew.ring.pc t = .idle))
    (es' : List FEv) (hJ : ∀ j, .shut j ∈ es' → ∃ d, S.channel.devices[j]? = some d ∧ d.outType = .file) :
    ∃ (rs : List Act) (s : Crew) (f' : FCrew) (disk : Fs), (∀ t, statementsOf t rs = statementsOf t es) ∧
      acts S rs (crew S o) = some s ∧ diskEvents S B (es.map .act ++ es') (fCrew S o) o.fs = some (f', disk) ∧
      fEvents S B es' f = some f' ∧
      ∀ (j : Nat) (d : Device) (p : List Char), S.channel.devices[j]? = some d → d.outType = .file → .shut j ∈ es' →
        FilesOf S.fenv S.channel.id d p → bytesOf disk p = bytesOf s.out.fs p := by
  obtain ⟨g, rs, s, h1, h2, h3, _, h5, h6⟩ := (FInv.init B hS ho hex).acts hS hap hG he ht
  rw [hf] at h1
  obtain rfl := Option.some.inj h1
  have hr : f.crew.ring = s.ring := by rw [h6.rel.crew_eq]
  have hend : (S.cfg.async = true ∧ f.crew.ring.pc worker = .done) ∨ (S.cfg.async = false ∧ ∀ t, f.crew.ring.pc t = .idle) := by
    rcases hend with h | ⟨hn, hi⟩
    · exact Or.inl h
    · refine Or.inr ⟨hn, fun t => ?_⟩
      by_cases hx : ∃ e ∈ es, e.thread = some t
      · obtain ⟨e, he, ht⟩ := hx
        exact hi e he t ht
      · rw [hr, acts_pc_other rs h5 fun e he ht => hx ⟨e, h2.subset he, ht⟩]
        show (Ring.init S.cfg).pc t = _
        simp [Ring.init, hn]
  obtain ⟨g, disk1, d1, d2, d3⟩ := DAll.acts (K := True) hS hap (fun _ => hw) (FInv.init B hS ho hex)
    (disk := o.fs) ⟨fun p => BehindAt.self _, fun _ _ _ _ _ _ _ => Or.inr rfl⟩ hG he ht (fun _ => hfl)
  rw [hf] at d1
  obtain rfl := Option.some.inj d1
  obtain ⟨hover, hbuf⟩ := h6.over hl hst hend
  obtain ⟨f', a1, _, a3, _, a5⟩ := h6.shut hl hst hend es' hJ
  obtain ⟨f2, disk, b1, b2, b3⟩ := DAll.events (B := B) hap es' hJ hover (fun hA => by
      rcases hend with ⟨_, hw⟩ | ⟨hn, _⟩
      · exact hw
      · rw [hA] at hn; cases hn) hbuf (fun j d p hj hd hp => (h6.rel.files j d hj hd).own p hp) d3
  rw [a1] at b1
  obtain rfl := Option.some.inj b1
  refine ⟨rs, s, f', disk, h3, h5, ?_, a1, fun j d p hj hd hx hp => ?_⟩
  · rw [diskEvents_append, d2]
    exact b2
  · rw [← a3 j d p hj hd hp]
    rcases b3.2 j d hj hd trivial p hp with e | e
    · rw [a5 j hx] at e; cases e
    · exact e

/-- **C102** without rotation: no file is closed before the end. -/
theorem C102_steady {S : Setup} (h : Steady S) (B : Stdio) (es : List Act) (f : FCrew) : FlushedRun S B es f := by
  induction es generalizing f with
  | nil => trivial
  | cons e es ih =>
    refine ⟨?_, fun f' _ => ih f'⟩
    intro t k d hh text _ _ _ hd hfile _ hx
    obtain ⟨c1, c2, c3⟩ := h.cfg d (List.mem_of_getElem? hd) hfile
    exfalso
    rcases hx with hx | hx
    · simp only [limitOut, Bool.and_eq_true, decide_eq_true_eq] at hx
      omega
    · simp [periodOut, c1, c2] at hx

/-! ## A file closed with something in its buffer -/

def rollAsync : Setup := { rollSetup with
  channel := { rollChannel with type := .async }
  lg := ⟨.running, some [{ rollChannel with type := .async }]⟩
  cfg := { L := 4, async := true, nl := .byte '\n' } }

theorem rollAsync_ready : Ready rollAsync :=
  ⟨demo_ready.lib, demo_ready.zone, by decide, rfl, by decide, ⟨_, rfl, rfl⟩,
    fun h => absurd h (by decide), by
      intro d hd _ ts
      obtain rfl := List.mem_singleton.mp hd
      exact ⟨_, roll_path ts⟩⟩

theorem rollAsync_sound (t : Nat) (text : List Char) : SoundAct rollAsync (demoLog t text) := by
  obtain ⟨h1, h2, h3, h4⟩ := rollCall_sound t text
  exact ⟨h1, h2, h3, h4⟩

/-- `FlushedFirst`, decided. -/
def flushedB (S : Setup) (f : FCrew) : Act → Bool
  | .run t =>
    match f.fl t, f.crew.ring.pc t, S.channel.devices[f.crew.pos t]? with
    | .off, .cDisp k, some d =>
      match decode (f.crew.ring.cell (k % S.cfg.L)) with
      | some (h, text) =>
        !(limitOut d (f.crew.out.dev (f.crew.pos t)).logs (devLog h text).text.length ||
          periodOut d (f.crew.out.dev (f.crew.pos t)).logs (devLog h text).ts) || (f.buf (f.crew.pos t)).isEmpty
      | none => true
    | _, _, _ => true
  | _ => true

theorem flushed_of {S : Setup} {f : FCrew} {e : Act} (h : flushedB S f e = true) : FlushedFirst S f e := by
  intro t k d hh text he hfl hpc hd _ hdec hx
  subst he
  simp only [flushedB, hfl, hpc, hd, hdec] at h
  rcases hx with hx | hx <;> rw [hx] at h <;> simpa using h

/-- `FlushedRun`, decided. -/
def flushedRunB (S : Setup) (B : Stdio) : List Act → FCrew → Bool
  | [], _ => true
  | e :: es, f => flushedB S f e &&
    match fAct S B f e with
    | none => true
    | some f' => flushedRunB S B es f'

theorem flushedRun_of {S : Setup} {B : Stdio} : ∀ {es : List Act} {f : FCrew}, flushedRunB S B es f = true → FlushedRun S B es f
  | [], _, _ => trivial
  | e :: es, f, h => by
    simp only [flushedRunB, Bool.and_eq_true] at h
    refine ⟨flushed_of h.1, fun f' hf => ?_⟩
    have h2 := h.2
    rw [hf] at h2
    exact flushedRun_of h2

/-- Both records are published before the thread of the channel looks for them. -/
def rollOnce : List Act :=
  demoRuns 0 5 ++ [.started, demoLog 1 "one".toList] ++ demoRuns 1 120 ++ [demoLog 2 "two".toList] ++ demoRuns 2 120 ++
    demoRuns 0 200 ++ [.closing, .stop] ++ demoRuns 0 200

/-- The thread of the channel has time to flush the first record. -/
def rollTwice : List Act :=
  demoRuns 0 5 ++ [.started, demoLog 1 "one".toList] ++ demoRuns 1 120 ++ demoRuns 0 200 ++ [demoLog 2 "two".toList] ++
    demoRuns 2 120 ++ demoRuns 0 200 ++ [.closing, .stop] ++ demoRuns 0 200

def rollView (r : Option (FCrew × Fs)) : Option (List (Option (List Char)) × List (Option (List Char))) :=
  r.map fun r => (["a.log".toList, "a.log.1".toList].map (bytesOf r.1.crew.out.fs),
    ["a.log".toList, "a.log.1".toList].map (bytesOf r.2))

/-- **C102** fails for files closed by rotation: both records are handed to the device in one round of the thread of the channel; the
second is too big for `a.log`, which is closed with the first record in the buffer of its stream and renamed to `a.log.1`.  Nobody
opens it again, and when StopLogger has returned its content is not on the disk; the content of `a.log` is. -/
theorem C102_rotation_counterexample : ∃ (S : Setup) (o : OutSt) (B : Stdio) (es : List Act), Ready S ∧ S.cfg.async = true ∧
    FilesApart S.fenv S.channel.id S.channel.devices ∧ Own S.fenv S.channel.id S.channel.devices o ∧
    (∀ j, (o.dev j).handle = none) ∧ (∀ e ∈ es, SoundAct S e) ∧ FOnTime S B es (fCrew S o) ∧ (∀ n j, (S.os n j).short = none) ∧
    S.channel.devices.length = 1 ∧
    (fActs S B es (fCrew S o)).map (fun f => (f.crew.ring.pc worker, f.crew.ring.lgRunning, f.crew.ring.state)) =
      some (.done, false, .finish) ∧
    rollView (diskEvents S B (es.map .act ++ [.clean, .shut 0]) (fCrew S o) o.fs) =
    some ([some "[20261116 11:33:20.417][ERROR][a.cpp:17](f) two\n".toList,
        some "[20261116 11:33:20.417][ERROR][a.cpp:17](f) one\n".toList],
      [some "[20261116 11:33:20.417][ERROR][a.cpp:17](f) two\n".toList, some []]) := by
  refine ⟨rollAsync, demoOut, demoStdio, rollOnce, rollAsync_ready, rfl, roll_apart,
    fun _ _ _ _ _ h => absurd h (by simp [demoOut]), fun _ => rfl, ?_, fOnTime_of (by kernel_rfl), fun _ _ => rfl, rfl,
    by kernel_rfl, by kernel_rfl⟩
  intro e he
  simp only [rollOnce, demoRuns, List.mem_append, List.mem_cons, List.not_mem_nil, or_false, List.mem_replicate] at he
  rcases he with ((((((⟨_, rfl⟩ | (rfl | rfl)) | ⟨_, rfl⟩) | rfl) | ⟨_, rfl⟩) | ⟨_, rfl⟩) | (rfl | rfl)) | ⟨_, rfl⟩
  all_goals first
    | trivial
    | exact rollAsync_sound _ _

/-- The hypotheses of `C102_stopped_partial` with a rotation: the thread of the channel has flushed the first record when the second
arrives. -/
example : Ready rollAsync ∧ FilesApart rollAsync.fenv rollAsync.channel.id rollAsync.channel.devices ∧
    (∀ e ∈ rollTwice, SoundAct rollAsync e) ∧ FOnTime rollAsync demoStdio rollTwice (fCrew rollAsync demoOut) ∧
    FlushedRun rollAsync demoStdio rollTwice (fCrew rollAsync demoOut) ∧
    (fActs rollAsync demoStdio rollTwice (fCrew rollAsync demoOut)).map
      (fun f => (f.crew.ring.pc worker, f.crew.ring.lgRunning, f.crew.ring.state)) = some (.done, false, .finish) ∧
    rollView (diskEvents rollAsync demoStdio (rollTwice.map .act ++ [.clean, .shut 0]) (fCrew rollAsync demoOut) demoOut.fs) =
    some ([some "[20261116 11:33:20.417][ERROR][a.cpp:17](f) two\n".toList,
        some "[20261116 11:33:20.417][ERROR][a.cpp:17](f) one\n".toList],
      [some "[20261116 11:33:20.417][ERROR][a.cpp:17](f) two\n".toList,
        some "[20261116 11:33:20.417][ERROR][a.cpp:17](f) one\n".toList]) := by
  refine ⟨rollAsync_ready, roll_apart, ?_, fOnTime_of (by kernel_rfl), flushedRun_of (by kernel_rfl), by kernel_rfl, by kernel_rfl⟩
  intro e he
  simp only [rollTwice, demoRuns, List.mem_append, List.mem_cons, List.not_mem_nil, or_false, List.mem_replicate] at he
  rcases he with (((((((⟨_, rfl⟩ | (rfl | rfl)) | ⟨_, rfl⟩) | ⟨_, rfl⟩) | rfl) | ⟨_, rfl⟩) | ⟨_, rfl⟩) | (rfl | rfl)) | ⟨_, rfl⟩
  all_goals first
    | trivial
    | exact rollAsync_sound _ _

end FNLog
