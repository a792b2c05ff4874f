import Verif.Proof.Crash
import Verif.Props.Sessions
import Verif.Props.Reach

/-!
# C122: the process dies, another one attaches to the queue of an async channel

`Lived S g x f`: any number of processes have died at any point of their execution (between any two steps of any threads); the
present one began in state `g`, did `x` and is in state `f`.  `Process S x g f new` (Verif/Spec/Crash.lean) says what it has done
with the records it found (`queued S g`) and the records `new` of its own statements.
-/

namespace FNLog
open Spec Ring

/-- **C122**: a new process can go on: nothing it does is undefined. -/
theorem C122_defined {S : Setup} (hS : Ready S) (hA : S.cfg.async = true)
    (hap : FilesApart S.fenv S.channel.id S.channel.devices) {g f : FCrew} {x y : Spell} (h : Lived S g x f) {stale : Head}
    (hu : Usable S stale) (hy : Sane S y (fCrash S stale f)) :
    ∃ f', fActs (y.on S) y.stdio y.acts (fCrash S stale f) = some f' ∧ Lived S (fCrash S stale f) y f' := by
  obtain ⟨_, _, _, _, hm, _⟩ := lived hS hA hap h
  obtain ⟨prior, hf⟩ := Fit.crash hS hA hm hu
  obtain ⟨f', new, h1, _⟩ := hf.run hS hA hap hy
  exact ⟨f', h1, .again h hu hy h1⟩

/-- **C122**: the new process finds what was published and not released, and then the records that were being written, completed
by the marker. -/
theorem C122_found {S : Setup} (hS : Ready S) (hA : S.cfg.async = true)
    (hap : FilesApart S.fenv S.channel.id S.channel.devices) {g f : FCrew} {x : Spell} (h : Lived S g x f) (stale : Head) :
    queued S (fCrash S stale f) = queued S f ++ mended S stale f := by
  obtain ⟨_, _, _, _, hm, _⟩ := lived hS hA hap h
  exact found_queue hm.ring stale

/-- **C122**: every process gives the records it found and then its own ones to the file devices, each once and in order; what it
has not given is in the queue for the next process.  Missing: sync channels; schedules in which a compare-and-swap succeeds
although its index went round the ring (`Sane.timely`, see C12); the record at the head of the queue may be given again by the next
process, and what is in the buffers of the streams is lost (see the counterexamples). -/
theorem C122_process_partial {S : Setup} (hS : Ready S) (hA : S.cfg.async = true)
    (hap : FilesApart S.fenv S.channel.id S.channel.devices) {g f : FCrew} {x : Spell} (h : Lived S g x f) :
    ∃ new, Process S x g f new := by
  obtain ⟨_, new, _, _, _, hp⟩ := lived hS hA hap h
  exact ⟨new, hp⟩

/-- Where the new records come from. -/
theorem new_from {S : Setup} {x : Spell} {g f : FCrew} {new : List (Nat × Head × List Char)} (hp : Process S x g f new)
    (hm : g.crew.made = []) (hr : fActs (x.on S) x.stdio x.acts g = some f) :
    ∀ r ∈ new, ∃ a ops, .log r.1 a ops ∈ x.acts ∧ r.2.1.ts = a.ts := by
  intro r hr'
  obtain ⟨logged, l1, l2, _⟩ := hp.program r.1
  have h1 : r.2 ∈ linesOf r.1 new := List.mem_map.mpr ⟨r, List.mem_filter.mpr ⟨hr', by simp⟩, rfl⟩
  obtain ⟨_, y, hy, e, _⟩ := logged_from l1 r.2 (l2.subset h1)
  obtain ⟨z, hz, rfl⟩ := List.mem_map.mp hy
  obtain ⟨hz, hz'⟩ := List.mem_filter.mp hz
  rcases fActs_made hr z hz with h2 | h2
  · rw [hm] at h2; cases h2
  · have : z.1 = r.1 := by simpa using hz'
    rw [this] at h2
    exact ⟨_, _, h2, e⟩

/-- **C122** for a device that writes one file: the file, with the bytes in the buffer of its stream, is what it was when the process
began and then the lines of the records given to the device; these are all of them when the queue is empty, and the buffer
is empty when the thread of the channel has nothing to do. -/
theorem C122_contents_partial {S : Setup} (hS : Ready S) (hA : S.cfg.async = true)
    (hap : FilesApart S.fenv S.channel.id S.channel.devices) {g f : FCrew} {x : Spell} (h : Lived S g x f)
    {j : Nat} {d : Device} (hd : S.channel.devices[j]? = some d) (hout : d.outType = .file)
    (h1 : d.cfg.rollback ≤ 0) (h2 : d.cfg.limitSize ≤ 0) (h3 : d.cfg.rolldaily = 0) (h4 : d.cfg.rollhourly = 0)
    {F : List Char} (hlen : F.length < 250)
    (hF : ∀ ts, fullPath S.fenv.proc (S.fenv.tm ts) S.fenv.fuel d S.channel.id = some F)
    (hos : ∀ n, (x.os n j).opens = true ∧ (x.os n j).short = none)
    (hold : ∀ r ∈ queued S g, (g.crew.out.dev j).logs DEVICE_LOG_LAST_TRY_CREATE_TIMESTAMP + 5 ≤ r.1.ts)
    (hts : ∀ t a ops, .log t a ops ∈ x.acts → (g.crew.out.dev j).logs DEVICE_LOG_LAST_TRY_CREATE_TIMESTAMP + 5 ≤ a.ts) :
    ∃ new given rest, Process S x g f new ∧ queued S g ++ new.map Prod.snd = given ++ rest ∧
      (f.crew.ring.R = f.crew.ring.H → rest = []) ∧ (AtRest f worker → unwritten f j F = []) ∧
      ((bytesOf f.crew.out.fs F).map (· ++ unwritten f j F)).getD [] =
        (bytesOf g.crew.out.fs F).getD [] ++ (linesFor d given).flatten := by
  obtain ⟨_, new, hfit, hrun, hm, hp⟩ := lived hS hA hap h
  obtain ⟨given, rest, taken, t, e1, ⟨n, _, un, e2, e3, _⟩, hruns, _, hbytes⟩ := hp.file j d hd hout
  have hnew := new_from hp hfit.made hrun
  have hgiven : ∀ r ∈ given, r.2 ≠ [] ∧ (g.crew.out.dev j).logs DEVICE_LOG_LAST_TRY_CREATE_TIMESTAMP + 5 ≤ r.1.ts := by
    intro r hr
    have hr' : r ∈ queued S g ++ new.map Prod.snd := by rw [e1]; exact List.mem_append_left _ hr
    refine ⟨?_, ?_⟩
    · obtain ⟨y, hy⟩ := hp.lines r hr'
      rw [hy]
      simp
    · rcases List.mem_append.mp hr' with hq | hq
      · exact hold r hq
      · obtain ⟨z, hz, rfl⟩ := List.mem_map.mp hq
        obtain ⟨a, ops, ha, e⟩ := hnew z hz
        rw [e]
        exact hts _ _ _ ha
  refine ⟨new, given, rest, hp, e1, ?_, ?_, ?_⟩
  · intro hR
    have hi := hm.ring
    have i1 := hi.leRP; have i2 := hi.lePW; have i3 := hi.leWH
    have hW : f.crew.ring.W - f.crew.ring.R = 0 := by omega
    have hq : queued S f = [] := by unfold queued; rw [hW]; rfl
    rw [e2, hq, List.drop_nil, List.nil_append]
    exact List.length_eq_zero_iff.mp (by omega)
  · intro hr
    unfold unwritten
    rw [hp.rest hr j]
    split <;> rfl
  · obtain ⟨_, e, _⟩ := simple_runs h1 h2 h3 h4 hlen hF hruns
      (by
        intro log hl
        obtain ⟨m, r, hr, rfl⟩ := handed_mem hl
        exact ⟨(hos m).1, (hos m).2, (hgiven r hr).1⟩)
      (Or.inr ⟨hfit.handle j d hd hout, by
        intro log hl
        obtain ⟨m, r, hr, rfl⟩ := handed_mem hl
        exact (hgiven r hr).2⟩)
    rw [handed_lines] at e
    have key : ∀ (fs : Fs), (bytesOf fs F).getD [] = ((fs F).getD []).flatten := by
      intro fs
      unfold bytesOf
      cases fs F <;> rfl
    rw [← hbytes F ⟨0, F, 0, hF 0, rfl⟩, key, key, e, List.flatten_append]
    rfl

/-- **C122**, both processes: when the second one has emptied the queue and its thread has nothing to do, the file is what it was at
the crash and then the lines that were published and not released, the lines that were being written, and the new ones. -/
theorem C122_after_crash_partial {S : Setup} (hS : Ready S) (hA : S.cfg.async = true)
    (hap : FilesApart S.fenv S.channel.id S.channel.devices) {g f f' : FCrew} {x y : Spell} (h : Lived S g x f) {stale : Head}
    (hu : Usable S stale) (hy : Sane S y (fCrash S stale f))
    (hrun : fActs (y.on S) y.stdio y.acts (fCrash S stale f) = some f')
    {j : Nat} {d : Device} (hd : S.channel.devices[j]? = some d) (hout : d.outType = .file)
    (h1 : d.cfg.rollback ≤ 0) (h2 : d.cfg.limitSize ≤ 0) (h3 : d.cfg.rolldaily = 0) (h4 : d.cfg.rollhourly = 0)
    {F : List Char} (hlen : F.length < 250)
    (hF : ∀ ts, fullPath S.fenv.proc (S.fenv.tm ts) S.fenv.fuel d S.channel.id = some F)
    (hos : ∀ n, (y.os n j).opens = true ∧ (y.os n j).short = none)
    (hold : ∀ r ∈ queued S f ++ mended S stale f,
      (f.crew.out.dev j).logs DEVICE_LOG_LAST_TRY_CREATE_TIMESTAMP + 5 ≤ r.1.ts)
    (hts : ∀ t a ops, .log t a ops ∈ y.acts → (f.crew.out.dev j).logs DEVICE_LOG_LAST_TRY_CREATE_TIMESTAMP + 5 ≤ a.ts)
    (hR : f'.crew.ring.R = f'.crew.ring.H) (hrest : AtRest f' worker) :
    ∃ new, Process S y (fCrash S stale f) f' new ∧
      (bytesOf f'.crew.out.fs F).getD [] = (bytesOf f.crew.out.fs F).getD [] ++
        (linesFor d (queued S f ++ mended S stale f ++ new.map Prod.snd)).flatten := by
  have hq := C122_found hS hA hap h stale
  obtain ⟨new, given, rest, p, e1, e2, e3, e4⟩ := C122_contents_partial hS hA hap (.again h hu hy hrun) hd hout h1 h2 h3 h4 hlen hF
    hos (by rw [hq]; exact hold) hts
  refine ⟨new, p, ?_⟩
  rw [e3 hrest, option_map_append_nil] at e4
  rw [e2 hR, List.append_nil, hq] at e1
  rw [e4, ← e1]
  rfl

/-! ## Two processes -/

/-- The members of a slot that was never used, after another start. -/
def staleHead : Head := ⟨0, 0, 0, 0, 0, none, none, 0, 0, 0, 0⟩

def demoSpell (B : Stdio) (es : List Act) : Spell := ⟨demoAsyncSetup.os, B, es⟩

/-- Thread 1 logs a line and is done with it. -/
def crashLog : List Act := demoRuns 0 5 ++ [.started, demoLog 1 "one".toList] ++ demoRuns 1 100

theorem demo_usable (h : Head) : Usable demoAsyncSetup h := by
  intro d hd
  simp only [demoAsyncSetup, demoChannel, List.mem_cons, List.not_mem_nil, or_false] at hd
  rcases hd with rfl | rfl <;>
    exact ⟨by decide, by decide, by decide, by decide, Or.inl (by decide), Or.inl (by decide)⟩

/-- The statements of the examples. -/
inductive DemoAct : Act → Prop where
  | run (t : Nat) : DemoAct (.run t)
  | started : DemoAct .started
  | log (t : Nat) (text : List Char) : DemoAct (demoLog t text)

theorem crashLog_demo : ∀ e ∈ crashLog, DemoAct e := by
  intro e he
  simp only [crashLog, demoRuns, List.mem_append, List.mem_cons, List.not_mem_nil, or_false, List.mem_replicate] at he
  rcases he with (⟨_, rfl⟩ | rfl | rfl) | ⟨_, rfl⟩
  · exact .run _
  · exact .started
  · exact .log _ _
  · exact .run _

theorem demoRuns_demo (t n : Nat) : ∀ e ∈ demoRuns t n, DemoAct e := by
  intro e he
  obtain ⟨_, rfl⟩ := List.mem_replicate.mp he
  exact .run _

theorem demo_both {a b : List Act} (ha : ∀ e ∈ a, DemoAct e) (hb : ∀ e ∈ b, DemoAct e) : ∀ e ∈ a ++ b, DemoAct e := by
  intro e he
  rcases List.mem_append.mp he with h | h
  · exact ha e h
  · exact hb e h

/-- A crash, evaluated. -/
theorem demo_crash {B : Stdio} {a b : List Act} (ha : ∀ e ∈ a, DemoAct e) (hb : ∀ e ∈ b, DemoAct e)
    (h1 : fOnTimeB demoAsyncSetup B a (fCrew demoAsyncSetup demoOut) = true) {β : Type} {v : β} (look : FCrew → FCrew → β)
    (h2 : ((fActs demoAsyncSetup B a (fCrew demoAsyncSetup demoOut)).bind fun f =>
      (fActs demoAsyncSetup B b (fCrash demoAsyncSetup staleHead f)).map fun f' =>
        (fOnTimeB demoAsyncSetup B b (fCrash demoAsyncSetup staleHead f), look f f')) = some (true, v)) :
    ∃ f f', Lived demoAsyncSetup (fCrew demoAsyncSetup demoOut) (demoSpell B a) f ∧ Sane demoAsyncSetup (demoSpell B b) (fCrash demoAsyncSetup staleHead f) ∧
      fActs ((demoSpell B b).on demoAsyncSetup) B b (fCrash demoAsyncSetup staleHead f) = some f' ∧
      Lived demoAsyncSetup (fCrash demoAsyncSetup staleHead f) (demoSpell B b) f' ∧ look f f' = v := by
  have sound : ∀ {l : List Act}, (∀ e ∈ l, DemoAct e) → ∀ e ∈ l, SoundAct demoAsyncSetup e := by
    intro l hl e he
    cases hl e he with
    | run | started => trivial
    | log t text => exact demoCall_sound demoAsyncSetup rfl rfl rfl rfl rfl _ _
  obtain ⟨f, hf, h2⟩ := Option.bind_eq_some_iff.mp h2
  obtain ⟨f', hf', h2⟩ := Option.map_eq_some_iff.mp h2
  obtain ⟨h3, h4⟩ := Prod.mk.inj h2
  have hs : Sane demoAsyncSetup (demoSpell B b) (fCrash demoAsyncSetup staleHead f) := ⟨sound hb, fOnTime_of h3⟩
  have hl : Lived demoAsyncSetup (fCrew demoAsyncSetup demoOut) (demoSpell B a) f :=
    .fresh (fun _ _ _ _ => rfl) ⟨sound ha, fOnTime_of h1⟩ hf
  exact ⟨f, f', hl, hs, hf', .again hl (demo_usable _) hs hf', h4⟩

/-- All hypotheses of the theorems hold: the process dies when one line is in the queue and another one is being written. -/
example : Ready demoAsyncSetup ∧ demoAsyncSetup.cfg.async = true ∧
    FilesApart demoAsyncSetup.fenv demoAsyncSetup.channel.id demoAsyncSetup.channel.devices ∧ Usable demoAsyncSetup staleHead ∧
    demoAsyncSetup.channel.devices[0]? = some (demoFile 0 'a' 1) ∧
    ∃ f f' x y, Lived demoAsyncSetup (fCrew demoAsyncSetup demoOut) x f ∧ Sane demoAsyncSetup y (fCrash demoAsyncSetup staleHead f) ∧
      fActs (y.on demoAsyncSetup) y.stdio y.acts (fCrash demoAsyncSetup staleHead f) = some f' ∧
      (((f.crew.ring.R, f.crew.ring.W, f.crew.ring.H), f'.crew.ring.R, f'.crew.ring.H, f'.crew.ring.pc worker, f'.fl worker) =
        ((0, 1, 2), 2, 2, .cLoop, .off)) ∧
      ((queued demoAsyncSetup f ++ mended demoAsyncSetup staleHead f).map fun r => (r.1.priority, r.1.ts - 1794800000, r.2)) =
        [(4, 0, "[20261116 11:33:20.417][ERROR][a.cpp:17](f) one\n".toList),
          (6, 0, "[20261116 11:33:20.417][ERROR][a.cpp:17](f) t!!!core recover!!!\n".toList)] ∧
      (f.crew.out.dev 0).logs DEVICE_LOG_LAST_TRY_CREATE_TIMESTAMP = 0 ∧
      bytesOf f'.crew.out.fs "a.log".toList =
        some "[20261116 11:33:20.417][ERROR][a.cpp:17](f) one\n[20261116 11:33:20.417][ERROR][a.cpp:17](f) t!!!core recover!!!\n".toList := by
  obtain ⟨f, f', h1, h2, h3, _, h5⟩ := demo_crash (B := demoStdio) (a := crashLog ++ ([demoLog 2 "two".toList] ++ demoRuns 2 53))
    (b := demoRuns 0 39)
    (demo_both crashLog_demo (demo_both (fun e he => by obtain rfl := List.mem_singleton.mp he; exact .log _ _) (demoRuns_demo _ _)))
    (demoRuns_demo _ _) (by kernel_rfl)
    (fun f f' => ((((f.crew.ring.R, f.crew.ring.W, f.crew.ring.H), f'.crew.ring.R, f'.crew.ring.H, f'.crew.ring.pc worker, f'.fl worker)),
      ((queued demoAsyncSetup f ++ mended demoAsyncSetup staleHead f).map fun r => (r.1.priority, r.1.ts - 1794800000, r.2)),
      (f.crew.out.dev 0).logs DEVICE_LOG_LAST_TRY_CREATE_TIMESTAMP, bytesOf f'.crew.out.fs "a.log".toList))
    (v := (((0, 1, 2), 2, 2, .cLoop, .off), [(4, 0, "[20261116 11:33:20.417][ERROR][a.cpp:17](f) one\n".toList),
          (6, 0, "[20261116 11:33:20.417][ERROR][a.cpp:17](f) t!!!core recover!!!\n".toList)], 0,
      some "[20261116 11:33:20.417][ERROR][a.cpp:17](f) one\n[20261116 11:33:20.417][ERROR][a.cpp:17](f) t!!!core recover!!!\n".toList))
    (by kernel_rfl)
  obtain ⟨a1, h5⟩ := Prod.mk.inj h5
  obtain ⟨a2, h5⟩ := Prod.mk.inj h5
  obtain ⟨a3, a4⟩ := Prod.mk.inj h5
  exact ⟨demoAsync_ready, rfl, demo_apart, demo_usable _, rfl, f, f', _, _, h1, h2, h3, a1, a2, a3, a4⟩

/-- **C122** fails for the lines in the buffers of the streams: the line of a statement that has returned was written by `fwrite` and
its slot released (fn_channel.h 128-165); the process dies before `fflush` (175-181); the next process empties the queue, and the line is
in no file. -/
theorem C122_lost_counterexample : ∃ (S : Setup) (o : OutSt) (x y : Spell) (stale : Head) (f f' : FCrew), Ready S ∧
    S.cfg.async = true ∧ FilesApart S.fenv S.channel.id S.channel.devices ∧ Usable S stale ∧ Lived S (fCrew S o) x f ∧
    Lived S (fCrash S stale f) y f' ∧
    f.crew.made.length = 1 ∧ f.crew.ring.pc 1 = .idle ∧ (queued S f).length = 0 ∧ f.crew.ring.H = f.crew.ring.W ∧
    f'.crew.ring.R = f'.crew.ring.H ∧ AtRest f' worker ∧
    unwritten f 0 "a.log".toList = "[20261116 11:33:20.417][ERROR][a.cpp:17](f) one\n".toList ∧
    bytesOf f'.crew.out.fs "a.log".toList = some [] := by
  obtain ⟨f, f', h1, h2, h3, h4, h5⟩ := demo_crash (B := demoStdio) (a := crashLog ++ demoRuns 0 18)
    (b := demoRuns 0 32) (demo_both crashLog_demo (demoRuns_demo _ _)) (demoRuns_demo _ _) (by kernel_rfl)
    (fun f f' => (f.crew.made.length, f.crew.ring.pc 1, (queued demoAsyncSetup f).length, f.crew.ring.H, f.crew.ring.W, f'.crew.ring.R, f'.crew.ring.H,
      (f'.crew.ring.pc worker, f'.fl worker), unwritten f 0 "a.log".toList, bytesOf f'.crew.out.fs "a.log".toList))
    (v := (1, .idle, 0, 1, 1, 1, 1, (.cLoop, .off), "[20261116 11:33:20.417][ERROR][a.cpp:17](f) one\n".toList, some [])) (by kernel_rfl)
  simp only [Prod.mk.injEq] at h5
  obtain ⟨a1, a2, a3, a4, a5, a6, a7, a8, a9, a10⟩ := h5
  exact ⟨demoAsyncSetup, demoOut, _, _, staleHead, f, f', demoAsync_ready, rfl, demo_apart, demo_usable _, h1, h4, a1, a2, a3,
    a4.trans a5.symm, a6.trans a7.symm, Or.inr (Or.inr a8), a9, a10⟩

/-- **C122** fails for the record that is being dispatched: the C library has handed its bytes on, the process dies before the slot is
released (fn_channel.h 165), and the next process writes it again. -/
theorem C122_twice_counterexample : ∃ (S : Setup) (o : OutSt) (x y : Spell) (stale : Head) (f f' : FCrew), Ready S ∧
    S.cfg.async = true ∧ FilesApart S.fenv S.channel.id S.channel.devices ∧ Usable S stale ∧ Lived S (fCrew S o) x f ∧
    Lived S (fCrash S stale f) y f' ∧
    f.crew.made.length = 1 ∧ f'.crew.made.length = 0 ∧
    bytesOf f'.crew.out.fs "a.log".toList =
      some "[20261116 11:33:20.417][ERROR][a.cpp:17](f) one\n[20261116 11:33:20.417][ERROR][a.cpp:17](f) one\n".toList := by
  obtain ⟨f, f', h1, h2, h3, h4, h5⟩ := demo_crash (B := ⟨10000, fun _ _ => 4096⟩) (a := crashLog ++ demoRuns 0 8)
    (b := demoRuns 0 32) (demo_both crashLog_demo (demoRuns_demo _ _)) (demoRuns_demo _ _) (by kernel_rfl)
    (fun f f' => (f.crew.made.length, f'.crew.made.length, bytesOf f'.crew.out.fs "a.log".toList))
    (v := (1, 0, some "[20261116 11:33:20.417][ERROR][a.cpp:17](f) one\n[20261116 11:33:20.417][ERROR][a.cpp:17](f) one\n".toList))
    (by kernel_rfl)
  simp only [Prod.mk.injEq] at h5
  exact ⟨demoAsyncSetup, demoOut, _, _, staleHead, f, f', demoAsync_ready, rfl, demo_apart, demo_usable _, h1, h4, h5.1, h5.2.1, h5.2.2⟩

/-- A line that is logged and written. -/
def crashRound (text : List Char) : List Act := [demoLog 1 text] ++ (demoRuns 1 100 ++ demoRuns 0 40)

theorem crashRound_demo (text : List Char) : ∀ e ∈ crashRound text, DemoAct e :=
  demo_both (fun e he => by obtain rfl := List.mem_singleton.mp he; exact .log _ _) (demo_both (demoRuns_demo _ _) (demoRuns_demo _ _))

def crashGhost : List Act := demoRuns 0 5 ++ ([.started] ++ (crashRound "one".toList ++ (crashRound "two".toList ++
  (crashRound "three".toList ++ (crashRound "four".toList ++ ([demoLog 2 "five".toList] ++ demoRuns 2 4))))))

theorem crashGhost_demo : ∀ e ∈ crashGhost, DemoAct e :=
  demo_both (demoRuns_demo _ _) (demo_both (fun e he => by obtain rfl := List.mem_singleton.mp he; exact .started)
    (demo_both (crashRound_demo _) (demo_both (crashRound_demo _) (demo_both (crashRound_demo _) (demo_both (crashRound_demo _)
      (demo_both (fun e he => by obtain rfl := List.mem_singleton.mp he; exact .log _ _) (demoRuns_demo _ _)))))))

/-- **C122** fails for a slot that is acquired and not yet emptied: between the compare-and-swap on `hold_idx_` (fn_channel.h 461) and
`content_len_ = 0` (288) the slot holds the line that used it before, one round of the ring ago, which is in the files for long.  The
next process makes it fatal, appends the marker, and writes it again; of the statement that was being made there is nothing. -/
theorem C122_ghost_counterexample : ∃ (S : Setup) (o : OutSt) (x y : Spell) (stale : Head) (f f' : FCrew), Ready S ∧
    S.cfg.async = true ∧ FilesApart S.fenv S.channel.id S.channel.devices ∧ Usable S stale ∧ Lived S (fCrew S o) x f ∧
    Lived S (fCrash S stale f) y f' ∧ unwritten f 0 "a.log".toList = [] ∧
    bytesOf f.crew.out.fs "a.log".toList = some ("[20261116 11:33:20.417][ERROR][a.cpp:17](f) one\n".toList ++
      ("[20261116 11:33:20.417][ERROR][a.cpp:17](f) two\n".toList ++ ("[20261116 11:33:20.417][ERROR][a.cpp:17](f) three\n".toList ++
      "[20261116 11:33:20.417][ERROR][a.cpp:17](f) four\n".toList))) ∧
    bytesOf f'.crew.out.fs "a.log".toList = some ("[20261116 11:33:20.417][ERROR][a.cpp:17](f) one\n".toList ++
      ("[20261116 11:33:20.417][ERROR][a.cpp:17](f) two\n".toList ++ ("[20261116 11:33:20.417][ERROR][a.cpp:17](f) three\n".toList ++
      ("[20261116 11:33:20.417][ERROR][a.cpp:17](f) four\n".toList ++
        "[20261116 11:33:20.417][ERROR][a.cpp:17](f) one\n!!!core recover!!!\n".toList)))) ∧
    (mended S stale f).map (fun r => r.1.priority) = [6] := by
  obtain ⟨f, f', h1, h2, h3, h4, h5⟩ := demo_crash (B := demoStdio) (a := crashGhost)
    (b := demoRuns 0 32) crashGhost_demo (demoRuns_demo _ _) (by kernel_rfl)
    (fun f f' => (unwritten f 0 "a.log".toList, bytesOf f.crew.out.fs "a.log".toList, bytesOf f'.crew.out.fs "a.log".toList,
      (mended demoAsyncSetup staleHead f).map (fun r => r.1.priority)))
    (v := ([], some ("[20261116 11:33:20.417][ERROR][a.cpp:17](f) one\n".toList ++
      ("[20261116 11:33:20.417][ERROR][a.cpp:17](f) two\n".toList ++ ("[20261116 11:33:20.417][ERROR][a.cpp:17](f) three\n".toList ++
      "[20261116 11:33:20.417][ERROR][a.cpp:17](f) four\n".toList))),
      some ("[20261116 11:33:20.417][ERROR][a.cpp:17](f) one\n".toList ++
      ("[20261116 11:33:20.417][ERROR][a.cpp:17](f) two\n".toList ++ ("[20261116 11:33:20.417][ERROR][a.cpp:17](f) three\n".toList ++
      ("[20261116 11:33:20.417][ERROR][a.cpp:17](f) four\n".toList ++
        "[20261116 11:33:20.417][ERROR][a.cpp:17](f) one\n!!!core recover!!!\n".toList)))), [6]))
    (by kernel_rfl)
  simp only [Prod.mk.injEq] at h5
  obtain ⟨a2, a3, a4, a5⟩ := h5
  exact ⟨demoAsyncSetup, demoOut, _, _, staleHead, f, f', demoAsync_ready, rfl, demo_apart, demo_usable _, h1, h4,
    a2, a3, a4, a5⟩

end FNLog
