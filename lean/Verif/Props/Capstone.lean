import Verif.Proof.Capstone
import Verif.Props.Flush
import Verif.Props.Fresh
import Verif.Props.Life
import Verif.Props.Names

/-!
# C97: from the configuration text to the files

The configuration is written as a text, parsed, loaded and started; threads make log statements on an async channel; the logger is
stopped.  Then the files contain the lines of the statements that the text admits.
-/

namespace FNLog
open Spec Ring

/-- A setup of the model of log statements that agrees with channel `i` of a logger; the C library and the calendar behave. -/
structure Spec.OnChannel (l : Lg) (s : LgShm) (i : Nat) (S : Setup) : Prop where
  lg : S.lg = l.view
  channel : S.channel = (s.chans i).chan
  slots : S.cfg.L = BUFFER_LEN
  nl : S.cfg.nl = .byte '\n'
  async : S.cfg.async = true ↔ S.channel.type = .async
  hook : S.hook = true → S.channel.virtualDeviceId < MAX_DEVICE_SIZE
  lib : S.env.lib.Sane
  zone : S.env.zone.Sane

/-- A text without shared memory key, loaded into a new logger: the queues are new as well. -/
theorem fresh_queues {e : LgEnv} {text path : List Char} {g : Config} {l' : Lg} {c : Code} {s' : LgShm}
    (hp : parseLogger e.dns e.garbage e.fuel text = .ok g) (hk : g.shmKey ≤ 0)
    (h : initFromYmal e text path {} = .val (c, l')) (hs : l'.shm = some s') : s'.seg.rings = fun _ => freshRing := by
  unfold initFromYmal at h
  rw [if_neg (by simp), hp] at h
  replace h : initLocked e g path {} = .val (c, l') := h
  unfold initLocked at h
  rw [if_neg (by simp)] at h
  have h1 : (takeGlobals g path {}).shm = none := rfl
  have h2 : loadShm e (takeGlobals g path {}) = .val (.ok, { takeGlobals g path {} with shm := some freshShm }) := by
    unfold loadShm
    rw [if_pos (show (takeGlobals g path {}).shmKey ≤ 0 from hk)]
  simp only [h1, h2] at h
  have h3 := congrArg (fun x : Code × Lg => x.2.shm) (Out.val.inj h)
  simp only at h3
  rw [hs] at h3
  unfold installConfig at h3
  simp only at h3
  split at h3 <;> (obtain rfl := Option.some.inj h3; rfl)

/-- **C97**: `g` is any configuration within the documented ranges, `L` any indentation.  The text is accepted, the logger runs,
and the queue of every channel is empty.  For every async channel `c` of `g`, every choice of the file names in which they are
defined and different, every program and schedule: when the threads have finished, the channel is stopped, its thread has
ended, and StopLogger has closed its files, there is one order of the records of the statements admitted by `c`, in agreement
with the program of each thread, such that the files of each file device hold, byte for byte, what this device
writes for these records one after the other (C46-C51), and are closed.

Missing: schedules in which a compare-and-swap succeeds although its index went round the ring (C12); sync channels (C95);
configurations with a shared memory key. -/
theorem C97_text_to_files_partial (e : LgEnv) (th : Nat → ThreadStart) (L : Layout) (g : Config) (h1 : L.chan < L.dev)
    (h2 : L.dev < L.set) (hg : Expressible g) (hk : g.shmKey ≤ 0) (hth : ∀ i : Nat, th i = .runs) :
    ∃ fuel0, ∀ fuel, fuel0 ≤ fuel → ∃ l s,
      parseAndStart { e with fuel := fuel } th (render L (configDoc g)) {} = .ret .ok l ∧ l.shm = some s ∧
      (∀ (q : Cfg Char) (i : Nat), q.L = BUFFER_LEN → Repr q LOG_SIZE (init q) (s.seg.rings i)) ∧
      ∀ (i : Nat) (c : Channel), g.channels[i]? = some c → c.type = .async →
      ∀ (S : Setup), OnChannel l s i S →
      (∀ d ∈ c.devices, d.outType = .file → ∀ ts, ∃ p, fullPath S.fenv.proc (S.fenv.tm ts) S.fenv.fuel d i = some p) →
      FilesApart S.fenv i c.devices →
      ∀ (o : OutSt), (∀ j, (o.dev j).handle = none) → ∀ (B : Stdio) (es es' : List Act),
      (∀ e ∈ es ++ .stop :: es', SoundAct S e) → FOnTime S B (es ++ .stop :: es') (fCrew S o) → (∀ e ∈ es, e.noStop) →
      ∀ (f f' : FCrew), fActs S B es (fCrew S o) = some f → f.crew.ring.state = .running →
      (∀ t, t ≠ worker → f.crew.ring.pc t = .idle) →
      fActs S B (es ++ .stop :: es') (fCrew S o) = some f' → f'.crew.ring.pc worker = .done →
      f'.crew.ring.lgRunning = false → f'.crew.ring.state ≠ .running →
      ∀ (es'' : List FEv), (∀ j, .shut j ∈ es'' → ∃ d, c.devices[j]? = some d ∧ d.outType = .file) →
      ∃ (f'' : FCrew) (recs : List (Nat × Head × List Char)), fEvents S B es'' f' = some f'' ∧
        (∀ t, Logged S (linesOf t f.crew.made) (linesOf t recs)) ∧
        (∀ (j : Nat) (d : Device), c.devices[j]? = some d → d.outType = .file →
          ∃ taken t, Runs S.fenv i d (view o j) (handed S.os j d 0 (recs.map Prod.snd)) taken t ∧
            ∀ p, FilesOf S.fenv i d p → bytesOf f''.crew.out.fs p = bytesOf t.fs p) ∧
        ∀ j, .shut j ∈ es'' → (f''.crew.out.dev j).handle = none := by
  obtain ⟨fuel0, hp⟩ := C39_round_trip e.dns e.garbage L g h1 h2 hg
  obtain ⟨fuel1, hall⟩ := C66_configured_runs e th L g h1 h2 hg hk hth
  refine ⟨max fuel0 fuel1, fun fuel hfuel => ?_⟩
  obtain ⟨l, s, hstart, hshm, hlst, hcount, _, _, hchans⟩ := hall fuel (by omega)
  have hp' : parseLogger e.dns e.garbage fuel (render L (configDoc g)) = .ok g := by
    rw [parseLogger_stable (show fuel0 ≤ fuel by omega) (by intro w hw; rw [hp] at hw; exact absurd hw (by nofun)), hp]
  refine ⟨l, s, hstart, hshm, fun q i hq => ?_, ?_⟩
  · have hrings : s.seg.rings = fun _ => freshRing := by
      unfold parseAndStart at hstart
      rw [if_neg (by simp)] at hstart
      split at hstart
      · cases hstart
      · cases hstart
      · rename_i c1 l1 hi
        split at hstart
        · rename_i hne
          cases hstart
          exact absurd rfl hne
        · obtain ⟨_, s0, hs0, _, _, s2, hl2, hseg, _⟩ := C57_start_ok th l1 l hstart
          have := fresh_queues (e := { e with fuel := fuel }) hp' hk hi hs0
          rw [hl2] at hshm
          obtain rfl := Option.some.inj hshm
          rw [hseg]
          exact this
    rw [hrings]
    exact repr_init hq (fun j _ => ⟨rfl, rfl, List.length_replicate⟩) rfl rfl rfl rfl
  · intro i c hc hasync S hS hnamed hap o ho B es es' he ht hn f f' hf hrun hidle hf' hdone hl hst es'' hJ
    have hcx := hg.channels i c hc
    have hch : S.channel = { c with state := .running } := hS.channel.trans (hchans i c hc)
    have hid : S.channel.id = i := by rw [hch]; exact hcx.id
    have hdev : S.channel.devices = c.devices := by rw [hch]
    have hA : S.cfg.async = true := hS.async.mpr (by rw [hch]; exact hasync)
    have hready : Ready S := by
      refine ⟨hS.lib, hS.zone, by rw [hS.slots]; decide, hS.nl, by rw [hid]; omega, ?_,
        hS.hook, ?_⟩
      · rw [hS.lg]
        refine ⟨_, by show Option.map _ l.shm = _; rw [hshm]; rfl, ?_⟩
        have hlt := (List.getElem?_eq_some_iff.mp hc).1
        rw [hid, List.getElem?_map, List.getElem?_range (by rw [hcount]; omega)]
        show some (s.chans i).chan = _
        rw [hS.channel]
      · intro d hd hfile ts
        rw [hid]
        exact hnamed d (by rw [← hdev]; exact hd) hfile ts
    obtain ⟨recs, s', f'', r1, r2, r3, r4, r5⟩ := async_flushed hready hA (by rw [hid, hdev]; exact hap)
      (o := o) (fun j d p _ _ h => by rw [ho j] at h; cases h) (fun j d p _ _ h => by rw [ho j] at h; cases h) B he ht hn hf hrun hidle
      hf' hdone hl hst es'' (by rw [hdev]; exact hJ)
    refine ⟨f'', recs, r3, r1, fun j d hj hd => ?_, r5⟩
    obtain ⟨taken, t, q1, _, _, q4⟩ := r2.device j d (by rw [hdev]; exact hj) hd
    rw [hid] at q1 q4
    refine ⟨taken, t, q1, fun p hp => ?_⟩
    rw [r4 j d p (by rw [hdev]; exact hj) hd (by rw [hid]; exact hp)]
    unfold bytesOf
    rw [q4 p hp]

/-- **C97**, its hypothesis about names: in a process without `$` in its name every file device of a configuration within the
documented ranges has a name at every time, the one of C53.  (`400` steps of FmtName are enough for all of them.) -/
theorem C97_names {g : Config} (hg : Expressible g) {E : FileEnv} (hp : '$' ∉ E.proc.name) (hf : 400 ≤ E.fuel) {i : Nat} {c : Channel}
    (hc : g.channels[i]? = some c) {d : Device} (hd : d ∈ c.devices) (ts : Int) :
    fullPath E.proc (E.tm ts) E.fuel d i = some (pathSpec E.proc (E.tm ts) d i) := by
  obtain ⟨j, hj⟩ := List.mem_iff_getElem?.mp hd
  have hx := hg.channels i c hc
  have hdx := hx.devices j d hj
  have hi := (List.getElem?_eq_some_iff.mp hc).1
  have hjl := (List.getElem?_eq_some_iff.mp hj).1
  have h1 := hg.count
  have h2 := hx.count
  refine fullPath_eq hp ?_ (by have := hdx.path.2; omega)
  have hn : (nameOf d i).length ≤ 48 := by
    unfold nameOf
    split
    · rw [List.length_append, List.length_append, hdx.id]
      have : ∀ a : Fin 2, (decimal (a : Nat)).length = 1 := by decide +kernel
      have h3 := this ⟨i, by omega⟩
      have : ∀ a : Fin 20, (decimal (a : Nat)).length ≤ 2 := by decide +kernel
      have h4 := this ⟨j, by omega⟩
      have h5 : "$PNAME_$YEAR$MON$DAY_$PID.".toList.length = 26 := by decide
      simp only at h3 h4
      omega
    · have := hdx.file.2
      omega
  rw [List.length_append, show ".log".toList.length = 4 by decide]
  omega

/-- **C97**, its hypothesis that the names are different: it holds if the names are left to the logger. -/
theorem C97_apart {g : Config} (hg : Expressible g) {E : FileEnv} (hp : '$' ∉ E.proc.name) {i : Nat} {c : Channel}
    (hc : g.channels[i]? = some c) (hd : ∀ d ∈ c.devices, d.outType = .file → d.file = []) : FilesApart E i c.devices := by
  have hi := (List.getElem?_eq_some_iff.mp hc).1
  have h1 := hg.count
  exact C71_channel_apart hp (by omega) (fun k d h => ((hg.channels i c hc).devices k d h).id) hd

/-- **C97** without hypotheses about file names: the configuration leaves them to the logger, and the name of the process has no
`$` (C53: otherwise FmtName need not end).

Missing: as in `C97_text_to_files_partial`. -/
theorem C97_default_names_partial (e : LgEnv) (th : Nat → ThreadStart) (L : Layout) (g : Config) (h1 : L.chan < L.dev)
    (h2 : L.dev < L.set) (hg : Expressible g) (hk : g.shmKey ≤ 0) (hth : ∀ i : Nat, th i = .runs)
    (hfile : ∀ c ∈ g.channels, ∀ d ∈ c.devices, d.outType = .file → d.file = []) :
    ∃ fuel0, ∀ fuel, fuel0 ≤ fuel → ∃ l s,
      parseAndStart { e with fuel := fuel } th (render L (configDoc g)) {} = .ret .ok l ∧ l.shm = some s ∧
      ∀ (i : Nat) (c : Channel), g.channels[i]? = some c → c.type = .async →
      ∀ (S : Setup), OnChannel l s i S → '$' ∉ S.fenv.proc.name → 400 ≤ S.fenv.fuel →
      ∀ (o : OutSt), (∀ j, (o.dev j).handle = none) → ∀ (B : Stdio) (es es' : List Act),
      (∀ e ∈ es ++ .stop :: es', SoundAct S e) → FOnTime S B (es ++ .stop :: es') (fCrew S o) → (∀ e ∈ es, e.noStop) →
      ∀ (f f' : FCrew), fActs S B es (fCrew S o) = some f → f.crew.ring.state = .running →
      (∀ t, t ≠ worker → f.crew.ring.pc t = .idle) →
      fActs S B (es ++ .stop :: es') (fCrew S o) = some f' → f'.crew.ring.pc worker = .done →
      f'.crew.ring.lgRunning = false → f'.crew.ring.state ≠ .running →
      ∀ (es'' : List FEv), (∀ j, .shut j ∈ es'' → ∃ d, c.devices[j]? = some d ∧ d.outType = .file) →
      ∃ (f'' : FCrew) (recs : List (Nat × Head × List Char)), fEvents S B es'' f' = some f'' ∧
        (∀ t, Logged S (linesOf t f.crew.made) (linesOf t recs)) ∧
        (∀ (j : Nat) (d : Device), c.devices[j]? = some d → d.outType = .file →
          ∃ taken t, Runs S.fenv i d (view o j) (handed S.os j d 0 (recs.map Prod.snd)) taken t ∧
            ∀ p, FilesOf S.fenv i d p → bytesOf f''.crew.out.fs p = bytesOf t.fs p) ∧
        ∀ j, .shut j ∈ es'' → (f''.crew.out.dev j).handle = none := by
  obtain ⟨fuel0, hall⟩ := C97_text_to_files_partial e th L g h1 h2 hg hk hth
  refine ⟨fuel0, fun fuel hfuel => ?_⟩
  obtain ⟨l, s, a1, a2, _, a4⟩ := hall fuel hfuel
  refine ⟨l, s, a1, a2, fun i c hc hA S hS hp hf => ?_⟩
  exact a4 i c hc hA S hS (fun d hd _ ts => ⟨_, C97_names hg hp hf hc hd ts⟩)
    (C97_apart hg hp hc (hfile c (List.mem_of_getElem? hc)))

/-- **C97** for a device that writes one file: the files of C97, as bytes.  `recs` is the order of the records there. -/
theorem C97_lines {S : Setup} {made : List (Nat × Call × List StreamOp)} {recs : List (Nat × Head × List Char)}
    (hr : ∀ t, Logged S (linesOf t made) (linesOf t recs)) {o : OutSt} {i : Int} {j : Nat} {d : Device} {taken : List FileLog}
    {t : FileSt} (ht : Runs S.fenv i d (view o j) (handed S.os j d 0 (recs.map Prod.snd)) taken t)
    (h1 : d.cfg.rollback ≤ 0) (h2 : d.cfg.limitSize ≤ 0) (h3 : d.cfg.rolldaily = 0) (h4 : d.cfg.rollhourly = 0)
    {F : List Char} (hlen : F.length < 250) (hF : ∀ ts, fullPath S.fenv.proc (S.fenv.tm ts) S.fenv.fuel d i = some F)
    (hos : ∀ n, (S.os n j).opens = true ∧ (S.os n j).short = none) (hh : (o.dev j).handle = none)
    (hts : ∀ x ∈ made, (o.dev j).logs DEVICE_LOG_LAST_TRY_CREATE_TIMESTAMP + 5 ≤ x.2.1.ts) :
    (bytesOf t.fs F).getD [] = (bytesOf o.fs F).getD [] ++ (linesFor d (recs.map Prod.snd)).flatten := by
  have hline : ∀ r ∈ recs.map Prod.snd, r.2 ≠ [] ∧ ∃ x ∈ made, r.1.ts = x.2.1.ts := by
    intro r hm
    obtain ⟨y, hy, rfl⟩ := List.mem_map.mp hm
    obtain ⟨g1, x, hx, e⟩ := logged_lines (hr y.1) y.2
      (List.mem_map.mpr ⟨y, List.mem_filter.mpr ⟨hy, by simp⟩, rfl⟩)
    obtain ⟨z, hz, rfl⟩ := List.mem_map.mp hx
    exact ⟨g1, z, (List.mem_filter.mp hz).1, e⟩
  obtain ⟨_, e2, _⟩ := simple_runs h1 h2 h3 h4 hlen hF ht
    (by
      intro log hm
      obtain ⟨m, r, hr, rfl⟩ := handed_mem hm
      exact ⟨(hos m).1, (hos m).2, (hline r hr).1⟩)
    (Or.inr ⟨hh, by
      intro log hm
      obtain ⟨m, r, hr, rfl⟩ := handed_mem hm
      obtain ⟨_, x, hx, e⟩ := hline r hr
      show _ ≤ r.1.ts
      rw [e]
      exact hts x hx⟩)
  rw [handed_lines] at e2
  have key : ∀ (fs : Fs), (bytesOf fs F).getD [] = ((fs F).getD []).flatten := by
    intro fs
    unfold bytesOf
    cases fs F <;> rfl
  rw [key, key, e2, List.flatten_append]
  rfl

/-! The text of a configuration with one async channel and two files, two threads that log an error each, and StopLogger. -/

def capConfig : Config :=
  { channels := [{ demoChannel with type := .async, state := .null }] }

def capLayout : Layout := ⟨1, 2, 3⟩

def capSetup : Setup := { demoAsyncSetup with cfg := { L := BUFFER_LEN, async := true, nl := .byte '\n' } }

theorem cap_expressible : Expressible capConfig := by
  have hd : ∀ (j : Nat) (n : Char) (p : Int), (0 ≤ p ∧ p ≤ 6) → (n = 'a' ∨ n = 'b') → DevExpressible j (demoFile j n p) := by
    intro j n p hp hn
    have z : LL 0 := by unfold LL; decide
    have ht : TextOk [] := ⟨by decide, nofun, by intro c r e; exact absurd (congrArg List.length e) (by simp)⟩
    refine ⟨rfl, ⟨⟨?_, ?_, ?_⟩, show 1 < _ by decide⟩, ⟨ht, show 0 < 199 by decide⟩, Or.inr rfl, hp, z, z, z, z, z, z, ⟨z, rfl⟩, z,
      Or.inl rfl, Or.inl rfl, Or.inl rfl, Or.inl ⟨rfl, rfl⟩⟩
    · rcases hn with rfl | rfl <;> (show ∀ c ∈ [_], _) <;> decide
    · intro c r e
      rw [← (List.cons.inj e).1]
      rcases hn with rfl | rfl
      · exact fun h => absurd (h 'a' (by decide)) (by decide)
      · exact fun h => absurd (h 'b' (by decide)) (by decide)
    · intro c r e
      have : c = n := by
        cases r with
        | nil => exact ((List.cons.inj e).1).symm
        | cons x r => exact absurd (congrArg List.length e) (by simp [demoFile])
      rw [this]
      rcases hn with rfl | rfl
      · exact fun h => absurd (h 'a' (by decide)) (by decide)
      · exact fun h => absurd (h 'b' (by decide)) (by decide)
  have ht : TextOk [] := ⟨by decide, nofun, by intro c r e; exact absurd (congrArg List.length e) (by simp)⟩
  refine ⟨by decide, ?_, ⟨ht, by decide⟩, ⟨ht, by decide⟩, by unfold LL; decide⟩
  intro i c h
  match i, h with
  | 0, h =>
    rw [← Option.some.inj h]
    refine ⟨rfl, rfl, by decide, ?_, rfl, by decide, by unfold I32; decide, by unfold I32; decide, by unfold LL; decide,
      by unfold I32; decide, by unfold I32; decide, by unfold LL; decide⟩
    intro j d h
    match j, h with
    | 0, h => rw [← Option.some.inj h]; exact hd 0 'a' 1 (by decide) (Or.inl rfl)
    | 1, h => rw [← Option.some.inj h]; exact hd 1 'b' 4 (by decide) (Or.inr rfl)
    | j + 2, h => exact absurd (show (none : Option Device) = some d from h) (by simp)
  | i + 1, h => exact absurd (show (none : Option Channel) = some c from h) (by simp)


/-- The logger of the text, as C66 describes it, and the setup of the demo belong together. -/
theorem cap_setup {l : Lg} {s : LgShm} (h1 : l.shm = some s) (h2 : l.state = .running) (h3 : s.seg.channelSize = 1)
    (h4 : ∀ (i : Nat) (c : Channel), capConfig.channels[i]? = some c → (s.chans i).chan = { c with state := .running }) :
    OnChannel l s 0 capSetup := by
  have h5 := h4 0 _ rfl
  refine ⟨?_, h5.symm, rfl, rfl, ⟨fun _ => rfl, fun _ => rfl⟩, fun h => absurd h (by decide), demo_ready.lib, demo_ready.zone⟩
  unfold Lg.view
  rw [h1, h2, Option.map_some, h3]
  show _ = LoggerView.mk _ (some [(s.chans 0).chan])
  rw [h5]
  rfl

/-- The remaining hypotheses of `C97_text_to_files_partial`, and the closed files. -/
example : capLayout.chan < capLayout.dev ∧ capLayout.dev < capLayout.set ∧ Expressible capConfig ∧ capConfig.shmKey ≤ 0 ∧
    FilesApart capSetup.fenv 0 capSetup.channel.devices ∧
    (∀ e ∈ demoAsyncRace ++ .stop :: (.closing :: demoRuns 0 414), SoundAct capSetup e) ∧ (∀ e ∈ demoAsyncRace, e.noStop) ∧
    FOnTime capSetup demoStdio (demoAsyncRace ++ .stop :: (.closing :: demoRuns 0 414)) (fCrew capSetup demoOut) ∧
    (fActs capSetup demoStdio demoAsyncRace (fCrew capSetup demoOut)).map
      (fun f => (f.crew.ring.state, f.crew.ring.pc 1, f.crew.ring.pc 2, f.crew.visits.length)) = some (.running, .idle, .idle, 0) ∧
    (fActs capSetup demoStdio (demoAsyncRace ++ .stop :: (.closing :: demoRuns 0 414)) (fCrew capSetup demoOut)).map
      (fun f => (f.crew.ring.pc 0, f.crew.ring.lgRunning, f.crew.ring.state)) = some (.done, false, .finish) ∧
    (fEvents capSetup demoStdio ((demoAsyncRace ++ .stop :: (.closing :: demoRuns 0 414)).map .act ++ [.shut 0, .shut 1])
      (fCrew capSetup demoOut)).map
      (fun f => ((f.crew.out.dev 0).handle, bytesOf f.crew.out.fs "a.log".toList, bytesOf f.crew.out.fs "b.log".toList)) =
    some (none, some ("[20261116 11:33:20.417][ERROR][a.cpp:17](f) one\n[20261116 11:33:20.417][ERROR][a.cpp:17](f) two\n".toList),
      some ("[20261116 11:33:20.417][ERROR][a.cpp:17](f) one\n[20261116 11:33:20.417][ERROR][a.cpp:17](f) two\n".toList)) := by
  refine ⟨by decide, by decide, cap_expressible, by decide, demo_apart, ?_, ?_, fOnTime_of (by kernel_rfl), by kernel_rfl,
    by kernel_rfl, by kernel_rfl⟩
  · intro e he
    simp only [demoAsyncRace, demoRuns, List.mem_append, List.mem_cons, List.not_mem_nil, or_false, List.mem_replicate] at he
    rcases he with (((((⟨_, rfl⟩ | rfl | rfl) | ⟨_, rfl⟩) | rfl) | ⟨_, rfl⟩) | ⟨_, rfl⟩) | rfl | rfl | ⟨_, rfl⟩
    all_goals first
      | trivial
      | exact demoCall_sound capSetup rfl rfl rfl rfl rfl _ _
  · intro e he
    simp only [demoAsyncRace, demoRuns, List.mem_append, List.mem_cons, List.not_mem_nil, or_false, List.mem_replicate] at he
    rcases he with ((((⟨_, rfl⟩ | rfl | rfl) | ⟨_, rfl⟩) | rfl) | ⟨_, rfl⟩) | ⟨_, rfl⟩ <;> trivial

/-! The same channel with the names left to the logger. -/

def capDefault : Config :=
  { channels := [{ demoChannel with type := .async, state := .null, devices := [{ demoFile 0 'a' 1 with file := [] },
      { demoFile 1 'b' 4 with file := [] }] }] }

/-- The hypotheses of `C97_default_names_partial`, `C97_names` and `C97_apart`. -/
example : Expressible capDefault ∧ capDefault.shmKey ≤ 0 ∧
    (∀ c ∈ capDefault.channels, ∀ d ∈ c.devices, d.outType = .file → d.file = []) ∧ '$' ∉ "srv".toList ∧
    pathSpec ⟨"srv".toList, 77⟩ ⟨126, 10, 16, 11, 33, 20⟩ { demoFile 1 'b' 4 with file := [] } 0 =
      "srv_20261116_000077.01.log".toList := by
  have ht : TextOk [] := ⟨by decide, nofun, by intro c r e; exact absurd (congrArg List.length e) (by simp)⟩
  have z : LL 0 := by unfold LL; decide
  refine ⟨⟨by decide, ?_, ⟨ht, by decide⟩, ⟨ht, by decide⟩, by unfold LL; decide⟩, by decide, ?_, by decide, by kernel_rfl⟩
  · intro i c h
    match i, h with
    | 0, h =>
      rw [← Option.some.inj h]
      refine ⟨rfl, rfl, by decide, ?_, rfl, by decide, by unfold I32; decide, by unfold I32; decide, by unfold LL; decide,
        by unfold I32; decide, by unfold I32; decide, by unfold LL; decide⟩
      intro j d h
      match j, h with
      | 0, h =>
        rw [← Option.some.inj h]
        exact ⟨rfl, ⟨ht, show 0 < 49 by decide⟩, ⟨ht, show 0 < 199 by decide⟩, Or.inr rfl, by decide, z, z, z, z, z, z, ⟨z, rfl⟩, z,
          Or.inl rfl, Or.inl rfl, Or.inl rfl, Or.inl ⟨rfl, rfl⟩⟩
      | 1, h =>
        rw [← Option.some.inj h]
        exact ⟨rfl, ⟨ht, show 0 < 49 by decide⟩, ⟨ht, show 0 < 199 by decide⟩, Or.inr rfl, by decide, z, z, z, z, z, z, ⟨z, rfl⟩, z,
          Or.inl rfl, Or.inl rfl, Or.inl rfl, Or.inl ⟨rfl, rfl⟩⟩
      | j + 2, h => exact absurd (show (none : Option Device) = some d from h) (by simp)
    | i + 1, h => exact absurd (show (none : Option Channel) = some c from h) (by simp)
  · intro c hc d hd _
    simp only [capDefault, List.mem_cons, List.not_mem_nil, or_false] at hc
    subst hc
    simp only [List.mem_cons, List.not_mem_nil, or_false] at hd
    rcases hd with rfl | rfl <;> rfl

end FNLog
