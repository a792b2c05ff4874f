import Verif.Proof.Life
import Verif.Props.Document
import Verif.Props.Load
import Verif.Proof.NoStop

/-! # Property theorems C57, C58, C59, C66: life cycle and setters -/

namespace FNLog
open Spec

/-! ## C57 -/

/-- **C57.** Whatever sequence of loading, starting, stopping, hot updates and setters is executed on a new
logger: as long as all calls return, the logger is stopped or running, a running logger is loaded with 1 or 2
channels, and every channel runs exactly if the logger does. -/
theorem C57_consistent (os : List Op) (l : Lg) (h : execAll os {} = some l) : Consistent l :=
  consistent_execAll os {} l ⟨Or.inl rfl, nofun, nofun, nofun⟩ h

/-- **C57.** Starting succeeds only on a loaded, stopped logger with 1 or 2 channels.  Afterwards the logger and
its channels are running and nothing else has changed. -/
theorem C57_start_ok (th : Nat → ThreadStart) (l l' : Lg) (h : startLogger th l = .ret .ok l') :
    l.state = .uninit ∧ ∃ s, l.shm = some s ∧ 1 ≤ s.seg.channelSize ∧ s.seg.channelSize ≤ 2 ∧
      ∃ s', l' = { l with state := .running, shm := some s' } ∧ s'.seg = s.seg ∧
        (∀ i : Nat, (i : Int) < s.seg.channelSize →
          s'.chans i = { s.chans i with chan := { (s.chans i).chan with state := .running } }) ∧
        ∀ i : Nat, s.seg.channelSize ≤ i → s'.chans i = s.chans i := by
  unfold startLogger at h
  by_cases hs : l.state ≠ .uninit
  · rw [if_pos hs] at h; cases h
  rw [if_neg hs] at h
  have hs : l.state = .uninit := Classical.byContradiction hs
  cases hm : l.shm with
  | none => rw [hm] at h; cases h
  | some s =>
    rw [hm] at h
    simp only at h
    by_cases hsz : s.seg.channelSize > (MAX_CHANNEL_SIZE : Int) ∨ s.seg.channelSize ≤ 0
    · rw [if_pos hsz] at h; cases h
    rw [if_neg hsz] at h
    obtain ⟨h1, h2, h3⟩ := startChannels_spec th s.seg.channelSize.toNat 0 s.chans
    revert h1 h2 h3 h
    cases startChannels th s.seg.channelSize.toNat 0 s.chans with
    | mk x chans =>
      intro h h1 h2 h3
      cases x with
      | throws => cases h
      | stuck => cases h
      | failed => cases h
      | ok =>
        cases h
        unfold MAX_CHANNEL_SIZE at hsz
        exact ⟨hs, s, rfl, by omega, by omega, _, rfl, rfl, fun i hi => h3 rfl i (Nat.zero_le _) (by omega),
          fun i hi => h1 i (by omega)⟩

/-- **C57.** Conversely a stopped logger loaded with 1 or 2 channels starts if the threads do. -/
theorem C57_start_happens (th : Nat → ThreadStart) (l : Lg) (s : LgShm) (hs : l.state = .uninit) (hm : l.shm = some s)
    (h1 : 1 ≤ s.seg.channelSize) (h2 : s.seg.channelSize ≤ 2)
    (ht : ∀ i : Nat, (i : Int) < s.seg.channelSize → (s.chans i).chan.type = .async → th i = .runs) :
    ∃ l', startLogger th l = .ret .ok l' := by
  unfold startLogger
  rw [if_neg (by rw [hs]; simp), hm]
  simp only
  rw [if_neg (by unfold MAX_CHANNEL_SIZE; omega)]
  have hok := startChannels_ok th s.seg.channelSize.toNat 0 s.chans (fun j _ hj => ht j (by omega))
  revert hok
  cases startChannels th s.seg.channelSize.toNat 0 s.chans with
  | mk x chans =>
    intro hok
    cases hok
    exact ⟨_, rfl⟩

/-- **C57.** A running logger refuses to be loaded or started, and nothing changes. -/
theorem C57_in_use (l : Lg) (hs : l.state = .running) (e : LgEnv) (th : Nat → ThreadStart) (text path : List Char)
    (mtime : Int) :
    startLogger th l = .ret .inUse l ∧ initFromYmal e text path l = .val (.inUse, l) ∧
      initFromFile e (some (mtime, text)) path l = .val (.inUse, l) ∧ parseAndStart e th text l = .ret .inUse l ∧
      loadAndStart e th (some (mtime, text)) path l = .ret .inUse l := by
  have hne : l.state ≠ .uninit := by rw [hs]; nofun
  have hi : ∀ p, initFromYmal e text p l = .val (.inUse, l) := fun p => by unfold initFromYmal; rw [if_pos hne]
  refine ⟨by unfold startLogger; rw [if_pos hne], hi _, ?_, by unfold parseAndStart; rw [if_pos hne], by unfold loadAndStart; rw [if_pos hne]⟩
  unfold initFromFile
  simp only [hi path]
  rw [if_pos (by nofun)]

/-- **C57.** Stopping a loaded logger that is not running returns an error and changes nothing. -/
theorem C57_stop_stopped (fuel : Nat) (l : Lg) (s : LgShm) (hm : l.shm = some s) (hs : l.state ≠ .running) :
    ∃ c, c ≠ .ok ∧ stopLogger fuel l = .val (c, l) := by
  unfold stopLogger
  rw [hm]
  simp only
  split
  · exact ⟨_, by nofun, rfl⟩
  · first | exact ⟨_, by nofun, rfl⟩ | (rw [if_pos hs]; exact ⟨_, by nofun, rfl⟩)

/-- **C57.** A running logger whose queue indices are in range can be stopped: the call returns 0, the logger and
its channels are stopped; their queues are empty, the marks of the slots that were in use are cleared; all else stays. -/
theorem C57_stop_ok (fuel : Nat) (l : Lg) (s : LgShm) (hm : l.shm = some s) (hs : l.state = .running)
    (h1 : 1 ≤ s.seg.channelSize) (h2 : s.seg.channelSize ≤ 2) (hf : BUFFER_LEN ≤ fuel)
    (hr : ∀ i : Nat, (i : Int) < s.seg.channelSize → InRange BUFFER_LEN (s.seg.rings i)) :
    ∃ s', stopLogger fuel l = .val (.ok, { l with state := .uninit, shm := some s' }) ∧
      s'.seg.channelSize = s.seg.channelSize ∧
      ∀ i : Nat, (i : Int) < s.seg.channelSize →
        s'.chans i = { s.chans i with chan := { (s.chans i).chan with state := .null } } ∧
        Cleaned BUFFER_LEN (s.seg.rings i) (s'.seg.rings i) := by
  obtain ⟨r, hc, _, hr2⟩ := cleanRings_spec BUFFER_LEN fuel (by decide) hf s.seg.channelSize.toNat 0 s.seg.rings
    (fun j _ hj => hr j (by omega))
  refine ⟨{ seg := { s.seg with rings := r }, chans := stopChannels s.seg.channelSize.toNat 0 s.chans }, ?_, rfl, fun i hi => ⟨?_, ?_⟩⟩
  · unfold stopLogger
    rw [hm]
    simp only
    rw [if_neg (by unfold MAX_CHANNEL_SIZE; omega), if_neg (by rw [hs]; simp), hc]
  · exact (stopChannels_spec _ _ _ _).trans (if_pos (by omega))
  · exact hr2 i (Nat.zero_le _) (by omega)

/-- **C57.** After a successful start every channel admits the statements its filters and devices take. -/
theorem C57_started_admits (th : Nat → ThreadStart) (l l' : Lg) (s : LgShm) (h : startLogger th l = .ret .ok l') (hm : l.shm = some s)
    (i : Nat) (hi : (i : Int) < s.seg.channelSize) (p c k : Int) (r : Bool)
    (hb : blockInput l'.view i p c k = some r) :
    r = false ↔ ChannelOk (s.chans i).chan.cfg p c k ∧ ∃ d ∈ (s.chans i).chan.devices, DeviceTakes d (clampPriority p) c k := by
  obtain ⟨_, s0, hs0, _, _, s', hl', hseg, hrun, _⟩ := C57_start_ok th l l' h
  rw [hm] at hs0; cases hs0
  have hv : l'.view.shm = some ((List.range s.seg.channelSize.toNat).map fun i => (s'.chans i).chan) := by
    rw [hl']
    show some (List.map _ (List.range s'.seg.channelSize.toNat)) = _
    rw [hseg]
  have hget : ((List.range s.seg.channelSize.toNat).map fun i => (s'.chans i).chan)[i]? = some (s'.chans i).chan := by
    rw [List.getElem?_map, List.getElem?_range (by omega)]
    rfl
  have hstate : l'.view.state = .running := by rw [hl']; rfl
  have hch : (s'.chans i).chan = { (s.chans i).chan with state := .running } := by rw [hrun i hi]
  rw [C01_block_input_iff l'.view i p c k r hb]
  constructor
  · rintro ⟨_, chans, channel, h1, _, h2, _, h3, h4⟩
    rw [hv] at h1
    cases h1
    rw [show ((i : Int)).toNat = i by omega, hget] at h2
    have h2 := Option.some.inj h2
    rw [← h2, hch] at h3 h4
    exact ⟨h3, h4⟩
  · rintro ⟨h3, h4⟩
    refine ⟨hstate, _, _, hv, by omega, by rw [show ((i : Int)).toNat = i by omega]; exact hget, ?_⟩
    rw [hch]
    exact ⟨rfl, h3, h4⟩

/-- **C56.** After loading from a file and starting, a check that finds the file with the same time changes nothing but the
time and number of checks: the file just loaded is not loaded again. -/
theorem C56_after_load (e : LgEnv) (th : Nat → ThreadStart) (m : Int) (text path : List Char) (l l1 l2 l3 : Lg) (s2 : LgShm)
    (g : Config) (hs : l.state = .uninit) (hp : parseLogger e.dns e.garbage e.fuel text = .ok g) (hc : g.channels ≠ [])
    (hk : l.shm ≠ none ∨ g.shmKey ≤ 0) (h1 : initFromFile e (some (m, text)) path l = .val (.ok, l1))
    (h2 : startLogger th l1 = .ret .ok l2) (hm : l2.shm = some s2) (now : Int) (file : List Char → Option (Int × List Char))
    (t : List Char) (hf : file path = some (m, t)) (i : Nat) (hi : i < g.channels.length) (c : Code) (o : Bool)
    (h3 : hotUpdateLogger e now file i l2 = .val (c, o, l3)) :
    (l3 = l2 ∧ o = false) ∨ (o = true ∧ c = .noChange ∧ OnlyChannel l2 i { s2.chans i with
      lastHotCheck := now
      logs := fun k => if k = CHANNEL_LOG_HOTUPDATE_CHECK then (s2.chans i).logs k + 1 else (s2.chans i).logs k } l2.hotUpdate l3) := by
  obtain ⟨l1', s1, e1, e2, e3, e4⟩ := C66_load_file e m text path l g hs hp hc hk
  rw [h1] at e1
  obtain rfl : l1 = l1' := congrArg Prod.snd (Out.val.inj e1)
  obtain ⟨_, s1', g1, _, _, s2', g2, _, g3, _⟩ := C57_start_ok th l1 l2 h2
  rw [e2] at g1; cases g1
  rw [g2] at hm; cases hm
  have hx : (s2.chans i).yamlMtime = m := by rw [g3 i (by rw [e3.count]; omega)]; exact e4 i hi
  have hy : l2.yamlPath = path := by rw [g2]; exact e3.yamlPath
  exact C56_unchanged e now file i l2 l3 s2 t c o (by rw [g2]) (by rw [hy, hx]; exact hf) h3

/-- **C57.** A logger that is not running refuses every statement. -/
theorem C57_stopped_refuses (l : Lg) (h : l.state ≠ .running) (ch p c k : Int) (r : Bool)
    (hb : blockInput l.view ch p c k = some r) : r = true := by
  cases r with
  | true => rfl
  | false => exact absurd ((C01_block_input_iff l.view ch p c k false hb).mp rfl).1 h

/-- A life: load, start, stop, start again, and a start that is refused. -/
example : ∃ l, execAll [.init { fuel := 100 } "- channel: 0\n - device: 0\n   out_type: screen\n".toList [],
    .start (fun _ => .runs), .start (fun _ => .runs), .stop 1000, .start (fun _ => .runs), .setChannel 0 0 3] {} = some l ∧
    l.state = .running ∧ chanCfgOf l 0 0 = some 3 := by
  have h : (execAll [.init { fuel := 100 } "- channel: 0\n - device: 0\n   out_type: screen\n".toList [],
    .start (fun _ => .runs), .start (fun _ => .runs), .stop 1000, .start (fun _ => .runs), .setChannel 0 0 3] {}).map
      (fun l => (l.state, chanCfgOf l 0 0)) = some (.running, some 3) := by kernel_rfl
  obtain ⟨l, h1, h2⟩ := Option.map_eq_some_iff.mp h
  exact ⟨l, h1, congrArg Prod.fst h2, congrArg Prod.snd h2⟩

/-- **C57, the limit of it.** StopLogger looks into the shared memory before it has been loaded: undefined. -/
theorem C57_stop_before_load_counterexample (fuel : Nat) : stopLogger fuel {} = .ub := rfl

/-- **C57, the limit of it.** If a thread cannot be created, the exception leaves the logger half started: it can
neither be started nor stopped nor loaded again. -/
theorem C57_exception_counterexample (l : Lg) (s : LgShm) (hs : l.state = .uninit) (hm : l.shm = some s)
    (h1 : s.seg.channelSize = 1) (ha : (s.chans 0).chan.type = .async) :
    ∃ l', startLogger (fun _ => .throws) l = .throws l' ∧
      ∀ th fuel e text path, startLogger th l' = .ret .inUse l' ∧ stopLogger fuel l' = .val (.notRunning, l') ∧
        initFromYmal e text path l' = .val (.inUse, l') := by
  refine ⟨{ l with state := .initing, shm := some s }, ?_, fun th fuel e text path => ⟨?_, ?_, ?_⟩⟩
  · unfold startLogger
    rw [if_neg (by rw [hs]; simp), hm]
    simp only
    rw [if_neg (by unfold MAX_CHANNEL_SIZE; omega), h1]
    simp only [show (1 : Int).toNat = 0 + 1 from rfl, startChannels, ha]
  · unfold startLogger; rw [if_pos (by simp)]
  · unfold stopLogger
    simp only
    rw [if_neg (by unfold MAX_CHANNEL_SIZE; omega), if_pos (by simp)]
  · unfold initFromYmal; rw [if_pos (by simp)]

/-! ## C58 -/

/-- **C58, the limit of it.** StartChannels gives up waiting for the thread of an async channel while
`channel_state_` still is CHANNEL_STATE_NULL, and StopChannels looks at the state before the thread has set it:
then nobody tells the thread to end.  Whatever is scheduled afterwards, the thread never returns, and so neither
does `join` in StopChannels, nor StartLogger, which called it. -/
theorem C58_start_hangs_counterexample {α : Type} (c : Ring.Cfg α) (hc : c.async = true) (before after : List (Ring.Ev α))
    (h1 : Ring.Ev.stop ∉ before) (h2 : Ring.Ev.stop ∉ after)
    (hnull : (Ring.run c (Ring.init c) before).state = .null) :
    (Ring.run c (Ring.init c) (before ++ [.stop] ++ after)).pc Ring.worker ≠ .done := by
  have hb := Ring.noStop_run c hc before (Ring.init c) (Ring.noStop_init c hc) h1
  have hs : Ring.step c (Ring.run c (Ring.init c) before) .stop = Ring.run c (Ring.init c) before := by
    unfold Ring.step
    simp only
    rw [if_pos hc, if_neg (by rw [hnull]; nofun)]
  have : Ring.run c (Ring.init c) (before ++ [.stop] ++ after) = Ring.run c (Ring.run c (Ring.init c) before) after := by
    unfold Ring.run at hs ⊢
    rw [List.foldl_append, List.foldl_append]
    simp only [List.foldl_cons, List.foldl_nil, hs]
  rw [this]
  exact ((Ring.noStop_run c hc after _ hb h2).2.1 Ring.worker).2.2.2

/-- The hypotheses are met at once: the thread has not run yet. -/
example : (Ring.run (⟨4, true, 'n'⟩ : Ring.Cfg Char) (Ring.init ⟨4, true, 'n'⟩) [.run 0, .run 0]).state = .null := by decide

/-- **C58**, partial.  If the thread of a channel times out but sets its state before StopChannels looks at it, StartLogger
returns E_CHANNEL_THREAD_FAILED with the logger and all channels stopped, those it had started as well; all else is
unchanged.  Missing: the case above. -/
theorem C58_failed_start_partial (th : Nat → ThreadStart) (l : Lg) (s : LgShm) (hs : l.state = .uninit) (hm : l.shm = some s)
    (h1 : s.seg.channelSize ≤ 2) (k : Nat) (hk : (k : Int) < s.seg.channelSize) (ha : (s.chans k).chan.type = .async)
    (ht : th k = .justLate) (hb : ∀ i, i < k → (s.chans i).chan.type = .async → th i = .runs) :
    ∃ l' s', startLogger th l = .ret .threadFailed l' ∧ l' = { l with shm := some s' } ∧ s'.seg = s.seg ∧
      (∀ i : Nat, (i : Int) < s.seg.channelSize → s'.chans i = { s.chans i with chan := { (s.chans i).chan with state := .null } }) ∧
      ∀ i : Nat, s.seg.channelSize ≤ i → s'.chans i = s.chans i := by
  obtain ⟨a1, a2, _⟩ := startChannels_spec th s.seg.channelSize.toNat 0 s.chans
  have hf := startChannels_failed th ht s.seg.channelSize.toNat 0 s.chans (Nat.zero_le _) (by omega) ha (fun j _ h => hb j h)
  cases hx : startChannels th s.seg.channelSize.toNat 0 s.chans with
  | mk x chans =>
    rw [hx] at a1 a2 hf
    simp only at a1 a2 hf
    subst hf
    refine ⟨{ l with shm := some { s with chans := stopChannels s.seg.channelSize.toNat 0 chans } }, _, ?_, rfl, rfl, ?_, ?_⟩
    · unfold startLogger
      rw [if_neg (by rw [hs]; simp), hm]
      simp only
      rw [if_neg (by unfold MAX_CHANNEL_SIZE; omega), hx]
    · intro i hi
      obtain ⟨st, e⟩ := a2 i
      show stopChannels s.seg.channelSize.toNat 0 chans i = _
      rw [stopChannels_spec, if_pos (by omega), e]
    · intro i hi
      show stopChannels s.seg.channelSize.toNat 0 chans i = _
      rw [stopChannels_spec, if_neg (by omega)]
      exact a1 i (by omega)

/-- A sync channel and an async one whose thread is late. -/
example : ∃ (l : Lg) (s : LgShm) (th : Nat → ThreadStart), l.state = .uninit ∧ l.shm = some s ∧ s.seg.channelSize = 2 ∧
    (s.chans 0).chan.type = .sync ∧ (s.chans 1).chan.type = .async ∧ th 1 = .justLate :=
  ⟨{ shm := some ⟨{ freshShm.seg with channelSize := 2 }, fun i => { chan := { type := if i = 0 then .sync else .async } }⟩ }, _,
    fun _ => .justLate, rfl, rfl, rfl, rfl, rfl, rfl⟩

/-! ## C59 -/

/-- **C59.** SetChannelConfig with a valid channel and field changes exactly this field. -/
theorem C59_set_channel (l : Lg) (ch : Int) (field : Nat) (v : Int) (hl : l.shm ≠ none) (h0 : 0 ≤ ch) (h1 : ch < channelCount l)
    (hf : field < 7) :
    ∃ l', setChannelConfig l ch field v = some l' ∧ eraseCfg l' = eraseCfg l ∧
      (∀ i k, chanCfgOf l' i k = if (i : Int) = ch ∧ k = field then some v else chanCfgOf l i k) ∧
      ∀ i j k, devCfgOf l' i j k = devCfgOf l i j k := by
  cases hm : l.shm with
  | none => exact absurd hm hl
  | some s =>
    have hcc : channelCount l = s.seg.channelSize := by unfold channelCount; rw [hm]
    rw [hcc] at h1
    obtain ⟨f, hf1, hf2⟩ := chanCfg_set (c := (s.chans ch.toNat).chan.cfg) (v := v) hf
    refine ⟨l.setChan s ch.toNat { s.chans ch.toNat with chan := { (s.chans ch.toNat).chan with cfg := f } }, ?_, ?_, ?_, ?_⟩
    · unfold setChannelConfig
      rw [hm]
      simp only
      rw [if_neg (by omega), if_neg (by unfold CHANNEL_CFG_MAX_ID; omega), hf1]
      rfl
    · refine eraseCfg_chans hm fun i => ?_
      by_cases hi : i = ch.toNat
      · rw [if_pos hi, hi]; rfl
      · rw [if_neg hi]
    · intro i k
      unfold chanCfgOf
      rw [hm]
      simp only [Lg.setChan, Option.bind_some]
      by_cases hi : i = ch.toNat
      · rw [if_pos hi]
        simp only [hf2]
        by_cases hk : k = field
        · rw [if_pos hk, if_pos ⟨by omega, hk⟩]
        · rw [if_neg hk, if_neg (fun h => hk h.2), hi]
      · rw [if_neg hi, if_neg (by omega)]
    · intro i j k
      unfold devCfgOf deviceOf
      rw [hm]
      simp only [Lg.setChan, Option.bind_some]
      by_cases hi : i = ch.toNat
      · rw [if_pos hi, hi]
      · rw [if_neg hi]

/-- **C59.** SetDeviceConfig with a valid channel, device and field changes exactly this field. -/
theorem C59_set_device (l : Lg) (ch dev : Int) (field : Nat) (v : Int) (hl : l.shm ≠ none) (h0 : 0 ≤ ch) (h1 : ch < channelCount l)
    (h2 : 0 ≤ dev) (h3 : deviceOf l ch.toNat dev.toNat ≠ none) (hf : field < 15) :
    ∃ l', setDeviceConfig l ch dev field v = some l' ∧ eraseCfg l' = eraseCfg l ∧
      (∀ i k, chanCfgOf l' i k = chanCfgOf l i k) ∧
      ∀ i j k, devCfgOf l' i j k = if (i : Int) = ch ∧ (j : Int) = dev ∧ k = field then some v else devCfgOf l i j k := by
  cases hm : l.shm with
  | none => exact absurd hm hl
  | some s =>
    have hcc : channelCount l = s.seg.channelSize := by unfold channelCount; rw [hm]
    rw [hcc] at h1
    unfold deviceOf at h3
    rw [hm] at h3
    simp only [Option.bind_some] at h3
    cases hd : (s.chans ch.toNat).chan.devices[dev.toNat]? with
    | none => exact absurd hd h3
    | some d =>
      have hlt := (List.getElem?_eq_some_iff.mp hd).1
      obtain ⟨f, hf1, hf2⟩ := devCfg_set (c := d.cfg) (v := v) hf
      refine ⟨l.setChan s ch.toNat { s.chans ch.toNat with
        chan := { (s.chans ch.toNat).chan with devices := (s.chans ch.toNat).chan.devices.set dev.toNat { d with cfg := f } } }, ?_, ?_, ?_, ?_⟩
      · unfold setDeviceConfig
        rw [hm]
        simp only
        rw [if_neg (by omega), if_neg (by unfold DEVICE_CFG_MAX_ID; omega), if_neg (by omega), hd]
        simp only [hf1]
        rfl
      · refine eraseCfg_chans hm fun i => ?_
        by_cases hi : i = ch.toNat
        · rw [if_pos hi, hi]
          unfold eraseChan
          simp only [map_erase_set hd]
        · rw [if_neg hi]
      · intro i k
        unfold chanCfgOf
        rw [hm]
        simp only [Lg.setChan, Option.bind_some]
        by_cases hi : i = ch.toNat
        · rw [if_pos hi, hi]
        · rw [if_neg hi]
      · intro i j k
        unfold devCfgOf deviceOf
        rw [hm]
        simp only [Lg.setChan, Option.bind_some]
        by_cases hi : i = ch.toNat
        · rw [if_pos hi]
          simp only [List.getElem?_set]
          by_cases hj : dev.toNat = j
          · rw [if_pos hj, if_pos hlt]
            simp only [Option.bind_some, hf2]
            by_cases hk : k = field
            · rw [if_pos hk, if_pos ⟨by omega, by omega, hk⟩]
            · rw [if_neg hk, if_neg (fun h => hk h.2.2), hi, ← hj, hd]
              rfl
          · rw [if_neg hj, if_neg (by omega), hi]
        · rw [if_neg hi, if_neg (by omega)]

/-- **C59.** With an invalid channel, device or field the setters do nothing. -/
theorem C59_set_invalid (l : Lg) (ch dev : Int) (field : Nat) (v : Int) (hl : l.shm ≠ none) :
    ((ch < 0 ∨ channelCount l ≤ ch ∨ 7 ≤ field) → setChannelConfig l ch field v = some l) ∧
    ((ch < 0 ∨ channelCount l ≤ ch ∨ dev < 0 ∨ deviceOf l ch.toNat dev.toNat = none ∨ 15 ≤ field) →
      setDeviceConfig l ch dev field v = some l) := by
  cases hm : l.shm with
  | none => exact absurd hm hl
  | some s =>
    have hcc : channelCount l = s.seg.channelSize := by unfold channelCount; rw [hm]
    rw [hcc]
    constructor
    · intro h
      unfold setChannelConfig
      rw [hm]
      simp only
      by_cases hc : s.seg.channelSize ≤ ch ∨ ch < 0
      · rw [if_pos hc]
      · rw [if_neg hc, if_pos (by unfold CHANNEL_CFG_MAX_ID; omega)]
    · intro h
      unfold setDeviceConfig
      rw [hm]
      simp only
      by_cases hc : s.seg.channelSize ≤ ch ∨ ch < 0
      · rw [if_pos hc]
      · rw [if_neg hc]
        by_cases hf : field ≥ DEVICE_CFG_MAX_ID
        · rw [if_pos hf]
        · rw [if_neg hf, if_pos]
          rcases h with h | h | h | h | h
          · omega
          · omega
          · exact Or.inr h
          · unfold deviceOf at h
            rw [hm] at h
            have := List.getElem?_eq_none_iff.mp h
            by_cases hd : dev < 0
            · exact Or.inr hd
            · left; omega
          · unfold DEVICE_CFG_MAX_ID at hf; omega

/-- **C59.** BatchSetChannelConfig with a valid field sets this field of every channel, and nothing else. -/
theorem C59_batch_channel (l : Lg) (field : Nat) (v : Int) (hl : l.shm ≠ none) (hf : field < 7) :
    ∃ l', batchSetChannelConfig l field v = some l' ∧ eraseCfg l' = eraseCfg l ∧
      (∀ i k, chanCfgOf l' i k = if (i : Int) < channelCount l ∧ k = field then some v else chanCfgOf l i k) ∧
      ∀ i j k, devCfgOf l' i j k = devCfgOf l i j k := by
  cases hm : l.shm with
  | none => exact absurd hm hl
  | some s =>
    have hcc : channelCount l = s.seg.channelSize := by unfold channelCount; rw [hm]
    rw [hcc]
    obtain ⟨r, hr, h1, h2⟩ := batchChannels_spec field v hf s.seg.channelSize.toNat 0 s.chans
    refine ⟨{ l with shm := some { s with chans := r } }, ?_, ?_, ?_, ?_⟩
    · unfold batchSetChannelConfig
      rw [hm]
      simp only [hr]
      rfl
    · refine eraseCfg_chans hm fun i => ?_
      by_cases hi : (i : Int) < s.seg.channelSize
      · obtain ⟨f, e, _⟩ := h2 i (Nat.zero_le _) (by omega)
        rw [e]; rfl
      · rw [h1 i (by omega)]
    · intro i k
      unfold chanCfgOf
      rw [hm]
      simp only [Option.bind_some]
      by_cases hi : (i : Int) < s.seg.channelSize
      · obtain ⟨f, e, e2⟩ := h2 i (Nat.zero_le _) (by omega)
        rw [e]
        simp only [e2, hi, true_and]
      · rw [h1 i (by omega), if_neg (fun h => hi h.1)]
    · intro i j k
      unfold devCfgOf deviceOf
      rw [hm]
      simp only [Option.bind_some]
      by_cases hi : (i : Int) < s.seg.channelSize
      · obtain ⟨f, e, _⟩ := h2 i (Nat.zero_le _) (by omega)
        rw [e]
      · rw [h1 i (by omega)]

/-- **C59.** BatchSetDeviceConfig with a valid field sets this field of the devices with the given output type (of
all devices for DEVICE_OUT_NULL), and nothing else. -/
theorem C59_batch_device (l : Lg) (t : OutType) (field : Nat) (v : Int) (hl : l.shm ≠ none) (hf : field < 15) :
    ∃ l', batchSetDeviceConfig l t field v = some l' ∧ eraseCfg l' = eraseCfg l ∧
      (∀ i k, chanCfgOf l' i k = chanCfgOf l i k) ∧
      ∀ (i j k : Nat) (d : Device), deviceOf l i j = some d → devCfgOf l' i j k =
        if (i : Int) < channelCount l ∧ (d.outType = t ∨ t = .null) ∧ k = field then some v else devCfgOf l i j k := by
  cases hm : l.shm with
  | none => exact absurd hm hl
  | some s =>
    have hcc : channelCount l = s.seg.channelSize := by unfold channelCount; rw [hm]
    rw [hcc]
    obtain ⟨r, hr, h1, h2⟩ := batchDevices_spec t field v hf s.seg.channelSize.toNat 0 s.chans
    refine ⟨{ l with shm := some { s with chans := r } }, ?_, ?_, ?_, ?_⟩
    · unfold batchSetDeviceConfig
      rw [hm]
      simp only [hr]
      rfl
    · refine eraseCfg_chans hm fun i => ?_
      by_cases hi : (i : Int) < s.seg.channelSize
      · obtain ⟨ds, e, e2, e3⟩ := h2 i (Nat.zero_le _) (by omega)
        rw [e]
        unfold eraseChan
        simp only
        congr 2
        apply List.ext_getElem?
        intro n
        rw [List.getElem?_map, List.getElem?_map]
        cases hd : (s.chans i).chan.devices[n]? with
        | none =>
          rw [List.getElem?_eq_none_iff] at hd
          rw [List.getElem?_eq_none_iff.mpr (by omega)]
        | some d =>
          obtain ⟨d', hd', f, ed, _⟩ := e3 n d hd
          rw [hd', ed]; rfl
      · rw [h1 i (by omega)]
    · intro i k
      unfold chanCfgOf
      rw [hm]
      simp only [Option.bind_some]
      by_cases hi : (i : Int) < s.seg.channelSize
      · obtain ⟨ds, e, _⟩ := h2 i (Nat.zero_le _) (by omega)
        rw [e]
      · rw [h1 i (by omega)]
    · intro i j k d hd
      unfold devCfgOf deviceOf at *
      rw [hm] at hd ⊢
      simp only [Option.bind_some] at hd ⊢
      by_cases hi : (i : Int) < s.seg.channelSize
      · obtain ⟨ds, e, e2, e3⟩ := h2 i (Nat.zero_le _) (by omega)
        obtain ⟨d', hd', f, ed, ef⟩ := e3 j d hd
        rw [e]
        simp only [hd', hd, Option.bind_some, ed, ef]
        by_cases hc : k = field ∧ (d.outType = t ∨ t = .null)
        · rw [if_pos hc, if_pos ⟨hi, hc.2, hc.1⟩]
        · rw [if_neg hc, if_neg (fun h => hc ⟨h.2.2, h.2.1⟩)]
      · rw [h1 i (by omega), if_neg (fun h => hi h.1)]

/-- **C59.** GetDeviceConfig returns the field, and 0 for anything invalid; it is always defined on a loaded logger. -/
theorem C59_get_device (l : Lg) (ch dev : Int) (field : Nat) (hl : l.shm ≠ none) :
    getDeviceConfig l ch dev field = some (if 0 ≤ ch ∧ ch < channelCount l ∧ 0 ≤ dev ∧ field < 15 then
      (devCfgOf l ch.toNat dev.toNat field).getD 0 else 0) := by
  cases hm : l.shm with
  | none => exact absurd hm hl
  | some s =>
    have hcc : channelCount l = s.seg.channelSize := by unfold channelCount; rw [hm]
    rw [hcc]
    unfold getDeviceConfig
    rw [hm]
    simp only
    by_cases hc : s.seg.channelSize ≤ ch ∨ ch < 0
    · rw [if_pos hc, if_neg (by omega)]
    rw [if_neg hc]
    by_cases hf : field ≥ DEVICE_CFG_MAX_ID
    · rw [if_pos hf, if_neg (by unfold DEVICE_CFG_MAX_ID at hf; omega)]
    rw [if_neg hf]
    have hf' : field < 15 := by unfold DEVICE_CFG_MAX_ID at hf; omega
    unfold devCfgOf deviceOf
    rw [hm]
    simp only [Option.bind_some]
    by_cases hd : ((s.chans ch.toNat).chan.devices.length : Int) ≤ dev ∨ dev < 0
    · rw [if_pos hd]
      by_cases hd0 : dev < 0
      · rw [if_neg (by omega)]
      · rw [if_pos (by omega), List.getElem?_eq_none_iff.mpr (by omega)]
        rfl
    · rw [if_neg hd, if_pos (by omega), List.getElem?_eq_getElem (show dev.toNat < _ by omega)]
      simp only [Option.bind_some]
      have hg : ∀ (c : DevCfg) (n : Nat), n < 15 → ∃ x, c.get n = some x := by
        intro c n hn
        match n, hn with
        | 0, _ | 1, _ | 2, _ | 3, _ | 4, _ | 5, _ | 6, _ | 7, _ | 8, _ | 9, _ | 10, _ | 11, _ | 12, _ | 13, _ | 14, _ => exact ⟨_, rfl⟩
      obtain ⟨x, hx⟩ := hg (s.chans ch.toNat).chan.devices[dev.toNat].cfg field hf'
      rw [hx]; rfl

/-- **C59.** GetChannelLog and GetDeviceLog return the statistics of the channel and of the device asked for, and 0 for
anything invalid; they are always defined on a loaded logger. -/
theorem C59_get_logs (l : Lg) (s : LgShm) (ch dev : Int) (field : Nat) (hl : l.shm = some s) :
    getChannelLog l ch field = some (if 0 ≤ ch ∧ ch < channelCount l ∧ field < 25 then (s.chans ch.toNat).logs field else 0) ∧
    getDeviceLog l ch dev field = some (if 0 ≤ ch ∧ ch < channelCount l ∧ 0 ≤ dev ∧ deviceOf l ch.toNat dev.toNat ≠ none ∧ field < 18
      then (s.chans ch.toNat).devLogs dev.toNat field else 0) := by
  have hcc : channelCount l = s.seg.channelSize := by unfold channelCount; rw [hl]
  have hdev : deviceOf l ch.toNat dev.toNat ≠ none ↔ dev.toNat < (s.chans ch.toNat).chan.devices.length := by
    unfold deviceOf
    rw [hl]
    simp
  rw [hcc]
  simp only [hdev]
  unfold getChannelLog getDeviceLog CHANNEL_LOG_MAX_ID DEVICE_LOG_MAX_ID
  rw [hl]
  constructor
  · dsimp only
    by_cases hc : s.seg.channelSize ≤ ch ∨ ch < 0
    · rw [if_pos hc, if_neg (by omega)]
    rw [if_neg hc]
    by_cases hf : field ≥ 25
    · rw [if_pos hf, if_neg (by omega)]
    · rw [if_neg hf, if_pos (by omega)]
  · dsimp only
    by_cases hc : s.seg.channelSize ≤ ch ∨ ch < 0
    · rw [if_pos hc, if_neg (by omega)]
    rw [if_neg hc]
    by_cases hf : field ≥ 18
    · rw [if_pos hf, if_neg (by omega)]
    rw [if_neg hf]
    by_cases hd : ((s.chans ch.toNat).chan.devices.length : Int) ≤ dev ∨ dev < 0
    · rw [if_pos hd, if_neg (by omega)]
    · rw [if_neg hd, if_pos (by omega)]

/-- **C59.** The getter returns what was set. -/
theorem C59_get_after_set (l : Lg) (ch dev : Int) (field : Nat) (v : Int) (hl : l.shm ≠ none) (h0 : 0 ≤ ch) (h1 : ch < channelCount l)
    (h2 : 0 ≤ dev) (h3 : deviceOf l ch.toNat dev.toNat ≠ none) (hf : field < 15) :
    ∃ l', setDeviceConfig l ch dev field v = some l' ∧ getDeviceConfig l' ch dev field = some v := by
  obtain ⟨l', h, he, _, hd⟩ := C59_set_device l ch dev field v hl h0 h1 h2 h3 hf
  have hshm : ∀ s, l.shm = some s → ∃ s', l'.shm = some s' ∧ s'.seg = s.seg := by
    intro s hs
    have h1 := congrArg Lg.shm he
    unfold eraseCfg at h1
    rw [hs] at h1
    simp only [Option.map_some] at h1
    obtain ⟨s', e1, e2⟩ := Option.map_eq_some_iff.mp h1
    have e3 := congrArg LgShm.seg e2
    exact ⟨s', e1, e3⟩
  refine ⟨l', h, ?_⟩
  cases hm : l.shm with
  | none => exact absurd hm hl
  | some s =>
    obtain ⟨s', hs', hseg⟩ := hshm s hm
    have hcc : channelCount l' = channelCount l := by unfold channelCount; rw [hm, hs']; simp only [hseg]
    rw [C59_get_device l' ch dev field (by rw [hs']; simp), hcc, if_pos ⟨h0, h1, h2, hf⟩, hd, if_pos ⟨by omega, by omega, rfl⟩]
    rfl

/-- **C59, the limit of it.** The batch setters do not check the field: CHANNEL_CFG_MAX_ID and DEVICE_CFG_MAX_ID
write behind the array. -/
theorem C59_batch_counterexample (l : Lg) (s : LgShm) (v : Int) (d : Device) (ds : List Device) (hm : l.shm = some s)
    (hn : 1 ≤ s.seg.channelSize) (hd : (s.chans 0).chan.devices = d :: ds) :
    batchSetChannelConfig l CHANNEL_CFG_MAX_ID v = none ∧ batchSetDeviceConfig l .null DEVICE_CFG_MAX_ID v = none := by
  obtain ⟨n, hn⟩ : ∃ n, s.seg.channelSize.toNat = n + 1 := ⟨s.seg.channelSize.toNat - 1, by omega⟩
  constructor
  · unfold batchSetChannelConfig
    rw [hm]
    simp only [hn]
    rfl
  · unfold batchSetDeviceConfig
    rw [hm]
    simp only [hn, batchDevices, hd, batchDevs, batchDev]
    rw [if_pos (Or.inr trivial)]
    rfl

/-- **C59, the limit of it.** Before the logger is loaded, the setters and getters are undefined. -/
theorem C59_unloaded_counterexample (ch dev : Int) (field : Nat) (v : Int) :
    setChannelConfig {} ch field v = none ∧ setDeviceConfig {} ch dev field v = none ∧ getDeviceConfig {} ch dev field = none :=
  ⟨rfl, rfl, rfl⟩

/-! ## C66 -/

/-- **C66.** Parsing, loading and starting a rendered configuration runs exactly this configuration. -/
theorem C66_configured_runs (e : LgEnv) (th : Nat → ThreadStart) (L : Layout) (g : Config) (h1 : L.chan < L.dev) (h2 : L.dev < L.set)
    (hg : Expressible g) (hk : g.shmKey ≤ 0) (ht : ∀ i : Nat, th i = .runs) :
    ∃ fuel0, ∀ fuel, fuel0 ≤ fuel → ∃ l s, parseAndStart { e with fuel := fuel } th (render L (configDoc g)) {} = .ret .ok l ∧
      l.shm = some s ∧ l.state = .running ∧ s.seg.channelSize = g.channels.length ∧ l.name = g.name ∧ l.desc = g.desc ∧
      ∀ (i : Nat) (c : Channel), g.channels[i]? = some c → (s.chans i).chan = { c with state := .running } := by
  obtain ⟨fuel0, hp⟩ := C39_round_trip e.dns e.garbage L g h1 h2 hg
  refine ⟨fuel0, fun fuel hf => ?_⟩
  have hp' : parseLogger e.dns e.garbage fuel (render L (configDoc g)) = .ok g := by
    rw [parseLogger_stable hf (by intro w hw; rw [hp] at hw; exact absurd hw (by nofun)), hp]
  have hne : g.channels ≠ [] := List.length_pos_iff.mp (by have := hg.count.1; omega)
  obtain ⟨l1, s1, hi, hs1, hl⟩ := C66_load { e with fuel := fuel } (render L (configDoc g)) [] {} g rfl hp' hne (Or.inr hk)
  have hcnt := hg.count
  obtain ⟨l2, hst⟩ := C57_start_happens th l1 s1 hl.state hs1 (by rw [hl.count]; omega) (by rw [hl.count]; omega) (fun i _ _ => ht i)
  obtain ⟨_, s0, hs0, _, _, s2, hl2, hseg, hrun, _⟩ := C57_start_ok th l1 l2 hst
  rw [hs1] at hs0; cases hs0
  refine ⟨l2, s2, ?_, by rw [hl2], by rw [hl2], by rw [hseg]; exact hl.count, ?_, ?_, fun i c hc => ?_⟩
  · unfold parseAndStart
    rw [if_neg (by simp), hi]
    simp only
    rw [if_neg (by simp)]
    exact hst
  · rw [hl2]
    show l1.name = _
    rw [hl.name]
    split
    · rename_i h; rw [h]
    · rfl
  · rw [hl2]
    show l1.desc = _
    rw [hl.desc]
    split
    · rename_i h; rw [h]
    · rfl
  · have hlt := (List.getElem?_eq_some_iff.mp hc).1
    rw [hrun i (by rw [hl.count]; omega), (hl.channels i c hc).1]

end FNLog
