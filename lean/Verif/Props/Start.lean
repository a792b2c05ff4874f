import Verif.Model.Start
import Verif.Props.Texts
import Verif.Props.Life

/-! # C83: FastStartDefaultLogger and FastStartDebugLogger -/

namespace FNLog
open Spec

/-- The two channels of the default logger, running; the arguments are the priorities of the second file and of the
screen of each channel. -/
def startedChannels (file1 screen0 file2 screen1 : Int) : List Channel :=
  [{ id := 0, type := .async, state := .running,
     devices := [defaultFile 0 0 "$PNAME", defaultFile 1 file1 "$PNAME_error",
       { id := 2, outType := .screen, cfg := { able := 1, priority := screen0 } }] },
   { id := 1, type := .sync, state := .running,
     devices := [defaultFile 0 0 "$PNAME_sync", defaultFile 1 file2 "$PNAME_sync_info",
       { id := 2, outType := .screen, cfg := { able := 1, priority := screen1 } }] }]

/-- The logger runs exactly these channels, without configuration file and hot update. -/
structure Runs (l : Lg) (chans : List Channel) : Prop where
  state : l.state = .running
  channels : l.view.shm = some chans
  noFile : l.yamlPath = []
  noHot : l.hotUpdate = false

/-- With two channels. -/
theorem runs_two {l : Lg} {s : LgShm} {a b : Channel} (hs : l.shm = some s) (hn : s.seg.channelSize = 2)
    (h0 : (s.chans 0).chan = a) (h1 : (s.chans 1).chan = b) : l.view.shm = some [a, b] := by
  unfold Lg.view
  rw [hs]
  simp only [Option.map_some, hn]
  rw [show ((2 : Int).toNat) = 2 from rfl]
  simp [List.range_succ, h0, h1]

theorem start_default (e : LgEnv) (th : Nat → ThreadStart) (hg : e.garbage ≤ 0) (ht : th 0 = .runs) :
    ∃ fuel0, ∀ fuel, fuel0 ≤ fuel → ∃ l s, fastStartDefault { e with fuel := fuel } th {} = .ret .ok l ∧
      l.shm = some s ∧ s.seg.channelSize = 2 ∧ l.state = .running ∧ l.yamlPath = [] ∧ l.hotUpdate = false ∧
      (startedChannels 4 2 2 2)[0]? = some (s.chans 0).chan ∧ (startedChannels 4 2 2 2)[1]? = some (s.chans 1).chan := by
  obtain ⟨fuel0, hp⟩ := C62_default_text_partial e.dns e.garbage
  refine ⟨fuel0, fun fuel hf => ?_⟩
  obtain ⟨g, hgd⟩ : ∃ g : Config, g = Config.mk [Channel.mk 0 .async 0 .null {}
        [defaultFile 0 0 "$PNAME", defaultFile 1 4 "$PNAME_error", defaultScreen 2],
      Channel.mk 1 .sync 0 .null {}
        [defaultFile 0 0 "$PNAME_sync", defaultFile 1 2 "$PNAME_sync_info", defaultScreen 2]] false e.garbage [] [] :=
    ⟨_, rfl⟩
  rw [← hgd] at hp
  have hp' : parseLogger e.dns e.garbage fuel defaultText = .ok g := by
    rw [parseLogger_stable hf (by intro w hw; rw [hp] at hw; exact absurd hw (by nofun)), hp]
  have hlen : g.channels.length = 2 := by rw [hgd]; rfl
  obtain ⟨l1, s1, hi, hs1, hl⟩ := C66_load { e with fuel := fuel } defaultText [] {} g rfl hp'
    (by intro h; rw [h] at hlen; exact absurd hlen (by nofun)) (Or.inr (by rw [hgd]; exact hg))
  have hcount : s1.seg.channelSize = 2 := by rw [hl.count, hlen]; rfl
  have hc0 := (hl.channels 0 _ (by rw [hgd]; rfl)).1
  have hc1 := (hl.channels 1 _ (by rw [hgd]; rfl)).1
  obtain ⟨l2, hst⟩ := C57_start_happens th l1 s1 hl.state hs1 (by omega) (by omega) (fun i hi h => by
    have : i = 0 ∨ i = 1 := by omega
    rcases this with rfl | rfl
    · exact ht
    · rw [hc1] at h; exact absurd h (by nofun))
  obtain ⟨_, s0, hs0, _, _, s2, hl2, hseg, hrun, _⟩ := C57_start_ok th l1 l2 hst
  rw [hs1] at hs0; cases hs0
  refine ⟨l2, s2, ?_, by rw [hl2], by rw [hseg]; exact hcount, by rw [hl2], ?_, ?_, ?_, ?_⟩
  · unfold fastStartDefault parseAndStart
    rw [if_neg (by simp), hi]
    simp only
    rw [if_neg (by simp)]
    exact hst
  · rw [hl2]; exact hl.yamlPath
  · rw [hl2]; show l1.hotUpdate = false; rw [hl.hotUpdate, hgd]
  · rw [hrun 0 (by rw [hcount]; decide), hc0]; rfl
  · rw [hrun 1 (by rw [hcount]; decide), hc1]; rfl

/-- **C83.** FastStartDefaultLogger starts a logger with one async and one sync channel; each writes everything to
one file, the important lines to a second one and to the screen.  Partial: `shm_key_`, which the parser leaves
uninitialised, must happen not to be positive. -/
theorem C83_default_partial (e : LgEnv) (th : Nat → ThreadStart) (hg : e.garbage ≤ 0) (ht : th 0 = .runs) :
    ∃ fuel0, ∀ fuel, fuel0 ≤ fuel → ∃ l, fastStartDefault { e with fuel := fuel } th {} = .ret .ok l ∧
      Runs l (startedChannels 4 2 2 2) := by
  obtain ⟨f, h⟩ := start_default e th hg ht
  refine ⟨f, fun fuel hf => ?_⟩
  obtain ⟨l, s, h1, h2, h3, h4, h5, h6, h7, h8⟩ := h fuel hf
  exact ⟨l, h1, h4, runs_two h2 h3 (Option.some.inj h7).symm (Option.some.inj h8).symm, h5, h6⟩

/-- A device with another priority, if it has the output type. -/
def withPriority (t : OutType) (v : Int) (d : Device) : Device :=
  if d.outType = t then { d with cfg := { d.cfg with priority := v } } else d

theorem batchDevs_map {t : OutType} (ht : t ≠ .null) (v : Int) (ds : List Device) :
    batchDevs t DEVICE_CFG_PRIORITY v ds = some (ds.map (withPriority t v)) := by
  induction ds with
  | nil => rfl
  | cons d ds ih =>
    have : batchDev t DEVICE_CFG_PRIORITY v d = some (withPriority t v d) := by
      unfold batchDev withPriority
      by_cases h : d.outType = t
      · rw [if_pos (.inl h), if_pos h]; rfl
      · rw [if_neg (by simp [h, ht]), if_neg h]
    rw [batchDevs, this, ih]
    rfl

theorem batch_two {l : Lg} {s : LgShm} (hs : l.shm = some s) (hn : s.seg.channelSize = 2) {t : OutType}
    (ht : t ≠ .null) (v : Int) : ∃ s', batchSetDeviceConfig l t DEVICE_CFG_PRIORITY v = some { l with shm := some s' } ∧
      s'.seg = s.seg ∧ ∀ i, i < 2 →
        (s'.chans i).chan = { (s.chans i).chan with devices := (s.chans i).chan.devices.map (withPriority t v) } := by
  have e2 : s.seg.channelSize.toNat = 1 + 1 := by rw [hn]; rfl
  have key : ∃ r, batchDevices t DEVICE_CFG_PRIORITY v (1 + 1) 0 s.chans = some r ∧ ∀ i, i < 2 →
      (r i).chan = { (s.chans i).chan with devices := (s.chans i).chan.devices.map (withPriority t v) } := by
    simp only [batchDevices, Option.bind_eq_bind, batchDevs_map ht, Option.bind_some]
    refine ⟨_, rfl, fun i hi => ?_⟩
    have : i = 0 ∨ i = 1 := by omega
    rcases this with rfl | rfl <;> simp [Ring.upd]
  obtain ⟨r, h1, h2⟩ := key
  refine ⟨{ s with chans := r }, ?_, rfl, h2⟩
  unfold batchSetDeviceConfig
  rw [hs]
  simp only [e2, h1, Option.map_some]

theorem set_two {l : Lg} {s : LgShm} (hs : l.shm = some s) (hn : s.seg.channelSize = 2) {a b : Device} {r : List Device}
    (hd : (s.chans 0).chan.devices = a :: b :: r) (v : Int) :
    ∃ s', setDeviceConfig l 0 1 DEVICE_CFG_PRIORITY v = some { l with shm := some s' } ∧ s'.seg = s.seg ∧
      (s'.chans 0).chan = { (s.chans 0).chan with devices := a :: { b with cfg := { b.cfg with priority := v } } :: r } ∧
      s'.chans 1 = s.chans 1 := by
  have key : setDeviceConfig l 0 1 DEVICE_CFG_PRIORITY v = some (l.setChan s 0 { s.chans 0 with
      chan := { (s.chans 0).chan with devices := a :: { b with cfg := { b.cfg with priority := v } } :: r } }) := by
    unfold setDeviceConfig
    rw [hs]
    simp only
    rw [if_neg (by rw [hn]; decide), if_neg (by decide),
      if_neg (by rw [show Int.toNat 0 = 0 from rfl, hd]; simp; omega)]
    rw [show (s.chans (Int.toNat 0)).chan.devices[Int.toNat 1]? = some b by rw [show Int.toNat 0 = 0 from rfl, hd]; rfl]
    simp only [DEVICE_CFG_PRIORITY, DevCfg.set, Option.map_some]
    rw [show Int.toNat 0 = 0 from rfl, hd]
    rfl
  refine ⟨_, key, rfl, ?_, ?_⟩
  · simp
  · simp

/-- **C83.** FastStartDebugLogger starts the same logger with other priorities: the files take everything but the
error file of channel 0, the screens everything from debug on.  Partial as above. -/
theorem C83_debug_partial (e : LgEnv) (th : Nat → ThreadStart) (hg : e.garbage ≤ 0) (ht : th 0 = .runs) :
    ∃ fuel0, ∀ fuel, fuel0 ≤ fuel → ∃ l, fastStartDebug { e with fuel := fuel } th {} = .ret .ok l ∧
      Runs l (startedChannels 4 1 0 1) := by
  obtain ⟨f, h⟩ := start_default e th hg ht
  refine ⟨f, fun fuel hf => ?_⟩
  obtain ⟨l, s, h1, h2, h3, h4, h5, h6, h7, h8⟩ := h fuel hf
  obtain ⟨s1, b1, b2, b3⟩ := batch_two h2 h3 (t := .file) (by decide) 0
  have d0 := b3 0 (by decide)
  rw [← Option.some.inj h7] at d0
  obtain ⟨s2, c1, c2, c3, c4⟩ := set_two (l := { l with shm := some s1 }) rfl (by rw [b2]; exact h3)
    (by rw [d0]; rfl) 4
  obtain ⟨s3, e1, e2, e3⟩ := batch_two (l := { l with shm := some s2 }) rfl (by rw [c2, b2]; exact h3) (t := .screen)
    (by decide) 1
  refine ⟨{ l with shm := some s3 }, ?_, h4, ?_, h5, h6⟩
  · unfold fastStartDebug
    rw [h1]
    have : debugPriorities l = some { l with shm := some s3 } := by
      unfold debugPriorities
      simp only [Option.bind_eq_bind]
      rw [b1, Option.bind_some, c1, Option.bind_some, e1]
    unfold afterStart
    dsimp only
    rw [this]
  · refine runs_two rfl (by rw [e2, c2, b2]; exact h3) ?_ ?_
    · rw [e3 0 (by decide), c3, d0]; rfl
    · rw [e3 1 (by decide), c4, b3 1 (by decide), ← Option.some.inj h8]; rfl

/-- A device without filters takes the lines from its priority on. -/
theorem takes_plain {d : Device} (h1 : d.cfg.able = 1) (h2 : d.inType = .null) (h3 : d.cfg.categoryExtend = 0)
    (h4 : d.cfg.identifyExtend = 0) (h5 : d.cfg.categoryMask = 0) (h6 : d.cfg.identifyMask = 0) (p c k : Int) :
    dispatchTakes d p c k = some (decide (d.cfg.priority ≤ p)) := by
  unfold dispatchTakes
  rw [if_neg (by rw [h1]; decide), if_neg (by simp [h2])]
  by_cases h : p < d.cfg.priority
  · rw [if_pos h, decide_eq_false (by omega)]
  · rw [if_neg h, decide_eq_true (by omega)]
    simp [rangeFails, maskFails, h3, h4, h5, h6]

theorem dispatch_three {a b c : Device} (p x k : Int) {i j : Int} (ha : dispatchTakes a p x k = some true)
    (hb : dispatchTakes b p x k = some (decide (i ≤ p))) (hc : dispatchTakes c p x k = some (decide (j ≤ p))) :
    dispatchLog [a, b, c] p x k = some (0 :: ((if i ≤ p then [1] else []) ++ if j ≤ p then [2] else [])) := by
  simp only [dispatchLog, dispatchFrom, ha, hb, hc]
  by_cases h1 : i ≤ p <;> by_cases h2 : j ≤ p <;> simp [h1, h2]

theorem blockDevs_first {f : String} {ds : List Device} {p c k : Int} (h : 0 ≤ p) :
    blockDevs p c k (defaultFile 0 0 f :: ds) = some true := by
  rw [blockDevs]
  rw [if_neg (by simp [defaultFile]; omega), if_neg (by simp [defaultFile])]
  simp [rangeFails, maskFails, defaultFile]

/-- **C83.** Where the lines go.  On a logger that runs these channels, a statement with any category and identifier
and a priority of the enum is admitted on both channels; the line goes to the first file, to the second file from its
priority on and to the screen from its priority on. -/
theorem C83_lines {l : Lg} {f1 s1 f2 s2 : Int} (h : Runs l (startedChannels f1 s1 f2 s2)) (p c k : Int) (h0 : 0 ≤ p)
    (h7 : p < PRIORITY_MAX) :
    blockInput l.view 0 p c k = some false ∧ blockInput l.view 1 p c k = some false ∧
    ∃ a b, l.view.shm = some [a, b] ∧
      dispatchLog a.devices p c k = some (0 :: ((if f1 ≤ p then [1] else []) ++ if s1 ≤ p then [2] else [])) ∧
      dispatchLog b.devices p c k = some (0 :: ((if f2 ≤ p then [1] else []) ++ if s2 ≤ p then [2] else [])) := by
  have hz : dispatchTakes (defaultFile 0 0 "$PNAME") p c k = some true := by
    rw [takes_plain rfl rfl rfl rfl rfl rfl]; exact congrArg some (decide_eq_true h0)
  have hz' : dispatchTakes (defaultFile 0 0 "$PNAME_sync") p c k = some true := by
    rw [takes_plain rfl rfl rfl rfl rfl rfl]; exact congrArg some (decide_eq_true h0)
  have hpos : ¬p ≥ PRIORITY_MAX := by omega
  refine ⟨?_, ?_, _, _, h.channels, ?_, ?_⟩
  · unfold blockInput
    rw [h.channels]
    dsimp only
    rw [if_neg (by simp [startedChannels]), if_neg (by rw [show l.view.state = l.state from rfl, h.state]; simp)]
    simp only [startedChannels, Int.toNat_zero, List.getElem?_cons_zero, ne_eq, not_true_eq_false, if_false]
    rw [if_neg (by show ¬p < 0; omega), if_neg hpos]
    rw [blockDevs_first h0]
    simp [rangeFails, maskFails]
  · unfold blockInput
    rw [h.channels]
    dsimp only
    rw [if_neg (by simp [startedChannels]), if_neg (by rw [show l.view.state = l.state from rfl, h.state]; simp)]
    simp only [startedChannels, show Int.toNat 1 = 1 from rfl, List.getElem?_cons_succ, List.getElem?_cons_zero, ne_eq,
      not_true_eq_false, if_false]
    rw [if_neg (by show ¬p < 0; omega), if_neg hpos]
    rw [blockDevs_first h0]
    simp [rangeFails, maskFails]
  · exact dispatch_three p c k hz (takes_plain rfl rfl rfl rfl rfl rfl p c k) (takes_plain rfl rfl rfl rfl rfl rfl p c k)
  · exact dispatch_three p c k hz' (takes_plain rfl rfl rfl rfl rfl rfl p c k) (takes_plain rfl rfl rfl rfl rfl rfl p c k)

/-- The hypotheses of the theorems can be met. -/
example : ∃ l, Runs l (startedChannels 4 1 0 1) := by
  obtain ⟨f, h⟩ := C83_debug_partial {} (fun _ => .runs) (by decide) rfl
  obtain ⟨l, _, h⟩ := h f (Nat.le_refl f)
  exact ⟨l, h⟩

/-- With a positive number in the uninitialised `shm_key_` the default logger is tied to shared memory; if that can
not be had, it does not start. -/
theorem C83_counterexample : ∃ (e : LgEnv) (l : Lg), e.garbage = 7 ∧
    fastStartDefault e (fun _ => .runs) {} = .ret (.load .probeError) l := by
  obtain ⟨fuel0, hp⟩ := C62_default_text_partial (fun _ => none) 7
  refine ⟨{ garbage := 7, fuel := fuel0, os := .probeError }, { shmKey := 7 }, rfl, ?_⟩
  unfold fastStartDefault parseAndStart initFromYmal
  rw [if_neg (by simp), if_neg (by simp), hp]
  rfl

end FNLog
