import Verif.Proof.Logger
import Verif.Proof.KernelRfl

/-! # Property theorems C45, C55, C56, C66: loading and hot update -/

namespace FNLog
open Spec

/-! ## C45 -/

/-- **C45.** InitFromYMAL on a stopped logger with a text the parser refuses returns the parser's error. -/
theorem C45_init_reports (e : LgEnv) (text path : List Char) (l : Lg) (c : PErr) (hs : l.state = .uninit)
    (h : parseLogger e.dns e.garbage e.fuel text = .err c) : initFromYmal e text path l = .val (.parse c, l) := by
  unfold initFromYmal
  rw [if_neg (by rw [hs]; simp), h]

/-- **C45.** If InitFromYMAL returns a syntax error, or that the logger is in use, nothing has changed. -/
theorem C45_init_unchanged (e : LgEnv) (text path : List Char) (l l' : Lg) (c : Code)
    (h : initFromYmal e text path l = .val (c, l')) (hc : c = .inUse ∨ ∃ x, c = .parse x) : l' = l := by
  unfold initFromYmal at h
  split at h
  · exact (congrArg Prod.snd (Out.val.inj h)).symm
  · rename_i hs
    cases hp : parseLogger e.dns e.garbage e.fuel text with
    | err x => rw [hp] at h; exact (congrArg Prod.snd (Out.val.inj h)).symm
    | ub => rw [hp] at h; exact absurd h (by nofun)
    | running w => rw [hp] at h; exact absurd h (by nofun)
    | ok g =>
      rw [hp] at h
      simp only at h
      have hne : ∀ s m, installConfig g m s = (c, l') → l' = l := by
        intro s m hi
        unfold installConfig at hi
        simp only at hi
        split at hi <;> have := congrArg Prod.fst hi <;> simp only at this <;> subst this <;>
          rcases hc with hc | ⟨x, hc⟩ <;> exact absurd hc (by nofun)
      unfold initLocked at h
      rw [if_neg hs] at h
      simp only at h
      split at h
      · exact hne _ _ (Out.val.inj h)
      · split at h
        · exact absurd h (by nofun)
        · exact absurd h (by nofun)
        · rename_i c1 l1 hl
          split at h
          · have h := Out.val.inj h
            have hc1 : c1 = c := congrArg Prod.fst h
            subst hc1
            unfold loadShm at hl
            split at hl
            · have := congrArg Prod.fst (Out.val.inj hl)
              simp only at this
              rw [← this] at hc
              rcases hc with hc | ⟨x, hc⟩ <;> exact absurd hc (by nofun)
            · split at hl
              · exact absurd hl (by nofun)
              · exact absurd hl (by nofun)
              · simp only at hl
                split at hl <;> have := congrArg Prod.fst (Out.val.inj hl) <;> simp only at this <;> rw [← this] at hc <;>
                  rcases hc with hc | ⟨x, hc⟩ <;> exact absurd hc (by nofun)
          · exact hne _ _ (Out.val.inj h)

/-- **C45.** If a file cannot be opened, nothing has changed either. -/
theorem C45_init_file_missing (e : LgEnv) (path : List Char) (l : Lg) :
    initFromFile e none path l = .val (.invalidConfigPath, l) := rfl

/-- **C45.** If the hot update finds a syntax error it returns it; only the time of the check and the number of
checks of this channel have changed. -/
theorem C45_hot_update_unchanged (e : LgEnv) (now : Int) (file : List Char → Option (Int × List Char)) (i : Nat) (l l' : Lg)
    (x : PErr) (o : Bool) (h : hotUpdateLogger e now file i l = .val (.parse x, o, l')) :
    ∃ s, l.shm = some s ∧ OnlyChannel l i { s.chans i with
      lastHotCheck := now
      logs := fun k => if k = CHANNEL_LOG_HOTUPDATE_CHECK then (s.chans i).logs k + 1 else (s.chans i).logs k } l.hotUpdate l' := by
  obtain ⟨c, hcx⟩ : ∃ c, c = Code.parse x := ⟨_, rfl⟩
  rw [← hcx] at h
  cases hot_cases h with
  | early => exact absurd hcx (by nofun)
  | off _ hc => rw [hcx] at hc; rcases hc with hc | hc | hc <;> exact absurd hc (by nofun)
  | unused s _ hs =>
    exact ⟨s, hs, rfl, rfl, rfl, rfl, rfl, rfl, s, _, hs, rfl, rfl, by simp [checked], fun j hj => by simp [hj]⟩
  | used s m t g => exact absurd hcx (hotChannel_not_parse _ _ _ _)

/-- **C45, the limit of it.** Other errors are found after the logger has been changed: an empty text is
accepted by the parser, then InitFromYMAL returns E_INVALID_CHANNEL_SIZE, but the configuration that was
loaded before is gone. -/
theorem C45_no_channel_counterexample (e : LgEnv) (l : Lg) (s : LgShm) (hs : l.state = .uninit) (hl : l.shm = some s)
    (hf : 0 < e.fuel) :
    ∃ l' s', initFromYmal e [] [] l = .val (.invalidChannelSize, l') ∧ l'.shm = some s' ∧ s'.seg.channelSize = 0 ∧
      ∀ i, s'.chans i = {} := by
  obtain ⟨n, hn⟩ : ∃ n, e.fuel = n + 1 := ⟨e.fuel - 1, by omega⟩
  have hp : parseLogger e.dns e.garbage e.fuel [] = .ok { shmKey := e.garbage } := by rw [hn]; rfl
  refine ⟨{ takeGlobals { shmKey := e.garbage } [] l with
      shm := some { seg := { s.seg with channelSize := 0 }, chans := initChans { shmKey := e.garbage } s.chans } },
    { seg := { s.seg with channelSize := 0 }, chans := initChans { shmKey := e.garbage } s.chans }, ?_, rfl, rfl, ?_⟩
  · unfold initFromYmal
    rw [if_neg (by rw [hs]; simp), hp]
    show initLocked _ _ _ _ = _
    unfold initLocked
    rw [if_neg (by rw [hs]; simp)]
    have : (takeGlobals { shmKey := e.garbage } [] l).shm = some s := hl
    simp only [this]
    unfold installConfig
    simp only [List.length_nil]
    rw [if_pos (Or.inr (by decide))]
    rfl
  · intro i
    unfold initChans
    simp

/-! ## C66 -/

/-- **C66.** Loading an accepted text with a channel into a stopped logger without shared memory key (or whose
memory exists already) installs exactly the parsed configuration: channels, count, switch, key, names. All
statistics stay, the queues too. -/
theorem C66_load (e : LgEnv) (text path : List Char) (l : Lg) (g : Config) (hs : l.state = .uninit)
    (hp : parseLogger e.dns e.garbage e.fuel text = .ok g) (hc : g.channels ≠ []) (hk : l.shm ≠ none ∨ g.shmKey ≤ 0) :
    ∃ l' s', initFromYmal e text path l = .val (.ok, l') ∧ l'.shm = some s' ∧ LoadedAs g path l l' s' := by
  have hl2 := (C38_well_formed e.dns e.garbage text g ⟨e.fuel, hp⟩).1
  have hl1 : 0 < g.channels.length := List.length_pos_iff.mpr hc
  have hinst : ∀ m s, installConfig g m s = (.ok, { m with
        shm := some (LgShm.mk { s.seg with channelSize := g.channels.length } (initChans g s.chans)) }) := by
    intro m s
    unfold installConfig
    simp only
    rw [if_neg (by unfold MAX_CHANNEL_SIZE; omega)]
  have hinit : initFromYmal e text path l = initLocked e g path l := by
    unfold initFromYmal
    rw [if_neg (by rw [hs]; simp), hp]
  have hchan : ∀ (old : Nat → ChanMem) i c, g.channels[i]? = some c →
      initChans g old i = { chan := c, logs := (old i).logs, devLogs := (old i).devLogs } := by
    intro old i c h
    unfold initChans
    rw [h]
  cases hm : l.shm with
  | some s =>
    refine ⟨{ takeGlobals g path l with
        shm := some (LgShm.mk { s.seg with channelSize := g.channels.length } (initChans g s.chans)) }, _, ?_, rfl,
      ⟨rfl, hs, rfl, rfl, ?_, ?_, rfl, ?_, ?_⟩⟩
    · rw [hinit]
      unfold initLocked
      rw [if_neg (by rw [hs]; simp)]
      have : (takeGlobals g path l).shm = some s := hm
      simp only [this, hinst]
    · show (if _ then _ else _) = _
      cases g.name <;> simp
    · show (if _ then _ else _) = _
      cases g.desc <;> simp
    · intro i c h
      simp only [hchan _ i c h]
      exact ⟨True.intro, fun s' hs' => by rw [hm] at hs'; cases hs'; exact ⟨rfl, rfl⟩⟩
    · intro s' hs'
      rw [hm] at hs'; cases hs'; exact rfl
  | none =>
    have hk : g.shmKey ≤ 0 := by
      rcases hk with hk | hk
      · exact absurd hm hk
      · exact hk
    refine ⟨{ takeGlobals g path l with
        shm := some (LgShm.mk { freshShm.seg with channelSize := g.channels.length } (initChans g freshShm.chans)) }, _, ?_,
      rfl, ⟨rfl, hs, rfl, rfl, ?_, ?_, rfl, ?_, ?_⟩⟩
    · rw [hinit]
      unfold initLocked
      rw [if_neg (by rw [hs]; simp)]
      have h1 : (takeGlobals g path l).shm = none := hm
      have h2 : loadShm e (takeGlobals g path l) = .val (.ok, { takeGlobals g path l with shm := some freshShm }) := by
        unfold loadShm
        rw [if_pos (show (takeGlobals g path l).shmKey ≤ 0 from hk)]
      simp only [h1, h2, hinst]
    · show (if _ then _ else _) = _
      cases g.name <;> simp
    · show (if _ then _ else _) = _
      cases g.desc <;> simp
    · intro i c h
      simp only [hchan _ i c h]
      exact ⟨True.intro, fun s' hs' => by rw [hm] at hs'; cases hs'⟩
    · intro s' hs'
      rw [hm] at hs'; cases hs'

/-- **C66.** Loading from a file installs the configuration of its content in the same way, and every channel notes the
time of the file. -/
theorem C66_load_file (e : LgEnv) (m : Int) (text path : List Char) (l : Lg) (g : Config) (hs : l.state = .uninit)
    (hp : parseLogger e.dns e.garbage e.fuel text = .ok g) (hc : g.channels ≠ []) (hk : l.shm ≠ none ∨ g.shmKey ≤ 0) :
    ∃ l' s', initFromFile e (some (m, text)) path l = .val (.ok, l') ∧ l'.shm = some s' ∧ LoadedAs g path l l' s' ∧
      ∀ i, i < g.channels.length → (s'.chans i).yamlMtime = m := by
  obtain ⟨l', s', h1, h2, h3⟩ := C66_load e text path l g hs hp hc hk
  obtain ⟨s2, hs2⟩ : ∃ s2 : LgShm, s2 = { s' with
    chans := fun i => if (i : Int) < s'.seg.channelSize then { s'.chans i with yamlMtime := m } else s'.chans i } := ⟨_, rfl⟩
  refine ⟨{ l' with shm := some s2 }, s2, ?_, rfl, ⟨by rw [hs2]; exact h3.count, h3.state, h3.yamlPath, h3.hotUpdate, h3.name, h3.desc,
    h3.shmKey, fun i c hi => ?_, by rw [hs2]; exact h3.rings⟩, fun i hi => ?_⟩
  · unfold initFromFile
    simp only [h1]
    rw [if_neg (by simp), h2, hs2]
  · have := h3.channels i c hi
    rw [hs2]
    dsimp only
    split <;> exact this
  · rw [hs2]
    dsimp only
    rw [if_pos (by rw [h3.count]; omega)]

/-! ## C55 -/

/-- **C55.** A hot update that examines the file and returns success gives the channel the configuration of the
file as `Updated` says, keeps the numbering, touches no other channel and no statistics besides its own two
counters. -/
theorem C55_hot_update (e : LgEnv) (now : Int) (file : List Char → Option (Int × List Char)) (i : Nat) (l l' : Lg)
    (hn : ∀ s, l.shm = some s → Numbered i (s.chans i).chan)
    (h : hotUpdateLogger e now file i l = .val (.ok, true, l')) :
    ∃ s m t g c', l.shm = some s ∧ file l.yamlPath = some (m, t) ∧ Accepts e.dns e.garbage t g ∧
      OnlyChannel l i c' g.hotUpdate l' ∧ Updated (s.chans i).chan (srcChannel g i) c'.chan ∧ Numbered i c'.chan ∧
      SameStats (s.chans i) c' [CHANNEL_LOG_HOTUPDATE_CHECK, CHANNEL_LOG_HOTUPDATE_CHANGE] ∧ c'.yamlMtime = m ∧
      c'.lastHotCheck = now ∧ (srcChannel g i ∈ g.channels ∨ i = 0 ∧ g.channels = []) := by
  obtain ⟨c, hcx⟩ : ∃ c, c = Code.ok := ⟨_, rfl⟩
  obtain ⟨o, hox⟩ : ∃ o, o = true := ⟨_, rfl⟩
  rw [← hcx, ← hox] at h
  cases hot_cases h with
  | early => exact absurd hox (by nofun)
  | off _ hc => exact absurd hox (by nofun)
  | unused s _ hs _ _ _ hc =>
    rw [hcx] at hc
    rcases hc with ⟨hc, _⟩ | ⟨_, _, _, ⟨hc, _⟩ | ⟨hc, _⟩ | ⟨_, hc, _⟩⟩ <;> exact absurd hc (by nofun)
  | used s m t g hs hi hh ht hf hm hr hp =>
    have hnum := hn s hs
    have hgood := C38_well_formed e.dns e.garbage t g ⟨e.fuel, hp⟩
    have hsrc : Numbered i (srcChannel g i) := by
      cases hg : g.channels[i]? with
      | some src =>
        rw [show srcChannel g i = src by unfold srcChannel; rw [hg]; rfl]
        exact numbered_of_good (hgood.2.1 i src hg)
      | none =>
        have hz : srcChannel g i = {} := by unfold srcChannel; rw [hg]; rfl
        rw [hz]
        refine ⟨?_, by simp, fun j d hd => absurd hd (by simp)⟩
        have := hotChannel_ok_id hcx
        rw [hz] at this
        exact this
    obtain ⟨new, h1, h2, hu, hnn⟩ := hotChannel_ok (c := { checked now (s.chans i) with yamlMtime := m }) hnum hsrc
    refine ⟨s, m, t, g, (hotChannel g i { checked now (s.chans i) with yamlMtime := m }).2, hs, hf, ⟨e.fuel, hp⟩,
      ⟨rfl, rfl, rfl, rfl, rfl, rfl, s, _, hs, rfl, rfl, if_pos rfl, fun j hj => if_neg hj⟩,
      by rw [h2]; exact hu, by rw [h2]; exact hnn, ?_, by rw [h2], by rw [h2]; rfl, ?_⟩
    · rw [h2]
      refine ⟨rfl, fun k hk => ?_⟩
      simp only [List.mem_cons, List.not_mem_nil, or_false, not_or] at hk
      simp [checked, hk.1, hk.2]
    · cases hg : g.channels[i]? with
      | some src =>
        left
        rw [show srcChannel g i = src by unfold srcChannel; rw [hg]; rfl]
        exact List.mem_of_getElem? hg
      | none =>
        right
        have hi0 := hsrc.id
        rw [show srcChannel g i = {} by unfold srcChannel; rw [hg]; rfl] at hi0
        have : i = 0 := by simp at hi0; omega
        subst this
        exact ⟨rfl, by cases hgc : g.channels with
          | nil => rfl
          | cons => rw [hgc] at hg; exact absurd hg (by simp)⟩

/-- **C55.** Conversely the update happens: if the check is due, the logger is running with hot update on and
the changed file is accepted and has this channel, the call returns success. -/
theorem C55_hot_update_happens (e : LgEnv) (now : Int) (file : List Char → Option (Int × List Char)) (i : Nat) (l : Lg)
    (s : LgShm) (m : Int) (t : List Char) (g : Config) (hs : l.shm = some s) (hn : Numbered i (s.chans i).chan)
    (hi : (i : Int) < s.seg.channelSize) (hh : l.hotUpdate = true) (hy : l.yamlPath ≠ [])
    (ht : (s.chans i).lastHotCheck + 5 ≤ now) (hf : file l.yamlPath = some (m, t)) (hm : m ≠ (s.chans i).yamlMtime)
    (hr : l.state = .running) (hp : parseLogger e.dns e.garbage e.fuel t = .ok g) (hg : i < g.channels.length) :
    ∃ l', hotUpdateLogger e now file i l = .val (.ok, true, l') := by
  have hgood := C38_well_formed e.dns e.garbage t g ⟨e.fuel, hp⟩
  have hgi := List.getElem?_eq_getElem hg
  have hsrc : Numbered i (srcChannel g i) := by
    rw [show srcChannel g i = g.channels[i] by unfold srcChannel; rw [hgi]; rfl]
    exact numbered_of_good (hgood.2.1 i _ hgi)
  obtain ⟨new, h1, h2, hu, hnn⟩ := hotChannel_ok (c := { checked now (s.chans i) with yamlMtime := m }) hn hsrc
  unfold hotUpdateLogger
  rw [hs]
  simp only
  rw [if_neg (by omega), if_neg (by rw [hh]; simp), if_neg hy, if_neg (by unfold HOTUPDATE_INTERVEL; omega), hf]
  simp only
  rw [if_neg hm, if_neg (by rw [hr]; simp), hp]
  simp only [h1]
  exact ⟨_, rfl⟩

/-- **C55.** If the new file lacks the channel, the call returns E_VERSION_MISMATCH; the configuration and the
statistics of the channel stay (except the number of checks), but the hot update switch of the file is taken. -/
theorem C55_channel_missing (e : LgEnv) (now : Int) (file : List Char → Option (Int × List Char)) (i : Nat) (l l' : Lg)
    (o : Bool) (hn : ∀ s, l.shm = some s → Numbered i (s.chans i).chan)
    (h : hotUpdateLogger e now file i l = .val (.versionMismatch, o, l')) :
    ∃ s m t g c', l.shm = some s ∧ file l.yamlPath = some (m, t) ∧ Accepts e.dns e.garbage t g ∧
      g.channels.length ≤ i ∧ OnlyChannel l i c' g.hotUpdate l' ∧ c'.chan = (s.chans i).chan ∧
      SameStats (s.chans i) c' [CHANNEL_LOG_HOTUPDATE_CHECK] := by
  obtain ⟨c, hcx⟩ : ∃ c, c = Code.versionMismatch := ⟨_, rfl⟩
  rw [← hcx] at h
  cases hot_cases h with
  | early => exact absurd hcx (by nofun)
  | off _ hc => rw [hcx] at hc; rcases hc with hc | hc | hc <;> exact absurd hc (by nofun)
  | unused s _ hs _ _ _ hc =>
    rw [hcx] at hc
    rcases hc with ⟨hc, _⟩ | ⟨_, _, _, ⟨hc, _⟩ | ⟨hc, _⟩ | ⟨_, hc, _⟩⟩ <;> exact absurd hc (by nofun)
  | used s m t g hs hi hh ht hf hm hr hp =>
    have hnum := hn s hs
    have hgood := C38_well_formed e.dns e.garbage t g ⟨e.fuel, hp⟩
    have hlen : g.channels.length ≤ i := by
      apply Classical.byContradiction
      intro hlt
      have hgi := List.getElem?_eq_getElem (show i < g.channels.length by omega)
      have hsrc : Numbered i (srcChannel g i) := by
        rw [show srcChannel g i = g.channels[i] by unfold srcChannel; rw [hgi]; rfl]
        exact numbered_of_good (hgood.2.1 i _ hgi)
      obtain ⟨new, h1, _⟩ := hotChannel_ok (c := { checked now (s.chans i) with yamlMtime := m }) hnum hsrc
      rw [h1] at hcx
      exact absurd hcx (by nofun)
    have hz : srcChannel g i = {} := by
      unfold srcChannel; rw [List.getElem?_eq_none_iff.mpr hlen]; rfl
    have h2 : (hotChannel g i { checked now (s.chans i) with yamlMtime := m }).2 =
        { checked now (s.chans i) with yamlMtime := m } := by
      unfold hotChannel at hcx ⊢
      simp only [hz, hotDevices] at hcx ⊢
      split
      · rfl
      · rename_i hc
        rw [if_neg hc] at hcx
        exact absurd hcx (by simp)
    refine ⟨s, m, t, g, (hotChannel g i { checked now (s.chans i) with yamlMtime := m }).2, hs, hf, ⟨e.fuel, hp⟩, hlen,
      ⟨rfl, rfl, rfl, rfl, rfl, rfl, s, _, hs, rfl, rfl, if_pos rfl, fun j hj => if_neg hj⟩, by rw [h2]; rfl, ?_⟩
    rw [h2]
    refine ⟨rfl, fun k hk => ?_⟩
    simp only [List.mem_cons, List.not_mem_nil, or_false] at hk
    simp [checked, hk]

/-- **C55, the limit of it.** A file that contains no channel is not refused for channel 0: an empty file (as
seen while an editor is rewriting it) clears the filter of channel 0 and switches hot update off for good. -/
theorem C55_empty_file_counterexample (e : LgEnv) (now m : Int) (file : List Char → Option (Int × List Char)) (l : Lg)
    (s : LgShm) (hs : l.shm = some s) (hn : Numbered 0 (s.chans 0).chan) (hi : 0 < s.seg.channelSize)
    (hh : l.hotUpdate = true) (hy : l.yamlPath ≠ []) (ht : (s.chans 0).lastHotCheck + 5 ≤ now)
    (hf : file l.yamlPath = some (m, [])) (hm : m ≠ (s.chans 0).yamlMtime) (hr : l.state = .running) (hfu : 0 < e.fuel) :
    ∃ l' s', hotUpdateLogger e now file 0 l = .val (.ok, true, l') ∧ l'.shm = some s' ∧ l'.hotUpdate = false ∧
      (s'.chans 0).chan = { (s.chans 0).chan with cfg := {} } := by
  obtain ⟨n, hfn⟩ : ∃ n, e.fuel = n + 1 := ⟨e.fuel - 1, by omega⟩
  have hp : parseLogger e.dns e.garbage e.fuel [] = .ok { shmKey := e.garbage } := by rw [hfn]; rfl
  have hc : hotChannel { shmKey := e.garbage } 0 { checked now (s.chans 0) with yamlMtime := m } =
      (.ok, { checked now (s.chans 0) with
        yamlMtime := m
        chan := { (s.chans 0).chan with cfg := {} }
        logs := fun k => if k = CHANNEL_LOG_HOTUPDATE_CHANGE then (checked now (s.chans 0)).logs k + 1 else (checked now (s.chans 0)).logs k }) := by
    unfold hotChannel
    have : srcChannel { shmKey := e.garbage } 0 = {} := rfl
    simp only [this, hotDevices]
    have hid : (checked now (s.chans 0)).chan.id = 0 := hn.id
    rw [if_neg (by rw [hid]; simp), if_neg (by simp)]
    rfl
  unfold hotUpdateLogger
  rw [hs]
  simp only
  rw [if_neg (by omega), if_neg (by rw [hh]; simp), if_neg hy, if_neg (by unfold HOTUPDATE_INTERVEL; omega), hf]
  simp only
  rw [if_neg hm, if_neg (by rw [hr]; simp), hp]
  simp only [hc]
  exact ⟨_, _, rfl, rfl, rfl, rfl⟩

/-- A running logger with one channel, its file changed. -/
def hotExample : Lg :=
  { hotUpdate := true, yamlPath := ['c'], state := .running,
    shm := some { freshShm with seg := { freshShm.seg with channelSize := 1 } } }

/-- The new file of the example. -/
def hotExampleText : List Char := "- channel: 0\n  priority: warn\n  - device: 0\n    out_type: screen\n".toList

/-- What the example looks at: code, file opened, priority and number of devices of channel 0. -/
def hotExampleView : Out (Code × Bool × Lg) → Option (Code × Bool × Int × Nat)
  | .val (c, o, l) => l.shm.map fun s => (c, o, (s.chans 0).chan.cfg.priority, (s.chans 0).chan.devices.length)
  | _ => none

/-- The file is read, the channel gets its filter and a device. -/
example : hotExampleView (hotUpdateLogger { fuel := 100 } 7 (fun _ => some (3, hotExampleText)) 0 hotExample) =
    some (.ok, true, 3, 1) := by kernel_rfl

/-- The channel is numbered. -/
example : ∀ s, hotExample.shm = some s → Numbered 0 (s.chans 0).chan := by
  intro s h
  cases h
  exact ⟨rfl, by decide, fun j d h => absurd h (by simp [freshShm])⟩

/-! ## C56 -/

/-- **C56.** In any sequence of calls, for any channels, clock readings and states of the file, one channel
opens the file again only 5 seconds after it did so last. -/
theorem C56_rate_limit (e : LgEnv) (calls : List HotCall) (l l' : Lg) (opens : List (Nat × Int))
    (h : hotRun e calls l = .val (opens, l')) :
    opens.Pairwise fun a b => a.1 = b.1 → a.2 + 5 ≤ b.2 := by
  exact (hotRun_opens e calls l l' opens h).1

/-- **C56.** If the modification time is the one seen last, nothing changes but the time and number of checks. -/
theorem C56_unchanged (e : LgEnv) (now : Int) (file : List Char → Option (Int × List Char)) (i : Nat) (l l' : Lg)
    (s : LgShm) (t : List Char) (c : Code) (o : Bool) (hs : l.shm = some s)
    (hf : file l.yamlPath = some ((s.chans i).yamlMtime, t)) (h : hotUpdateLogger e now file i l = .val (c, o, l')) :
    (l' = l ∧ o = false) ∨ (o = true ∧ c = .noChange ∧ OnlyChannel l i { s.chans i with
      lastHotCheck := now
      logs := fun k => if k = CHANNEL_LOG_HOTUPDATE_CHECK then (s.chans i).logs k + 1 else (s.chans i).logs k } l.hotUpdate l') := by
  cases hot_cases h with
  | early => exact Or.inl ⟨rfl, rfl⟩
  | off _ hc => exact Or.inl ⟨rfl, rfl⟩
  | unused s' _ hs' hi hh ht hc =>
    rw [hs] at hs'; cases hs'
    have hnc : c = .noChange := by
      have h' := h
      unfold hotUpdateLogger at h'
      rw [hs] at h'
      simp only at h'
      rw [if_neg (by omega), if_neg (by rw [hh]; simp)] at h'
      by_cases hy : l.yamlPath = []
      · rw [if_pos hy] at h'
        cases h'
      rw [if_neg hy, if_neg (by unfold HOTUPDATE_INTERVEL; omega), hf] at h'
      simp only [if_true] at h'
      exact (congrArg Prod.fst (Out.val.inj h')).symm
    exact Or.inr ⟨rfl, hnc, rfl, rfl, rfl, rfl, rfl, rfl, s, _, hs, rfl, rfl, by simp [checked], fun j hj => by simp [hj]⟩
  | used s' m t' g hs' hi hh ht hf' hm hr hp =>
    rw [hs] at hs'; cases hs'
    rw [hf] at hf'
    exact absurd (congrArg Prod.fst (Option.some.inj hf')).symm hm

/-- **C56.** Applying a configuration a second time changes nothing: the channel is determined. -/
theorem C56_idempotent (old src new new' : Channel) (h : Updated old src new) (h' : Updated new src new') : new' = new := by
  have hd : new'.devices = new.devices := by
    apply List.ext_getElem?
    intro j
    cases hn : new.devices[j]? with
    | none =>
      have hsz := h.size
      have hj := List.getElem?_eq_none_iff.mp hn
      rw [h'.added j hn, List.getElem?_eq_none_iff]
      omega
    | some n =>
      cases hs : src.devices[j]? with
      | none => exact h'.kept j n hn hs
      | some s =>
        obtain ⟨n', hn', h1, h2, h3, h4, h5, h6⟩ := h'.known j n s hn hs
        have hcfg : n.cfg = s.cfg := by
          cases ho : old.devices[j]? with
          | none =>
            have := h.added j ho
            rw [hn, hs] at this
            rw [Option.some.inj this]
          | some d =>
            obtain ⟨n2, hn2, e1, _⟩ := h.known j d s ho hs
            rw [hn] at hn2
            rw [Option.some.inj hn2]; exact e1
        rw [hn']
        congr 1
        cases n; cases n'
        simp only at *
        subst h2 h3 h4 h5 h6
        rw [h1, hcfg]
  have e1 := h'.cfg.trans h.cfg.symm
  have e2 := h'.id
  have e3 := h'.type
  have e4 := h'.state
  have e5 := h'.virtualDeviceId
  cases new; cases new'
  simp only at *
  subst e1 e2 e3 e4 e5 hd
  rfl

end FNLog
