import Verif.Proof.Setters

/-! # C88: the functions of fn_log.h -/

namespace FNLog
open Spec

/-- **C88.** EnableAllFileDevice, EnableAllScreenDevice and EnableAllUDPDevice switch the devices of their type on and off
and change nothing else. -/
theorem C88_enable (l : Lg) (hl : l.shm ≠ none) (on : Bool) :
    (∃ l', enableAllFileDevice l on = some l' ∧ DevicesChanged .file (fun c => { c with able := if on then 1 else 0 }) l l') ∧
    (∃ l', enableAllScreenDevice l on = some l' ∧ DevicesChanged .screen (fun c => { c with able := if on then 1 else 0 }) l l') ∧
    ∃ l', enableAllUDPDevice l on = some l' ∧ DevicesChanged .udp (fun c => { c with able := if on then 1 else 0 }) l l' := by
  have key : ∀ c : DevCfg, c.set on.toInt DEVICE_CFG_ABLE = some { c with able := if on then 1 else 0 } := by
    intro c; cases on <;> rfl
  exact ⟨changed_devices hl key (by nofun) (by decide), changed_devices hl key (by nofun) (by decide),
    changed_devices hl key (by nofun) (by decide)⟩

/-- **C88.** SetAllFilePriority, SetAllScreenPriority, SetAllUDPPriority and SetAllChannelPriority. -/
theorem C88_priority (l : Lg) (hl : l.shm ≠ none) (p : Int) :
    (∃ l', setAllFilePriority l p = some l' ∧ DevicesChanged .file (fun c => { c with priority := p }) l l') ∧
    (∃ l', setAllScreenPriority l p = some l' ∧ DevicesChanged .screen (fun c => { c with priority := p }) l l') ∧
    (∃ l', setAllUDPPriority l p = some l' ∧ DevicesChanged .udp (fun c => { c with priority := p }) l l') ∧
    ∃ l', setAllChannelPriority l p = some l' ∧ ChannelsChanged (fun c => { c with priority := p }) l l' :=
  ⟨changed_devices hl (fun _ => rfl) (by nofun) (by decide), changed_devices hl (fun _ => rfl) (by nofun) (by decide),
    changed_devices hl (fun _ => rfl) (by nofun) (by decide), changed_channels hl (fun _ => rfl) (by decide)⟩

theorem category_devices {l : Lg} (hl : l.shm ≠ none) {t : OutType} (ht : t ≠ .null) (b n : Int) :
    ∃ l', batchSetDeviceCategory l t b n = some l' ∧
      DevicesChanged t (fun c => { c with category := b, categoryExtend := n }) l l' := by
  obtain ⟨l1, h1, c1⟩ := changed_devices (v := b) (field := DEVICE_CFG_CATEGORY) (f := fun c => { c with category := b }) hl
    (fun _ => rfl) ht (by decide)
  obtain ⟨l2, h2, c2⟩ := changed_devices (v := n) (field := DEVICE_CFG_CATEGORY_EXTEND)
    (f := fun c => { c with categoryExtend := n }) (erase_shm c1.1 hl) (fun _ => rfl) ht (by decide)
  refine ⟨l2, ?_, changed_devices_trans c1 c2⟩
  unfold batchSetDeviceCategory
  rw [h1]
  exact h2

/-- **C88.** SetAllChannelCategory, SetAllScreenCategory, SetAllUDPCategory, and SetAllFilePriority with two numbers, which
sets the category range. -/
theorem C88_category (l : Lg) (hl : l.shm ≠ none) (b n : Int) :
    (∃ l', setAllFilePriorityRange l b n = some l' ∧
      DevicesChanged .file (fun c => { c with category := b, categoryExtend := n }) l l') ∧
    (∃ l', setAllScreenCategory l b n = some l' ∧
      DevicesChanged .screen (fun c => { c with category := b, categoryExtend := n }) l l') ∧
    (∃ l', setAllUDPCategory l b n = some l' ∧
      DevicesChanged .udp (fun c => { c with category := b, categoryExtend := n }) l l') ∧
    ∃ l', setAllChannelCategory l b n = some l' ∧
      ChannelsChanged (fun c => { c with category := b, categoryExtend := n }) l l' := by
  refine ⟨category_devices hl (by nofun) b n, category_devices hl (by nofun) b n, category_devices hl (by nofun) b n, ?_⟩
  obtain ⟨l1, h1, c1⟩ := changed_channels (v := b) (field := CHANNEL_CFG_CATEGORY) (f := fun c => { c with category := b }) hl
    (fun _ => rfl) (by decide)
  obtain ⟨l2, h2, c2⟩ := changed_channels (v := n) (field := CHANNEL_CFG_CATEGORY_EXTEND)
    (f := fun c => { c with categoryExtend := n }) (erase_shm c1.1 hl) (fun _ => rfl) (by decide)
  refine ⟨l2, ?_, changed_channels_trans c1 c2⟩
  unfold setAllChannelCategory batchSetChannelCategory
  rw [h1]
  exact h2

/-- **C88.** SetAllFileLimitSize (in bytes, unlike the key of the configuration) and SetAllFileRollbackCount. -/
theorem C88_file (l : Lg) (hl : l.shm ≠ none) (n : Int) :
    (∃ l', setAllFileLimitSize l n = some l' ∧ DevicesChanged .file (fun c => { c with limitSize := n }) l l') ∧
    ∃ l', setAllFileRollbackCount l n = some l' ∧ DevicesChanged .file (fun c => { c with rollback := n }) l l' :=
  ⟨changed_devices hl (fun _ => rfl) (by nofun) (by decide), changed_devices hl (fun _ => rfl) (by nofun) (by decide)⟩

/-- **C88.** What the changes do to the records: a device that was switched off takes nothing; one that was switched on
takes what its filters let pass; a priority is a lower bound; a category range with a positive count is a bound on both
sides.  Devices of other types take what they took. -/
theorem C88_effect (l l' : Lg) (t : OutType) (f : DevCfg → DevCfg) (h : DevicesChanged t f l l') (i j : Nat)
    (hi : (i : Int) < channelCount l) (d : Device) (hd : deviceOf l i j = some d) :
    ∃ d', deviceOf l' i j = some d' ∧
      (d.outType ≠ t → d' = d) ∧
      (d.outType = t → ∀ p c n,
        (f = (fun x => { x with able := 0 }) → ¬ DeviceTakes d' p c n) ∧
        (f = (fun x => { x with able := 1 }) → (DeviceTakes d' p c n ↔ d.inType = .null ∧ d.cfg.priority ≤ p ∧
          RangeOk d.cfg.category d.cfg.categoryExtend c ∧ RangeOk d.cfg.identify d.cfg.identifyExtend n ∧
          MaskOk d.cfg.categoryMask c ∧ MaskOk d.cfg.identifyMask n)) ∧
        (∀ q, f = (fun x => { x with priority := q }) → (DeviceTakes d' p c n ↔
          q ≤ p ∧ d.cfg.able ≠ 0 ∧ d.inType = .null ∧ RangeOk d.cfg.category d.cfg.categoryExtend c ∧
          RangeOk d.cfg.identify d.cfg.identifyExtend n ∧ MaskOk d.cfg.categoryMask c ∧ MaskOk d.cfg.identifyMask n)) ∧
        ∀ b k, 0 < k → f = (fun x => { x with category := b, categoryExtend := k }) → (DeviceTakes d' p c n ↔
          (b ≤ c ∧ c < b + k) ∧ d.cfg.able ≠ 0 ∧ d.inType = .null ∧ d.cfg.priority ≤ p ∧
          RangeOk d.cfg.identify d.cfg.identifyExtend n ∧ MaskOk d.cfg.categoryMask c ∧ MaskOk d.cfg.identifyMask n)) := by
  have e := h.2.2 i j
  rw [hd] at e
  simp only [Option.map_some, hi, true_and] at e
  refine ⟨_, e, fun hne => if_neg hne, fun ht p c n => ?_⟩
  rw [if_pos ht]
  refine ⟨fun hf => ?_, fun hf => ?_, fun q hf => ?_, fun b k hk hf => ?_⟩
  · subst hf
    exact fun h => h.1 rfl
  · subst hf
    unfold DeviceTakes
    exact ⟨fun h => h.2, fun h => ⟨by show (1 : Int) ≠ 0; decide, h⟩⟩
  · subst hf
    unfold DeviceTakes
    exact ⟨fun ⟨a, b, c, d⟩ => ⟨c, a, b, d⟩, fun ⟨c, a, b, d⟩ => ⟨a, b, c, d⟩⟩
  · subst hf
    unfold DeviceTakes
    constructor
    · rintro ⟨a1, a2, a3, a4, a5⟩
      refine ⟨?_, a1, a2, a3, a5⟩
      rcases a4 with h | h
      · exact absurd h (by show ¬ k ≤ 0; omega)
      · exact h
    · rintro ⟨a4, a1, a2, a3, a5⟩
      exact ⟨a1, a2, a3, Or.inr a4, a5⟩

/-- **C88.** The hypothesis is needed: before a configuration has been loaded all these functions dereference a null pointer, which
SetDeviceConfig would do as well (C59). -/
theorem C88_unloaded (on : Bool) (n : Int) :
    enableAllFileDevice {} on = none ∧ setAllChannelPriority {} n = none ∧ setAllScreenCategory {} n n = none ∧
    setAllFileLimitSize {} n = none := ⟨rfl, rfl, rfl, rfl⟩

/-- A logger with a file and a screen device. -/
def settersDemo : Lg :=
  { shm := some ⟨⟨0, 0, 1, fun _ => ⟨0, 0, 0, 0, fun _ => ⟨0, 0, 0, []⟩⟩⟩, fun _ =>
      { chan := { devices := [{ outType := .file, cfg := { able := 1 } }, { outType := .screen, cfg := { able := 1 } }] } }⟩ }

/-- The hypotheses are met: both devices take a record, and without files only the screen does. -/
example : settersDemo.shm ≠ none ∧ (deviceOf settersDemo 0 0).isSome = true ∧ (0 : Int) < channelCount settersDemo ∧
    ((settersDemo.shm.bind fun s => dispatchLog (s.chans 0).chan.devices 2 0 0) = some [0, 1]) ∧
    (((enableAllFileDevice settersDemo false).bind fun l => l.shm.bind fun s =>
      dispatchLog (s.chans 0).chan.devices 2 0 0) = some [1]) := by
  refine ⟨nofun, rfl, by decide, ?_, ?_⟩ <;> decide +kernel

end FNLog
