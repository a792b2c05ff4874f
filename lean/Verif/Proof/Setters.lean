import Verif.Model.Setters
import Verif.Spec.Setters
import Verif.Props.Life

/-! # The functions of fn_log.h -/

namespace FNLog
open Spec

theorem DevCfg.ext_get {a b : DevCfg} (h : ∀ k, a.get k = b.get k) : a = b := by
  cases a; cases b
  simp only [DevCfg.mk.injEq]
  exact ⟨Option.some.inj (h 0), Option.some.inj (h 1), Option.some.inj (h 2), Option.some.inj (h 3), Option.some.inj (h 4),
    Option.some.inj (h 5), Option.some.inj (h 6), Option.some.inj (h 7), Option.some.inj (h 8), Option.some.inj (h 9),
    Option.some.inj (h 10), Option.some.inj (h 11), Option.some.inj (h 12), Option.some.inj (h 13), Option.some.inj (h 14)⟩

theorem ChanCfg.ext_get {a b : ChanCfg} (h : ∀ k, a.get k = b.get k) : a = b := by
  cases a; cases b
  simp only [ChanCfg.mk.injEq]
  exact ⟨Option.some.inj (h 0), Option.some.inj (h 1), Option.some.inj (h 2), Option.some.inj (h 3), Option.some.inj (h 4),
    Option.some.inj (h 5), Option.some.inj (h 6)⟩

theorem DevCfg.set_get {c f : DevCfg} {v : Int} {k : Nat} (h : c.set v k = some f) :
    ∀ j, f.get j = if j = k then some v else c.get j := by
  have hk : k < 15 := by
    rcases Nat.lt_or_ge k 15 with hk | hk
    · exact hk
    · obtain ⟨n, rfl⟩ : ∃ n, k = n + 15 := ⟨k - 15, by omega⟩
      exact absurd h (by simp [DevCfg.set])
  obtain ⟨g, h1, h2⟩ := devCfg_set (c := c) (v := v) hk
  rw [h1] at h
  cases h
  exact h2

theorem ChanCfg.set_get {c f : ChanCfg} {v : Int} {k : Nat} (h : c.set v k = some f) :
    ∀ j, f.get j = if j = k then some v else c.get j := by
  have hk : k < 7 := by
    rcases Nat.lt_or_ge k 7 with hk | hk
    · exact hk
    · obtain ⟨n, rfl⟩ : ∃ n, k = n + 7 := ⟨k - 7, by omega⟩
      exact absurd h (by simp [ChanCfg.set])
  obtain ⟨g, h1, h2⟩ := chanCfg_set (c := c) (v := v) hk
  rw [h1] at h
  cases h
  exact h2

theorem erase_count {l l' : Lg} (h : eraseCfg l' = eraseCfg l) : channelCount l' = channelCount l := by
  have key : ∀ x : Lg, channelCount (eraseCfg x) = channelCount x := by
    intro x
    unfold channelCount eraseCfg
    cases x.shm <;> rfl
  rw [← key l', h, key]

theorem erase_shm {l l' : Lg} (h : eraseCfg l' = eraseCfg l) (hl : l.shm ≠ none) : l'.shm ≠ none := by
  unfold eraseCfg at h
  have h := congrArg Lg.shm h
  intro hn
  cases h1 : l.shm with
  | none => exact hl h1
  | some s => simp [h1, hn] at h

theorem changed_devices {l : Lg} {t : OutType} {field : Nat} {v : Int} {f : DevCfg → DevCfg} (hl : l.shm ≠ none)
    (hf : ∀ c : DevCfg, c.set v field = some (f c)) (ht : t ≠ .null) (hk : field < 15) :
    ∃ l', batchSetDeviceConfig l t field v = some l' ∧ DevicesChanged t f l l' := by
  obtain ⟨l', h1, h2, h3, h4⟩ := C59_batch_device l t field v hl hk
  refine ⟨l', h1, h2, fun i => ?_, fun i j => ?_⟩
  · have hl' := erase_shm h2 hl
    have h3 := h3 i
    unfold chanCfgOf at h3
    unfold channelCfg
    cases e : l.shm with
    | none => exact absurd e hl
    | some s =>
      cases e' : l'.shm with
      | none => exact absurd e' hl'
      | some s' =>
        simp only [e, e', Option.bind_some] at h3
        simp only [Option.map_some]
        rw [ChanCfg.ext_get h3]
  · have hlen : (deviceOf l' i j).map (fun d => ({ d with cfg := {} } : Device)) =
        (deviceOf l i j).map fun d => ({ d with cfg := {} } : Device) := by
      have key : ∀ x : Lg, deviceOf (eraseCfg x) i j = (deviceOf x i j).map fun d => ({ d with cfg := {} } : Device) := by
        intro x
        unfold deviceOf eraseCfg eraseChan
        cases x.shm with
        | none => rfl
        | some s => simp
      rw [← key, h2, key]
    cases e : deviceOf l i j with
    | none =>
      rw [e] at hlen
      cases e' : deviceOf l' i j with
      | none => rfl
      | some d' => rw [e'] at hlen; cases hlen
    | some d =>
      rw [e] at hlen
      cases e' : deviceOf l' i j with
      | none => rw [e'] at hlen; cases hlen
      | some d' =>
        rw [e'] at hlen
        simp only [Option.map_some, Option.some.injEq] at hlen
        have h4 : ∀ k, _ := fun k => h4 i j k d e
        unfold devCfgOf at h4
        simp only [e, e', Option.bind_some] at h4
        simp only [Option.map_some]
        have hd : d' = { d with cfg := d'.cfg } := by
          cases d; cases d'
          simp only [Device.mk.injEq] at hlen ⊢
          simp [hlen]
        by_cases hc : (i : Int) < channelCount l ∧ d.outType = t
        · rw [if_pos hc, hd]
          congr 2
          refine DevCfg.ext_get fun k => ?_
          rw [h4 k, DevCfg.set_get (hf d.cfg) k]
          by_cases hk : k = field
          · rw [if_pos hk, if_pos ⟨hc.1, Or.inl hc.2, hk⟩]
          · rw [if_neg hk, if_neg fun h => hk h.2.2]
        · rw [if_neg hc, hd]
          have : d'.cfg = d.cfg := by
            refine DevCfg.ext_get fun k => ?_
            rw [h4 k, if_neg]
            rintro ⟨a, b | b, _⟩
            · exact hc ⟨a, b⟩
            · exact ht b
          rw [this]

theorem changed_channels {l : Lg} {field : Nat} {v : Int} {f : ChanCfg → ChanCfg} (hl : l.shm ≠ none)
    (hf : ∀ c : ChanCfg, c.set v field = some (f c)) (hk : field < 7) :
    ∃ l', batchSetChannelConfig l field v = some l' ∧ ChannelsChanged f l l' := by
  cases hm : l.shm with
  | none => exact absurd hm hl
  | some s =>
    obtain ⟨r, hr, h1, h2⟩ := batchChannels_spec field v hk s.seg.channelSize.toNat 0 s.chans
    obtain ⟨l', e1, e2, -, -⟩ := C59_batch_channel l field v hl hk
    have hb : batchSetChannelConfig l field v = some { l with shm := some { s with chans := r } } := by
      unfold batchSetChannelConfig
      rw [hm]
      simp only [hr]
      rfl
    rw [hb] at e1
    cases e1
    have hcc : channelCount l = s.seg.channelSize := by unfold channelCount; rw [hm]
    refine ⟨_, hb, e2, fun i j => ?_, fun i => ?_⟩
    · unfold deviceOf
      rw [hm]
      simp only [Option.bind_some]
      by_cases hi : (i : Int) < s.seg.channelSize
      · obtain ⟨g, e, _⟩ := h2 i (Nat.zero_le _) (by omega)
        rw [e]
      · rw [h1 i (by omega)]
    · unfold channelCfg
      rw [hm, hcc]
      simp only [Option.map_some]
      by_cases hi : (i : Int) < s.seg.channelSize
      · obtain ⟨g, e, e2⟩ := h2 i (Nat.zero_le _) (by omega)
        rw [e, if_pos hi]
        congr 1
        refine ChanCfg.ext_get fun k => ?_
        rw [ChanCfg.set_get (hf _) k]
        exact e2 k
      · rw [h1 i (by omega), if_neg hi]

theorem changed_devices_trans {t : OutType} {f g : DevCfg → DevCfg} {a b c : Lg} (h1 : DevicesChanged t f a b)
    (h2 : DevicesChanged t g b c) : DevicesChanged t (fun x => g (f x)) a c := by
  refine ⟨h2.1.trans h1.1, fun i => (h2.2.1 i).trans (h1.2.1 i), fun i j => ?_⟩
  rw [h2.2.2 i j, h1.2.2 i j, erase_count h1.1, Option.map_map]
  congr 1
  funext d
  simp only [Function.comp]
  by_cases hc : (i : Int) < channelCount a ∧ d.outType = t
  · simp only [hc, and_self, if_true]
  · rw [if_neg hc, if_neg hc, if_neg hc]

theorem changed_channels_trans {f g : ChanCfg → ChanCfg} {a b c : Lg} (h1 : ChannelsChanged f a b)
    (h2 : ChannelsChanged g b c) : ChannelsChanged (fun x => g (f x)) a c := by
  refine ⟨h2.1.trans h1.1, fun i j => (h2.2.1 i j).trans (h1.2.1 i j), fun i => ?_⟩
  rw [h2.2.2 i, h1.2.2 i, erase_count h1.1, Option.map_map]
  congr 1
  funext d
  simp only [Function.comp]
  by_cases hc : (i : Int) < channelCount a
  · simp only [hc, if_true]
  · simp only [hc, if_false]

end FNLog
