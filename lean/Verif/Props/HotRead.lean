import Verif.Proof.HotRead
import Verif.Props.Filter

/-! # Property theorem C84: filters read while a hot update is under way -/

namespace FNLog
open Spec

/-! ## Lemmas on mixtures -/

theorem seen_mixture {a b : Channel} {look : Nat → FilterMem} (h : ∀ n, MixMem (memOf a) (memOf b) (look n)) {n : Nat}
    (h1 : a.devices.length ≤ n) (h2 : n ≤ b.devices.length) :
    Mixture a b { cfg := seenCfg look, devices := (List.range n).map (seenDev look) } := by
  refine ⟨seenCfg_mix h, by simpa using h1, by simpa using h2, fun i d hd => ?_⟩
  simp only [List.getElem?_map, Option.map_eq_some_iff] at hd
  obtain ⟨j, hj, rfl⟩ := hd
  have : j = i := by
    rw [List.getElem?_eq_some_iff] at hj
    obtain ⟨_, hj⟩ := hj
    simpa using hj.symm
  subst this
  exact seenDev_mix h j

theorem mix_pair {α β : Type} {P : α → β → Prop} {a a' m : α} {b b' n : β} (hm : m = a ∨ m = a') (hn : n = b ∨ n = b')
    (h1 : P a b) (h2 : P a' b') (hs : a = a' ∨ b = b') : P m n := by
  rcases hm with rfl | rfl <;> rcases hn with rfl | rfl
  · exact h1
  · rcases hs with e | e
    · rw [e]; exact h2
    · rw [← e]; exact h1
  · rcases hs with e | e
    · rw [← e]; exact h1
    · rw [e]; exact h2
  · exact h2

theorem mix_one {α : Type} {P : α → Prop} {a a' m : α} (hm : m = a ∨ m = a') (h1 : P a) (h2 : P a') : P m := by
  rcases hm with rfl | rfl
  · exact h1
  · exact h2

theorem or_some {α : Type} {a b c : α} (h : some a = some b ∨ some a = some c) : a = b ∨ a = c := by
  rcases h with h | h
  · exact Or.inl (Option.some.inj h)
  · exact Or.inr (Option.some.inj h)

theorem mix_channelOk {a b m : ChanCfg} (h : MixChan a b m) {p c k : Int} (ha : ChannelOk a p c k) (hb : ChannelOk b p c k)
    (hs : ChanStays a b) : ChannelOk m p c k := by
  obtain ⟨a1, a2, a3, a4, a5⟩ := ha
  obtain ⟨b1, b2, b3, b4, b5⟩ := hb
  exact ⟨mix_one (P := fun x => x ≤ p) (or_some (h 0)) a1 b1,
    mix_pair (P := fun x y => RangeOk x y c) (or_some (h 1)) (or_some (h 2)) a2 b2 hs.1,
    mix_pair (P := fun x y => RangeOk x y k) (or_some (h 4)) (or_some (h 5)) a3 b3 hs.2,
    mix_one (P := fun x => MaskOk x c) (or_some (h 3)) a4 b4,
    mix_one (P := fun x => MaskOk x k) (or_some (h 6)) a5 b5⟩

theorem mix_deviceTakes {a b m : Device} (h : MixDev a b m) {p c k : Int} (ha : DeviceTakes a p c k)
    (hb : DeviceTakes b p c k) (hs : DevStays a.cfg b.cfg) : DeviceTakes m p c k := by
  obtain ⟨a0, a1, a2, a3, a4, a5, a6⟩ := ha
  obtain ⟨b0, b1, b2, b3, b4, b5, b6⟩ := hb
  have hc := h.cfg
  exact ⟨mix_one (P := fun x => x ≠ 0) (or_some (hc 0)) a0 b0, mix_one (P := fun x => x = .null) h.inType a1 b1,
    mix_one (P := fun x => x ≤ p) (or_some (hc 1)) a2 b2,
    mix_pair (P := fun x y => RangeOk x y c) (or_some (hc 2)) (or_some (hc 3)) a3 b3 hs.1,
    mix_pair (P := fun x y => RangeOk x y k) (or_some (hc 5)) (or_some (hc 6)) a4 b4 hs.2,
    mix_one (P := fun x => MaskOk x c) (or_some (hc 4)) a5 b5, mix_one (P := fun x => MaskOk x k) (or_some (hc 7)) a6 b6⟩

theorem tame_mix {a a' m b b' n : Int} (hm : m = a ∨ m = a') (hn : n = b ∨ n = b') (h1 : Tame a b) (h2 : Tame a' b') :
    (n > 0 → m + n < 2 ^ 63) ∧ -2 ^ 63 ≤ m := by
  unfold Tame at h1 h2
  omega

theorem devAt_safe {c : Channel} {cat k : Int} (h : Safe c cat k) (i : Nat) :
    DevTame (devAt c i).cfg ∧ MaskDefined (devAt c i).cfg.categoryMask cat ∧ MaskDefined (devAt c i).cfg.identifyMask k := by
  unfold devAt
  cases e : c.devices[i]? with
  | none => exact ⟨⟨by decide, by decide⟩, Or.inl (by decide), Or.inl (by decide)⟩
  | some d => exact h.devices d (List.mem_of_getElem? e)

theorem mix_defined {a b m : Channel} (h : Mixture a b m) {c k : Int} (ha : Safe a c k) (hb : Safe b c k) :
    ChanDefined m c k := by
  have hc := h.cfg
  obtain ⟨⟨a1, a2⟩, a3, a4⟩ := ha.chan
  obtain ⟨⟨b1, b2⟩, b3, b4⟩ := hb.chan
  have t1 := tame_mix (or_some (hc 1)) (or_some (hc 2)) a1 b1
  have t2 := tame_mix (or_some (hc 4)) (or_some (hc 5)) a2 b2
  refine ⟨⟨t1.1, t1.2, t2.1, t2.2, mix_one (P := fun x => MaskDefined x c) (or_some (hc 3)) a3 b3,
    mix_one (P := fun x => MaskDefined x k) (or_some (hc 6)) a4 b4⟩, fun d hd => ?_⟩
  obtain ⟨i, hi⟩ := List.getElem?_of_mem hd
  have hx := (h.devices i d hi).cfg
  obtain ⟨⟨a1, a2⟩, a3, a4⟩ := devAt_safe ha i
  obtain ⟨⟨b1, b2⟩, b3, b4⟩ := devAt_safe hb i
  have t1 := tame_mix (or_some (hx 2)) (or_some (hx 3)) a1 b1
  have t2 := tame_mix (or_some (hx 5)) (or_some (hx 6)) a2 b2
  exact ⟨t1.1, t1.2, t2.1, t2.2, mix_one (P := fun x => MaskDefined x c) (or_some (hx 4)) a3 b3,
    mix_one (P := fun x => MaskDefined x k) (or_some (hx 7)) a4 b4⟩

theorem sole_iff {m : Channel} {p c k : Int} {r : Bool} (h : blockInput (soleView m) 0 p c k = some r) :
    r = false ↔ ChannelOk m.cfg p c k ∧ ∃ d ∈ m.devices, DeviceTakes d (clampPriority p) c k := by
  rw [C01_block_input_iff _ _ _ _ _ r h]
  constructor
  · rintro ⟨_, chans, channel, h1, _, h2, _, h3, h4⟩
    cases h1
    cases h2
    exact ⟨h3, h4⟩
  · rintro ⟨h3, h4⟩
    exact ⟨rfl, _, { m with state := .running }, rfl, by decide, rfl, rfl, h3, h4⟩

theorem sole_defined {m : Channel} {c k : Int} (h : ChanDefined m c k) (p : Int) :
    ∃ r, blockInput (soleView m) 0 p c k = some r := by
  refine C01_block_input_defined _ _ _ _ _ (fun chans h1 x _ h2 => ?_)
  cases h1
  cases h2
  exact h

theorem roundDev_congr {d e : Device} (h1 : d.cfg = e.cfg) (h2 : d.inType = e.inType) (p c k : Int) :
    roundDev d p c k = roundDev e p c k := by
  unfold roundDev
  rw [h1, h2]

theorem blockDevs_congr (p c k : Int) : ∀ (l m : List Device), l.length = m.length →
    (∀ (i : Nat) (d e : Device), l[i]? = some d → m[i]? = some e → d.cfg = e.cfg ∧ d.inType = e.inType) →
    blockDevs p c k l = blockDevs p c k m := by
  intro l
  induction l with
  | nil =>
    intro m hl _
    cases m with
    | nil => rfl
    | cons _ _ => exact absurd hl (by simp)
  | cons d l ih =>
    intro m hl h
    cases m with
    | nil => exact absurd hl (by simp)
    | cons e m =>
      have h0 := h 0 d e rfl rfl
      rw [blockDevs_round, blockDevs_round, roundDev_congr h0.1 h0.2,
        ih m (by simpa using hl) (fun i d' e' hd he => h (i + 1) d' e' hd he)]

theorem sole_congr {a b : Channel} (h1 : a.cfg = b.cfg) (h2 : a.devices.length = b.devices.length)
    (h3 : ∀ (i : Nat) (d e : Device), a.devices[i]? = some d → b.devices[i]? = some e → d.cfg = e.cfg ∧ d.inType = e.inType)
    (p c k : Int) : blockInput (soleView a) 0 p c k = blockInput (soleView b) 0 p c k := by
  rw [blockInput_sole, blockInput_sole, h1, blockDevs_congr _ _ _ _ _ h2 h3]

theorem chan_ext {a b : ChanCfg} (h : ∀ k, a.get k = b.get k) : a = b := by
  cases a; cases b
  have h0 := h 0; have h1 := h 1; have h2 := h 2; have h3 := h 3; have h4 := h 4; have h5 := h 5; have h6 := h 6
  simp only [ChanCfg.get, Option.some.injEq] at h0 h1 h2 h3 h4 h5 h6
  simp only [h0, h1, h2, h3, h4, h5, h6]

theorem dev_ext {a b : DevCfg} (h : ∀ k, a.get k = b.get k) : a = b := by
  cases a; cases b
  have h0 := h 0; have h1 := h 1; have h2 := h 2; have h3 := h 3; have h4 := h 4; have h5 := h 5; have h6 := h 6; have h7 := h 7
  have h8 := h 8; have h9 := h 9; have h10 := h 10; have h11 := h 11; have h12 := h 12; have h13 := h 13; have h14 := h 14
  simp only [DevCfg.get, Option.some.injEq] at h0 h1 h2 h3 h4 h5 h6 h7 h8 h9 h10 h11 h12 h13 h14
  simp only [h0, h1, h2, h3, h4, h5, h6, h7, h8, h9, h10, h11, h12, h13, h14]

/-- A mixture of channels that differ in one variable is one of them. -/
theorem mix_one_place {x : Place} {a b m : Channel} (h : Mixture a b m) (hd : DifferAt x a b) (p c k : Int) :
    blockInput (soleView m) 0 p c k = blockInput (soleView a) 0 p c k ∨
      blockInput (soleView m) 0 p c k = blockInput (soleView b) 0 p c k := by
  have hlen : m.devices.length = a.devices.length := by
    have := h.lower; have := h.upper; have := hd.size; omega
  have agree : ∀ y, y ≠ x → y.value m = y.value a := by
    intro y hy
    cases y with
    | chan j =>
      rcases h.cfg j with e | e
      · exact e
      · exact e.trans (hd.value _ hy).symm
    | dev i j =>
      show (devAt m i).cfg.get j = (devAt a i).cfg.get j
      cases e : m.devices[i]? with
      | none =>
        have : a.devices[i]? = none := by rw [List.getElem?_eq_none_iff] at e ⊢; omega
        unfold devAt; rw [e, this]
      | some d =>
        have hm : devAt m i = d := by unfold devAt; rw [e]; rfl
        rw [hm]
        rcases (h.devices i d e).cfg j with e | e
        · exact e
        · exact e.trans (hd.value _ hy).symm
  have types : ∀ i, (devAt m i).inType = (devAt a i).inType := by
    intro i
    cases e : m.devices[i]? with
    | none =>
      have : a.devices[i]? = none := by rw [List.getElem?_eq_none_iff] at e ⊢; omega
      unfold devAt; rw [e, this]
    | some d =>
      have hm : devAt m i = d := by unfold devAt; rw [e]; rfl
      rw [hm]
      rcases (h.devices i d e).inType with e | e
      · exact e
      · exact e.trans (hd.inType i).symm
  have finish : ∀ n : Channel, n.devices.length = m.devices.length → (∀ y : Place, y.value m = y.value n) →
      (∀ i, (devAt m i).inType = (devAt n i).inType) →
      blockInput (soleView m) 0 p c k = blockInput (soleView n) 0 p c k := by
    intro n hl hv ht
    refine sole_congr (chan_ext fun j => hv (.chan j)) hl.symm (fun i d e h1 h2 => ?_) p c k
    have e1 : devAt m i = d := by unfold devAt; rw [h1]; rfl
    have e2 : devAt n i = e := by unfold devAt; rw [h2]; rfl
    have hv' : ∀ j, (devAt m i).cfg.get j = (devAt n i).cfg.get j := fun j => hv (.dev i j)
    have ht' := ht i
    rw [e1, e2] at hv' ht'
    exact ⟨dev_ext hv', ht'⟩
  have last : x.value m = x.value a ∨ x.value m = x.value b := by
    cases x with
    | chan j => exact h.cfg j
    | dev i j =>
      show (devAt m i).cfg.get j = (devAt a i).cfg.get j ∨ (devAt m i).cfg.get j = (devAt b i).cfg.get j
      cases e : m.devices[i]? with
      | none =>
        have : a.devices[i]? = none := by rw [List.getElem?_eq_none_iff] at e ⊢; omega
        unfold devAt; rw [e, this]; exact Or.inl rfl
      | some d =>
        have hm : devAt m i = d := by unfold devAt; rw [e]; rfl
        rw [hm]
        exact (h.devices i d e).cfg j
  rcases last with e | e
  · exact Or.inl (finish a hlen.symm (fun y => if hy : y = x then hy ▸ e else agree y hy) types)
  · refine Or.inr (finish b (by rw [hlen, hd.size]) (fun y => if hy : y = x then hy ▸ e else (agree y hy).trans (hd.value y hy))
      (fun i => (types i).trans (hd.inType i)))

theorem devAt_of {c : Channel} {i : Nat} {d : Device} (h : c.devices[i]? = some d) : devAt c i = d := by
  unfold devAt; rw [h]; rfl

theorem devAt_lt {c : Channel} {i : Nat} (h : i < c.devices.length) : c.devices[i]? = some (devAt c i) := by
  unfold devAt; rw [List.getElem?_eq_getElem h]; rfl

/-- What the looser of two channels takes. -/
theorem looser_accepts {a b : Channel} (h : Looser a b) {p q c k : Int}
    (ha : ChannelOk a.cfg p c k ∧ ∃ d ∈ a.devices, DeviceTakes d q c k) :
    ChannelOk b.cfg p c k ∧ ∃ d ∈ b.devices, DeviceTakes d q c k := by
  obtain ⟨⟨a1, a2, a3, a4, a5⟩, d, hd, t0, t1, t2, t3, t4, t5, t6⟩ := ha
  have e : ∀ {x y : Int}, some x = some y → x = y := fun h => Option.some.inj h
  refine ⟨⟨Int.le_trans h.priority a1, ?_, ?_, ?_, ?_⟩, ?_⟩
  · rw [e (h.cfg 1 (by decide)), e (h.cfg 2 (by decide))]; exact a2
  · rw [e (h.cfg 4 (by decide)), e (h.cfg 5 (by decide))]; exact a3
  · rw [e (h.cfg 3 (by decide))]; exact a4
  · rw [e (h.cfg 6 (by decide))]; exact a5
  · obtain ⟨i, hi⟩ := List.getElem?_of_mem hd
    have hlt : i < b.devices.length := by rw [← h.size]; exact (List.getElem?_eq_some_iff.mp hi).1
    have hda := devAt_of hi
    refine ⟨devAt b i, List.mem_of_getElem? (devAt_lt hlt), ?_, ?_, ?_, ?_, ?_, ?_, ?_⟩
    · exact h.able i (by rw [hda]; exact t0)
    · rw [h.inType i, hda]; exact t1
    · have := h.devPriority i; rw [hda] at this; exact Int.le_trans this t2
    · rw [e (h.devCfg i 2 (by decide) (by decide)), e (h.devCfg i 3 (by decide) (by decide)), hda]; exact t3
    · rw [e (h.devCfg i 5 (by decide) (by decide)), e (h.devCfg i 6 (by decide) (by decide)), hda]; exact t4
    · rw [e (h.devCfg i 4 (by decide) (by decide)), hda]; exact t5
    · rw [e (h.devCfg i 7 (by decide) (by decide)), hda]; exact t6

/-- A mixture of a channel with a looser one lies between them. -/
theorem looser_mix {a b m : Channel} (h : Looser a b) (hm : Mixture a b m ∨ Mixture b a m) : Looser a m ∧ Looser m b := by
  have hl : m.devices.length = a.devices.length := by
    have := h.size
    rcases hm with hm | hm <;> (have := hm.lower; have := hm.upper; omega)
  have hc : MixChan a.cfg b.cfg m.cfg := by
    rcases hm with hm | hm
    · exact hm.cfg
    · exact fun k => (hm.cfg k).symm
  have hd : ∀ i, MixDev (devAt a i) (devAt b i) (devAt m i) := by
    intro i
    by_cases hi : i < m.devices.length
    · rcases hm with hm | hm
      · exact hm.devices i _ (devAt_lt hi)
      · have := hm.devices i _ (devAt_lt hi)
        exact ⟨fun k => (this.cfg k).symm, this.inType.symm, this.outType.symm⟩
    · have e1 : devAt a i = {} := by unfold devAt; rw [List.getElem?_eq_none (by omega)]; rfl
      have e2 : devAt m i = {} := by unfold devAt; rw [List.getElem?_eq_none (by omega)]; rfl
      rw [e1, e2]
      exact ⟨fun _ => Or.inl rfl, Or.inl rfl, Or.inl rfl⟩
  have p0 : m.cfg.priority = a.cfg.priority ∨ m.cfg.priority = b.cfg.priority := or_some (hc 0)
  have p1 := h.priority
  constructor
  · refine ⟨hl.symm, by omega, fun k hk => ?_, fun i ha => ?_, fun i => ?_, fun i k h0 h1 => ?_, fun i => ?_⟩
    · rcases hc k with e | e
      · exact e
      · exact e.trans (h.cfg k hk)
    · exact mix_one (P := fun x => x ≠ 0) (or_some ((hd i).cfg 0)) ha (h.able i ha)
    · have : (devAt m i).cfg.priority = (devAt a i).cfg.priority ∨ (devAt m i).cfg.priority = (devAt b i).cfg.priority :=
        or_some ((hd i).cfg 1)
      have := h.devPriority i
      omega
    · rcases (hd i).cfg k with e | e
      · exact e
      · exact e.trans (h.devCfg i k h0 h1)
    · rcases (hd i).inType with e | e
      · exact e
      · exact e.trans (h.inType i)
  · refine ⟨hl.trans h.size, by omega, fun k hk => ?_, fun i ha => ?_, fun i => ?_, fun i k h0 h1 => ?_, fun i => ?_⟩
    · rcases hc k with e | e
      · exact (h.cfg k hk).trans e.symm
      · exact e.symm
    · have : (devAt m i).cfg.able = (devAt a i).cfg.able ∨ (devAt m i).cfg.able = (devAt b i).cfg.able :=
        or_some ((hd i).cfg 0)
      rcases this with e | e
      · exact h.able i (by rw [← e]; exact ha)
      · rw [← e]; exact ha
    · have : (devAt m i).cfg.priority = (devAt a i).cfg.priority ∨ (devAt m i).cfg.priority = (devAt b i).cfg.priority :=
        or_some ((hd i).cfg 1)
      have := h.devPriority i
      omega
    · rcases (hd i).cfg k with e | e
      · exact (h.devCfg i k h0 h1).trans e.symm
      · exact e.symm
    · rcases (hd i).inType with e | e
      · exact (h.inType i).trans e.symm
      · exact e.symm

theorem looser_defined {a b : Channel} (h : Looser a b) {c k : Int} (hd : ChanDefined a c k) : ChanDefined b c k := by
  have e : ∀ {x y : Int}, some x = some y → x = y := fun h => Option.some.inj h
  obtain ⟨hd, hds⟩ := hd
  constructor
  · have h1 : b.cfg.category = _ := e (h.cfg 1 (by decide))
    have h2 : b.cfg.categoryExtend = _ := e (h.cfg 2 (by decide))
    have h3 : b.cfg.categoryMask = _ := e (h.cfg 3 (by decide))
    have h4 : b.cfg.identify = _ := e (h.cfg 4 (by decide))
    have h5 : b.cfg.identifyExtend = _ := e (h.cfg 5 (by decide))
    have h6 : b.cfg.identifyMask = _ := e (h.cfg 6 (by decide))
    rw [h1, h2, h3, h4, h5, h6]
    exact hd
  · intro d hdm
    obtain ⟨i, hi⟩ := List.getElem?_of_mem hdm
    have hlt : i < a.devices.length := by rw [h.size]; exact (List.getElem?_eq_some_iff.mp hi).1
    have hx := hds _ (List.mem_of_getElem? (devAt_lt hlt))
    have hdb := devAt_of hi
    unfold DevDefined at hx ⊢
    have f : ∀ k, k ≠ 0 → k ≠ 1 → d.cfg.get k = (devAt a i).cfg.get k := fun k h0 h1 => by
      rw [← hdb]; exact h.devCfg i k h0 h1
    have h1 : d.cfg.category = _ := e (f 2 (by decide) (by decide))
    have h2 : d.cfg.categoryExtend = _ := e (f 3 (by decide) (by decide))
    have h3 : d.cfg.categoryMask = _ := e (f 4 (by decide) (by decide))
    have h4 : d.cfg.identify = _ := e (f 5 (by decide) (by decide))
    have h5 : d.cfg.identifyExtend = _ := e (f 6 (by decide) (by decide))
    have h6 : d.cfg.identifyMask = _ := e (f 7 (by decide) (by decide))
    rw [h1, h2, h3, h4, h5, h6]
    exact hx

/-! ## The property theorems -/

/-- C84, what always holds: a log filtered during a hot update is treated as by some channel whose every setting is
the old or the new one. -/
theorem C84_mixed (g : Config) (i : Nat) (cm : ChanMem) (look : Nat → FilterMem)
    (hlook : ∀ n, Halfway i cm.chan (srcChannel g i) (look n)) (hsize : (hotChannel g i cm).2.chan.devices.length ≤ 20)
    (p c k : Int) :
    ∃ m, Mixture cm.chan (hotChannel g i cm).2.chan m ∧
      blockInputRead look p c k = blockInput (soleView m) 0 p c k := by
  rw [hotTarget_eq] at hsize ⊢
  obtain ⟨n, h1, h2, h3⟩ := blockInputRead_seen (fun n => halfway_mix (hlook n)) hsize p c k
  exact ⟨_, seen_mixture (fun n => halfway_mix (hlook n)) h1 h2, h3⟩

/-- A thread that sees one and the same channel throughout filters as BlockInput does. -/
theorem blockInputRead_const (d : Channel) (hsize : d.devices.length ≤ 20) (p c k : Int) :
    blockInputRead (fun _ => memOf d) p c k = blockInput (soleView d) 0 p c k := by
  have hm : ∀ n : Nat, MixMem (memOf d) (memOf d) ((fun _ => memOf d) n) := fun _ =>
    ⟨fun _ => Or.inl rfl, Nat.le_refl _, Nat.le_refl _, fun _ => ⟨fun _ => Or.inl rfl, Or.inl rfl, Or.inl rfl⟩⟩
  obtain ⟨n, h1, h2, h3⟩ := blockInputRead_seen hm hsize p c k
  have hn : n = d.devices.length := Nat.le_antisymm h2 h1
  rw [h3]
  refine sole_congr (a := Channel.mk 0 .async 0 .null (seenCfg fun _ => memOf d) ((List.range n).map (seenDev fun _ => memOf d)))
    (b := d) rfl (by simp [hn]) (fun i x y hx hy => ?_) p c k
  simp only [List.getElem?_map, Option.map_eq_some_iff] at hx
  obtain ⟨j, hj, rfl⟩ := hx
  have : j = i := by
    rw [List.getElem?_eq_some_iff] at hj
    obtain ⟨_, hj⟩ := hj
    simpa using hj.symm
  subst this
  have : (memOf d).slots j = y := by show (d.devices[j]?).getD {} = y; rw [hy]; rfl
  rw [← this]
  exact ⟨rfl, rfl⟩

/-- C84: a thread that reads before the first assignment filters by the old configuration, one that reads after the
last assignment by the new one. -/
theorem C84_ends (g : Config) (i : Nat) (cm : ChanMem) (hsize : (hotChannel g i cm).2.chan.devices.length ≤ 20)
    (p c k : Int) :
    blockInputRead (fun _ => memOf cm.chan) p c k = blockInput (soleView cm.chan) 0 p c k ∧
    blockInputRead (fun _ => (hotWrites i cm.chan (srcChannel g i)).foldl CfgWrite.apply (memOf cm.chan)) p c k =
      blockInput (soleView (hotChannel g i cm).2.chan) 0 p c k := by
  have hs : cm.chan.devices.length ≤ 20 := by
    rw [hotTarget_eq, hotWrites_grow] at hsize
    omega
  refine ⟨blockInputRead_const _ hs p c k, ?_⟩
  rw [hotWrites_fold, ← hotTarget_eq]
  exact blockInputRead_const _ hsize p c k

/-- C84, for an update that changes one setting: the log is treated as by the old or by the new configuration. -/
theorem C84_one_setting_partial (g : Config) (i : Nat) (cm : ChanMem) (look : Nat → FilterMem)
    (hlook : ∀ n, Halfway i cm.chan (srcChannel g i) (look n)) (hsize : (hotChannel g i cm).2.chan.devices.length ≤ 20)
    (x : Place) (hx : DifferAt x cm.chan (hotChannel g i cm).2.chan) (p c k : Int) :
    blockInputRead look p c k = blockInput (soleView cm.chan) 0 p c k ∨
      blockInputRead look p c k = blockInput (soleView (hotChannel g i cm).2.chan) 0 p c k := by
  obtain ⟨m, hm, e⟩ := C84_mixed g i cm look hlook hsize p c k
  rw [e]
  exact mix_one_place hm hx p c k

/-- C84, for an update that moves no range at both ends: a log that the channel accepts before and after, and that one
and the same device takes before and after, is admitted during the update. -/
theorem C84_kept_partial (g : Config) (i : Nat) (cm : ChanMem) (look : Nat → FilterMem)
    (hlook : ∀ n, Halfway i cm.chan (srcChannel g i) (look n)) (hsize : (hotChannel g i cm).2.chan.devices.length ≤ 20)
    (p c k : Int) (hold : Safe cm.chan c k) (hnew : Safe (hotChannel g i cm).2.chan c k)
    (hcs : ChanStays cm.chan.cfg (hotChannel g i cm).2.chan.cfg)
    (h1 : ChannelOk cm.chan.cfg p c k) (h2 : ChannelOk (hotChannel g i cm).2.chan.cfg p c k)
    (j : Nat) (d d' : Device) (hd : cm.chan.devices[j]? = some d) (hd' : (hotChannel g i cm).2.chan.devices[j]? = some d')
    (hds : DevStays d.cfg d'.cfg) (h3 : DeviceTakes d (clampPriority p) c k) (h4 : DeviceTakes d' (clampPriority p) c k) :
    blockInputRead look p c k = some false := by
  obtain ⟨m, hm, e⟩ := C84_mixed g i cm look hlook hsize p c k
  obtain ⟨r, hr⟩ := sole_defined (mix_defined hm hold hnew) p
  rw [e, hr]
  congr 1
  rw [sole_iff hr]
  refine ⟨mix_channelOk hm.cfg h1 h2 hcs, ?_⟩
  have hlt : j < m.devices.length := by
    have := (List.getElem?_eq_some_iff.mp hd).1
    have := hm.lower
    omega
  have hx := hm.devices j _ (devAt_lt hlt)
  rw [devAt_of hd, devAt_of hd'] at hx
  exact ⟨devAt m j, List.mem_of_getElem? (devAt_lt hlt), mix_deviceTakes hx h3 h4 hds⟩

/-- C84, for an update that only lowers priorities and switches devices on, or only the other way round: the log is
admitted if the stricter of the two configurations admits it, and refused if the looser one refuses it. -/
theorem C84_looser_partial (g : Config) (i : Nat) (cm : ChanMem) (look : Nat → FilterMem)
    (hlook : ∀ n, Halfway i cm.chan (srcChannel g i) (look n)) (hsize : (hotChannel g i cm).2.chan.devices.length ≤ 20)
    (p c k : Int) (a b : Channel) (hl : Looser a b)
    (hab : (a = cm.chan ∧ b = (hotChannel g i cm).2.chan) ∨ (b = cm.chan ∧ a = (hotChannel g i cm).2.chan))
    (hdef : ChanDefined a c k) :
    (blockInput (soleView a) 0 p c k = some false → blockInputRead look p c k = some false) ∧
    (blockInput (soleView b) 0 p c k = some true → blockInputRead look p c k = some true) := by
  obtain ⟨m, hm, e⟩ := C84_mixed g i cm look hlook hsize p c k
  have hab' : Mixture a b m ∨ Mixture b a m := by
    rcases hab with ⟨rfl, rfl⟩ | ⟨rfl, rfl⟩
    · exact Or.inl hm
    · exact Or.inr hm
  obtain ⟨l1, l2⟩ := looser_mix hl hab'
  obtain ⟨r, hr⟩ := sole_defined (looser_defined l1 hdef) p
  rw [e, hr]
  constructor
  · intro ha
    rw [(sole_iff hr).mpr (looser_accepts l1 ((sole_iff ha).mp rfl))]
  · intro hb
    cases r with
    | true => rfl
    | false => exact absurd ((sole_iff hb).mpr (looser_accepts l2 ((sole_iff hr).mp rfl))) (by simp)

/-- C84, for the filter of DispatchLog on a channel that outputs in the thread that logs: the device is treated as some
device whose every setting is the old or the new one. -/
theorem C84_dispatch_mixed (g : Config) (i : Nat) (cm : ChanMem) (look : Nat → FilterMem)
    (hlook : ∀ n, Halfway i cm.chan (srcChannel g i) (look n)) (n j : Nat) (p c k : Int) :
    ∃ d, MixDev (devAt cm.chan j) (devAt (hotChannel g i cm).2.chan j) d ∧
      dispatchRead look n j p c k = dispatchTakes d p c k := by
  rw [hotTarget_eq]
  have h : ∀ n, MixDev (devAt cm.chan j) (devAt (hotTarget i cm.chan (srcChannel g i)) j) ((look n).slots j) :=
    fun n => (halfway_mix (hlook n)).slots j
  obtain ⟨f, hf⟩ : ∃ f : Nat → Device, f = fun x => (look (n + x)).slots j := ⟨_, rfl⟩
  refine ⟨{ (f 0) with
    inType := (f 1).inType
    cfg := { (f 0).cfg with
      priority := (f 2).cfg.priority
      category := (f 3).cfg.category
      categoryExtend := (f 4).cfg.categoryExtend
      categoryMask := (f 5).cfg.categoryMask
      identify := (f 6).cfg.identify
      identifyExtend := (f 7).cfg.identifyExtend
      identifyMask := (f 8).cfg.identifyMask } }, ⟨fun x => ?_, ?_, ?_⟩, ?_⟩
  · subst hf
    match x with
    | 0 => exact (h _).cfg 0
    | 1 => exact (h _).cfg 1
    | 2 => exact (h _).cfg 2
    | 3 => exact (h _).cfg 3
    | 4 => exact (h _).cfg 4
    | 5 => exact (h _).cfg 5
    | 6 => exact (h _).cfg 6
    | 7 => exact (h _).cfg 7
    | 8 => exact (h _).cfg 8
    | 9 => exact (h _).cfg 9
    | 10 => exact (h _).cfg 10
    | 11 => exact (h _).cfg 11
    | 12 => exact (h _).cfg 12
    | 13 => exact (h _).cfg 13
    | 14 => exact (h _).cfg 14
    | x + 15 => exact Or.inl rfl
  · subst hf; exact (h _).inType
  · subst hf; exact (h _).outType
  · subst hf; rfl

/-! ## Counterexamples -/

/-- The loads of a thread of which load `n` comes after the first `t n` assignments. -/
def lookAt (i : Nat) (c src : Channel) (t : Nat → Nat) (n : Nat) : FilterMem :=
  ((hotWrites i c src).take (t n)).foldl CfgWrite.apply (memOf c)

theorem lookAt_halfway (i : Nat) (c src : Channel) (t : Nat → Nat) (n : Nat) : Halfway i c src (lookAt i c src t n) :=
  ⟨_, (hotWrites i c src).drop (t n), by rw [List.take_append_drop], rfl⟩

/-- A device that takes everything. -/
def openDevice : Device := { outType := .screen, cfg := { able := 1 } }

/-- A channel with a range of categories. -/
def rangeChannel (begin_ count : Int) : Channel :=
  { cfg := { category := begin_, categoryExtend := count }, devices := [openDevice] }

def rangeMem (begin_ count : Int) : ChanMem := { chan := rangeChannel begin_ count }
def rangeConfig (begin_ count : Int) : Config := Config.mk [rangeChannel begin_ count] true 0 [] []

/-- C84 fails: the range of the channel changes from [0, 100) to [1000, 1005); a thread that reads between the two
assignments admits category 1050, which both configurations refuse. -/
theorem C84_counterexample_admitted :
    blockInput (soleView (rangeMem 0 100).chan) 0 3 1050 0 = some true ∧
    blockInput (soleView (hotChannel (rangeConfig 1000 5) 0 (rangeMem 0 100)).2.chan) 0 3 1050 0 = some true ∧
    blockInputRead (lookAt 0 (rangeChannel 0 100) (srcChannel (rangeConfig 1000 5) 0) fun _ => 2) 3 1050 0 = some false := by
  decide +kernel

/-- C84 fails the other way: the range changes from [0, 100) to [50, 70); a thread that reads the beginning before and
the length after the assignments refuses category 60, which both configurations admit. -/
theorem C84_counterexample_lost :
    blockInput (soleView (rangeMem 0 100).chan) 0 3 60 0 = some false ∧
    blockInput (soleView (hotChannel (rangeConfig 50 20) 0 (rangeMem 0 100)).2.chan) 0 3 60 0 = some false ∧
    blockInputRead (lookAt 0 (rangeChannel 0 100) (srcChannel (rangeConfig 50 20) 0) fun n => if n < 2 then 1 else 3) 3 60 0 =
      some true := by
  decide +kernel

/-- Two ranges without overflow whose mixture overflows: the behaviour of the thread that reads is undefined. -/
theorem C84_counterexample_overflow :
    blockInput (soleView (rangeMem 0 (2 ^ 62)).chan) 0 3 (2 ^ 63 - 1) 0 = some true ∧
    blockInput (soleView (hotChannel (rangeConfig (2 ^ 63 - 10) 5) 0 (rangeMem 0 (2 ^ 62))).2.chan) 0 3 (2 ^ 63 - 1) 0 = some true ∧
    blockInputRead (lookAt 0 (rangeChannel 0 (2 ^ 62)) (srcChannel (rangeConfig (2 ^ 63 - 10) 5) 0) fun _ => 2) 3 (2 ^ 63 - 1) 0 =
      none := by
  decide +kernel

/-- A device for errors only. -/
def strictDevice (i : Int) : Device := { id := i, outType := .screen, cfg := { able := 1, priority := 4 } }

def strictMem : ChanMem := { chan := { devices := [strictDevice 0] } }
def strictConfig : Config := Config.mk [{ devices := [strictDevice 0, strictDevice 1] }] true 0 [] []

/-- C84 fails for an appended device: between `device_size_++` and the end of `memcpy` the device is switched on while its
priority is still 0, so a debug log is admitted that both configurations refuse. -/
theorem C84_counterexample_appended :
    blockInput (soleView strictMem.chan) 0 1 0 0 = some true ∧
    blockInput (soleView (hotChannel strictConfig 0 strictMem).2.chan) 0 1 0 0 = some true ∧
    blockInputRead (lookAt 0 strictMem.chan (srcChannel strictConfig 0) fun _ => 7 + 15 + 6) 1 0 0 = some false := by
  decide +kernel

/-! Concrete cases: the hypotheses above are met by ordinary updates. -/

/-- the priority of the channel is lowered -/
def looserMem : ChanMem := { chan := { cfg := { priority := 4 }, devices := [strictDevice 0] } }
def looserConfig : Config := Config.mk [{ cfg := { priority := 1 }, devices := [strictDevice 0] }] true 0 [] []

example : DifferAt (.chan 0) looserMem.chan (hotChannel looserConfig 0 looserMem).2.chan := by
  refine ⟨by decide +kernel, fun i => ?_, fun y hy => ?_⟩
  · match i with
    | 0 => decide +kernel
    | i + 1 => rfl
  · match y, hy with
    | .chan 0, hy => exact absurd rfl hy
    | .chan (k + 1), _ =>
      match k with
      | 0 | 1 | 2 | 3 | 4 | 5 => decide +kernel
      | k + 6 => rfl
    | .dev 0 k, _ => rfl
    | .dev (i + 1) k, _ => rfl

example : Looser looserMem.chan (hotChannel looserConfig 0 looserMem).2.chan := by
  refine ⟨by decide +kernel, by decide +kernel, fun k hk => ?_, fun i => ?_, fun i => ?_, fun i k _ _ => ?_, fun i => ?_⟩
  · match k, hk with
    | 1, _ | 2, _ | 3, _ | 4, _ | 5, _ | 6, _ => decide +kernel
    | k + 7, _ => rfl
  all_goals match i with
    | 0 => first | decide +kernel | rfl
    | i + 1 => first | exact fun h => h | exact Int.le_refl _ | rfl

/-- and admits a log during the update that both admit -/
example : ∀ t, blockInputRead (lookAt 0 looserMem.chan (srcChannel looserConfig 0) t) 5 0 0 = some false := fun t =>
  C84_kept_partial looserConfig 0 looserMem _ (fun n => lookAt_halfway _ _ _ t n) (by decide +kernel) 5 0 0
    ⟨⟨⟨by decide +kernel, by decide +kernel⟩, Or.inl (by decide +kernel), Or.inl (by decide +kernel)⟩, by
      intro d hd
      simp only [looserMem, List.mem_singleton] at hd
      subst hd
      exact ⟨⟨by decide +kernel, by decide +kernel⟩, Or.inl (by decide +kernel), Or.inl (by decide +kernel)⟩⟩
    ⟨⟨⟨by decide +kernel, by decide +kernel⟩, Or.inl (by decide +kernel), Or.inl (by decide +kernel)⟩, by
      intro d hd
      have e : (hotChannel looserConfig 0 looserMem).2.chan.devices = [strictDevice 0] := by decide +kernel
      rw [e, List.mem_singleton] at hd
      subst hd
      exact ⟨⟨by decide +kernel, by decide +kernel⟩, Or.inl (by decide +kernel), Or.inl (by decide +kernel)⟩⟩
    ⟨Or.inl (by decide +kernel), Or.inl (by decide +kernel)⟩
    ⟨by decide +kernel, Or.inl (by decide +kernel), Or.inl (by decide +kernel), Or.inl (by decide +kernel), Or.inl (by decide +kernel)⟩
    ⟨by decide +kernel, Or.inl (by decide +kernel), Or.inl (by decide +kernel), Or.inl (by decide +kernel), Or.inl (by decide +kernel)⟩
    0 (strictDevice 0) (strictDevice 0) (by decide +kernel) (by decide +kernel)
    ⟨Or.inl rfl, Or.inl rfl⟩
    ⟨by decide +kernel, rfl, by decide +kernel, Or.inl (by decide +kernel), Or.inl (by decide +kernel), Or.inl (by decide +kernel), Or.inl (by decide +kernel)⟩
    ⟨by decide +kernel, rfl, by decide +kernel, Or.inl (by decide +kernel), Or.inl (by decide +kernel), Or.inl (by decide +kernel), Or.inl (by decide +kernel)⟩

end FNLog
