import Verif.Spec.HotRead
import Verif.Proof.Logger

/-! # Lemmas on filters read during a hot update -/

namespace FNLog
open Spec

/-- Every field of `m` is the one of `a` or the one of `b`. -/
structure MixMem (a b m : FilterMem) : Prop where
  cfg : MixChan a.cfg b.cfg m.cfg
  lower : a.size ≤ m.size
  upper : m.size ≤ b.size
  slots : ∀ i, MixDev (a.slots i) (b.slots i) (m.slots i)

/-! ## The writer -/

/-- What an assignment of the update to `r` may do. -/
def WriteOk (f : ChanCfg) (r : List Device) : CfgWrite → Prop
  | .chan k v => f.get k = some v
  | .dev i k v => ∃ d, r[i]? = some d ∧ d.cfg.get k = some v
  | .number _ _ => True
  | .input i v => ∃ d, r[i]? = some d ∧ d.inType = v
  | .output i v => ∃ d, r[i]? = some d ∧ d.outType = v
  | .names _ _ _ => True
  | .grow => True

theorem chan_get_range (f : ChanCfg) {k : Nat} (h : k < CHANNEL_CFG_MAX_ID) : f.get k = some ((f.get k).getD 0) := by
  unfold CHANNEL_CFG_MAX_ID at h
  match k, h with
  | 0, _ | 1, _ | 2, _ | 3, _ | 4, _ | 5, _ | 6, _ => rfl

theorem dev_get_range (f : DevCfg) {k : Nat} (h : k < DEVICE_CFG_MAX_ID) : f.get k = some ((f.get k).getD 0) := by
  unfold DEVICE_CFG_MAX_ID at h
  match k, h with
  | 0, _ | 1, _ | 2, _ | 3, _ | 4, _ | 5, _ | 6, _ | 7, _ | 8, _ | 9, _ | 10, _ | 11, _ | 12, _ | 13, _ | 14, _ => rfl

theorem devWrites_ok {i : Nat} {r : List Device} {f : ChanCfg} {d : Device} (h : r[i]? = some d) :
    ∀ w ∈ devWrites i d.cfg, WriteOk f r w := by
  intro w hw
  obtain ⟨k, hk, rfl⟩ := List.mem_map.mp hw
  exact ⟨d, h, dev_get_range _ (List.mem_range.mp hk)⟩

theorem addWrites_ok {i : Nat} {r : List Device} {f : ChanCfg} {d : Device} (h : r[i]? = some d) :
    ∀ w ∈ addWrites i d, WriteOk f r w := by
  intro w hw
  unfold addWrites at hw
  rcases List.mem_append.mp hw with hw | hw
  · simp only [List.mem_cons, List.not_mem_nil, or_false] at hw
    rcases hw with rfl | rfl | rfl | rfl | rfl
    · trivial
    · trivial
    · exact ⟨d, h, rfl⟩
    · exact ⟨d, h, rfl⟩
    · trivial
  · exact devWrites_ok h w hw

theorem hotDevices_low : ∀ (src : List Device) (i : Nat) (dst : List Device) (j : Nat), j < i →
    (hotDevices i src dst).2[j]? = dst[j]? := by
  intro src
  induction src with
  | nil => intros; rfl
  | cons s src ih =>
    intro i dst j hj
    unfold hotDevices
    split
    · rfl
    · split
      · split
        · rfl
        · rw [ih (i + 1) _ j (by omega), List.getElem?_set, if_neg (by omega)]
      · split
        · rfl
        · rename_i hl
          rw [ih (i + 1) _ j (by omega), List.getElem?_append_left (by omega)]

/-- Every assignment stores the value the update is going to leave. -/
theorem hotDevWrites_ok (f : ChanCfg) : ∀ (src : List Device) (i : Nat) (dst : List Device),
    ∀ w ∈ hotDevWrites i src dst, WriteOk f (hotDevices i src dst).2 w := by
  intro src
  induction src with
  | nil => intro i dst w hw; exact absurd hw (by unfold hotDevWrites; simp)
  | cons s src ih =>
    intro i dst w hw
    unfold hotDevWrites at hw
    unfold hotDevices
    by_cases h0 : s.id ≠ (i : Int)
    · rw [if_pos h0] at hw; exact absurd hw (by simp)
    · rw [if_neg h0] at hw ⊢
      cases hd : dst[i]? with
      | some d =>
        rw [hd] at hw
        dsimp only at hw ⊢
        by_cases h1 : d.id ≠ (i : Int)
        · rw [if_pos h1] at hw; exact absurd hw (by simp)
        · rw [if_neg h1] at hw ⊢
          rcases List.mem_append.mp hw with hw | hw
          · refine devWrites_ok (d := { d with cfg := s.cfg }) ?_ w hw
            rw [hotDevices_low _ _ _ _ (Nat.lt_succ_self i), List.getElem?_set, if_pos rfl, if_pos]
            exact (List.getElem?_eq_some_iff.mp hd).1
          · exact ih _ _ w hw
      | none =>
        rw [hd] at hw
        dsimp only at hw ⊢
        by_cases h1 : dst.length ≠ i
        · rw [if_pos h1] at hw; exact absurd hw (by simp)
        · rw [if_neg h1] at hw ⊢
          rcases List.mem_append.mp hw with hw | hw
          · refine addWrites_ok (d := s) ?_ w hw
            rw [hotDevices_low _ _ _ _ (Nat.lt_succ_self i), List.getElem?_append_right (by omega)]
            simp at h1
            simp [h1]
          · exact ih _ _ w hw

theorem devWrites_no_grow (i : Nat) (f : DevCfg) : (devWrites i f).count .grow = 0 := by
  rw [List.count_eq_zero]
  intro h
  obtain ⟨k, _, hk⟩ := List.mem_map.mp h
  exact absurd hk (by nofun)

theorem addWrites_grow (i : Nat) (d : Device) : (addWrites i d).count .grow = 1 := by
  unfold addWrites
  rw [List.count_append, devWrites_no_grow]
  rfl

/-- `device_size_` grows by the number of appended devices. -/
theorem hotDevWrites_grow : ∀ (src : List Device) (i : Nat) (dst : List Device),
    (hotDevices i src dst).2.length = dst.length + (hotDevWrites i src dst).count .grow := by
  intro src
  induction src with
  | nil => intro i dst; rfl
  | cons s src ih =>
    intro i dst
    unfold hotDevWrites hotDevices
    by_cases h0 : s.id ≠ (i : Int)
    · rw [if_pos h0, if_pos h0]; rfl
    · rw [if_neg h0, if_neg h0]
      cases hd : dst[i]? with
      | some d =>
        dsimp only
        by_cases h1 : d.id ≠ (i : Int)
        · rw [if_pos h1, if_pos h1]; rfl
        · rw [if_neg h1, if_neg h1, ih, List.count_append, devWrites_no_grow]
          simp
      | none =>
        dsimp only
        by_cases h1 : dst.length ≠ i
        · rw [if_pos h1, if_pos h1]; rfl
        · rw [if_neg h1, if_neg h1, ih, List.count_append, addWrites_grow]
          simp
          omega

/-- The channel after all assignments. -/
def hotTarget (i : Nat) (c src : Channel) : Channel :=
  if c.id ≠ src.id ∨ src.id ≠ (i : Int) then c
  else { c with cfg := src.cfg, devices := (hotDevices 0 src.devices c.devices).2 }

theorem hotTarget_eq (g : Config) (i : Nat) (c : ChanMem) :
    (hotChannel g i c).2.chan = hotTarget i c.chan (srcChannel g i) := by
  unfold hotChannel hotTarget
  dsimp only
  split
  · rfl
  · split <;> rfl

theorem hotWrites_ok (i : Nat) (c src : Channel) :
    ∀ w ∈ hotWrites i c src, WriteOk (hotTarget i c src).cfg (hotTarget i c src).devices w := by
  intro w hw
  unfold hotWrites at hw
  unfold hotTarget
  split at hw
  · exact absurd hw (by simp)
  · rename_i h
    rw [if_neg h]
    rcases List.mem_append.mp hw with hw | hw
    · obtain ⟨k, hk, rfl⟩ := List.mem_map.mp hw
      exact chan_get_range _ (List.mem_range.mp hk)
    · exact hotDevWrites_ok _ _ _ _ w hw

theorem hotWrites_grow (i : Nat) (c src : Channel) :
    (hotTarget i c src).devices.length = c.devices.length + (hotWrites i c src).count .grow := by
  unfold hotWrites hotTarget
  split
  · rfl
  · dsimp only
    rw [hotDevWrites_grow, List.count_append]
    have : (chanWrites src.cfg).count CfgWrite.grow = 0 := by
      rw [List.count_eq_zero]
      intro h
      obtain ⟨k, _, hk⟩ := List.mem_map.mp h
      exact absurd hk (by nofun)
    omega

theorem chan_get_set {c d : ChanCfg} {v : Int} {k : Nat} (h : c.set v k = some d) (j : Nat) :
    d.get j = if j = k then some v else c.get j := by
  unfold ChanCfg.set at h
  split at h <;> first
    | contradiction
    | (cases h; match j with
        | 0 | 1 | 2 | 3 | 4 | 5 | 6 => rfl
        | n + 7 => simp [ChanCfg.get])

theorem dev_get_set {c d : DevCfg} {v : Int} {k : Nat} (h : c.set v k = some d) (j : Nat) :
    d.get j = if j = k then some v else c.get j := by
  unfold DevCfg.set at h
  split at h <;> first
    | contradiction
    | (cases h; match j with
        | 0 | 1 | 2 | 3 | 4 | 5 | 6 | 7 | 8 | 9 | 10 | 11 | 12 | 13 | 14 => rfl
        | n + 15 => simp [DevCfg.get])

/-- The fields stay old or new; `size` grows with `grow`. -/
structure MixStep (a : FilterMem) (f : ChanCfg) (r : List Device) (n : Nat) (m : FilterMem) : Prop where
  cfg : MixChan a.cfg f m.cfg
  size : m.size = a.size + n
  slots : ∀ i, MixDev (a.slots i) (r[i]?.getD {}) (m.slots i)

theorem MixStep.onDev {a : FilterMem} {f : ChanCfg} {r : List Device} {n : Nat} {m : FilterMem} (h : MixStep a f r n m)
    {i : Nat} {g : Device → Device} (hg : MixDev (a.slots i) (r[i]?.getD {}) (g (m.slots i))) :
    MixStep a f r n (m.onDev i g) := by
  refine ⟨h.cfg, h.size, fun j => ?_⟩
  show MixDev _ _ (if j = i then g (m.slots j) else m.slots j)
  split
  · rename_i e; rw [e]; exact hg
  · exact h.slots j

theorem MixStep.apply {a : FilterMem} {f : ChanCfg} {r : List Device} {n : Nat} {m : FilterMem} (h : MixStep a f r n m)
    {w : CfgWrite} (hw : WriteOk f r w) : MixStep a f r (n + if w = .grow then 1 else 0) (w.apply m) := by
  cases w with
  | chan k v =>
    refine ⟨fun j => ?_, h.size, h.slots⟩
    show ((m.cfg.set v k).getD m.cfg).get j = _ ∨ ((m.cfg.set v k).getD m.cfg).get j = _
    cases e : m.cfg.set v k with
    | none => exact h.cfg j
    | some d =>
      simp only [Option.getD_some]
      rw [chan_get_set e]
      split
      · rename_i e; rw [e]; exact Or.inr (Eq.symm hw)
      · exact h.cfg j
  | dev i k v =>
    obtain ⟨d, hd, hv⟩ := hw
    refine h.onDev (i := i) (g := fun d => { d with cfg := (d.cfg.set v k).getD d.cfg }) ?_
    have hs := h.slots i
    refine ⟨fun j => ?_, hs.inType, hs.outType⟩
    dsimp only
    cases e : (m.slots i).cfg.set v k with
    | none => exact hs.cfg j
    | some x =>
      simp only [Option.getD_some]
      rw [dev_get_set e]
      split
      · rename_i e; rw [e, hd]; exact Or.inr (Eq.symm hv)
      · exact hs.cfg j
  | number i v => exact h.onDev (i := i) (g := fun d => { d with id := v }) ⟨(h.slots i).cfg, (h.slots i).inType, (h.slots i).outType⟩
  | input i v =>
    obtain ⟨d, hd, hv⟩ := hw
    exact h.onDev (i := i) (g := fun d => { d with inType := v }) ⟨(h.slots i).cfg, Or.inr (by rw [hd]; exact hv.symm), (h.slots i).outType⟩
  | output i v =>
    obtain ⟨d, hd, hv⟩ := hw
    exact h.onDev (i := i) (g := fun d => { d with outType := v }) ⟨(h.slots i).cfg, (h.slots i).inType, Or.inr (by rw [hd]; exact hv.symm)⟩
  | names i x y => exact h.onDev (i := i) (g := fun d => { d with file := x, path := y }) ⟨(h.slots i).cfg, (h.slots i).inType, (h.slots i).outType⟩
  | grow => exact ⟨h.cfg, by show m.size + 1 = _; rw [h.size, if_pos rfl]; omega, h.slots⟩

theorem MixStep.fold {a : FilterMem} {f : ChanCfg} {r : List Device} : ∀ (ws : List CfgWrite) (n : Nat) (m : FilterMem),
    MixStep a f r n m → (∀ w ∈ ws, WriteOk f r w) → MixStep a f r (n + ws.count .grow) (ws.foldl CfgWrite.apply m) := by
  intro ws
  induction ws with
  | nil => intro n m h _; exact h
  | cons w ws ih =>
    intro n m h hw
    have := ih _ _ (h.apply (hw w (by simp))) (fun x hx => hw x (List.mem_cons_of_mem _ hx))
    rw [List.count_cons]
    by_cases e : w = CfgWrite.grow
    · rw [if_pos e] at this
      rw [if_pos (by rw [e]; rfl), List.foldl_cons]
      rwa [show n + (ws.count CfgWrite.grow + 1) = n + 1 + ws.count CfgWrite.grow by omega]
    · rw [if_neg e] at this
      rw [if_neg (by simpa using e), List.foldl_cons]
      exact this

/-- What a load during the update can see is old or new. -/
theorem halfway_mix {i : Nat} {c src : Channel} {m : FilterMem} (h : Halfway i c src m) :
    MixMem (memOf c) (memOf (hotTarget i c src)) m := by
  obtain ⟨done, later, hp, rfl⟩ := h
  have h0 : MixStep (memOf c) (hotTarget i c src).cfg (hotTarget i c src).devices 0 (memOf c) :=
    ⟨fun _ => Or.inl rfl, rfl, fun _ => ⟨fun _ => Or.inl rfl, Or.inl rfl, Or.inl rfl⟩⟩
  have h1 := h0.fold done _ _ (fun w hw => hotWrites_ok i c src w (hp.subset (List.mem_append_left _ hw)))
  have hc := hp.count_eq CfgWrite.grow
  rw [List.count_append] at hc
  refine ⟨h1.cfg, by rw [h1.size]; omega, ?_, h1.slots⟩
  rw [h1.size]
  show c.devices.length + _ ≤ (hotTarget i c src).devices.length
  rw [hotWrites_grow]
  omega

/-! ## After the update -/

theorem devWrites_fold (m : FilterMem) (i : Nat) (f : DevCfg) :
    (devWrites i f).foldl CfgWrite.apply m = m.onDev i fun d => { d with cfg := f } := by
  cases m with
  | mk cfg slots size =>
    simp only [devWrites, DEVICE_CFG_MAX_ID, List.range, List.range.loop, List.map, List.foldl, CfgWrite.apply,
      FilterMem.onDev, FilterMem.mk.injEq, true_and, and_true]
    funext j
    by_cases h : j = i
    · simp [h, DevCfg.set, DevCfg.get]
    · simp [h]

theorem addWrites_fold (m : FilterMem) (i : Nat) (d : Device) :
    (addWrites i d).foldl CfgWrite.apply m = { m.onDev i (fun _ => d) with size := m.size + 1 } := by
  unfold addWrites
  rw [List.foldl_append, devWrites_fold]
  cases m with
  | mk cfg slots size =>
    simp only [List.foldl, CfgWrite.apply, FilterMem.onDev, FilterMem.mk.injEq, true_and, and_true]
    funext j
    by_cases h : j = i <;> simp [h]

theorem chanWrites_fold (m : FilterMem) (f : ChanCfg) :
    (chanWrites f).foldl CfgWrite.apply m = { m with cfg := f } := by
  cases m with
  | mk cfg slots size =>
    simp [chanWrites, CHANNEL_CFG_MAX_ID, List.range, List.range.loop, CfgWrite.apply, ChanCfg.set, ChanCfg.get]

theorem hotDevWrites_fold (f : ChanCfg) : ∀ (src : List Device) (i : Nat) (dst : List Device),
    (hotDevWrites i src dst).foldl CfgWrite.apply
        { cfg := f, slots := fun j => (dst[j]?).getD {}, size := dst.length } =
      { cfg := f, slots := fun j => ((hotDevices i src dst).2[j]?).getD {}, size := (hotDevices i src dst).2.length } := by
  intro src
  induction src with
  | nil => intro i dst; rfl
  | cons s src ih =>
    intro i dst
    unfold hotDevWrites hotDevices
    by_cases h0 : s.id ≠ (i : Int)
    · rw [if_pos h0, if_pos h0]; rfl
    · rw [if_neg h0, if_neg h0]
      cases hd : dst[i]? with
      | some d =>
        dsimp only
        by_cases h1 : d.id ≠ (i : Int)
        · rw [if_pos h1, if_pos h1]; rfl
        · rw [if_neg h1, if_neg h1, List.foldl_append, devWrites_fold, ← ih]
          congr 1
          have hlt := (List.getElem?_eq_some_iff.mp hd).1
          simp only [FilterMem.onDev, List.length_set, FilterMem.mk.injEq, true_and, and_true]
          funext j
          rw [List.getElem?_set]
          by_cases h : j = i
          · subst h; rw [if_pos rfl, if_pos rfl, if_pos hlt, hd]; rfl
          · rw [if_neg h, if_neg (fun e => h e.symm)]
      | none =>
        dsimp only
        by_cases h1 : dst.length ≠ i
        · rw [if_pos h1, if_pos h1]; rfl
        · rw [if_neg h1, if_neg h1, List.foldl_append, addWrites_fold, ← ih]
          congr 1
          have hl : dst.length = i := by simpa using h1
          simp only [FilterMem.onDev, List.length_append, List.length_singleton, FilterMem.mk.injEq, true_and, and_true]
          funext j
          by_cases h : j = i
          · subst h; rw [if_pos rfl, List.getElem?_append_right (by omega)]; simp [hl]
          · rw [if_neg h]
            by_cases hj : j < dst.length
            · rw [List.getElem?_append_left hj]
            · rw [List.getElem?_eq_none (by omega), List.getElem?_eq_none (by simp; omega)]

/-- All assignments together are the hot update. -/
theorem hotWrites_fold (i : Nat) (c src : Channel) :
    (hotWrites i c src).foldl CfgWrite.apply (memOf c) = memOf (hotTarget i c src) := by
  unfold hotWrites hotTarget
  split
  · rfl
  · rw [List.foldl_append, chanWrites_fold]
    exact hotDevWrites_fold _ _ _ _

/-! ## The readers -/

/-- The filter of the channel the loads see. -/
def seenCfg (look : Nat → FilterMem) : ChanCfg where
  priority := (look 0).cfg.priority
  category := (look 1).cfg.category
  categoryExtend := (look 2).cfg.categoryExtend
  categoryMask := (look 3).cfg.categoryMask
  identify := (look 4).cfg.identify
  identifyExtend := (look 5).cfg.identifyExtend
  identifyMask := (look 6).cfg.identifyMask

/-- The device `i` the loads see. -/
def seenDev (look : Nat → FilterMem) (i : Nat) : Device :=
  let f := fun j => ((look (7 + 10 * i + j)).slots i).cfg
  { (look 0).slots i with
    inType := ((look (7 + 10 * i + 3)).slots i).inType
    cfg := { (f 0) with
      able := (f 1).able
      priority := (f 2).priority
      category := (f 4).category
      categoryExtend := (f 5).categoryExtend
      categoryMask := (f 6).categoryMask
      identify := (f 7).identify
      identifyExtend := (f 8).identifyExtend
      identifyMask := (f 9).identifyMask } }

theorem seenCfg_mix {a b : FilterMem} {look : Nat → FilterMem} (h : ∀ n, MixMem a b (look n)) :
    MixChan a.cfg b.cfg (seenCfg look) := by
  intro k
  match k with
  | 0 => exact (h 0).cfg 0
  | 1 => exact (h 1).cfg 1
  | 2 => exact (h 2).cfg 2
  | 3 => exact (h 3).cfg 3
  | 4 => exact (h 4).cfg 4
  | 5 => exact (h 5).cfg 5
  | 6 => exact (h 6).cfg 6
  | n + 7 => exact Or.inl rfl

theorem seenDev_mix {a b : FilterMem} {look : Nat → FilterMem} (h : ∀ n, MixMem a b (look n)) (i : Nat) :
    MixDev (a.slots i) (b.slots i) (seenDev look i) := by
  refine ⟨fun k => ?_, ((h (7 + 10 * i + 3)).slots i).inType, ((h 0).slots i).outType⟩
  match k with
  | 0 => exact ((h _).slots i).cfg 0
  | 1 => exact ((h _).slots i).cfg 1
  | 2 => exact ((h _).slots i).cfg 2
  | 3 => exact ((h _).slots i).cfg 3
  | 4 => exact ((h _).slots i).cfg 4
  | 5 => exact ((h _).slots i).cfg 5
  | 6 => exact ((h _).slots i).cfg 6
  | 7 => exact ((h _).slots i).cfg 7
  | 8 => exact ((h _).slots i).cfg 8
  | 9 => exact ((h _).slots i).cfg 9
  | 10 => exact ((h _).slots i).cfg 10
  | 11 => exact ((h _).slots i).cfg 11
  | 12 => exact ((h _).slots i).cfg 12
  | 13 => exact ((h _).slots i).cfg 13
  | 14 => exact ((h _).slots i).cfg 14
  | n + 15 => exact Or.inl rfl

/-- One round of the device loop. -/
def roundDev (d : Device) (p c k : Int) : Option Bool :=
  if d.cfg.able = 0 ∨ p < d.cfg.priority then some false
  else if d.inType ≠ .null then some false
  else do
    if ← rangeFails d.cfg.category d.cfg.categoryExtend c then some false
    else if ← rangeFails d.cfg.identify d.cfg.identifyExtend k then some false
    else if ← maskFails d.cfg.categoryMask c then some false
    else if ← maskFails d.cfg.identifyMask k then some false
    else some true

theorem round_generic (d : Device) (p c k : Int) (x : Option Bool) :
    (if d.cfg.able = 0 ∨ p < d.cfg.priority then x
      else if d.inType ≠ .null then x
      else do
        if ← rangeFails d.cfg.category d.cfg.categoryExtend c then x
        else if ← rangeFails d.cfg.identify d.cfg.identifyExtend k then x
        else if ← maskFails d.cfg.categoryMask c then x
        else if ← maskFails d.cfg.identifyMask k then x
        else some true) =
      match roundDev d p c k with
      | none => none
      | some true => some true
      | some false => x := by
  unfold roundDev
  split
  · rfl
  · split
    · rfl
    · cases rangeFails d.cfg.category d.cfg.categoryExtend c with
      | none => rfl
      | some x =>
        cases x with
        | true => rfl
        | false =>
          cases rangeFails d.cfg.identify d.cfg.identifyExtend k with
          | none => rfl
          | some x =>
            cases x with
            | true => rfl
            | false =>
              cases maskFails d.cfg.categoryMask c with
              | none => rfl
              | some x =>
                cases x with
                | true => rfl
                | false =>
                  cases maskFails d.cfg.identifyMask k with
                  | none => rfl
                  | some x => cases x <;> rfl

theorem blockDevs_round (p c k : Int) (d : Device) (ds : List Device) :
    blockDevs p c k (d :: ds) =
      match roundDev d p c k with
      | none => none
      | some true => some true
      | some false => blockDevs p c k ds := by
  conv => lhs; unfold blockDevs
  exact round_generic d p c k _

theorem blockDevsRead_round (look : Nat → FilterMem) (p c k : Int) (fuel i : Nat) :
    blockDevsRead look p c k (fuel + 1) i =
      if i < (look (7 + 10 * i)).size then
        match roundDev (seenDev look i) p c k with
        | none => none
        | some true => some true
        | some false => blockDevsRead look p c k fuel (i + 1)
      else some false := by
  conv => lhs; unfold blockDevsRead
  rw [← round_generic]
  rfl

/-- Some number of devices between the old and the new one explains the result of the device loop. -/
theorem blockDevsRead_seen {a b : FilterMem} {look : Nat → FilterMem} (h : ∀ n, MixMem a b (look n)) (p c k : Int) :
    ∀ (fuel i : Nat), i ≤ b.size → b.size < i + fuel →
      ∃ n, a.size ≤ i + n ∧ i + n ≤ b.size ∧
        blockDevsRead look p c k fuel i = blockDevs p c k ((List.range' i n).map (seenDev look)) := by
  intro fuel
  induction fuel with
  | zero => intro i h1 h2; exact absurd h1 (by omega)
  | succ fuel ih =>
    intro i h1 h2
    rw [blockDevsRead_round]
    by_cases hs : i < (look (7 + 10 * i)).size
    · rw [if_pos hs]
      have hu := (h (7 + 10 * i)).upper
      -- enough devices, whatever follows
      have key : ∃ n, a.size ≤ i + (n + 1) ∧ i + (n + 1) ≤ b.size := by
        refine ⟨b.size - i - 1, ?_, by omega⟩
        have := (h 0).lower
        have := (h 0).upper
        omega
      cases hr : roundDev (seenDev look i) p c k with
      | none =>
        obtain ⟨n, hn1, hn2⟩ := key
        refine ⟨n + 1, hn1, hn2, ?_⟩
        rw [List.range'_succ, List.map_cons, blockDevs_round, hr]
      | some x =>
        cases x with
        | true =>
          obtain ⟨n, hn1, hn2⟩ := key
          refine ⟨n + 1, hn1, hn2, ?_⟩
          rw [List.range'_succ, List.map_cons, blockDevs_round, hr]
        | false =>
          obtain ⟨n, hn1, hn2, hn3⟩ := ih (i + 1) (by omega) (by omega)
          refine ⟨n + 1, by omega, by omega, ?_⟩
          rw [List.range'_succ, List.map_cons, blockDevs_round, hr]
          exact hn3
    · rw [if_neg hs]
      have := (h (7 + 10 * i)).lower
      exact ⟨0, by omega, by omega, rfl⟩

theorem blockInput_sole (c : Channel) (p cat k : Int) :
    blockInput (soleView c) 0 p cat k =
      if p < c.cfg.priority then some true
      else do
        if ← rangeFails c.cfg.category c.cfg.categoryExtend cat then return true
        if ← rangeFails c.cfg.identify c.cfg.identifyExtend k then return true
        if ← maskFails c.cfg.categoryMask cat then return true
        if ← maskFails c.cfg.identifyMask k then return true
        let needWrite ← blockDevs (if p ≥ PRIORITY_MAX then PRIORITY_FATAL else p) cat k c.devices
        return !needWrite := by
  unfold blockInput soleView
  simp

theorem blockInputRead_seen {a b : FilterMem} {look : Nat → FilterMem} (h : ∀ n, MixMem a b (look n)) (hb : b.size ≤ 20)
    (p c k : Int) : ∃ n, a.size ≤ n ∧ n ≤ b.size ∧
      blockInputRead look p c k = blockInput (soleView { cfg := seenCfg look, devices := (List.range n).map (seenDev look) }) 0 p c k := by
  obtain ⟨n, h1, h2, h3⟩ := blockDevsRead_seen h (if p ≥ PRIORITY_MAX then PRIORITY_FATAL else p) c k 21 0 (Nat.zero_le _) (by omega)
  refine ⟨n, by omega, by omega, ?_⟩
  rw [blockInput_sole, List.range_eq_range', ← h3]
  rfl

end FNLog
