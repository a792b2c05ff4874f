import Verif.Spec.Life
import Verif.Proof.Logger
import Verif.Props.Filter

/-! # Lemmas on the life cycle and the setters -/

namespace FNLog
open Spec

/-! ## Channels -/

theorem startChannels_spec (th : Nat → ThreadStart) : ∀ (n i : Nat) (chans : Nat → ChanMem),
    (∀ j, j < i ∨ i + n ≤ j → (startChannels th n i chans).2 j = chans j) ∧
    (∀ j, ∃ st, (startChannels th n i chans).2 j = { chans j with chan := { (chans j).chan with state := st } }) ∧
    ((startChannels th n i chans).1 = .ok → ∀ j, i ≤ j → j < i + n →
      (startChannels th n i chans).2 j = { chans j with chan := { (chans j).chan with state := .running } })
  | 0, i, chans => ⟨fun _ _ => rfl, fun j => ⟨_, rfl⟩, fun _ j h1 h2 => absurd h2 (by omega)⟩
  | n + 1, i, chans => by
    obtain ⟨h1, h2, h3⟩ := startChannels_spec th n (i + 1) (setState i .running chans)
    have hrun : (∀ j, j < i ∨ i + (n + 1) ≤ j → (startChannels th n (i + 1) (setState i .running chans)).2 j = chans j) ∧
        (∀ j, ∃ st, (startChannels th n (i + 1) (setState i .running chans)).2 j =
          { chans j with chan := { (chans j).chan with state := st } }) ∧
        ((startChannels th n (i + 1) (setState i .running chans)).1 = .ok → ∀ j, i ≤ j → j < i + (n + 1) →
          (startChannels th n (i + 1) (setState i .running chans)).2 j =
            { chans j with chan := { (chans j).chan with state := .running } }) := by
      refine ⟨fun j hj => ?_, fun j => ?_, fun hok j hj1 hj2 => ?_⟩
      · rw [h1 j (by omega)]
        exact if_neg (by omega)
      · obtain ⟨st, hst⟩ := h2 j
        refine ⟨st, ?_⟩
        rw [hst]
        by_cases hji : j = i
        · simp [setState, hji]
        · simp [setState, hji]
      · by_cases hji : j = i
        · rw [h1 j (by omega)]
          simp [setState, hji]
        · rw [h3 hok j (by omega) (by omega)]
          simp [setState, hji]
    have hsame : ∀ x : StartEnd, x ≠ .ok →
        (∀ j, j < i ∨ i + (n + 1) ≤ j → ((x, chans) : StartEnd × (Nat → ChanMem)).2 j = chans j) ∧
        (∀ j, ∃ st, ((x, chans) : StartEnd × (Nat → ChanMem)).2 j = { chans j with chan := { (chans j).chan with state := st } }) ∧
        (((x, chans) : StartEnd × (Nat → ChanMem)).1 = .ok → ∀ j, i ≤ j → j < i + (n + 1) →
          ((x, chans) : StartEnd × (Nat → ChanMem)).2 j = { chans j with chan := { (chans j).chan with state := .running } }) :=
      fun x hx => ⟨fun _ _ => rfl, fun j => ⟨_, rfl⟩, fun h => absurd h hx⟩
    unfold startChannels
    cases (chans i).chan.type with
    | sync => exact hrun
    | async =>
      cases th i with
      | throws => exact hsame _ (by nofun)
      | late => exact hsame _ (by nofun)
      | justLate => exact hsame _ (by nofun)
      | runs => exact hrun

theorem startChannels_ok (th : Nat → ThreadStart) : ∀ (n i : Nat) (chans : Nat → ChanMem),
    (∀ j, i ≤ j → j < i + n → (chans j).chan.type = .async → th j = .runs) → (startChannels th n i chans).1 = .ok
  | 0, i, chans, _ => rfl
  | n + 1, i, chans, h => by
    have ih := startChannels_ok th n (i + 1) (setState i .running chans) (fun j h1 h2 ht => h j (by omega) (by omega) (by
      rw [← ht]; simp [setState]; rw [if_neg (by omega)]))
    unfold startChannels
    cases ht : (chans i).chan.type with
    | sync => exact ih
    | async =>
      simp only [h i (Nat.le_refl _) (by omega) ht]
      exact ih

theorem startChannels_failed (th : Nat → ThreadStart) {k : Nat} (hk : th k = .justLate) : ∀ (n i : Nat) (chans : Nat → ChanMem),
    i ≤ k → k < i + n → (chans k).chan.type = .async → (∀ j, i ≤ j → j < k → (chans j).chan.type = .async → th j = .runs) →
    (startChannels th n i chans).1 = .failed
  | 0, i, chans, h1, h2, _, _ => by omega
  | n + 1, i, chans, h1, h2, ha, h => by
    have hs : ∀ j, j ≠ i → setState i .running chans j = chans j := fun j hj => if_neg hj
    unfold startChannels
    by_cases hki : i = k
    · subst hki
      simp only [ha, hk]
    · have ih := startChannels_failed th hk n (i + 1) (setState i .running chans) (by omega) (by omega)
        (by rw [hs k (by omega)]; exact ha) (fun j h3 h4 => by rw [hs j (by omega)]; exact h j (by omega) h4)
      cases ht : (chans i).chan.type with
      | sync => exact ih
      | async =>
        simp only [h i (Nat.le_refl _) (by omega) ht]
        exact ih

theorem stopChannels_spec : ∀ (n i : Nat) (chans : Nat → ChanMem) (j : Nat),
    stopChannels n i chans j = if i ≤ j ∧ j < i + n then { chans j with chan := { (chans j).chan with state := .null } } else chans j
  | 0, i, chans, j => by rw [if_neg (by omega)]; rfl
  | n + 1, i, chans, j => by
    unfold stopChannels
    rw [stopChannels_spec n (i + 1) _ j]
    by_cases hji : j = i
    · rw [if_neg (by omega), if_pos (by omega)]
      simp [setState, hji]
    · by_cases h : i ≤ j ∧ j < i + (n + 1)
      · rw [if_pos h, if_pos (by omega)]
        simp [setState, hji]
      · rw [if_neg h, if_neg (by omega)]
        simp [setState, hji]

theorem numbered_state {i : Nat} {c : Channel} (h : Numbered i c) (st : ChannelState) : Numbered i { c with state := st } :=
  ⟨h.id, h.count, h.devices⟩

theorem numbered_updated {i : Nat} {old src new : Channel} (h : Numbered i old) (hs : Numbered i src) (hu : Updated old src new) :
    Numbered i new := by
  refine ⟨hu.id.trans h.id, ?_, fun j d hd => ?_⟩
  · have := hu.size
    have := h.count
    have := hs.count
    omega
  · cases ho : old.devices[j]? with
    | none => rw [hu.added j ho] at hd; exact hs.devices j d hd
    | some o =>
      cases hsj : src.devices[j]? with
      | none =>
        rw [hu.kept j o ho hsj] at hd
        rw [← Option.some.inj hd]; exact h.devices j o ho
      | some s =>
        obtain ⟨n, hn, _, hid, _⟩ := hu.known j o s ho hsj
        rw [hn] at hd
        rw [← Option.some.inj hd, hid]; exact h.devices j o ho

/-! ## Fields -/

theorem chanCfg_set {c : ChanCfg} {v : Int} {k : Nat} (h : k < 7) :
    ∃ f, c.set v k = some f ∧ ∀ j, f.get j = if j = k then some v else c.get j := by
  match k, h with
  | 0, _ | 1, _ | 2, _ | 3, _ | 4, _ | 5, _ | 6, _ =>
    refine ⟨_, rfl, fun j => ?_⟩
    match j with
    | 0 | 1 | 2 | 3 | 4 | 5 | 6 => rfl
    | n + 7 => rw [if_neg (by omega)]; rfl

theorem chanCfg_set_none {c : ChanCfg} {v : Int} {k : Nat} (h : 7 ≤ k) : c.set v k = none := by
  match k, h with
  | n + 7, _ => rfl

theorem devCfg_set {c : DevCfg} {v : Int} {k : Nat} (h : k < 15) :
    ∃ f, c.set v k = some f ∧ ∀ j, f.get j = if j = k then some v else c.get j := by
  match k, h with
  | 0, _ | 1, _ | 2, _ | 3, _ | 4, _ | 5, _ | 6, _ | 7, _ | 8, _ | 9, _ | 10, _ | 11, _ | 12, _ | 13, _ | 14, _ =>
    refine ⟨_, rfl, fun j => ?_⟩
    match j with
    | 0 | 1 | 2 | 3 | 4 | 5 | 6 | 7 | 8 | 9 | 10 | 11 | 12 | 13 | 14 => rfl
    | n + 15 => rw [if_neg (by omega)]; rfl

theorem devCfg_set_none {c : DevCfg} {v : Int} {k : Nat} (h : 15 ≤ k) : c.set v k = none := by
  match k, h with
  | n + 15, _ => rfl

theorem eraseCfg_chans {l : Lg} {s : LgShm} {chans : Nat → ChanMem} (hs : l.shm = some s)
    (h : ∀ i, eraseChan (chans i) = eraseChan (s.chans i)) : eraseCfg { l with shm := some { s with chans := chans } } = eraseCfg l := by
  unfold eraseCfg
  rw [hs]
  simp only [Option.map_some]
  congr 3
  funext i
  exact h i

theorem map_erase_set {ds : List Device} {j : Nat} {d : Device} {f : DevCfg} (h : ds[j]? = some d) :
    (ds.set j { d with cfg := f }).map (fun d => { d with cfg := ({} : DevCfg) }) = ds.map fun d => { d with cfg := ({} : DevCfg) } := by
  apply List.ext_getElem?
  intro n
  rw [List.getElem?_map, List.getElem?_map, List.getElem?_set]
  by_cases hn : j = n
  · subst hn
    have hlt := (List.getElem?_eq_some_iff.mp h).1
    rw [if_pos rfl, if_pos hlt, h]
    rfl
  · rw [if_neg hn]

/-! ## Batch setters -/

theorem batchChannels_spec (field : Nat) (v : Int) (hf : field < 7) : ∀ (n i : Nat) (chans : Nat → ChanMem),
    ∃ r, batchChannels field v n i chans = some r ∧ (∀ j, j < i ∨ i + n ≤ j → r j = chans j) ∧
      ∀ j, i ≤ j → j < i + n → ∃ f, r j = { chans j with chan := { (chans j).chan with cfg := f } } ∧
        ∀ k, f.get k = if k = field then some v else (chans j).chan.cfg.get k
  | 0, i, chans => ⟨chans, rfl, fun _ _ => rfl, fun j h1 h2 => absurd h2 (by omega)⟩
  | n + 1, i, chans => by
    obtain ⟨f, hf1, hf2⟩ := chanCfg_set (c := (chans i).chan.cfg) (v := v) hf
    obtain ⟨r, h1, h2, h3⟩ := batchChannels_spec field v hf n (i + 1)
      (Ring.upd chans i { chans i with chan := { (chans i).chan with cfg := f } })
    refine ⟨r, ?_, fun j hj => ?_, fun j hj1 hj2 => ?_⟩
    · unfold batchChannels
      rw [hf1]
      exact h1
    · rw [h2 j (by omega)]
      exact if_neg (by omega)
    · by_cases hji : j = i
      · refine ⟨f, ?_, by rw [hji]; exact hf2⟩
        rw [h2 j (by omega), hji]
        exact if_pos rfl
      · obtain ⟨f', e1, e2⟩ := h3 j (by omega) (by omega)
        have : Ring.upd chans i { chans i with chan := { (chans i).chan with cfg := f } } j = chans j := if_neg hji
        rw [this] at e1 e2
        exact ⟨f', e1, e2⟩

/-- What BatchSetDeviceConfig does to a device. -/
def BatchedTo (t : OutType) (field : Nat) (v : Int) (d d' : Device) : Prop :=
  ∃ f, d' = { d with cfg := f } ∧ ∀ k, f.get k = if k = field ∧ (d.outType = t ∨ t = .null) then some v else d.cfg.get k

theorem batchDevs_spec (t : OutType) (field : Nat) (v : Int) (hf : field < 15) : ∀ ds : List Device,
    ∃ r, batchDevs t field v ds = some r ∧ r.length = ds.length ∧
      ∀ (j : Nat) (d : Device), ds[j]? = some d → ∃ d', r[j]? = some d' ∧ BatchedTo t field v d d'
  | [] => ⟨[], rfl, rfl, fun j d h => absurd h (by simp)⟩
  | d :: ds => by
    obtain ⟨r, h1, h2, h3⟩ := batchDevs_spec t field v hf ds
    obtain ⟨f, hf1, hf2⟩ := devCfg_set (c := d.cfg) (v := v) hf
    by_cases ht : d.outType = t ∨ t = .null
    · refine ⟨{ d with cfg := f } :: r, ?_, by simp [h2], fun j x hx => ?_⟩
      · unfold batchDevs
        rw [show batchDev t field v d = some { d with cfg := f } by unfold batchDev; rw [if_pos ht, hf1]; rfl, h1]
        rfl
      · cases j with
        | zero =>
          cases hx
          exact ⟨_, rfl, f, rfl, fun k => by rw [hf2 k]; simp [ht]⟩
        | succ j => exact h3 j x hx
    · refine ⟨d :: r, ?_, by simp [h2], fun j x hx => ?_⟩
      · unfold batchDevs
        rw [show batchDev t field v d = some d by unfold batchDev; rw [if_neg ht], h1]
        rfl
      · cases j with
        | zero =>
          cases hx
          exact ⟨_, rfl, d.cfg, rfl, fun k => by simp [ht]⟩
        | succ j => exact h3 j x hx

theorem batchDevices_spec (t : OutType) (field : Nat) (v : Int) (hf : field < 15) : ∀ (n i : Nat) (chans : Nat → ChanMem),
    ∃ r, batchDevices t field v n i chans = some r ∧ (∀ j, j < i ∨ i + n ≤ j → r j = chans j) ∧
      ∀ j, i ≤ j → j < i + n → ∃ ds, r j = { chans j with chan := { (chans j).chan with devices := ds } } ∧
        ds.length = (chans j).chan.devices.length ∧
        ∀ (k : Nat) (d : Device), (chans j).chan.devices[k]? = some d → ∃ d', ds[k]? = some d' ∧ BatchedTo t field v d d'
  | 0, i, chans => ⟨chans, rfl, fun _ _ => rfl, fun j h1 h2 => absurd h2 (by omega)⟩
  | n + 1, i, chans => by
    obtain ⟨ds, hd1, hd2, hd3⟩ := batchDevs_spec t field v hf (chans i).chan.devices
    obtain ⟨r, h1, h2, h3⟩ := batchDevices_spec t field v hf n (i + 1)
      (Ring.upd chans i { chans i with chan := { (chans i).chan with devices := ds } })
    refine ⟨r, ?_, fun j hj => ?_, fun j hj1 hj2 => ?_⟩
    · unfold batchDevices
      rw [hd1]
      exact h1
    · rw [h2 j (by omega)]
      exact if_neg (by omega)
    · by_cases hji : j = i
      · refine ⟨ds, ?_, by rw [hji]; exact hd2, by rw [hji]; exact hd3⟩
        rw [h2 j (by omega), hji]
        exact if_pos rfl
      · obtain ⟨ds', e1, e2, e3⟩ := h3 j (by omega) (by omega)
        have : Ring.upd chans i { chans i with chan := { (chans i).chan with devices := ds } } j = chans j := if_neg hji
        rw [this] at e1 e2 e3
        exact ⟨ds', e1, e2, e3⟩

/-! ## Consistency -/

/-- Same state, and still numbered. -/
def Shape (c c' : ChanMem) : Prop :=
  c'.chan.state = c.chan.state ∧ ∀ i, Numbered i c.chan → Numbered i c'.chan

theorem Shape.refl (c : ChanMem) : Shape c c := ⟨rfl, fun _ h => h⟩

theorem Shape.trans {a b c : ChanMem} (h : Shape a b) (h' : Shape b c) : Shape a c :=
  ⟨h'.1.trans h.1, fun i hi => h'.2 i (h.2 i hi)⟩

theorem shape_cfg (c : ChanMem) (f : ChanCfg) : Shape c { c with chan := { c.chan with cfg := f } } :=
  ⟨rfl, fun _ h => ⟨h.id, h.count, h.devices⟩⟩

theorem shape_set (c : ChanMem) {j : Nat} {d : Device} {f : DevCfg} (h : c.chan.devices[j]? = some d) :
    Shape c { c with chan := { c.chan with devices := c.chan.devices.set j { d with cfg := f } } } := by
  refine ⟨rfl, fun i hn => ⟨hn.id, by simpa using hn.count, fun k x hx => ?_⟩⟩
  have hx : (c.chan.devices.set j { d with cfg := f })[k]? = some x := hx
  rw [List.getElem?_set] at hx
  by_cases hjk : j = k
  · subst hjk
    rw [if_pos rfl, if_pos (List.getElem?_eq_some_iff.mp h).1] at hx
    rw [← Option.some.inj hx]
    exact hn.devices j d h
  · rw [if_neg hjk] at hx
    exact hn.devices k x hx

theorem batchChannels_shape (field : Nat) (v : Int) : ∀ (n i : Nat) (chans r : Nat → ChanMem),
    batchChannels field v n i chans = some r → ∀ j, Shape (chans j) (r j)
  | 0, i, chans, r, h, j => by cases h; exact Shape.refl _
  | n + 1, i, chans, r, h, j => by
    unfold batchChannels at h
    cases hf : (chans i).chan.cfg.set v field with
    | none => rw [hf] at h; exact absurd h (by nofun)
    | some f =>
      rw [hf] at h
      refine Shape.trans ?_ (batchChannels_shape field v n (i + 1) _ r h j)
      by_cases hji : j = i
      · subst hji
        simp only [Ring.upd, if_true]
        exact shape_cfg _ _
      · simp only [Ring.upd, if_neg hji]
        exact Shape.refl _

theorem batchDevs_shape (t : OutType) (field : Nat) (v : Int) : ∀ ds r : List Device, batchDevs t field v ds = some r →
    r.length = ds.length ∧ ∀ (j : Nat) (x : Device), r[j]? = some x → ∃ d, ds[j]? = some d ∧ x.id = d.id
  | [], r, h => by cases h; exact ⟨rfl, fun j x hx => absurd hx (by simp)⟩
  | d :: ds, r, h => by
    unfold batchDevs at h
    obtain ⟨d', hd', h⟩ := Option.bind_eq_some_iff.mp h
    obtain ⟨ds', hds', hr⟩ := Option.map_eq_some_iff.mp h
    obtain ⟨h1, h2⟩ := batchDevs_shape t field v ds ds' hds'
    subst hr
    refine ⟨by simp [h1], fun j x hx => ?_⟩
    cases j with
    | succ j => exact h2 j x hx
    | zero =>
      cases hx
      refine ⟨d, rfl, ?_⟩
      unfold batchDev at hd'
      split at hd'
      · obtain ⟨f, _, hf⟩ := Option.map_eq_some_iff.mp hd'
        rw [← hf]
      · rw [Option.some.inj hd']

theorem batchDevices_shape (t : OutType) (field : Nat) (v : Int) : ∀ (n i : Nat) (chans r : Nat → ChanMem),
    batchDevices t field v n i chans = some r → ∀ j, Shape (chans j) (r j)
  | 0, i, chans, r, h, j => by cases h; exact Shape.refl _
  | n + 1, i, chans, r, h, j => by
    unfold batchDevices at h
    obtain ⟨ds, hds, h⟩ := Option.bind_eq_some_iff.mp h
    obtain ⟨h1, h2⟩ := batchDevs_shape t field v _ ds hds
    refine Shape.trans ?_ (batchDevices_shape t field v n (i + 1) _ r h j)
    by_cases hji : j = i
    · subst hji
      simp only [Ring.upd, if_true]
      refine ⟨rfl, fun i hn => ⟨hn.id, by simp only [h1]; exact hn.count, fun k x hx => ?_⟩⟩
      obtain ⟨d, hd, e⟩ := h2 k x hx
      rw [e]; exact hn.devices k d hd
    · simp only [Ring.upd, if_neg hji]
      exact Shape.refl _

theorem hotChannel_shape {g : Config} {i : Nat} {c : ChanMem} (hg : ∀ src, g.channels[i]? = some src → Numbered i src)
    (hn : Numbered i c.chan) : Shape c (hotChannel g i c).2 := by
  by_cases hs : Numbered i (srcChannel g i)
  · obtain ⟨new, _, h2, hu, hnn⟩ := hotChannel_ok hn hs
    rw [h2]
    refine ⟨hu.state, fun j hj => ?_⟩
    have : (j : Int) = i := hj.id.symm.trans hn.id
    have : j = i := by omega
    rw [this]; exact hnn
  · have : (hotChannel g i c).2 = c := by
      unfold hotChannel
      simp only
      by_cases hc : c.chan.id ≠ (srcChannel g i).id ∨ (srcChannel g i).id ≠ (i : Int)
      · rw [if_pos hc]
      · exfalso
        have hid : (srcChannel g i).id = (i : Int) := Classical.byContradiction fun h => hc (Or.inr h)
        apply hs
        cases hgi : g.channels[i]? with
        | some src => rw [show srcChannel g i = src by unfold srcChannel; rw [hgi]; rfl]; exact hg src hgi
        | none =>
          have hz : srcChannel g i = {} := by unfold srcChannel; rw [hgi]; rfl
          rw [hz] at hid ⊢
          exact ⟨hid, by simp, fun j d hd => absurd hd (by simp)⟩
    rw [this]
    exact Shape.refl c

theorem consistent_shape {l : Lg} {s : LgShm} {chans : Nat → ChanMem} (h : Consistent l) (hs : l.shm = some s)
    (hc : ∀ i : Nat, (i : Int) < s.seg.channelSize → Shape (s.chans i) (chans i)) (hot : Bool) :
    Consistent { l with hotUpdate := hot, shm := some { s with chans := chans } } := by
  refine ⟨h.state, fun hr => ?_, fun s' hs' => ?_, fun s' hs' i hi => ?_⟩
  · obtain ⟨s0, h0, h1⟩ := h.loaded hr
    rw [hs] at h0; cases h0
    exact ⟨_, rfl, h1⟩
  · cases hs'
    exact h.size s hs
  · cases hs'
    obtain ⟨h1, h2⟩ := h.channels s hs i hi
    obtain ⟨h3, h4⟩ := hc i hi
    exact ⟨h4 i h1, h3.trans h2⟩

theorem consistent_setChan {l : Lg} {s : LgShm} {i : Nat} {c : ChanMem} (h : Consistent l) (hs : l.shm = some s)
    (hc : (i : Int) < s.seg.channelSize → Shape (s.chans i) c) (hot : Bool) :
    Consistent ({ l with hotUpdate := hot }.setChan s i c) := by
  refine consistent_shape h hs (fun j hj => ?_) hot
  by_cases hji : j = i
  · subst hji
    rw [if_pos rfl]
    exact hc hj
  · rw [if_neg hji]
    exact Shape.refl _

theorem consistent_install {l : Lg} {s : LgShm} {g : Config} (hs : l.state = .uninit)
    (hg : g.channels.length ≤ 2 ∧ ∀ i c, g.channels[i]? = some c → GoodChannel i c) : Consistent (installConfig g l s).2 := by
  have hl : (installConfig g l s).2 = { l with
      shm := some { seg := { s.seg with channelSize := g.channels.length }, chans := initChans g s.chans } } := by
    unfold installConfig
    simp only
    split <;> rfl
  rw [hl]
  refine ⟨Or.inl hs, fun hr => ?_, fun s' hs' => ?_, fun s' hs' i hi => ?_⟩
  · have hr : l.state = .running := hr
    rw [hs] at hr
    exact absurd hr (by nofun)
  · cases hs'
    have := hg.1
    simp only
    omega
  · cases hs'
    have hi' : i < g.channels.length := by simp only at hi; omega
    have hgi := List.getElem?_eq_getElem hi'
    have hgood := hg.2 i _ hgi
    simp only [initChans, hgi, hs]
    exact ⟨numbered_of_good hgood, hgood.state⟩

theorem loadShm_rest {e : LgEnv} {l l' : Lg} {c : Code} (h : loadShm e l = .val (c, l')) : l'.state = l.state := by
  unfold loadShm at h
  split at h
  · cases h; rfl
  · split at h
    · cases h
    · cases h
    · simp only at h
      split at h
      · cases h; rfl
      · cases h; rfl

theorem consistent_init {e : LgEnv} {text path : List Char} {l l' : Lg} {c : Code} (h : Consistent l)
    (hi : initFromYmal e text path l = .val (c, l')) : Consistent l' := by
  unfold initFromYmal at hi
  by_cases hs : l.state ≠ .uninit
  · rw [if_pos hs] at hi; cases hi; exact h
  rw [if_neg hs] at hi
  have hs : l.state = .uninit := Classical.byContradiction hs
  cases hp : parseLogger e.dns e.garbage e.fuel text with
  | err x => rw [hp] at hi; cases hi; exact h
  | ub => rw [hp] at hi; cases hi
  | running w => rw [hp] at hi; cases hi
  | ok g =>
    rw [hp] at hi
    have hgood := C38_well_formed e.dns e.garbage text g ⟨e.fuel, hp⟩
    simp only at hi
    unfold initLocked at hi
    rw [if_neg (by rw [hs]; simp)] at hi
    cases hm : l.shm with
    | some s =>
      have : (takeGlobals g path l).shm = some s := hm
      simp only [this] at hi
      have this : _ = l' := congrArg Prod.snd (Out.val.inj hi)
      rw [← this]
      exact consistent_install hs ⟨hgood.1, hgood.2.1⟩
    | none =>
      have h0 : (takeGlobals g path l).shm = none := hm
      simp only [h0] at hi
      cases hl : loadShm e (takeGlobals g path l) with
      | ub => rw [hl] at hi; cases hi
      | running => rw [hl] at hi; cases hi
      | val r =>
        obtain ⟨c1, l1⟩ := r
        have hst : l1.state = .uninit := (loadShm_rest hl).trans hs
        rw [hl] at hi
        simp only at hi
        cases hm1 : l1.shm with
        | none =>
          rw [hm1] at hi
          cases hi
          exact ⟨Or.inl hst, fun hr => absurd (hst.symm.trans hr) (by nofun), fun s' hs' => absurd (hm1.symm.trans hs') (by nofun),
            fun s' hs' => absurd (hm1.symm.trans hs') (by nofun)⟩
        | some s1 =>
          rw [hm1] at hi
          have this : _ = l' := congrArg Prod.snd (Out.val.inj hi)
          rw [← this]
          exact consistent_install hst ⟨hgood.1, hgood.2.1⟩

theorem consistent_initFile {e : LgEnv} {file : Option (Int × List Char)} {path : List Char} {l l' : Lg} {c : Code}
    (h : Consistent l) (hi : initFromFile e file path l = .val (c, l')) : Consistent l' := by
  unfold initFromFile at hi
  cases file with
  | none => cases hi; exact h
  | some mt =>
    obtain ⟨m, t⟩ := mt
    simp only at hi
    cases hy : initFromYmal e t path l with
    | ub => rw [hy] at hi; cases hi
    | running => rw [hy] at hi; cases hi
    | val r =>
      obtain ⟨c1, l1⟩ := r
      have h1 := consistent_init h hy
      rw [hy] at hi
      simp only at hi
      by_cases hc : c1 ≠ .ok
      · rw [if_pos hc] at hi; cases hi; exact h1
      rw [if_neg hc] at hi
      cases hm : l1.shm with
      | none => rw [hm] at hi; cases hi
      | some s =>
        rw [hm] at hi
        cases hi
        refine consistent_shape h1 hm (fun i hlt => ?_) l1.hotUpdate
        rw [if_pos hlt]
        exact ⟨rfl, fun _ hn => hn⟩

theorem consistent_start {th : Nat → ThreadStart} {l l' : Lg} {c : Code} (h : Consistent l)
    (hi : startLogger th l = .ret c l') : Consistent l' := by
  unfold startLogger at hi
  by_cases hs : l.state ≠ .uninit
  · rw [if_pos hs] at hi; cases hi; exact h
  rw [if_neg hs] at hi
  have hs : l.state = .uninit := Classical.byContradiction hs
  cases hm : l.shm with
  | none => rw [hm] at hi; cases hi; exact h
  | some s =>
    rw [hm] at hi
    simp only at hi
    by_cases hsz : s.seg.channelSize > (MAX_CHANNEL_SIZE : Int) ∨ s.seg.channelSize ≤ 0
    · rw [if_pos hsz] at hi; cases hi; exact h
    rw [if_neg hsz] at hi
    have hn0 : 1 ≤ s.seg.channelSize := by omega
    obtain ⟨h1, h2, h3⟩ := startChannels_spec th s.seg.channelSize.toNat 0 s.chans
    revert h1 h2 h3 hi
    cases startChannels th s.seg.channelSize.toNat 0 s.chans with
    | mk x chans =>
      intro hi h1 h2 h3
      cases x with
      | throws => cases hi
      | stuck => cases hi
      | ok =>
        cases hi
        refine ⟨Or.inr rfl, fun _ => ⟨_, rfl, hn0⟩, fun s' hs' => by cases hs'; exact h.size s hm, fun s' hs' i hlt => ?_⟩
        cases hs'
        simp only at hlt ⊢
        have hst := h3 rfl i (Nat.zero_le _) (by omega)
        simp only at hst
        rw [hst]
        exact ⟨numbered_state (h.channels s hm i hlt).1 _, rfl⟩
      | failed =>
        cases hi
        refine ⟨Or.inl hs, fun hr => absurd (hs.symm.trans hr) (by nofun), fun s' hs' => by cases hs'; exact h.size s hm, fun s' hs' i hlt => ?_⟩
        cases hs'
        simp only at hlt ⊢
        rw [stopChannels_spec, if_pos (by omega)]
        obtain ⟨st, hst⟩ := h2 i
        simp only at hst
        rw [hst]
        simp only [hs]
        exact ⟨numbered_state (h.channels s hm i hlt).1 _, rfl⟩

theorem consistent_stop {fuel : Nat} {l l' : Lg} {c : Code} (h : Consistent l)
    (hi : stopLogger fuel l = .val (c, l')) : Consistent l' := by
  unfold stopLogger at hi
  cases hm : l.shm with
  | none => rw [hm] at hi; cases hi
  | some s =>
    rw [hm] at hi
    simp only at hi
    by_cases hsz : s.seg.channelSize > (MAX_CHANNEL_SIZE : Int) ∨ s.seg.channelSize ≤ 0
    · rw [if_pos hsz] at hi; cases hi; exact h
    rw [if_neg hsz] at hi
    by_cases hs : l.state ≠ .running
    · rw [if_pos hs] at hi; cases hi; exact h
    rw [if_neg hs] at hi
    cases hc : cleanRings BUFFER_LEN fuel s.seg.channelSize.toNat 0 s.seg.rings with
    | ub => rw [hc] at hi; cases hi
    | running => rw [hc] at hi; cases hi
    | val rings =>
      rw [hc] at hi
      cases hi
      refine ⟨Or.inl rfl, fun hr => absurd hr (by nofun), fun s' hs' => by cases hs'; exact h.size s hm, fun s' hs' i hlt => ?_⟩
      cases hs'
      simp only at hlt ⊢
      rw [stopChannels_spec, if_pos (by omega)]
      exact ⟨numbered_state (h.channels s hm i hlt).1 _, rfl⟩

theorem consistent_hot {e : LgEnv} {now : Int} {file : List Char → Option (Int × List Char)} {i : Nat} {l l' : Lg} {c : Code} {o : Bool}
    (h : Consistent l) (hi : hotUpdateLogger e now file i l = .val (c, o, l')) : Consistent l' := by
  cases hot_cases hi with
  | off => exact h
  | early => exact h
  | unused s _ hs => exact consistent_setChan (l := l) (i := i) (c := checked now (s.chans i)) h hs (fun _ => ⟨rfl, fun _ hn => hn⟩) l.hotUpdate
  | used s m t g hs hlt hh ht hf hm hr hp =>
    have hgood := C38_well_formed e.dns e.garbage t g ⟨e.fuel, hp⟩
    refine consistent_setChan h hs (fun _ => ?_) g.hotUpdate
    refine Shape.trans (b := { checked now (s.chans i) with yamlMtime := m }) ⟨rfl, fun _ hn => hn⟩ ?_
    exact hotChannel_shape (fun src hsrc => numbered_of_good (hgood.2.1 i src hsrc)) (h.channels s hs i hlt).1

theorem consistent_exec {o : Op} {l l' : Lg} (h : Consistent l) (he : o.exec l = some l') : Consistent l' := by
  have hout : ∀ {α β : Type} {f : α → β} {x : Out α} {b : β}, outVal f x = some b → ∃ a, x = .val a ∧ f a = b := by
    intro α β f x b hx
    cases x with
    | val a => exact ⟨a, rfl, Option.some.inj hx⟩
    | ub => exact absurd hx (by nofun)
    | running => exact absurd hx (by nofun)
  cases o with
  | init e text path =>
    obtain ⟨⟨c, l1⟩, h1, h2⟩ := hout he
    cases h2; exact consistent_init h h1
  | initFile e file path =>
    obtain ⟨⟨c, l1⟩, h1, h2⟩ := hout he
    cases h2; exact consistent_initFile h h1
  | start th =>
    unfold Op.exec at he
    simp only at he
    cases hs : startLogger th l with
    | ret c l1 => rw [hs] at he; cases he; exact consistent_start h hs
    | throws _ => rw [hs] at he; cases he
    | hangs => rw [hs] at he; cases he
    | ub => rw [hs] at he; cases he
  | stop fuel =>
    obtain ⟨⟨c, l1⟩, h1, h2⟩ := hout he
    cases h2; exact consistent_stop h h1
  | hot e now file i =>
    obtain ⟨⟨c, o, l1⟩, h1, h2⟩ := hout he
    cases h2; exact consistent_hot h h1
  | setChannel ch field v =>
    have he : setChannelConfig l ch field v = some l' := he
    unfold setChannelConfig at he
    cases hm : l.shm with
    | none => rw [hm] at he; cases he
    | some s =>
      rw [hm] at he
      simp only at he
      split at he
      · cases he; exact h
      · split at he
        · cases he; exact h
        · obtain ⟨f, _, hf⟩ := Option.map_eq_some_iff.mp he
          rw [← hf]
          exact consistent_setChan (l := l) h hm (fun _ => shape_cfg _ _) l.hotUpdate
  | setDevice ch dev field v =>
    have he : setDeviceConfig l ch dev field v = some l' := he
    unfold setDeviceConfig at he
    cases hm : l.shm with
    | none => rw [hm] at he; cases he
    | some s =>
      rw [hm] at he
      simp only at he
      split at he
      · cases he; exact h
      · split at he
        · cases he; exact h
        · split at he
          · cases he; exact h
          · split at he
            · cases he
            · rename_i d hd
              obtain ⟨f, _, hf⟩ := Option.map_eq_some_iff.mp he
              rw [← hf]
              exact consistent_setChan (l := l) h hm (fun _ => shape_set _ hd) l.hotUpdate
  | batchChannel field v =>
    have he : batchSetChannelConfig l field v = some l' := he
    unfold batchSetChannelConfig at he
    cases hm : l.shm with
    | none => rw [hm] at he; cases he
    | some s =>
      rw [hm] at he
      obtain ⟨r, hr, he⟩ := Option.map_eq_some_iff.mp he
      rw [← he]
      exact consistent_shape h hm (fun i _ => batchChannels_shape field v _ _ _ r hr i) l.hotUpdate
  | batchDevice t field v =>
    have he : batchSetDeviceConfig l t field v = some l' := he
    unfold batchSetDeviceConfig at he
    cases hm : l.shm with
    | none => rw [hm] at he; cases he
    | some s =>
      rw [hm] at he
      obtain ⟨r, hr, he⟩ := Option.map_eq_some_iff.mp he
      rw [← he]
      exact consistent_shape h hm (fun i _ => batchDevices_shape t field v _ _ _ r hr i) l.hotUpdate

theorem consistent_execAll : ∀ (os : List Op) (l l' : Lg), Consistent l → execAll os l = some l' → Consistent l'
  | [], l, l', h, he => by cases he; exact h
  | o :: os, l, l', h, he => by
    unfold execAll at he
    obtain ⟨l1, h1, h2⟩ := Option.bind_eq_some_iff.mp he
    exact consistent_execAll os l1 l' (consistent_exec h h1) h2

/-! ## Cleaning the queues -/

/-- The slots from `read` up to `write`, around the end of the array. -/
def Occupied (L : Nat) (m : RingMem) (k : Nat) : Prop :=
  k < L ∧ ((k : Int) - m.read) % (L : Int) < (m.write - m.read) % (L : Int)

theorem emod_pred {L x : Int} (h0 : 0 ≤ x) (h1 : x < L) : (x - 1) % L = if x = 0 then L - 1 else x - 1 := by
  split
  · rename_i e; subst e
    rw [← Int.add_emod_right, Int.emod_eq_of_lt (by omega) (by omega)]
    omega
  · exact Int.emod_eq_of_lt (by omega) (by omega)

/-- Freeing the first slot leaves the others. -/
theorem occupied_next {L : Nat} (hL : 0 < L) {m m' : RingMem} (hr0 : 0 ≤ m.read) (hr1 : m.read < L) (hw0 : 0 ≤ m.write) (hw1 : m.write < L)
    (hne : m.read ≠ m.write) (hr : m'.read = (m.read + 1) % (L : Int)) (hw : m'.write = m.write) (k : Nat) :
    Occupied L m k ↔ (k : Int) = m.read ∨ Occupied L m' k := by
  have hLi : (0 : Int) < L := by omega
  have e : ∀ x : Int, (x - (m.read + 1) % (L : Int)) % (L : Int) = ((x - m.read) % (L : Int) - 1) % (L : Int) := by
    intro x
    rw [Int.sub_emod x, Int.emod_emod, ← Int.sub_emod, show x - (m.read + 1) = x - m.read - 1 by omega, Int.sub_emod (x - m.read) 1,
      Int.sub_emod ((x - m.read) % (L : Int)) 1, Int.emod_emod]
  unfold Occupied
  rw [hr, hw, e, e]
  have a0 := Int.emod_nonneg ((k : Int) - m.read) (show (L : Int) ≠ 0 by omega)
  have a1 := Int.emod_lt_of_pos ((k : Int) - m.read) hLi
  have b0 := Int.emod_nonneg (m.write - m.read) (show (L : Int) ≠ 0 by omega)
  have b1 := Int.emod_lt_of_pos (m.write - m.read) hLi
  rw [emod_pred a0 a1, emod_pred b0 b1]
  have zero : ∀ x : Int, 0 ≤ x → x < L → (x - m.read) % (L : Int) = 0 → x = m.read := by
    intro x h0 h1 hz
    by_cases h : m.read ≤ x
    · rw [Int.emod_eq_of_lt (by omega) (by omega)] at hz; omega
    · rw [← Int.add_emod_right, Int.emod_eq_of_lt (by omega) (by omega)] at hz; omega
  have hwz : (m.write - m.read) % (L : Int) ≠ 0 := fun h => hne (zero _ hw0 hw1 h).symm
  rw [if_neg hwz]
  constructor
  · rintro ⟨hk, hlt⟩
    by_cases hz : ((k : Int) - m.read) % (L : Int) = 0
    · exact Or.inl (zero _ (by omega) (by omega) hz)
    · right; rw [if_neg hz]; exact ⟨hk, by omega⟩
  · rintro (hk | ⟨hk, hlt⟩)
    · rw [hk, Int.sub_self, Int.zero_emod]
      exact ⟨by omega, by omega⟩
    · refine ⟨hk, ?_⟩
      split at hlt <;> omega

/-- What CleanChannels makes of a queue: indices 0, the marks of the slots in use cleared, nothing else changed. -/
def Cleaned (L : Nat) (m m' : RingMem) : Prop :=
  m'.read = 0 ∧ m'.proc = 0 ∧ m'.write = 0 ∧ m'.hold = 0 ∧
  (∀ k, Occupied L m k → m'.buffer k = { m.buffer k with mark := 0 }) ∧
  ∀ k, ¬ Occupied L m k → m'.buffer k = m.buffer k

theorem cleaned_empty {L : Nat} {m : RingMem} (h : m.read = m.write) :
    Cleaned L m { m with read := 0, proc := 0, write := 0, hold := 0 } := by
  refine ⟨rfl, rfl, rfl, rfl, fun k hk => ?_, fun _ _ => rfl⟩
  have := hk.2
  rw [h, Int.sub_self, Int.zero_emod] at this
  have hL : (L : Int) ≠ 0 := by have := hk.1; omega
  have := Int.emod_nonneg ((k : Int) - m.write) hL
  omega

theorem cleanRing_spec (L : Nat) (hL : 0 < L) : ∀ (fuel : Nat) (m : RingMem), 0 ≤ m.read → m.read < L → 0 ≤ m.write → m.write < L →
    ((m.write - m.read) % (L : Int)).toNat ≤ fuel →
    ∃ m', cleanRing L fuel m = .val m' ∧ Cleaned L m m'
  | 0, m, hr0, hr1, hw0, hw1, hf => by
    have he : m.read = m.write := by
      have hn := Int.emod_nonneg (m.write - m.read) (show (L : Int) ≠ 0 by omega)
      have h0 : (m.write - m.read) % (L : Int) = 0 := by omega
      have hd := Int.mul_ediv_add_emod (m.write - m.read) (L : Int)
      rw [h0] at hd
      have : (m.write - m.read) / (L : Int) = 0 := by
        rcases Int.lt_trichotomy ((m.write - m.read) / (L : Int)) 0 with h | h | h
        · have : (L : Int) * ((m.write - m.read) / (L : Int)) ≤ (L : Int) * (-1) := Int.mul_le_mul_of_nonneg_left (by omega) (by omega)
          omega
        · exact h
        · have : (L : Int) * 1 ≤ (L : Int) * ((m.write - m.read) / (L : Int)) := Int.mul_le_mul_of_nonneg_left (by omega) (by omega)
          omega
      rw [this] at hd
      omega
    unfold cleanRing
    rw [if_pos he]
    exact ⟨_, rfl, cleaned_empty he⟩
  | fuel + 1, m, hr0, hr1, hw0, hw1, hf => by
    unfold cleanRing
    by_cases he : m.read = m.write
    · rw [if_pos he]
      exact ⟨_, rfl, cleaned_empty he⟩
    rw [if_neg he, if_neg (by omega)]
    have hLi : (L : Int) ≠ 0 := by omega
    obtain ⟨m1, em1⟩ : ∃ m1 : RingMem, m1 = { m with
      buffer := Ring.upd m.buffer m.read.toNat { m.buffer m.read.toNat with mark := 0 }
      read := (m.read + 1) % (L : Int) } := ⟨_, rfl⟩
    rw [← em1]
    have er : m1.read = (m.read + 1) % (L : Int) := by rw [em1]
    have ew : m1.write = m.write := by rw [em1]
    have eb : m1.buffer = Ring.upd m.buffer m.read.toNat { m.buffer m.read.toNat with mark := 0 } := by rw [em1]
    suffices hf' : ((m1.write - m1.read) % (L : Int)).toNat ≤ fuel by
      obtain ⟨m', h1, h2, h3, h4, h5, h6, h7⟩ := cleanRing_spec L hL fuel m1 (by rw [er]; exact Int.emod_nonneg _ hLi)
        (by rw [er]; exact Int.emod_lt_of_pos _ (by omega)) (by rw [ew]; exact hw0) (by rw [ew]; exact hw1) hf'
      have hocc := occupied_next hL hr0 hr1 hw0 hw1 he er ew
      refine ⟨m', h1, h2, h3, h4, h5, fun k hk => ?_, fun k hk => ?_⟩
      · by_cases hk' : Occupied L m1 k
        · rw [h6 k hk', eb]
          unfold Ring.upd
          split
          · rename_i e; rw [e]
          · rfl
        · rw [h7 k hk', eb]
          unfold Ring.upd
          rcases (hocc k).mp hk with e | e
          · rw [if_pos (by omega), show k = m.read.toNat by omega]
          · exact absurd e hk'
      · have hn : ¬ ((k : Int) = m.read ∨ Occupied L m1 k) := fun h => hk ((hocc k).mpr h)
        rw [h7 k (fun h => hn (Or.inr h)), eb]
        exact if_neg (fun e => hn (Or.inl (by omega)))
    rw [er, ew]
    show ((m.write - (m.read + 1) % (L : Int)) % (L : Int)).toNat ≤ fuel
    have e1 : (m.write - (m.read + 1) % (L : Int)) % (L : Int) = (m.write - (m.read + 1)) % (L : Int) := by
      rw [Int.sub_emod, Int.emod_emod, ← Int.sub_emod]
    rw [e1]
    by_cases hlt : m.read < m.write
    · rw [Int.emod_eq_of_lt (by omega) (by omega)] at hf
      rw [Int.emod_eq_of_lt (by omega) (by omega)]
      omega
    · have e2 : (m.write - m.read) % (L : Int) = m.write - m.read + L := by
        rw [← Int.add_emod_right, Int.emod_eq_of_lt (by omega) (by omega)]
      have e3 : (m.write - (m.read + 1)) % (L : Int) = m.write - (m.read + 1) + L := by
        rw [← Int.add_emod_right, Int.emod_eq_of_lt (by omega) (by omega)]
      rw [e2] at hf
      rw [e3]
      omega

/-- The indices of a queue are positions of the array. -/
def InRange (L : Nat) (m : RingMem) : Prop := 0 ≤ m.read ∧ m.read < L ∧ 0 ≤ m.write ∧ m.write < L

theorem cleanRings_spec (L fuel : Nat) (hL : 0 < L) (hf : L ≤ fuel) : ∀ (n i : Nat) (rings : Nat → RingMem),
    (∀ j, i ≤ j → j < i + n → InRange L (rings j)) →
    ∃ r, cleanRings L fuel n i rings = .val r ∧ (∀ j, j < i ∨ i + n ≤ j → r j = rings j) ∧
      ∀ j, i ≤ j → j < i + n → Cleaned L (rings j) (r j)
  | 0, i, rings, _ => ⟨rings, rfl, fun _ _ => rfl, fun j h1 h2 => absurd h2 (by omega)⟩
  | n + 1, i, rings, h => by
    obtain ⟨h1, h2, h3, h4⟩ := h i (Nat.le_refl _) (by omega)
    have hlt := Int.emod_lt_of_pos ((rings i).write - (rings i).read) (show (0 : Int) < L by omega)
    obtain ⟨m, hm, e⟩ := cleanRing_spec L hL fuel (rings i) h1 h2 h3 h4 (by omega)
    obtain ⟨r, hr, r1, r2⟩ := cleanRings_spec L fuel hL hf n (i + 1) (Ring.upd rings i m) (fun j hj1 hj2 => by
      rw [show Ring.upd rings i m j = rings j from if_neg (by omega)]
      exact h j (by omega) (by omega))
    refine ⟨r, ?_, fun j hj => ?_, fun j hj1 hj2 => ?_⟩
    · unfold cleanRings
      rw [hm]
      exact hr
    · rw [r1 j (by omega)]
      exact if_neg (by omega)
    · by_cases hji : j = i
      · rw [r1 j (by omega), hji, show Ring.upd rings i m i = m from if_pos rfl]
        exact e
      · have := r2 j (by omega) (by omega)
        rwa [show Ring.upd rings i m j = rings j from if_neg hji] at this

end FNLog
