import Verif.Spec.Logger
import Verif.Props.Config

/-! # Lemmas on loading, life cycle, hot update and setters -/

namespace FNLog
open Spec

theorem hotDevices_ok : ∀ (src : List Device) (i : Nat) (dst : List Device), i ≤ dst.length →
    (∀ (j : Nat) (d : Device), dst[j]? = some d → d.id = (j : Int)) → (∀ (j : Nat) (s : Device), src[j]? = some s → s.id = ((i + j : Nat) : Int)) →
    ∃ r, hotDevices i src dst = (true, r) ∧ r.length = max dst.length (i + src.length) ∧
      (∀ j, j < i → r[j]? = dst[j]?) ∧
      (∀ j d s, i ≤ j → dst[j]? = some d → src[j - i]? = some s → r[j]? = some { d with cfg := s.cfg }) ∧
      (∀ j d, i ≤ j → dst[j]? = some d → src[j - i]? = none → r[j]? = some d) ∧
      (∀ j, dst[j]? = none → r[j]? = src[j - i]?) := by
  intro src
  induction src with
  | nil =>
    intro i dst hi hd hs
    refine ⟨dst, rfl, by simp only [List.length_nil]; omega, fun _ _ => rfl, fun j d s _ _ h => absurd h (by simp), fun j d _ h _ => h,
      fun j h => by rw [h]; simp⟩
  | cons s0 src ih =>
    intro i dst hi hd hs
    have h0 : s0.id = (i : Int) := by simpa using hs 0 s0 rfl
    unfold hotDevices
    rw [if_neg (by rw [h0]; simp)]
    have hs' : ∀ j s, src[j]? = some s → s.id = ((i + 1 + j : Nat) : Int) := fun j s h => by
      have := hs (j + 1) s h
      rwa [show i + (j + 1) = i + 1 + j by omega] at this
    by_cases hlt : i < dst.length
    · have hdi : dst[i]? = some dst[i] := List.getElem?_eq_getElem hlt
      rw [hdi]
      simp only
      rw [if_neg (by rw [hd i _ hdi]; simp)]
      obtain ⟨r, hr, hl, h1, h2, h3, h4⟩ := ih (i + 1) (dst.set i { dst[i] with cfg := s0.cfg }) (by simp; omega) (by
        intro j d hj
        rw [List.getElem?_set] at hj
        by_cases hij : i = j
        · subst hij
          rw [if_pos rfl, if_pos hlt] at hj
          rw [← Option.some.inj hj]
          exact hd i dst[i] hdi
        · rw [if_neg hij] at hj; exact hd j d hj) hs'
      refine ⟨r, hr, by rw [hl]; simp; omega, fun j hj => ?_, fun j d s hij hj hsj => ?_, fun j d hij hj hsj => ?_, fun j hj => ?_⟩
      · rw [h1 j (by omega), List.getElem?_set, if_neg (by omega)]
      · by_cases e : j = i
        · subst e
          rw [Nat.sub_self] at hsj
          rw [h1 j (by omega), List.getElem?_set, if_pos rfl, if_pos hlt]
          rw [hdi] at hj
          rw [← Option.some.inj hj, ← Option.some.inj hsj]
        · refine h2 j d s (by omega) ?_ ?_
          · rw [List.getElem?_set, if_neg (by omega)]; exact hj
          · rw [show j - i = (j - (i + 1)) + 1 by omega] at hsj; exact hsj
      · by_cases e : j = i
        · subst e; rw [Nat.sub_self] at hsj; exact absurd hsj (by simp)
        · refine h3 j d (by omega) ?_ ?_
          · rw [List.getElem?_set, if_neg (by omega)]; exact hj
          · rw [show j - i = (j - (i + 1)) + 1 by omega] at hsj; exact hsj
      · have hjl : dst.length ≤ j := List.getElem?_eq_none_iff.mp hj
        rw [h4 j (by rw [List.getElem?_eq_none_iff]; simpa using hjl)]
        rw [show j - i = (j - (i + 1)) + 1 by omega]
        rfl
    · have hle : dst.length = i := by omega
      have hdi : dst[i]? = none := List.getElem?_eq_none_iff.mpr (by omega)
      rw [hdi]
      simp only
      rw [if_neg (by omega)]
      obtain ⟨r, hr, hl, h1, h2, h3, h4⟩ := ih (i + 1) (dst ++ [s0]) (by simp; omega) (by
        intro j d hj
        by_cases hij : j < dst.length
        · rw [List.getElem?_append_left hij] at hj; exact hd j d hj
        · have : j = i := by
            have := (List.getElem?_eq_some_iff.mp hj).1
            simp at this; omega
          subst this
          rw [← hle, List.getElem?_concat_length] at hj
          rw [← Option.some.inj hj]; exact h0) hs'
      refine ⟨r, hr, by rw [hl]; simp; omega, fun j hj => ?_, fun j d s hij hj hsj => ?_, fun j d hij hj hsj => ?_, fun j hj => ?_⟩
      · rw [h1 j (by omega), List.getElem?_append_left (by omega)]
      · exact absurd (List.getElem?_eq_some_iff.mp hj).1 (by omega)
      · exact absurd (List.getElem?_eq_some_iff.mp hj).1 (by omega)
      · by_cases e : j = i
        · subst e
          rw [Nat.sub_self, h1 j (by omega)]
          show (dst ++ [s0])[j]? = some s0
          rw [← hle, List.getElem?_concat_length]
        · have hjl : dst.length ≤ j := List.getElem?_eq_none_iff.mp hj
          rw [h4 j (by rw [List.getElem?_eq_none_iff]; simp; omega)]
          rw [show j - i = (j - (i + 1)) + 1 by omega]
          rfl

/-- One update of a channel. -/
theorem hotChannel_ok {g : Config} {i : Nat} {c : ChanMem} (hc : Numbered i c.chan)
    (hs : Numbered i (srcChannel g i)) :
    ∃ new, (hotChannel g i c).1 = .ok ∧
      (hotChannel g i c).2 = { c with
        chan := new, logs := fun k => if k = CHANNEL_LOG_HOTUPDATE_CHANGE then c.logs k + 1 else c.logs k } ∧
      Updated c.chan (srcChannel g i) new ∧ Numbered i new := by
  obtain ⟨src, hsrc⟩ : ∃ src, srcChannel g i = src := ⟨_, rfl⟩
  rw [hsrc] at hs ⊢
  obtain ⟨r, hr, hl, h1, h2, h3, h4⟩ := hotDevices_ok src.devices 0 c.chan.devices (Nat.zero_le _) hc.devices
    (fun j s h => by rw [Nat.zero_add]; exact hs.devices j s h)
  have hn : hotChannel g i c = (.ok, { c with
        chan := { c.chan with cfg := src.cfg, devices := r },
        logs := fun k => if k = CHANNEL_LOG_HOTUPDATE_CHANGE then c.logs k + 1 else c.logs k }) := by
    unfold hotChannel
    simp only [hsrc, hr]
    rw [if_neg (by rw [hc.id, hs.id]; simp), if_neg (by simp)]
  refine ⟨{ c.chan with cfg := src.cfg, devices := r }, by rw [hn], by rw [hn], ⟨rfl, rfl, rfl, rfl, rfl, by simpa using hl, ?_, ?_, ?_⟩, ⟨hc.id, ?_, ?_⟩⟩
  · intro j d s hd hsj
    exact ⟨_, h2 j d s (Nat.zero_le _) hd (by rw [Nat.sub_zero]; exact hsj), rfl, rfl, rfl, rfl, rfl, rfl⟩
  · intro j d hd hsj
    exact h3 j d (Nat.zero_le _) hd (by rw [Nat.sub_zero]; exact hsj)
  · intro j hd
    have := h4 j hd
    rwa [Nat.sub_zero] at this
  · show r.length ≤ 20
    rw [hl]
    have := hc.count
    have := hs.count
    omega
  · intro j d hd
    have hd : r[j]? = some d := hd
    cases ho : c.chan.devices[j]? with
    | none =>
      rw [h4 j ho, Nat.sub_zero] at hd
      exact hs.devices j d hd
    | some o =>
      cases hsj : src.devices[j]? with
      | none =>
        rw [h3 j o (Nat.zero_le _) ho (by rw [Nat.sub_zero]; exact hsj)] at hd
        rw [← Option.some.inj hd]; exact hc.devices j o ho
      | some s =>
        rw [h2 j o s (Nat.zero_le _) ho (by rw [Nat.sub_zero]; exact hsj)] at hd
        rw [← Option.some.inj hd]; exact hc.devices j o ho

/-- What a call of HotUpdateLogger can do. -/
inductive HotCase (e : LgEnv) (now : Int) (file : List Char → Option (Int × List Char)) (i : Nat) (l : Lg) :
    Code → Bool → Lg → Prop
  /-- the file is not looked at -/
  | off (c : Code) (hc : c = .invalidChannelSize ∨ c = .disableHotUpdate ∨ c = .noConfigPath) : HotCase e now file i l c false l
  | early (s : LgShm) (hs : l.shm = some s) (ht : now - (s.chans i).lastHotCheck < 5) : HotCase e now file i l .ok false l
  /-- the file is looked at, but not used -/
  | unused (s : LgShm) (c : Code) (hs : l.shm = some s) (hi : (i : Int) < s.seg.channelSize) (hh : l.hotUpdate = true)
      (ht : 5 ≤ now - (s.chans i).lastHotCheck)
      (hc : (c = .invalidConfigPath ∧ file l.yamlPath = none) ∨
        (∃ m t, file l.yamlPath = some (m, t) ∧
          ((c = .noChange ∧ m = (s.chans i).yamlMtime) ∨ (c = .notRunning ∧ l.state ≠ .running) ∨
            ∃ x, c = .parse x ∧ parseLogger e.dns e.garbage e.fuel t = .err x))) :
      HotCase e now file i l c true (l.setChan s i (checked now (s.chans i)))
  /-- the file is used -/
  | used (s : LgShm) (m : Int) (t : List Char) (g : Config) (hs : l.shm = some s) (hi : (i : Int) < s.seg.channelSize)
      (hh : l.hotUpdate = true) (ht : 5 ≤ now - (s.chans i).lastHotCheck) (hf : file l.yamlPath = some (m, t))
      (hm : m ≠ (s.chans i).yamlMtime) (hr : l.state = .running) (hp : parseLogger e.dns e.garbage e.fuel t = .ok g) :
      HotCase e now file i l (hotChannel g i { checked now (s.chans i) with yamlMtime := m }).1 true
        ({ l with hotUpdate := g.hotUpdate }.setChan s i (hotChannel g i { checked now (s.chans i) with yamlMtime := m }).2)

theorem hot_cases {e : LgEnv} {now : Int} {file : List Char → Option (Int × List Char)} {i : Nat} {l l' : Lg} {c : Code} {o : Bool}
    (h : hotUpdateLogger e now file i l = .val (c, o, l')) : HotCase e now file i l c o l' := by
  unfold hotUpdateLogger at h
  cases hs : l.shm with
  | none => rw [hs] at h; exact absurd h (by nofun)
  | some s =>
    rw [hs] at h
    simp only at h
    by_cases hi : s.seg.channelSize ≤ i
    · rw [if_pos hi] at h
      cases h; exact .off _ (Or.inl rfl)
    rw [if_neg hi] at h
    by_cases hh : l.hotUpdate = false
    · rw [if_pos hh] at h
      cases h; exact .off _ (Or.inr (Or.inl rfl))
    rw [if_neg hh] at h
    by_cases hy : l.yamlPath = []
    · rw [if_pos hy] at h
      cases h; exact .off _ (Or.inr (Or.inr rfl))
    rw [if_neg hy] at h
    by_cases ht : now - (s.chans i).lastHotCheck < HOTUPDATE_INTERVEL
    · rw [if_pos ht] at h
      cases h; exact .early s hs ht
    rw [if_neg ht] at h
    have hi' : (i : Int) < s.seg.channelSize := by omega
    have hh' : l.hotUpdate = true := by simpa using hh
    have ht' : 5 ≤ now - (s.chans i).lastHotCheck := by unfold HOTUPDATE_INTERVEL at ht; omega
    cases hf : file l.yamlPath with
    | none =>
      rw [hf] at h
      cases h; exact .unused s _ hs hi' hh' ht' (Or.inl ⟨rfl, hf⟩)
    | some mt =>
      obtain ⟨m, t⟩ := mt
      rw [hf] at h
      simp only at h
      by_cases hm : m = (s.chans i).yamlMtime
      · rw [if_pos hm] at h
        cases h; exact .unused s _ hs hi' hh' ht' (Or.inr ⟨m, t, hf, Or.inl ⟨rfl, hm⟩⟩)
      rw [if_neg hm] at h
      by_cases hr : l.state ≠ .running
      · rw [if_pos hr] at h
        cases h; exact .unused s _ hs hi' hh' ht' (Or.inr ⟨m, t, hf, Or.inr (Or.inl ⟨rfl, hr⟩)⟩)
      rw [if_neg hr] at h
      cases hp : parseLogger e.dns e.garbage e.fuel t with
      | err x =>
        rw [hp] at h
        cases h; exact .unused s _ hs hi' hh' ht' (Or.inr ⟨m, t, hf, Or.inr (Or.inr ⟨x, rfl, hp⟩)⟩)
      | ub => rw [hp] at h; exact absurd h (by nofun)
      | running w => rw [hp] at h; exact absurd h (by nofun)
      | ok g =>
        rw [hp] at h
        cases h
        exact .used s m t g hs hi' hh' ht' hf hm (by simpa using hr) hp

theorem numbered_of_good {i : Nat} {c : Channel} (h : GoodChannel i c) : Numbered i c :=
  ⟨h.id, h.count, fun j d e => (h.devices j d e).id⟩

theorem hotChannel_not_parse (g : Config) (i : Nat) (c : ChanMem) (x : PErr) : (hotChannel g i c).1 ≠ .parse x := by
  unfold hotChannel
  simp only
  split
  · nofun
  · split <;> nofun

theorem hotChannel_ok_id {g : Config} {i : Nat} {c : ChanMem} (h : (hotChannel g i c).1 = .ok) : (srcChannel g i).id = i := by
  unfold hotChannel at h
  simp only at h
  split at h
  · exact absurd h (by nofun)
  · rename_i hc
    exact Classical.byContradiction fun hn => hc (Or.inr hn)

theorem hotChannel_lastHotCheck (g : Config) (i : Nat) (c : ChanMem) : (hotChannel g i c).2.lastHotCheck = c.lastHotCheck := by
  unfold hotChannel
  simp only
  split
  · rfl
  · split <;> rfl

/-- The time of the last check of a channel. -/
def lastCheck (l : Lg) (i : Nat) : Int := match l.shm with
  | none => 0
  | some s => (s.chans i).lastHotCheck

theorem hot_lastCheck {e : LgEnv} {now : Int} {file : List Char → Option (Int × List Char)} {i : Nat} {l l' : Lg} {c : Code} {o : Bool}
    (h : hotUpdateLogger e now file i l = .val (c, o, l')) :
    (∀ j, j ≠ i → lastCheck l' j = lastCheck l j) ∧
      (o = false → lastCheck l' i = lastCheck l i) ∧ (o = true → lastCheck l i + 5 ≤ now ∧ lastCheck l' i = now) := by
  cases hot_cases h with
  | off => exact ⟨fun _ _ => rfl, fun _ => rfl, nofun⟩
  | early => exact ⟨fun _ _ => rfl, fun _ => rfl, nofun⟩
  | unused s _ hs _ _ ht _ =>
    unfold lastCheck
    rw [hs]
    exact ⟨fun j hj => by simp [Lg.setChan, hj], nofun, fun _ => ⟨by simp only; omega, by simp [Lg.setChan, checked]⟩⟩
  | used s m t g hs hi hh ht hf hm hr hp =>
    unfold lastCheck
    rw [hs]
    exact ⟨fun j hj => by simp [Lg.setChan, hj], nofun, fun _ => ⟨by simp only; omega, by
      simp [Lg.setChan, hotChannel_lastHotCheck, checked]⟩⟩

theorem hotRun_opens (e : LgEnv) : ∀ (calls : List HotCall) (l l' : Lg) (opens : List (Nat × Int)),
    hotRun e calls l = .val (opens, l') →
    (opens.Pairwise fun a b => a.1 = b.1 → a.2 + 5 ≤ b.2) ∧ ∀ a ∈ opens, lastCheck l a.1 + 5 ≤ a.2
  | [], l, l', opens, h => by
    cases h
    exact ⟨.nil, by simp⟩
  | k :: ks, l, l', opens, h => by
    unfold hotRun at h
    cases hk : hotUpdateLogger e k.now k.file k.chan l with
    | ub => rw [hk] at h; exact absurd h (by nofun)
    | running => rw [hk] at h; exact absurd h (by nofun)
    | val r =>
      obtain ⟨c, o, l1⟩ := r
      rw [hk] at h
      simp only at h
      cases hr : hotRun e ks l1 with
      | ub => rw [hr] at h; exact absurd h (by nofun)
      | running => rw [hr] at h; exact absurd h (by nofun)
      | val r =>
        obtain ⟨os, l2⟩ := r
        rw [hr] at h
        simp only at h
        obtain ⟨ih1, ih2⟩ := hotRun_opens e ks l1 l2 os hr
        obtain ⟨h1, h2, h3⟩ := hot_lastCheck hk
        have hopens : opens = if o then (k.chan, k.now) :: os else os := (congrArg Prod.fst (Out.val.inj h)).symm
        have hmem : ∀ a ∈ os, lastCheck l a.1 + 5 ≤ a.2 := by
          intro a ha
          have := ih2 a ha
          by_cases hac : a.1 = k.chan
          · cases o with
            | false => rw [hac, ← h2 rfl, ← hac]; exact this
            | true =>
              obtain ⟨h4, h5⟩ := h3 rfl
              rw [hac] at this ⊢
              omega
          · rw [← h1 _ hac]; exact this
        cases o with
        | false =>
          rw [hopens]
          exact ⟨ih1, hmem⟩
        | true =>
          obtain ⟨h4, h5⟩ := h3 rfl
          rw [hopens]
          refine ⟨.cons (fun b hb he => ?_) ih1, fun a ha => ?_⟩
          · have := ih2 b hb
            simp only at he
            rw [← he, h5] at this
            exact this
          · rcases List.mem_cons.mp ha with ha | ha
            · rw [ha]; exact h4
            · exact hmem a ha

end FNLog
