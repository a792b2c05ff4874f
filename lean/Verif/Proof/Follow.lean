import Verif.Spec.Follow
import Verif.Props.Load

/-! # Sequences of hot update checks -/

namespace FNLog
open Spec

/-- The check of a logger that is watching. -/
theorem hot_watching {e : LgEnv} {now : Int} {file : List Char → Option (Int × List Char)} {i : Nat} {path : List Char} {l : Lg}
    {s : LgShm} (w : Watching i path l s) : hotUpdateLogger e now file i l =
      if now - (s.chans i).lastHotCheck < HOTUPDATE_INTERVEL then .val (.ok, false, l)
      else
        let l1 := l.setChan s i (checked now (s.chans i))
        match file path with
        | none => .val (.invalidConfigPath, true, l1)
        | some (mtime, text) =>
          if mtime = (s.chans i).yamlMtime then .val (.noChange, true, l1)
          else match parseLogger e.dns e.garbage e.fuel text with
            | .err x => .val (.parse x, true, l1)
            | .ub => .ub
            | .running _ => .running
            | .ok g =>
              let r := hotChannel g i { checked now (s.chans i) with yamlMtime := mtime }
              .val (r.1, true, { l with hotUpdate := g.hotUpdate }.setChan s i r.2) := by
  have hc := w.channel
  unfold hotUpdateLogger
  rw [w.shm]
  simp only
  rw [if_neg (by omega), if_neg (by rw [w.on]; simp), if_neg (by rw [w.yamlPath]; exact w.named), w.yamlPath]
  split
  · rfl
  · cases file path with
    | none => rfl
    | some mt =>
      obtain ⟨m, t⟩ := mt
      simp only
      split
      · rfl
      · rw [if_neg (by rw [w.running]; simp)]
        cases parseLogger e.dns e.garbage e.fuel t <;> rfl

/-- What a check has done to a channel. -/
inductive Seen (e : LgEnv) (path : List Char) (i : Nat) (k : HotCall) (c c' : ChanMem) : Prop where
  | other (hk : k.chan ≠ i) (h : c' = c)
  | early (hk : k.chan = i) (ht : k.now < c.lastHotCheck + 5) (h : c' = c)
  | unused (hk : k.chan = i) (hc : c'.chan = c.chan) (hm : c'.yamlMtime = c.yamlMtime) (ht : c'.lastHotCheck = k.now)
      (hf : ∀ m t g, k.file path = some (m, t) → m ≠ c.yamlMtime → parseLogger e.dns e.garbage e.fuel t ≠ .ok g)
  | used (m : Int) (t : List Char) (g : Config) (hk : k.chan = i) (hf : k.file path = some (m, t))
      (hp : parseLogger e.dns e.garbage e.fuel t = .ok g) (hm : c'.yamlMtime = m) (ht : c'.lastHotCheck = k.now)
      (hc : Updated c.chan (srcChannel g i) c'.chan ∨ g.channels.length ≤ i ∧ c'.chan = c.chan)

theorem Updated.numbered {i : Nat} {old src new : Channel} (h : Updated old src new) (ho : Numbered i old) (hs : Numbered i src) :
    Numbered i new := by
  refine ⟨h.id.trans ho.id, ?_, fun j d hd => ?_⟩
  · have := h.size
    have := ho.count
    have := hs.count
    omega
  · cases hj : old.devices[j]? with
    | none => exact hs.devices j d ((h.added j hj).symm.trans hd)
    | some x =>
      cases hq : src.devices[j]? with
      | none =>
        have := h.kept j x hj hq
        rw [hd] at this; cases this
        exact ho.devices j _ hj
      | some y =>
        obtain ⟨n, hn, _, hid, _⟩ := h.known j x y hj hq
        rw [hd] at hn; cases hn
        exact hid.trans (ho.devices j x hj)

/-- One call. -/
theorem hot_step {e : LgEnv} {i : Nat} {path : List Char} {l l1 : Lg} {s : LgShm} {k : HotCall} {c : Code} {o : Bool}
    (w : Watching i path l s) (on : StaysOn e path [k]) (h : hotUpdateLogger e k.now k.file k.chan l = .val (c, o, l1)) :
    ∃ s1, Watching i path l1 s1 ∧ Seen e path i k (s.chans i) (s1.chans i) ∧ (s1.chans i).chan.state = (s.chans i).chan.state := by
  have keep : ∀ (x : ChanMem) (b : Bool), k.chan ≠ i → b = true → l1 = { l with hotUpdate := b }.setChan s k.chan x →
      ∃ s1, Watching i path l1 s1 ∧ Seen e path i k (s.chans i) (s1.chans i) ∧
        (s1.chans i).chan.state = (s.chans i).chan.state := by
    intro x b hk hb hl
    subst hl hb
    have hc : (if i = k.chan then x else s.chans i) = s.chans i := if_neg (Ne.symm hk)
    refine ⟨_, ⟨rfl, w.channel, ?_, w.running, rfl, w.yamlPath, w.named⟩, .other hk hc, ?_⟩
    · change Numbered i (if i = k.chan then x else s.chans i).chan
      rw [hc]; exact w.numbered
    · exact congrArg (·.chan.state) hc
  by_cases hk : k.chan = i
  · rw [hk, hot_watching w] at h
    by_cases ht : k.now - (s.chans i).lastHotCheck < HOTUPDATE_INTERVEL
    · rw [if_pos ht] at h
      cases h
      unfold HOTUPDATE_INTERVEL at ht
      exact ⟨s, w, .early hk (by omega) rfl, rfl⟩
    rw [if_neg ht] at h
    have mk : ∀ (x : ChanMem) (b : Bool), Numbered i x.chan → b = true → l1 = { l with hotUpdate := b }.setChan s i x →
        ∃ s1, Watching i path l1 s1 ∧ s1.chans i = x := by
      intro x b hx hb hl
      subst hl hb
      have hc : (if i = i then x else s.chans i) = x := if_pos rfl
      refine ⟨_, ⟨rfl, w.channel, ?_, w.running, rfl, w.yamlPath, w.named⟩, hc⟩
      change Numbered i (if i = i then x else s.chans i).chan
      rw [hc]; exact hx
    have un : l1 = l.setChan s i (checked k.now (s.chans i)) →
        (∀ m t g, k.file path = some (m, t) → m ≠ (s.chans i).yamlMtime → parseLogger e.dns e.garbage e.fuel t ≠ .ok g) →
        ∃ s1, Watching i path l1 s1 ∧ Seen e path i k (s.chans i) (s1.chans i) ∧
          (s1.chans i).chan.state = (s.chans i).chan.state := by
      intro hl hf
      obtain ⟨s1, w1, h1⟩ := mk (checked k.now (s.chans i)) l.hotUpdate w.numbered w.on hl
      exact ⟨s1, w1, .unused hk (by rw [h1]; rfl) (by rw [h1]; rfl) (by rw [h1]; rfl) hf, by rw [h1]; rfl⟩
    cases hf : k.file path with
    | none =>
      rw [hf] at h
      cases h
      exact un rfl (fun m t g h => by rw [hf] at h; cases h)
    | some mt =>
      obtain ⟨m, t⟩ := mt
      rw [hf] at h
      simp only at h
      by_cases hm : m = (s.chans i).yamlMtime
      · rw [if_pos hm] at h
        cases h
        exact un rfl (fun m' t' g h hm' => by rw [hf] at h; cases h; exact absurd hm hm')
      rw [if_neg hm] at h
      cases hp : parseLogger e.dns e.garbage e.fuel t with
      | err x =>
        rw [hp] at h
        cases h
        exact un rfl (fun m' t' g h _ => by rw [hf] at h; cases h; rw [hp]; nofun)
      | ub => rw [hp] at h; cases h
      | running q => rw [hp] at h; cases h
      | ok g =>
        rw [hp] at h
        have hg : g.hotUpdate = true := on k (List.mem_singleton.mpr rfl) m t g hf hp
        have hgood := C38_well_formed e.dns e.garbage t g ⟨e.fuel, hp⟩
        by_cases hsrc : (srcChannel g i).id = (i : Int)
        · have hns : Numbered i (srcChannel g i) := by
            cases hgi : g.channels[i]? with
            | some x =>
              rw [show srcChannel g i = x by unfold srcChannel; rw [hgi]; rfl]
              exact numbered_of_good (hgood.2.1 i _ hgi)
            | none =>
              have : srcChannel g i = {} := by unfold srcChannel; rw [hgi]; rfl
              rw [this] at hsrc ⊢
              exact ⟨hsrc, by decide, fun j d h => by simp at h⟩
          obtain ⟨new, h1, h2, hu, hnn⟩ := hotChannel_ok (c := { checked k.now (s.chans i) with yamlMtime := m }) w.numbered hns
          simp only at h
          cases h
          obtain ⟨s1, w1, e1⟩ := mk _ _ (by rw [h2]; exact hnn) hg rfl
          refine ⟨s1, w1, .used m t g hk hf hp (by rw [e1, h2]) (by rw [e1, h2]; rfl) (Or.inl ?_), ?_⟩
          · rw [e1, h2]; exact hu
          · rw [e1, h2]; exact hu.state
        · have hlen : g.channels.length ≤ i := by
            rcases Nat.lt_or_ge i g.channels.length with hlt | hge
            · exfalso
              have hgi := List.getElem?_eq_getElem hlt
              apply hsrc
              rw [show srcChannel g i = g.channels[i] by unfold srcChannel; rw [hgi]; rfl]
              exact (hgood.2.1 i _ hgi).id
            · exact hge
          have h2 : hotChannel g i { checked k.now (s.chans i) with yamlMtime := m } =
              (.versionMismatch, { checked k.now (s.chans i) with yamlMtime := m }) := by
            unfold hotChannel
            simp only
            rw [if_pos (Or.inr hsrc)]
          simp only [h2] at h
          cases h
          obtain ⟨s1, w1, e1⟩ := mk { checked k.now (s.chans i) with yamlMtime := m } _ w.numbered hg rfl
          exact ⟨s1, w1, .used m t g hk hf hp (by rw [e1]) (by rw [e1]; rfl) (Or.inr ⟨hlen, by rw [e1]; rfl⟩), by rw [e1]; rfl⟩
  · cases hot_cases h with
    | off _ hc => exact ⟨s, w, .other hk rfl, rfl⟩
    | early s' hs ht => exact ⟨s, w, .other hk rfl, rfl⟩
    | unused s' _ hs hi hh ht hc =>
      rw [w.shm] at hs; cases hs
      exact keep _ l.hotUpdate hk w.on rfl
    | used s' m t g hs hi hh ht hf hm hr hp =>
      rw [w.shm] at hs; cases hs
      refine keep _ _ hk (on k (List.mem_singleton.mpr rfl) m t g ?_ hp) rfl
      rw [← w.yamlPath]; exact hf

/-- A property of a channel that every call keeps holds after all calls. -/
theorem hot_all {e : LgEnv} {i : Nat} {path : List Char} (P : ChanMem → Prop) : ∀ (calls : List HotCall) {l l' : Lg} {s : LgShm}
    {opens : List (Nat × Int)}, Watching i path l s → StaysOn e path calls → hotRun e calls l = .val (opens, l') →
    P (s.chans i) → (∀ k ∈ calls, ∀ c c', P c → Seen e path i k c c' → P c') →
    ∃ s', Watching i path l' s' ∧ P (s'.chans i) ∧ (s'.chans i).chan.state = (s.chans i).chan.state
  | [], l, l', s, opens, w, _, h, hP, _ => by cases h; exact ⟨s, w, hP, rfl⟩
  | k :: ks, l, l', s, opens, w, on, h, hP, step => by
    unfold hotRun at h
    cases hk : hotUpdateLogger e k.now k.file k.chan l with
    | ub => rw [hk] at h; cases h
    | running => rw [hk] at h; cases h
    | val r =>
      obtain ⟨c, o, l1⟩ := r
      rw [hk] at h
      simp only at h
      obtain ⟨s1, w1, sn, st⟩ := hot_step w (fun k' hk' => on k' (by rw [List.mem_singleton.mp hk']; exact List.mem_cons_self)) hk
      cases hr : hotRun e ks l1 with
      | ub => rw [hr] at h; cases h
      | running => rw [hr] at h; cases h
      | val r2 =>
        obtain ⟨os, l2⟩ := r2
        rw [hr] at h
        cases h
        obtain ⟨s', w', p', st'⟩ := hot_all P ks w1 (fun k' hk' => on k' (List.mem_cons_of_mem _ hk')) hr
          (step k List.mem_cons_self _ _ hP sn) (fun k' hk' => step k' (List.mem_cons_of_mem _ hk'))
        exact ⟨s', w', p', st'.trans st⟩

theorem hotRun_append {e : LgEnv} : ∀ (a b : List HotCall) {l l' : Lg} {opens : List (Nat × Int)},
    hotRun e (a ++ b) l = .val (opens, l') → ∃ l1 o1 o2, hotRun e a l = .val (o1, l1) ∧ hotRun e b l1 = .val (o2, l')
  | [], b, l, l', opens, h => ⟨l, [], opens, rfl, h⟩
  | k :: ks, b, l, l', opens, h => by
    rw [List.cons_append] at h
    unfold hotRun at h
    cases hk : hotUpdateLogger e k.now k.file k.chan l with
    | ub => rw [hk] at h; cases h
    | running => rw [hk] at h; cases h
    | val r =>
      obtain ⟨c, o, l1⟩ := r
      rw [hk] at h
      simp only at h
      cases hr : hotRun e (ks ++ b) l1 with
      | ub => rw [hr] at h; cases h
      | running => rw [hr] at h; cases h
      | val r2 =>
        obtain ⟨os, l2⟩ := r2
        rw [hr] at h
        cases h
        obtain ⟨l3, o1, o2, h1, h2⟩ := hotRun_append ks b hr
        refine ⟨l3, if o then (k.chan, k.now) :: o1 else o1, o2, ?_, h2⟩
        · unfold hotRun
          rw [hk]
          simp only [h1]

theorem follows_updated {old src new : Channel} (h : Updated old src new) : Follows src new := by
  refine ⟨h.cfg, fun j d hd => ?_⟩
  cases ho : old.devices[j]? with
  | none => exact ⟨d, (h.added j ho).trans hd, rfl⟩
  | some x =>
    obtain ⟨n, hn, hc, _⟩ := h.known j x d ho hd
    exact ⟨n, hn, hc⟩

theorem fits_updated {big old src new : Channel} (h : Updated old src new) (ho : Matches big old) (hs : Matches big src) : Matches big new := by
  refine ⟨?_, fun j n b hn hb => ?_⟩
  · have := h.size; have := ho.size; have := hs.size; omega
  · cases hj : old.devices[j]? with
    | none => exact hs.same j n b ((h.added j hj).symm.trans hn) hb
    | some x =>
      cases hq : src.devices[j]? with
      | none =>
        have := h.kept j x hj hq
        rw [hn] at this; cases this
        exact ho.same j _ b hj hb
      | some y =>
        obtain ⟨n', hn', h1, h2, h3, h4, h5, h6⟩ := h.known j x y hj hq
        rw [hn] at hn'; cases hn'
        have := ho.same j x b hj hb
        rw [← this]
        cases n; cases x
        simp only at h2 h3 h4 h5 h6 ⊢
        subst h2 h3 h4 h5 h6
        rfl

theorem fits_follows {src c : Channel} (f : Matches src c) (h : Follows src c) : c.devices = src.devices := by
  apply List.ext_getElem?
  intro j
  cases hs : src.devices[j]? with
  | none =>
    have := List.getElem?_eq_none_iff.mp hs
    have := f.size
    exact List.getElem?_eq_none_iff.mpr (by omega)
  | some d =>
    obtain ⟨n, hn, hc⟩ := h.devices j d hs
    have := f.same j n d hn hs
    rw [hn, ← this, ← hc]

end FNLog
