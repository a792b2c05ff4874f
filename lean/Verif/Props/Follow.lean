import Verif.Proof.Follow
import Verif.Model.Statement

/-! # Property C123: the channels follow the configuration file -/

namespace FNLog
open Spec

/-- **C123.** The file gets its last version, with time stamp `m` and text `t`, after the calls `before`; until then it was any
versions, or was missing.  From the first call of channel `i` five seconds after the calls `before` on, the channel has the filter of the
file, and every device of the file has its settings.  Needed: no version switches hot update off, and no other version of
the file has the same time stamp. -/
theorem C123_follows_partial (e : LgEnv) (path : List Char) (i : Nat) (l l' : Lg) (s : LgShm) (m : Int) (t : List Char) (g : Config)
    (before after later : List HotCall) (due : HotCall) (T : Int) (opens : List (Nat × Int)) (w : Watching i path l s)
    (run : hotRun e (before ++ (after ++ due :: later)) l = .val (opens, l')) (on : StaysOn e path (before ++ (after ++ due :: later)))
    (hp : parseLogger e.dns e.garbage e.fuel t = .ok g) (hg : i < g.channels.length)
    (last : ∀ k ∈ after ++ due :: later, k.file path = some (m, t))
    (loaded : (s.chans i).yamlMtime ≠ m) (stamp : ∀ k ∈ before, ∀ t', k.file path ≠ some (m, t'))
    (h0 : (s.chans i).lastHotCheck ≤ T) (h1 : ∀ k ∈ before, k.chan = i → k.now ≤ T) (hd : due.chan = i) (h5 : T + 5 ≤ due.now) :
    ∃ s', l'.shm = some s' ∧ Follows (srcChannel g i) (s'.chans i).chan := by
  obtain ⟨l1, o1, o2, r1, r2⟩ := hotRun_append before _ run
  obtain ⟨l2, o3, o4, r3, r4⟩ := hotRun_append after _ r2
  obtain ⟨l3, o5, o6, r5, r6⟩ := hotRun_append [due] later (by exact r4)
  have onOf : ∀ ks, (∀ k ∈ ks, k ∈ before ++ (after ++ due :: later)) → StaysOn e path ks :=
    fun ks hk k hm => on k (hk k hm)
  -- the old version
  obtain ⟨s1, w1, p1, _⟩ := hot_all (fun c => c.yamlMtime ≠ m ∧ c.lastHotCheck ≤ T) before w
    (onOf _ fun k hk => List.mem_append_left _ hk) r1 ⟨loaded, h0⟩ (by
      intro k hk c c' ⟨hm, ht⟩ sn
      cases sn with
      | other _ h => rw [h]; exact ⟨hm, ht⟩
      | early _ _ h => rw [h]; exact ⟨hm, ht⟩
      | unused hki _ h2 h3 _ => exact ⟨by rw [h2]; exact hm, by rw [h3]; exact h1 k hk hki⟩
      | used m' t' g' hki hf _ h2 h3 _ =>
        refine ⟨?_, by rw [h3]; exact h1 k hk hki⟩
        rw [h2]
        intro he
        subst he
        exact stamp k hk t' hf)
  -- the new version, perhaps not yet seen
  have upd : ∀ k ∈ after ++ due :: later, ∀ c c', (c.yamlMtime = m → Follows (srcChannel g i) c.chan) → Seen e path i k c c' →
      (c'.yamlMtime = m → Follows (srcChannel g i) c'.chan) := by
    intro k hk c c' hc sn hm
    cases sn with
    | other _ h => rw [h] at hm ⊢; exact hc hm
    | early _ _ h => rw [h] at hm ⊢; exact hc hm
    | unused _ h1 h2 _ _ => rw [h1]; exact hc (by rw [← h2]; exact hm)
    | used m' t' g' _ hf hp' _ _ hu =>
      have := last k hk
      rw [hf] at this
      cases this
      rw [hp] at hp'
      cases hp'
      rcases hu with hu | ⟨hl, _⟩
      · exact follows_updated hu
      · omega
  obtain ⟨s2, w2, p2, _⟩ := hot_all (fun c => (c.yamlMtime = m → Follows (srcChannel g i) c.chan) ∧
      (c.yamlMtime = m ∨ c.lastHotCheck ≤ T)) after w1
    (onOf _ fun k hk => List.mem_append_right _ (List.mem_append_left _ hk)) r3 ⟨fun h => absurd h p1.1, Or.inr p1.2⟩ (by
      intro k hk c c' ⟨hc, ho⟩ sn
      have hk' : k ∈ after ++ due :: later := List.mem_append_left _ hk
      refine ⟨upd k hk' c c' hc sn, ?_⟩
      cases sn with
      | other _ h => rw [h]; exact ho
      | early _ _ h => rw [h]; exact ho
      | unused _ _ h2 _ hf =>
        refine Or.inl ?_
        rw [h2]
        exact Classical.byContradiction fun hne => hf m t g (last k hk') (fun h => hne h.symm) hp
      | used m' t' g' _ hf _ h2 _ _ =>
        have := last k hk'
        rw [hf] at this
        cases this
        exact Or.inl h2)
  -- the call five seconds later
  obtain ⟨s3, w3, p3, _⟩ : ∃ s3, Watching i path l3 s3 ∧ ((s3.chans i).yamlMtime = m ∧ Follows (srcChannel g i) (s3.chans i).chan) ∧ True := by
    have hk' : due ∈ after ++ due :: later := List.mem_append_right _ List.mem_cons_self
    unfold hotRun at r5
    cases hk : hotUpdateLogger e due.now due.file due.chan l2 with
    | ub => rw [hk] at r5; cases r5
    | running => rw [hk] at r5; cases r5
    | val r =>
      obtain ⟨c, o, l4⟩ := r
      rw [hk] at r5
      unfold hotRun at r5
      cases r5
      obtain ⟨s3, w3, sn, _⟩ := hot_step w2 (onOf _ fun k hk => List.mem_append_right _ (by rw [List.mem_singleton.mp hk]; exact hk')) hk
      have hu := upd due hk' _ _ p2.1 sn
      have hm : (s3.chans i).yamlMtime = m := by
        cases sn with
        | other hne _ => exact absurd hd hne
        | early _ ht h =>
          rw [h]
          rcases p2.2 with h | h
          · exact h
          · omega
        | unused _ _ h2 _ hf =>
          rw [h2]
          exact Classical.byContradiction fun hne => hf m t g (last due hk') (fun h => hne h.symm) hp
        | used m' t' g' _ hf _ h2 _ _ =>
          have := last due hk'
          rw [hf] at this
          cases this
          exact h2
      exact ⟨s3, w3, ⟨hm, hu hm⟩, trivial⟩
  obtain ⟨s4, w4, p4, _⟩ := hot_all (fun c => c.yamlMtime = m ∧ Follows (srcChannel g i) c.chan) later w3
    (onOf _ fun k hk => List.mem_append_right _ (List.mem_append_right _ (List.mem_cons_of_mem _ hk))) r6 p3 (by
      intro k hk c c' ⟨hm, hc⟩ sn
      have hk' : k ∈ after ++ due :: later := List.mem_append_right _ (List.mem_cons_of_mem _ hk)
      have hu := upd k hk' c c' (fun _ => hc) sn
      have : c'.yamlMtime = m := by
        cases sn with
        | other _ h => rw [h]; exact hm
        | early _ _ h => rw [h]; exact hm
        | unused _ _ h2 _ _ => rw [h2]; exact hm
        | used m' t' g' _ hf _ h2 _ _ =>
          have := last k hk'
          rw [hf] at this
          cases this
          exact h2
      exact ⟨this, hu this⟩)
  exact ⟨s4, w4.shm, p4.2⟩

/-- **C123.** If the devices of the channel, when the logger was started and in all versions of the file, are the first ones of the last
version, apart from their settings, then filtering is as if the logger had been started with that version: the devices
are those of the file, and every statement and record is treated in the same way. -/
theorem C123_as_loaded_partial (e : LgEnv) (path : List Char) (i : Nat) (l l' : Lg) (s : LgShm) (m : Int) (t : List Char) (g : Config)
    (before after later : List HotCall) (due : HotCall) (T : Int) (opens : List (Nat × Int)) (w : Watching i path l s)
    (run : hotRun e (before ++ (after ++ due :: later)) l = .val (opens, l')) (on : StaysOn e path (before ++ (after ++ due :: later)))
    (hp : parseLogger e.dns e.garbage e.fuel t = .ok g) (hg : i < g.channels.length)
    (last : ∀ k ∈ after ++ due :: later, k.file path = some (m, t))
    (loaded : (s.chans i).yamlMtime ≠ m) (stamp : ∀ k ∈ before, ∀ t', k.file path ≠ some (m, t'))
    (h0 : (s.chans i).lastHotCheck ≤ T) (h1 : ∀ k ∈ before, k.chan = i → k.now ≤ T) (hd : due.chan = i) (h5 : T + 5 ≤ due.now)
    (first : Matches (srcChannel g i) (s.chans i).chan) (fits : MatchesAll e path i (srcChannel g i) before) :
    ∃ s', l'.shm = some s' ∧ (s'.chans i).chan.cfg = (srcChannel g i).cfg ∧ (s'.chans i).chan.devices = (srcChannel g i).devices ∧
      ∀ v : LoggerView, v.state = .running →
        (∃ cs, v.shm = some cs ∧ cs[i]? = some { srcChannel g i with state := (s.chans i).chan.state }) →
        ∀ p c k, blockInput l'.view i p c k = blockInput v i p c k := by
  obtain ⟨s', hs', hf⟩ := C123_follows_partial e path i l l' s m t g before after later due T opens w run on hp hg last loaded stamp
    h0 h1 hd h5
  have self : Matches (srcChannel g i) (srcChannel g i) :=
    ⟨Nat.le_refl _, fun j d b h1 h2 => by rw [h1] at h2; cases h2; rfl⟩
  have fits' : ∀ k ∈ before ++ (after ++ due :: later), ∀ m' t' g', k.file path = some (m', t') →
      parseLogger e.dns e.garbage e.fuel t' = .ok g' → Matches (srcChannel g i) (srcChannel g' i) := by
    intro k hk m' t' g' hf' hp'
    rcases List.mem_append.mp hk with hk | hk
    · exact fits k hk m' t' g' hf' hp'
    · rw [last k hk] at hf'
      cases hf'
      rw [hp] at hp'
      cases hp'
      exact self
  obtain ⟨s2, w2, p2, st⟩ := hot_all (fun c => Matches (srcChannel g i) c.chan) _ w on run first (by
    intro k hk c c' hc sn
    cases sn with
    | other _ h => rw [h]; exact hc
    | early _ _ h => rw [h]; exact hc
    | unused _ h _ _ _ => rw [h]; exact hc
    | used m' t' g' _ hf hp' _ _ hu =>
      rcases hu with hu | ⟨_, hu⟩
      · exact fits_updated hu hc (fits' k hk m' t' g' hf hp')
      · rw [hu]; exact hc)
  have hss : s2 = s' := Option.some.inj (w2.shm.symm.trans hs')
  subst hss
  refine ⟨s2, hs', hf.filter, fits_follows p2 hf, ?_⟩
  intro v hv ⟨cs, hcs, hci⟩ p c k
  have hlen : i < cs.length := (List.getElem?_eq_some_iff.mp hci).1
  have hlt := w2.channel
  have hv2 : l'.view.shm = some ((List.range s2.seg.channelSize.toNat).map fun i => (s2.chans i).chan) := by
    unfold Lg.view
    simp only [w2.shm, Option.map_some]
  have hi2 : ((List.range s2.seg.channelSize.toNat).map fun i => (s2.chans i).chan)[i]? = some (s2.chans i).chan := by
    rw [List.getElem?_map, List.getElem?_range (by omega)]; rfl
  have hl2 : i < ((List.range s2.seg.channelSize.toNat).map fun i => (s2.chans i).chan).length :=
    (List.getElem?_eq_some_iff.mp hi2).1
  have hst : l'.view.state = .running := w2.running
  generalize ((List.range s2.seg.channelSize.toNat).map fun i => (s2.chans i).chan) = cs2 at hv2 hi2 hl2
  have c1 : ¬((i : Int) ≥ (cs2.length : Int) ∨ (i : Int) < 0) := by omega
  have c2 : ¬((i : Int) ≥ (cs.length : Int) ∨ (i : Int) < 0) := by omega
  unfold blockInput
  rw [hv2, hcs, hst, hv]
  simp only
  rw [if_neg c1, if_neg c2, Int.toNat_natCast, hi2, hci]
  simp only
  rw [st, hf.filter, fits_follows p2 hf]

/-- What the switch means: when hot update is off, nothing is ever read again, and no channel changes. -/
theorem C123_off (e : LgEnv) : ∀ (calls : List HotCall) (l : Lg) (s : LgShm), l.shm = some s → l.hotUpdate = false →
    hotRun e calls l = .val ([], l)
  | [], l, s, _, _ => rfl
  | k :: ks, l, s, hs, hh => by
    have h1 : ∃ c, hotUpdateLogger e k.now k.file k.chan l = .val (c, false, l) := by
      unfold hotUpdateLogger
      rw [hs]
      simp only
      split
      · exact ⟨_, rfl⟩
      · exact ⟨_, rfl⟩
    obtain ⟨c, h1⟩ := h1
    unfold hotRun
    rw [h1]
    simp only
    rw [C123_off e ks l s hs hh]
    rfl

/-- What the time stamp means: a channel that has seen a version of the file does not look at any other version with the same time
stamp. -/
theorem C123_stamp (e : LgEnv) (path : List Char) (i : Nat) (l l' : Lg) (s : LgShm) (calls : List HotCall) (opens : List (Nat × Int))
    (w : Watching i path l s) (run : hotRun e calls l = .val (opens, l')) (on : StaysOn e path calls)
    (same : ∀ k ∈ calls, ∃ t, k.file path = some ((s.chans i).yamlMtime, t)) :
    ∃ s', l'.shm = some s' ∧ (s'.chans i).chan = (s.chans i).chan := by
  -- a call that uses the file has seen another stamp before
  suffices H : ∀ (calls : List HotCall) (l : Lg) (s0 : LgShm) (opens : List (Nat × Int)), Watching i path l s0 →
      hotRun e calls l = .val (opens, l') → StaysOn e path calls → (s0.chans i).yamlMtime = (s.chans i).yamlMtime →
      (s0.chans i).chan = (s.chans i).chan → (∀ k ∈ calls, ∃ t, k.file path = some ((s.chans i).yamlMtime, t)) →
      ∃ s', l'.shm = some s' ∧ (s'.chans i).chan = (s.chans i).chan from H calls l s opens w run on rfl rfl same
  intro calls
  induction calls with
  | nil =>
    intro l s0 opens w0 hr _ _ hc _
    cases hr
    exact ⟨s0, w0.shm, hc⟩
  | cons k ks ih =>
    intro l s0 opens w0 hr on0 hm hc hsame
    obtain ⟨l1, o1, o2, r1, r2⟩ := hotRun_append [k] ks (by exact hr)
    unfold hotRun at r1
    cases hk : hotUpdateLogger e k.now k.file k.chan l with
    | ub => rw [hk] at r1; cases r1
    | running => rw [hk] at r1; cases r1
    | val r =>
      obtain ⟨c, o, l2⟩ := r
      have hk0 := hk
      rw [hk] at r1
      unfold hotRun at r1
      cases r1
      obtain ⟨s1, w1, sn, _⟩ := hot_step w0 (fun k' hk' => on0 k' (by rw [List.mem_singleton.mp hk']; exact List.mem_cons_self)) hk
      have hs1 : (s1.chans i).yamlMtime = (s.chans i).yamlMtime ∧ (s1.chans i).chan = (s.chans i).chan := by
        cases sn with
        | other _ h => rw [h]; exact ⟨hm, hc⟩
        | early _ _ h => rw [h]; exact ⟨hm, hc⟩
        | unused _ h1 h2 _ _ => rw [h1, h2]; exact ⟨hm, hc⟩
        | used m t g hki hf hp h2 h3 hu =>
          obtain ⟨t', ht'⟩ := hsame k List.mem_cons_self
          rw [hki, hot_watching w0, ht'] at hk0
          simp only at hk0
          rw [if_pos hm.symm] at hk0
          split at hk0
          · cases hk0
            have := w1.shm.symm.trans w0.shm
            cases this
            exact ⟨hm, hc⟩
          · cases hk0
            have := w1.shm
            cases this
            have hx : (if i = i then checked k.now (s0.chans i) else s0.chans i) = checked k.now (s0.chans i) := if_pos rfl
            refine ⟨?_, ?_⟩
            · change (if i = i then checked k.now (s0.chans i) else s0.chans i).yamlMtime = _
              rw [hx]; exact hm
            · change (if i = i then checked k.now (s0.chans i) else s0.chans i).chan = _
              rw [hx]; exact hc
      exact ih l1 s1 o2 w1 r2 (fun k' hk' => on0 k' (List.mem_cons_of_mem _ hk')) hs1.1 hs1.2
        (fun k' hk' => hsame k' (List.mem_cons_of_mem _ hk'))

/-! ## Cases -/

/-- A running logger that has loaded `g` from the file `c` with time stamp 1. -/
def started (g : Config) : Lg :=
  { hotUpdate := g.hotUpdate, yamlPath := ['c'], state := .running,
    shm := some { seg := { freshShm.seg with channelSize := g.channels.length },
                  chans := fun i => match g.channels[i]? with
                    | some c => { chan := { c with state := .running }, yamlMtime := 1 }
                    | none => {} } }

/-- The text with which the logger is started: two channels. -/
def text1 : List Char :=
  ("hot_update: true\n- channel: 0\n  - device: 0\n    disable: false\n    out_type: screen\n" ++
   "- channel: 1\n  - device: 0\n    disable: false\n    out_type: screen\n").toList

/-- Its configuration. -/
def conf1 : Config :=
  { hotUpdate := true
    channels := [{ devices := [{ outType := .screen, cfg := { able := 1 } }] },
                 { id := 1, devices := [{ outType := .screen, cfg := { able := 1 } }] }] }

theorem follow_parse1 : parseLogger (fun _ => none) 0 200 text1 = .ok conf1 := by kernel_rfl

/-- The answers of the environment. -/
def followEnv : LgEnv := { fuel := 200 }

/-- What the logger has after it was loaded and started. -/
def startedView : StartOut → Option (Bool × List Char × List (Channel × Int))
  | .ret .ok l => l.shm.map fun s => (l.hotUpdate, l.yamlPath, (List.range s.seg.channelSize.toNat).map fun i =>
      ((s.chans i).chan, (s.chans i).yamlMtime))
  | _ => none

/-- The logger of the cases is the one that is loaded and started. -/
example : startedView (loadAndStart followEnv (fun _ => .runs) (some (1, text1)) ['c'] {}) = startedView (.ret .ok (started conf1)) := by
  kernel_rfl

theorem started_watching (g : Config) (i : Nat) (c : Channel) (hc : g.channels[i]? = some c) (hn : Numbered i c)
    (hon : g.hotUpdate = true) : ∃ s, Watching i ['c'] (started g) s ∧ (s.chans i) = { chan := { c with state := .running }, yamlMtime := 1 } := by
  have hlt := (List.getElem?_eq_some_iff.mp hc).1
  refine ⟨_, ⟨rfl, ?_, ?_, rfl, hon, rfl, by decide⟩, ?_⟩
  · change (i : Int) < (g.channels.length : Int)
    omega
  · simp only [hc]
    exact ⟨hn.id, hn.count, hn.devices⟩
  · simp only [hc]

/-- The new text: only warnings; hot update stays on. -/
def text2 : List Char :=
  ("hot_update: true\n- channel: 0\n  priority: warn\n  - device: 0\n    disable: false\n    out_type: screen\n" ++
   "- channel: 1\n  priority: warn\n  - device: 0\n    disable: false\n    out_type: screen\n").toList

/-- Its configuration. -/
def conf2 : Config :=
  { hotUpdate := true
    channels := [{ cfg := { priority := 3 }, devices := [{ outType := .screen, cfg := { able := 1 } }] },
                 { id := 1, cfg := { priority := 3 }, devices := [{ outType := .screen, cfg := { able := 1 } }] }] }

theorem follow_parse2 : parseLogger (fun _ => none) 0 200 text2 = .ok conf2 := by kernel_rfl

/-- The calls of the case: one sees the old file, one comes too early, one is due. -/
def followBefore : List HotCall := [⟨1, 100, fun _ => some (1, text1)⟩]
def followAfter : List HotCall := [⟨0, 101, fun _ => some (2, text2)⟩, ⟨1, 102, fun _ => some (2, text2)⟩]
def followDue : HotCall := ⟨1, 105, fun _ => some (2, text2)⟩

/-- The calls return; what they read, and the priorities. -/
theorem follow_run : ∃ opens l', hotRun followEnv (followBefore ++ (followAfter ++ followDue :: [])) (started conf1) = .val (opens, l') := by
  have h : (match hotRun followEnv (followBefore ++ (followAfter ++ followDue :: [])) (started conf1) with
    | .val _ => true | _ => false) = true := by kernel_rfl
  cases hr : hotRun followEnv (followBefore ++ (followAfter ++ followDue :: [])) (started conf1) with
  | ub => rw [hr] at h; cases h
  | running => rw [hr] at h; cases h
  | val r => exact ⟨r.1, r.2, rfl⟩

theorem parsed_only {dns : List Char → Option Int} {z : Int} {fuel : Nat} {t t0 : List Char} {g g0 : Config}
    (h0 : parseLogger dns z fuel t0 = .ok g0) (ht : t = t0) (hp : parseLogger dns z fuel t = .ok g) : g = g0 := by
  rw [ht, h0] at hp
  cases hp
  rfl

/-- The hypotheses of both theorems hold for channel 1, which has the new filter afterwards. -/
example : ∃ opens l' s', hotRun followEnv (followBefore ++ (followAfter ++ followDue :: [])) (started conf1) = .val (opens, l') ∧
    l'.shm = some s' ∧ (s'.chans 1).chan.cfg.priority = 3 ∧
    (s'.chans 1).chan.devices = [{ outType := .screen, cfg := { able := 1 } }] := by
  obtain ⟨opens, l', run⟩ := follow_run
  obtain ⟨s, w, hs⟩ := started_watching conf1 1 _ rfl ⟨rfl, by decide, fun j d h => by
    match j, h with
    | 0, h => cases h; rfl⟩ rfl
  have only : ∀ k ∈ followBefore ++ (followAfter ++ followDue :: []), ∀ m t, k.file ['c'] = some (m, t) → t = text1 ∨ t = text2 := by
    intro k hk m t h
    rcases List.mem_append.mp hk with hk | hk
    · rw [List.mem_singleton.mp hk] at h; cases h; exact Or.inl rfl
    · rcases List.mem_append.mp hk with hk | hk
      · rcases List.mem_cons.mp hk with hk | hk
        · rw [hk] at h; cases h; exact Or.inr rfl
        · rw [List.mem_singleton.mp hk] at h; cases h; exact Or.inr rfl
      · rw [List.mem_singleton.mp hk] at h; cases h; exact Or.inr rfl
  obtain ⟨s', hs', h1, h2, _⟩ := C123_as_loaded_partial followEnv ['c'] 1 (started conf1) l' s 2 text2 conf2 followBefore followAfter []
    followDue 100 opens w run (by
      intro k hk m t g hf hp
      rcases only k hk m t hf with h | h
      · rw [parsed_only follow_parse1 h hp]; rfl
      · rw [parsed_only follow_parse2 h hp]; rfl) follow_parse2 (by decide) (by
      intro k hk
      rcases List.mem_append.mp hk with hk | hk
      · rcases List.mem_cons.mp hk with hk | hk
        · subst hk; rfl
        · cases List.mem_singleton.mp hk; rfl
      · cases List.mem_singleton.mp hk; rfl) (by rw [hs]; decide) (by
      intro k hk t' h
      rw [List.mem_singleton.mp hk] at h
      have : ((1 : Int), text1) = (2, t') := Option.some.inj h
      exact absurd (congrArg Prod.fst this) (by show ¬(1 : Int) = 2; decide)) (by rw [hs]; decide) (by
      intro k hk _
      rw [List.mem_singleton.mp hk]; decide) rfl (by decide) (by
      rw [hs]
      exact ⟨by decide, fun j d b h1 h2 => by
        match j, h1, h2 with
        | 0, h1, h2 => cases h1; cases h2; rfl⟩) (by
      intro k hk m t g hf hp
      rw [List.mem_singleton.mp hk] at hf
      cases hf
      rw [parsed_only follow_parse1 rfl hp]
      exact ⟨by decide, fun j d b h1 h2 => by
        match j, h1, h2 with
        | 0, h1, h2 => cases h1; cases h2; rfl⟩)
  exact ⟨opens, l', s', run, hs', h1 ▸ rfl, h2⟩

/-! ## Where the channels do not follow -/

/-- The same settings, but hot update is switched off. -/
def textOff : List Char :=
  ("- channel: 0\n  priority: warn\n  - device: 0\n    disable: false\n    out_type: screen\n" ++
   "- channel: 1\n  priority: warn\n  - device: 0\n    disable: false\n    out_type: screen\n").toList

theorem follow_parseOff : parseLogger (fun _ => none) 0 200 textOff = .ok { conf2 with hotUpdate := false } := by kernel_rfl

/-- A check of a channel by a logger that has not checked yet and finds a new version. -/
theorem started_check (g g' : Config) (t : List Char) (i : Nat) (c : Channel) (hc : g.channels[i]? = some c) (hn : Numbered i c)
    (hon : g.hotUpdate = true) (hp : parseLogger (fun _ => none) 0 200 t = .ok g') :
    ∃ s, (started g).shm = some s ∧ hotUpdateLogger followEnv 100 (fun _ => some (2, t)) i (started g) =
      .val ((hotChannel g' i { checked 100 { chan := { c with state := .running }, yamlMtime := 1 } with yamlMtime := 2 }).1, true,
        { started g with hotUpdate := g'.hotUpdate }.setChan s i
          (hotChannel g' i { checked 100 { chan := { c with state := .running }, yamlMtime := 1 } with yamlMtime := 2 }).2) := by
  obtain ⟨s, w, hs⟩ := started_watching g i c hc hn hon
  refine ⟨s, w.shm, ?_⟩
  rw [hot_watching w, if_neg (by rw [hs]; show ¬((100 : Int) - 0 < 5); decide)]
  simp only
  rw [if_neg (by rw [hs]; show ¬(2 : Int) = 1; decide), show parseLogger followEnv.dns followEnv.garbage followEnv.fuel t = .ok g' from hp, hs]

/-- **C123, violated.** A version of the file that switches hot update off is taken by the channel that looks first; the other channels
keep the old filter for ever. -/
theorem C123_switch_counterexample : ∃ l1 s1 g, hotUpdateLogger followEnv 100 (fun _ => some (2, textOff)) 0 (started conf1) =
      .val (.ok, true, l1) ∧ l1.shm = some s1 ∧ (s1.chans 0).chan.cfg.priority = 3 ∧
    parseLogger (fun _ => none) 0 200 textOff = .ok g ∧ (srcChannel g 1).cfg.priority = 3 ∧
    (s1.chans 1).chan.cfg.priority = 0 ∧ ∀ calls, hotRun followEnv calls l1 = .val ([], l1) := by
  obtain ⟨s, hs, hu⟩ := started_check conf1 { conf2 with hotUpdate := false } textOff 0 _ rfl ⟨rfl, by decide, fun j d h => by
    match j, h with
    | 0, h => cases h; rfl⟩ rfl follow_parseOff
  cases hs
  refine ⟨_, _, _, hu, rfl, rfl, follow_parseOff, rfl, rfl, fun calls => ?_⟩
  exact C123_off _ calls _ _ rfl rfl

/-- **C123, violated.** The file is written twice within a second and a channel sees the first version: it never sees the
second one. -/
theorem C123_stamp_counterexample : ∃ l1 s1, hotUpdateLogger followEnv 100 (fun _ => some (2, text1)) 0 (started conf1) =
      .val (.ok, true, l1) ∧ l1.shm = some s1 ∧
    ∀ calls : List HotCall, (∀ k ∈ calls, k.file ['c'] = some (2, text2)) → ∀ opens l', hotRun followEnv calls l1 = .val (opens, l') →
      ∃ s', l'.shm = some s' ∧ (s'.chans 0).chan.cfg.priority = 0 ∧ (srcChannel conf2 0).cfg.priority = 3 := by
  have hn : Numbered 0 ({ devices := [{ outType := .screen, cfg := { able := 1 } }] } : Channel) := ⟨rfl, by decide, fun j d h => by
    match j, h with
    | 0, h => cases h; rfl⟩
  obtain ⟨s, hs, hu⟩ := started_check conf1 conf1 text1 0 _ rfl hn rfl follow_parse1
  cases hs
  refine ⟨_, _, hu, rfl, fun calls hk opens l' run => ?_⟩
  obtain ⟨s', hs', hc⟩ := C123_stamp followEnv ['c'] 0 _ l' _ calls opens ⟨rfl, by decide, ⟨rfl, by decide, fun j d h => by
      match j, h with
      | 0, h => cases h; rfl⟩, rfl, rfl, rfl, by decide⟩ run (by
    intro k hm m t g hf hp
    rw [hk k hm] at hf
    cases hf
    rw [parsed_only follow_parse2 rfl hp]; rfl) (fun k hm => ⟨text2, hk k hm⟩)
  exact ⟨s', hs', by rw [hc]; rfl, rfl⟩

/-- A text with two devices. -/
def textFive : List Char :=
  "hot_update: true\n- channel: 0\n  - device: 0\n    disable: false\n    out_type: screen\n    category: 5\n    category_extend: 1\n  - device: 1\n    disable: false\n    out_type: screen\n".toList

/-- Its configuration: device 0 takes category 5, device 1 everything. -/
def confFive : Config :=
  { hotUpdate := true
    channels := [{ devices := [{ outType := .screen, cfg := { able := 1, category := 5, categoryExtend := 1 } },
                               { id := 1, outType := .screen, cfg := { able := 1 } }] }] }

theorem follow_parseFive : parseLogger (fun _ => none) 0 200 textFive = .ok confFive := by kernel_rfl

/-- The file without device 1. -/
def textLess : List Char :=
  "hot_update: true\n- channel: 0\n  - device: 0\n    disable: false\n    out_type: screen\n    category: 5\n    category_extend: 1\n".toList

/-- Its configuration. -/
def confLess : Config :=
  { hotUpdate := true
    channels := [{ devices := [{ outType := .screen, cfg := { able := 1, category := 5, categoryExtend := 1 } }] }] }

theorem follow_parseLess : parseLogger (fun _ => none) 0 200 textLess = .ok confLess := by kernel_rfl

/-- **C123, violated.** A device that the new version does not have goes on: a record that no device of the file takes is still taken
by device 1. -/
theorem C123_removed_counterexample : ∃ l1 s1, hotUpdateLogger followEnv 100 (fun _ => some (2, textLess)) 0 (started confFive) =
      .val (.ok, true, l1) ∧ l1.shm = some s1 ∧ parseLogger (fun _ => none) 0 200 textLess = .ok confLess ∧
    dispatchLog (s1.chans 0).chan.devices 6 7 0 = some [1] ∧ dispatchLog (srcChannel confLess 0).devices 6 7 0 = some [] := by
  obtain ⟨s, hs, hu⟩ := started_check confFive confLess textLess 0 _ rfl ⟨rfl, by decide, fun j d h => by
    match j, h with
    | 0, h => cases h; rfl
    | 1, h => cases h; rfl⟩ rfl follow_parseLess
  cases hs
  exact ⟨_, _, hu, rfl, follow_parseLess, by decide +kernel, by decide +kernel⟩

/-- The file with a virtual device. -/
def textHook : List Char :=
  "hot_update: true\n- channel: 0\n  - device: 0\n    disable: false\n    out_type: screen\n    category: 5\n    category_extend: 1\n  - device: 1\n    disable: false\n    out_type: vir\n".toList

/-- Its configuration. -/
def confHook : Config :=
  { hotUpdate := true
    channels := [{ virtualDeviceId := 1,
                   devices := [{ outType := .screen, cfg := { able := 1, category := 5, categoryExtend := 1 } },
                               { id := 1, outType := .virtual, cfg := { able := 1 } }] }] }

theorem follow_parseHook : parseLogger (fun _ => none) 0 200 textHook = .ok confHook := by kernel_rfl

/-- A record of category 7. -/
def sevenHead : Head := ⟨0, 6, 7, 0, 1, none, none, 0, 0, 0, 0⟩

/-- **C123, violated.** A virtual device that is added is never asked: the hook is not called for a record for which it would be called
if the logger had been started with this file. -/
theorem C123_hook_counterexample : ∃ l1 s1, hotUpdateLogger followEnv 100 (fun _ => some (2, textHook)) 0 (started confLess) =
      .val (.ok, true, l1) ∧ l1.shm = some s1 ∧ parseLogger (fun _ => none) 0 200 textHook = .ok confHook ∧
    (s1.chans 0).chan.devices = (srcChannel confHook 0).devices ∧
    hookFires true (s1.chans 0).chan sevenHead = some false ∧ hookFires true (srcChannel confHook 0) sevenHead = some true := by
  obtain ⟨s, hs, hu⟩ := started_check confLess confHook textHook 0 _ rfl ⟨rfl, by decide, fun j d h => by
    match j, h with
    | 0, h => cases h; rfl⟩ rfl follow_parseHook
  cases hs
  exact ⟨_, _, hu, rfl, follow_parseHook, rfl, by decide +kernel, by decide +kernel⟩

end FNLog
