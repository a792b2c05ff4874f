import Verif.Model.Unload
import Verif.Props.Life
import Verif.Proof.KernelRfl

/-!
# C98: the end of a logger

The destructor stops the logger and gives back the memory it has taken, and no other.
-/

namespace FNLog
open Spec

/-- All texts loaded by the call have a shared memory key (`b`), or none has. -/
def Spec.KeyAs (b : Bool) : Op → Prop
  | .init e text _ => ∀ g, parseLogger e.dns e.garbage e.fuel text = .ok g → (0 < g.shmKey ↔ b = true)
  | .initFile e file _ => ∀ m text, file = some (m, text) →
      ∀ g, parseLogger e.dns e.garbage e.fuel text = .ok g → (0 < g.shmKey ↔ b = true)
  | _ => True

/-- Key, memory and the identifier stored in it agree. -/
structure Spec.Tied (b : Bool) (w : Owner) : Prop where
  none : w.lg.shm = none → w.origin = none
  key : ∀ s, w.lg.shm = some s → (0 < w.lg.shmKey ↔ b = true)
  heap : ∀ s, w.lg.shm = some s → b = false → w.origin = some .heap
  segment : ∀ s, w.lg.shm = some s → b = true → w.origin = some (.segment s.seg.id)

/-- A call that keeps key and segment. -/
def Keeps (l l' : Lg) : Prop :=
  l'.shmKey = l.shmKey ∧ l'.shm.map (·.seg.id) = l.shm.map (·.seg.id)

theorem Keeps.refl (l : Lg) : Keeps l l := ⟨rfl, rfl⟩

theorem keeps_of {l l' : Lg} {s s' : LgShm} (h1 : l.shm = some s) (h2 : l'.shm = some s') (hk : l'.shmKey = l.shmKey)
    (hi : s'.seg.id = s.seg.id) : Keeps l l' := ⟨hk, by rw [h1, h2]; simp [hi]⟩

theorem Spec.Tied.keep {b : Bool} {w : Owner} (h : Tied b w) {l' : Lg} (hk : Keeps w.lg l') (os : ShmOs) :
    Tied b ⟨l', originAfter os w l'⟩ := by
  obtain ⟨h1, h2⟩ := hk
  unfold originAfter
  cases hs : w.lg.shm with
  | none =>
    rw [hs] at h2
    have hn : l'.shm = .none := by cases hx : l'.shm with
      | none => rfl
      | some x => rw [hx] at h2; exact absurd h2 (by simp)
    rw [hn]
    exact ⟨fun _ => h.none hs, fun s e => absurd (hn.symm.trans e) (by nofun), fun s e => absurd (hn.symm.trans e) (by nofun),
      fun s e => absurd (hn.symm.trans e) (by nofun)⟩
  | some s =>
    rw [hs] at h2
    cases hx : l'.shm with
    | none => rw [hx] at h2; exact absurd h2 (by simp)
    | some x =>
      rw [hx] at h2
      have hid : x.seg.id = s.seg.id := Option.some.inj h2
      refine ⟨fun e => absurd (hx.symm.trans e) (by nofun), fun y e => ?_, fun y e hb => h.heap s hs hb, fun y e hb => ?_⟩
      · rw [show (⟨l', w.origin⟩ : Owner).lg.shmKey = l'.shmKey from rfl, h1]; exact h.key s hs
      · rw [show y = x from (Option.some.inj (hx.symm.trans e)).symm, hid]
        exact h.segment s hs hb

theorem recoverRings_id {L N maxCh fuel : Nat} : ∀ (n i : Nat) {s s' : Shm} {c : LoadCode},
    recoverRings L N maxCh fuel n i s = .val (c, s') → s'.id = s.id := by
  intro n
  induction n with
  | zero => intro i s s' c h; cases h; rfl
  | succ n ih =>
    intro i s s' c h
    unfold recoverRings at h
    split at h
    · cases h; rfl
    · split at h
      · cases h
      · cases h
      · simp only at h
        split at h
        · exact (ih _ h).trans rfl
        · cases h; rfl

theorem load_id {L N maxCh fuel : Nat} {size : Int} {os : ShmOs} {r : Loaded} {s : Shm}
    (h : loadSharedMemory L N maxCh size fuel os = .val r) (hs : r.attached = some s) (key : Int) (hk : 0 < key) :
    loadOrigin os key = some (.segment s.id) := by
  have go : ∀ {idx : Int} {x : Shm} {r : Loaded}, loadSharedMemory.go L N maxCh size fuel idx x = .val r →
      r.attached = some s → s.id = idx := by
    intro idx x r h hs
    unfold loadSharedMemory.go at h
    split at h
    · cases h; cases hs
    · rename_i hne
      have hid : x.id = idx := Classical.byContradiction fun hh => hne (Or.inr hh)
      split at h
      · cases h
      · cases h
      · rename_i c s1 hr
        cases h
        simp only at hs
        split at hs
        · obtain rfl := Option.some.inj hs
          exact (recoverRings_id _ _ hr).trans hid
        · cases hs
  unfold loadOrigin
  rw [if_neg (by omega)]
  cases os with
  | probeError => cases h; cases hs
  | createError => cases h; cases hs
  | attachError => cases h; cases hs
  | created idx g => rw [go (x := { resetShm g with size := size, id := idx }) h hs]
  | existing idx g => rw [go (x := g) h hs]

theorem loadShm_tied {e : LgEnv} {l l' : Lg} {c : Code} {s : LgShm} (h : loadShm e l = .val (c, l')) (hn : l.shm = none)
    (hs : l'.shm = some s) : l'.shmKey = l.shmKey ∧
      ((l.shmKey ≤ 0 → loadOrigin e.os l.shmKey = some .heap) ∧ (0 < l.shmKey → loadOrigin e.os l.shmKey = some (.segment s.seg.id))) := by
  unfold loadShm at h
  split at h
  · rename_i hk
    cases h
    exact ⟨rfl, fun _ => by unfold loadOrigin; rw [if_pos hk], fun hk' => by omega⟩
  · rename_i hk
    split at h
    · cases h
    · cases h
    · rename_i r hr
      simp only at h
      split at h
      · cases h; rw [hn] at hs; cases hs
      · rename_i s0 hs0
        cases h
        obtain rfl := Option.some.inj hs
        exact ⟨rfl, fun hk' => absurd hk' hk, fun hk' => load_id hr hs0 _ hk'⟩

theorem installConfig_keeps (g : Config) (l : Lg) (s : LgShm) : ∃ s', (installConfig g l s).2.shm = some s' ∧ s'.seg.id = s.seg.id ∧
    (installConfig g l s).2.shmKey = l.shmKey := by
  unfold installConfig
  simp only
  split <;> exact ⟨_, rfl, rfl, rfl⟩

theorem Spec.Tied.init {b : Bool} {w : Owner} (h : Tied b w) {e : LgEnv} {text path : List Char} {c : Code} {l' : Lg}
    (hk : ∀ g, parseLogger e.dns e.garbage e.fuel text = .ok g → (0 < g.shmKey ↔ b = true))
    (hi : initFromYmal e text path w.lg = .val (c, l')) : Tied b ⟨l', originAfter e.os w l'⟩ := by
  unfold initFromYmal at hi
  by_cases hs : w.lg.state ≠ .uninit
  · rw [if_pos hs] at hi; cases hi; exact h.keep (Keeps.refl _) _
  rw [if_neg hs] at hi
  cases hp : parseLogger e.dns e.garbage e.fuel text with
  | err x => rw [hp] at hi; cases hi; exact h.keep (Keeps.refl _) _
  | ub => rw [hp] at hi; cases hi
  | running w => rw [hp] at hi; cases hi
  | ok g =>
    have hkey := hk g hp
    rw [hp] at hi
    replace hi : initLocked e g path w.lg = .val (c, l') := hi
    unfold initLocked at hi
    rw [if_neg hs] at hi
    cases hm : w.lg.shm with
    | some s =>
      have : (takeGlobals g path w.lg).shm = some s := hm
      simp only [this] at hi
      obtain ⟨s', e1, e2, e3⟩ := installConfig_keeps g (takeGlobals g path w.lg) s
      have hl : _ = l' := congrArg Prod.snd (Out.val.inj hi)
      rw [hl] at e1 e3
      have e3 : l'.shmKey = g.shmKey := e3
      unfold originAfter
      rw [hm]
      refine ⟨fun x => absurd (e1.symm.trans x) (by nofun), fun x _ => ?_, fun x _ hb => h.heap s hm hb, fun x hx hb => ?_⟩
      · show 0 < l'.shmKey ↔ _
        rw [e3]; exact hkey
      · rw [show x = s' from (Option.some.inj (e1.symm.trans hx)).symm, e2]
        exact h.segment s hm hb
    | none =>
      have h0 : (takeGlobals g path w.lg).shm = Option.none := hm
      simp only [h0] at hi
      cases hl : loadShm e (takeGlobals g path w.lg) with
      | ub => rw [hl] at hi; cases hi
      | running => rw [hl] at hi; cases hi
      | val r =>
        obtain ⟨c1, l1⟩ := r
        rw [hl] at hi
        simp only at hi
        cases hm1 : l1.shm with
        | none =>
          rw [hm1] at hi
          cases hi
          unfold originAfter
          rw [hm, hm1]
          exact ⟨fun _ => h.none hm, fun s e => absurd (hm1.symm.trans e) (by nofun), fun s e => absurd (hm1.symm.trans e) (by nofun),
            fun s e => absurd (hm1.symm.trans e) (by nofun)⟩
        | some s1 =>
          rw [hm1] at hi
          obtain ⟨a1, a2, a3⟩ := loadShm_tied hl h0 hm1
          have a1 : l1.shmKey = g.shmKey := a1
          have a2 : g.shmKey ≤ 0 → loadOrigin e.os g.shmKey = _ := a2
          have a3 : 0 < g.shmKey → loadOrigin e.os g.shmKey = _ := a3
          obtain ⟨s', e1, e2, e3⟩ := installConfig_keeps g l1 s1
          have hl : _ = l' := congrArg Prod.snd (Out.val.inj hi)
          rw [hl] at e1 e3
          have e4 : l'.shmKey = g.shmKey := e3.trans a1
          unfold originAfter
          rw [hm, e1]
          refine ⟨fun x => absurd (e1.symm.trans x) (by nofun), fun x _ => ?_, fun x _ hb => ?_, fun x hx hb => ?_⟩
          · show 0 < l'.shmKey ↔ _
            rw [e4]; exact hkey
          · show loadOrigin e.os l'.shmKey = _
            rw [e4]
            refine a2 (Int.not_lt.mp fun h => ?_)
            rw [hkey.mp h] at hb; cases hb
          · show loadOrigin e.os l'.shmKey = _
            rw [show x = s' from (Option.some.inj (e1.symm.trans hx)).symm, e2, e4]
            exact a3 (hkey.mpr hb)

theorem Spec.Tied.congr {b : Bool} {l l' : Lg} {r : Option Origin} (h : Tied b ⟨l, r⟩) (hk : Keeps l l') : Tied b ⟨l', r⟩ := by
  have := h.keep (w := ⟨l, r⟩) hk .probeError
  obtain ⟨_, h2⟩ := hk
  have e : originAfter .probeError ⟨l, r⟩ l' = r := by
    unfold originAfter
    cases hs : l.shm with
    | some s => simp only
    | none =>
      rw [hs] at h2
      cases hx : l'.shm with
      | none => simp only
      | some x => rw [hx] at h2; exact absurd h2 (by simp)
  rw [e] at this
  exact this

theorem originAfter_congr {os : ShmOs} {w : Owner} {l l' : Lg} (hk : Keeps l l') : originAfter os w l' = originAfter os w l := by
  obtain ⟨h1, h2⟩ := hk
  unfold originAfter
  cases hx : l'.shm <;> cases hy : l.shm <;> rw [hx, hy] at h2 <;> first | (simp at h2; done) | skip
  · cases w.lg.shm <;> simp only
  · cases w.lg.shm <;> simp only [h1]

theorem hotUpdate_keeps {e : LgEnv} {now : Int} {file : List Char → Option (Int × List Char)} {i : Nat} {l l' : Lg} {c : Code} {o : Bool}
    (h : hotUpdateLogger e now file i l = .val (c, o, l')) : Keeps l l' := by
  unfold hotUpdateLogger at h
  cases hs : l.shm with
  | none => rw [hs] at h; cases h
  | some s =>
    rw [hs] at h
    simp only at h
    have key : ∀ (x : Lg) (k : ChanMem), x.shmKey = l.shmKey → Keeps l (x.setChan s i k) :=
      fun x k hx => ⟨hx, by rw [hs]; rfl⟩
    repeat' split at h
    all_goals first
      | (cases h; done)
      | (cases h; exact Keeps.refl _)
      | (cases h; exact key _ _ rfl)

theorem start_keeps {th : Nat → ThreadStart} {l l' : Lg} {c : Code} (h : startLogger th l = .ret c l') : Keeps l l' := by
  unfold startLogger at h
  cases hs : l.shm with
  | none =>
    rw [hs] at h
    split at h
    · cases h; exact Keeps.refl _
    · cases h; exact Keeps.refl _
  | some s =>
    rw [hs] at h
    simp only at h
    repeat' split at h
    all_goals first
      | (cases h; done)
      | (cases h; exact keeps_of hs rfl rfl rfl)
      | (cases h; exact Keeps.refl _)

theorem stop_keeps {fuel : Nat} {l l' : Lg} {c : Code} (h : stopLogger fuel l = .val (c, l')) : Keeps l l' := by
  unfold stopLogger at h
  cases hs : l.shm with
  | none => rw [hs] at h; cases h
  | some s =>
    rw [hs] at h
    simp only at h
    repeat' split at h
    all_goals first
      | (cases h; done)
      | (cases h; exact keeps_of hs rfl rfl rfl)
      | (cases h; exact Keeps.refl _)

theorem Spec.Tied.exec {b : Bool} {w w' : Owner} {o : Op} (h : Tied b w) (hk : KeyAs b o) (hw : w.exec o = some w') : Tied b w' := by
  obtain ⟨l', he, rfl⟩ := Option.map_eq_some_iff.mp hw
  have hout : ∀ {α β : Type} {f : α → β} {x : Out α} {b : β}, outVal f x = some b → ∃ a, x = .val a ∧ f a = b := by
    intro α β f x b hx
    cases x with
    | val a => exact ⟨a, rfl, Option.some.inj hx⟩
    | ub => exact absurd hx (by nofun)
    | running => exact absurd hx (by nofun)
  cases o with
  | init e text path =>
    obtain ⟨⟨c, l1⟩, h1, h2⟩ := hout he
    cases h2; exact h.init hk h1
  | initFile e file path =>
    obtain ⟨⟨c, l1⟩, h1, h2⟩ := hout he
    cases h2
    unfold initFromFile at h1
    cases file with
    | none => cases h1; exact h.keep (Keeps.refl _) _
    | some mt =>
      obtain ⟨m, t⟩ := mt
      simp only at h1
      cases hy : initFromYmal e t path w.lg with
      | ub => rw [hy] at h1; cases h1
      | running => rw [hy] at h1; cases h1
      | val r =>
        obtain ⟨c1, l2⟩ := r
        have ht := h.init (hk m t rfl) hy
        rw [hy] at h1
        simp only at h1
        by_cases hc : c1 ≠ .ok
        · rw [if_pos hc] at h1; cases h1; exact ht
        rw [if_neg hc] at h1
        cases hm : l2.shm with
        | none => rw [hm] at h1; cases h1
        | some s =>
          rw [hm] at h1
          cases h1
          have hkp : Keeps l2 { l2 with shm := some { s with
            chans := fun i => if (i : Int) < s.seg.channelSize then { s.chans i with yamlMtime := m } else s.chans i } } :=
            keeps_of hm rfl rfl rfl
          show Tied b ⟨_, originAfter e.os w _⟩
          rw [originAfter_congr hkp]
          exact ht.congr hkp
  | start th =>
    unfold Op.exec at he
    simp only at he
    cases hs : startLogger th w.lg with
    | ret c l1 => rw [hs] at he; cases he; exact h.keep (start_keeps hs) _
    | throws _ => rw [hs] at he; cases he
    | hangs => rw [hs] at he; cases he
    | ub => rw [hs] at he; cases he
  | stop fuel =>
    obtain ⟨⟨c, l1⟩, h1, h2⟩ := hout he
    cases h2; exact h.keep (stop_keeps h1) _
  | hot e now file i =>
    obtain ⟨⟨c, o, l1⟩, h1, h2⟩ := hout he
    cases h2; exact h.keep (hotUpdate_keeps h1) _
  | setChannel ch field v =>
    refine h.keep ?_ _
    have he : setChannelConfig w.lg ch field v = some l' := he
    unfold setChannelConfig at he
    cases hm : w.lg.shm with
    | none => rw [hm] at he; cases he
    | some s =>
      rw [hm] at he
      simp only at he
      split at he
      · cases he; exact Keeps.refl _
      · split at he
        · cases he; exact Keeps.refl _
        · obtain ⟨f, _, hf⟩ := Option.map_eq_some_iff.mp he
          rw [← hf]
          exact keeps_of hm rfl rfl rfl
  | setDevice ch dev field v =>
    refine h.keep ?_ _
    have he : setDeviceConfig w.lg ch dev field v = some l' := he
    unfold setDeviceConfig at he
    cases hm : w.lg.shm with
    | none => rw [hm] at he; cases he
    | some s =>
      rw [hm] at he
      simp only at he
      split at he
      · cases he; exact Keeps.refl _
      · split at he
        · cases he; exact Keeps.refl _
        · split at he
          · cases he; exact Keeps.refl _
          · split at he
            · cases he
            · obtain ⟨f, _, hf⟩ := Option.map_eq_some_iff.mp he
              rw [← hf]
              exact keeps_of hm rfl rfl rfl
  | batchChannel field v =>
    refine h.keep ?_ _
    have he : batchSetChannelConfig w.lg field v = some l' := he
    unfold batchSetChannelConfig at he
    cases hm : w.lg.shm with
    | none => rw [hm] at he; cases he
    | some s =>
      rw [hm] at he
      obtain ⟨r, hr, he⟩ := Option.map_eq_some_iff.mp he
      rw [← he]
      exact keeps_of hm rfl rfl rfl
  | batchDevice t field v =>
    refine h.keep ?_ _
    have he : batchSetDeviceConfig w.lg t field v = some l' := he
    unfold batchSetDeviceConfig at he
    cases hm : w.lg.shm with
    | none => rw [hm] at he; cases he
    | some s =>
      rw [hm] at he
      obtain ⟨r, hr, he⟩ := Option.map_eq_some_iff.mp he
      rw [← he]
      exact keeps_of hm rfl rfl rfl

theorem tied_execAll {b : Bool} : ∀ (os : List Op) {w w' : Owner}, Tied b w → (∀ o ∈ os, KeyAs b o) → w.execAll os = some w' →
    Tied b w' ∧ execAll os w.lg = some w'.lg
  | [], w, w', h, _, he => by cases he; exact ⟨h, rfl⟩
  | o :: os, w, w', h, hk, he => by
    unfold Owner.execAll at he
    obtain ⟨w1, h1, h2⟩ := Option.bind_eq_some_iff.mp he
    obtain ⟨g1, g2⟩ := tied_execAll os (h.exec (hk o (by simp)) h1) (fun o h => hk o (by simp [h])) h2
    refine ⟨g1, ?_⟩
    obtain ⟨l', hl, rfl⟩ := Option.map_eq_some_iff.mp h1
    unfold FNLog.Spec.execAll
    rw [hl]
    exact g2

/-- **C98**: any sequence of calls on a new logger, with texts that either all have a shared memory key or all have none.
When the queue indices are in range (C07), the destructor ends after at most one StopLogger, the logger is stopped, and it gives
back exactly the memory that was taken: nothing, the memory from `new`, or the segment it is attached to. -/
theorem C98_destroyed_partial (b : Bool) (os : List Op) (hk : ∀ o ∈ os, KeyAs b o) (w : Owner)
    (hw : ({} : Owner).execAll os = some w)
    (hr : ∀ s, w.lg.shm = some s → ∀ i : Nat, (i : Int) < s.seg.channelSize → InRange BUFFER_LEN (s.seg.rings i))
    (fuel n : Nat) (hf : BUFFER_LEN ≤ fuel) (hn : 1 ≤ n) :
    ∃ freed w', destroy fuel n w = .val (freed, w') ∧ w'.lg.state = .uninit ∧ w'.lg.shm = none ∧ w'.origin = none ∧
      freed = match w.origin with
        | none => .nothing
        | some .heap => .deleted
        | some (.segment idx) => .removed idx := by
  obtain ⟨ht, hl⟩ := tied_execAll os (w := {}) ⟨fun _ => rfl, fun s e => absurd e (by nofun), fun s e => absurd e (by nofun),
    fun s e => absurd e (by nofun)⟩ hk hw
  have hc : Consistent w.lg := C57_consistent os w.lg hl
  -- the loop
  have hloop : ∃ l, stopLoop fuel n w.lg = .val l ∧ l.state = .uninit ∧ Keeps w.lg l := by
    obtain ⟨m, rfl⟩ : ∃ m, n = m + 1 := ⟨n - 1, by omega⟩
    rcases hc.state with hst | hst
    · exact ⟨w.lg, by unfold stopLoop; rw [if_pos hst], hst, Keeps.refl _⟩
    · obtain ⟨s, hs, h1⟩ := hc.loaded hst
      obtain ⟨s', h2, _⟩ := C57_stop_ok fuel w.lg s hs hst h1 (hc.size s hs).2 hf (hr s hs)
      refine ⟨_, ?_, rfl, stop_keeps h2⟩
      unfold stopLoop
      rw [if_neg (by rw [hst]; nofun), h2]
      cases m with
      | zero => unfold stopLoop; exact if_pos rfl
      | succ m => unfold stopLoop; exact if_pos rfl
  obtain ⟨l, h1, h2, h3⟩ := hloop
  have ht' : Tied b ⟨l, w.origin⟩ := Spec.Tied.congr (l := w.lg) ht h3
  unfold destroy
  rw [h1]
  show ∃ freed w', unloadShm ⟨l, w.origin⟩ = _ ∧ _
  unfold unloadShm
  cases hs : l.shm with
  | none =>
    have := ht'.none hs
    simp only at this
    rw [this]
    exact ⟨_, _, rfl, h2, hs, rfl, rfl⟩
  | some s =>
    have hkey := ht'.key s hs
    simp only at hkey ⊢
    cases b with
    | true =>
      have := ht'.segment s hs rfl
      simp only at this
      rw [if_pos (hkey.mpr rfl), this]
      exact ⟨_, _, rfl, h2, rfl, rfl, rfl⟩
    | false =>
      have := ht'.heap s hs rfl
      simp only at this
      rw [if_neg (fun h => absurd (hkey.mp h) (by decide)), if_pos this, this]
      exact ⟨_, _, rfl, h2, rfl, rfl, rfl⟩

/-- A text with the given key. -/
def keyText (key : String) : List Char := ("shm_key: " ++ key ++ "\n- channel: 0\n sync: sync\n - device: 0\n  disable: false\n").toList

/-- No segment exists yet; a new one gets the identifier 7. -/
def keyEnv : LgEnv :=
  { fuel := 1000, shmSize := 16, os := .created 7 { id := 0, size := 0, channelSize := 0, rings := fun _ => freshRing } }

/-- The hypotheses of `C98_destroyed_partial` with and without shared memory: loaded, started, loaded again, stopped, … -/
example : (({} : Owner).execAll [.init keyEnv (keyText "5") [], .start (fun _ => .runs), .init keyEnv (keyText "6") []]).map
      (fun w => (w.lg.state, w.lg.shmKey, w.lg.shm.map (·.seg.channelSize), w.origin)) =
      some (.running, 5, some 1, some (.segment 7)) ∧
    (({} : Owner).execAll [.init keyEnv (keyText "0") [], .start (fun _ => .runs), .stop 1000, .init keyEnv (keyText "0") []]).map
      (fun w => (w.lg.state, w.lg.shmKey, w.lg.shm.map (·.seg.channelSize), w.origin)) =
      some (.uninit, 0, some 1, some .heap) := ⟨by kernel_rfl, by kernel_rfl⟩

/-- The destructor as a function of the calls made before. -/
def destroyAfter (os : List Op) : Option (Out (Freed × Owner)) := (({} : Owner).execAll os).map (destroy 1000 2)

/-- **C98** fails when a text without shared memory key is followed by one with a key: `shm_` stays where it was, but the
destructor removes the segment with identifier 0, which is not this logger's, and does not delete the memory. -/
theorem C98_foreign_segment_counterexample :
    (({} : Owner).execAll [.init keyEnv (keyText "0") [], .init keyEnv (keyText "5") []]).map (·.origin) = some (some .heap) ∧
    (destroyAfter [.init keyEnv (keyText "0") [], .init keyEnv (keyText "5") []]).bind (outVal Prod.fst) = some (.removed 0) :=
  ⟨by kernel_rfl, by kernel_rfl⟩

/-- **C98** fails when a text with a shared memory key is followed by one without: the destructor calls `delete` for the
attached segment. -/
theorem C98_delete_segment_counterexample :
    (({} : Owner).execAll [.init keyEnv (keyText "5") [], .init keyEnv (keyText "0") []]).map (·.origin) = some (some (.segment 7)) ∧
    destroyAfter [.init keyEnv (keyText "5") [], .init keyEnv (keyText "0") []] = some .ub :=
  ⟨by kernel_rfl, by kernel_rfl⟩

/-- **C98** fails after an exception from StartLogger (a thread could not be created): the destructor never ends. -/
theorem C98_exception_counterexample (l : Lg) (s : LgShm) (hs : l.state = .uninit) (hm : l.shm = some s)
    (h1 : s.seg.channelSize = 1) (ha : (s.chans 0).chan.type = .async) :
    ∃ l', startLogger (fun _ => .throws) l = .throws l' ∧ ∀ (r : Option Origin) (fuel n : Nat), destroy fuel n ⟨l', r⟩ = .running := by
  refine ⟨{ l with state := .initing, shm := some s }, ?_, fun r fuel n => ?_⟩
  · unfold startLogger
    rw [if_neg (by rw [hs]; simp), hm]
    simp only
    rw [if_neg (by unfold MAX_CHANNEL_SIZE; omega), h1]
    simp only [show (1 : Int).toNat = 0 + 1 from rfl, startChannels, ha]
  · have loop : ∀ n, stopLoop fuel n { l with state := .initing, shm := some s } = .running := by
      intro n
      induction n with
      | zero => unfold stopLoop; exact if_neg (by nofun)
      | succ n ih =>
        unfold stopLoop
        rw [if_neg (by nofun)]
        have : stopLogger fuel { l with state := .initing, shm := some s } =
            .val (.notRunning, { l with state := .initing, shm := some s }) := by
          unfold stopLogger
          simp only
          rw [if_neg (by unfold MAX_CHANNEL_SIZE; omega), if_pos (by nofun)]
        rw [this]
        exact ih
    unfold destroy
    rw [loop n]

end FNLog
