import Verif.Proof.InodeRun

/-! # Devices with files of their own: the file system of inodes looks like the one of names -/

namespace FNLog
open Spec

/-- The name of the open file. -/
def Named (k : Disk) : Option Nat → Option (List Char) → Prop
  | none, none => True
  | some i, some p => k.node p = some i
  | _, _ => False

theorem named_none {k : Disk} {o : Option (List Char)} (h : Named k none o) : o = none := by
  cases o with
  | none => rfl
  | some p => exact absurd h (by simp [Named])

theorem named_some {k : Disk} {i : Nat} {o : Option (List Char)} (h : Named k (some i) o) : ∃ p, o = some p ∧ k.node p = some i := by
  cases o with
  | none => exact absurd h (by simp [Named])
  | some p => exact ⟨p, rfl, h⟩

/-- The name of the file after line 245 of fn_out_file_device.h. -/
def nameClose (d : Device) (log : FileLog) (h : Holder) (o : Option (List Char)) : Option (List Char) :=
  if limitOut d h.logs log.content.length || periodOut d h.logs log.ts then none else o

theorem named_close {k : Disk} {h : Holder} {o : Option (List Char)} (hn : Named k h.handle o) (d : Device) (log : FileLog) :
    Named k (iClose d log h).handle (nameClose d log h o) := by
  unfold iClose nameClose
  split
  · trivial
  · exact hn

theorem openFileDevice_eq (E : FileEnv) (ch : Int) (d : Device) (log : FileLog) (fs : Fs) (h : Holder)
    (o : Option (List Char)) :
    openFileDevice E ch d log ⟨fs, o, h.logs⟩ =
      if nameClose d log h o ≠ none then some ⟨fs, nameClose d log h o, (iClose d log h).logs⟩
      else (fullPath E.proc (E.tm log.ts) E.fuel d ch).bind fun path =>
        if path.length ≥ 250 then some (openFailed 1 log.ts ⟨fs, nameClose d log h o, (iClose d log h).logs⟩)
        else some (openFile E log path ⟨rotate d (limitOut d h.logs log.content.length) path fs, nameClose d log h o,
          (iClose d log h).logs⟩) := by
  unfold openFileDevice nameClose iClose
  dsimp only
  split <;> rfl

theorem openFile_view {E : FileEnv} {log : FileLog} {path : List Char} {k : Disk} {h : Holder} {s1 : Disk × Holder}
    (hk : SoundDisk k) (ho : log.opens = true) (e : s1 = iOpenFile E log path (k, h)) :
    openFile E log path ⟨k.fs, none, h.logs⟩ = ⟨s1.1.fs, some path, s1.2.logs⟩ := by
  unfold iOpenFile at e
  unfold openFile
  rw [if_neg (by rw [ho]; nofun)] at e ⊢
  subst e
  dsimp only
  rw [fs_open hk, fs_open_size hk]

theorem write_view {k : Disk} (hk : SoundDisk k) {p : List Char} {i : Nat} (hi : k.node p = some i) (log : FileLog) (h : Holder)
    (hh : h.handle = some i) :
    ∃ o, Named (iWriteFile log i (k, h)).1 (iWriteFile log i (k, h)).2.handle o ∧
      writeFile log p ⟨k.fs, some p, h.logs⟩ = ⟨(iWriteFile log i (k, h)).1.fs, o, h.logs⟩ := by
  unfold iWriteFile writeFile
  split
  · exact ⟨some p, by rw [hh]; exact hi, rfl⟩
  · cases log.short with
    | none => exact ⟨some p, by rw [hh]; exact hi, by rw [fs_append hk hi]⟩
    | some n => exact ⟨none, trivial, by rw [fs_append hk hi]⟩

/-- The model with names does the same. -/
theorem view_step {E : FileEnv} {ch : Int} {d : Device} {a : DiskSays} {log : FileLog} {k k' : Disk} {h h' : Holder}
    {o : Option (List Char)} (ha : Grants a) (hk : SoundDisk k) (hn : Named k h.handle o)
    (e : ICase E ch d a log k h k' h') :
    ∃ o', Named k' h'.handle o' ∧ fileDevice E ch d log ⟨k.fs, o, h.logs⟩ = some ⟨k'.fs, o', h'.logs⟩ := by
  have hskip : (h.handle = none → h.logs DEVICE_LOG_LAST_TRY_CREATE_TIMESTAMP + 5 ≤ log.ts) →
      ¬ (o = none ∧ h.logs DEVICE_LOG_LAST_TRY_CREATE_TIMESTAMP + 5 > log.ts) := by
    rintro hw ⟨h1, h2⟩
    have : h.handle = none := by
      cases hh : h.handle with
      | none => rfl
      | some i => rw [hh, h1] at hn; exact absurd hn (by simp [Named])
    have := hw this
    omega
  have hcl : ∀ {x : Option (List Char)}, x = nameClose d log h o → (iClose d log h).handle = none → x = none := by
    intro x hx hc
    have := named_close hn d log
    rw [hc] at this
    rw [hx]
    exact named_none this
  unfold fileDevice
  dsimp only
  cases e with
  | skipped hh hw =>
    rw [hh] at hn
    rw [if_pos ⟨named_none hn, hw⟩]
    exact ⟨o, by rw [hh]; exact hn, rfl⟩
  | stays i l hi hc hacc =>
    rw [if_neg (hskip (fun x => absurd (x.symm.trans hi) (by nofun))), openFileDevice_eq]
    have hn2 := named_close hn d log
    rw [hc, hi] at hn2
    obtain ⟨p, hp, hpi⟩ := named_some hn2
    rw [hp, if_pos (by nofun)]
    obtain ⟨o', ho', hw⟩ := write_view hk hpi log h hi
    refine ⟨o', ho', ?_⟩
    simp only [Option.bind_eq_bind, Option.bind_some, hc, hw, hacc]
    rfl
  | long path hh hw hp hl =>
    rw [if_neg (hskip hw), openFileDevice_eq, hcl rfl hh, if_neg (fun x => x rfl), hp]
    simp only [Option.bind_eq_bind, Option.bind_some]
    rw [if_pos hl]
    refine ⟨none, ?_, rfl⟩
    rw [show (iOpenFailed 1 log.ts (iClose d log h)).handle = none from hh]
    trivial
  | refused path hh hw hp hl hop =>
    rw [if_neg (hskip hw), openFileDevice_eq, hcl rfl hh, if_neg (fun x => x rfl), hp]
    simp only [Option.bind_eq_bind, Option.bind_some]
    rw [if_neg (by omega)]
    refine ⟨none, ?_, ?_⟩
    · rw [show (iOpenFailed 2 log.ts (iClose d log h)).handle = none from hh]
      trivial
    · unfold openFile
      rw [if_pos hop, fs_rotate ha _ _ _ hk]
      rfl
  | opens path s1 l hh hw hp hl hop hs1 h1 h2 hacc =>
    have hm := moves_rotate a d (limitOut d h.logs log.content.length) path k
    have hks := hm.sound hk
    rw [if_neg (hskip hw), openFileDevice_eq, hcl rfl hh, if_neg (fun x => x rfl), hp]
    simp only [Option.bind_eq_bind, Option.bind_some]
    rw [if_neg (by omega), ← fs_rotate ha _ _ _ hk, openFile_view hks hop hs1]
    have hnode : s1.1.node path = some ((iRotate a d (limitOut d h.logs log.content.length) path k).openAppend path).1 := by
      rw [h1]; exact open_node _ _
    have hs : SoundDisk s1.1 := by rw [h1]; exact open_sound hks path
    obtain ⟨o', ho', hw'⟩ := write_view hs hnode log s1.2 h2
    refine ⟨o', ho', ?_⟩
    simp only [Option.bind_some, hw', hacc]
    rfl

/-- Names of others stay. -/
theorem icase_node {P : List Char → Prop} (hc : Closed P) {E : FileEnv} {ch : Int} {d : Device} {a : DiskSays} {log : FileLog}
    {k k' : Disk} {h h' : Holder} (hP : ∀ p, fullPath E.proc (E.tm log.ts) E.fuel d ch = some p → P p)
    (e : ICase E ch d a log k h k' h') : ∀ q, ¬ P q → k'.node q = k.node q := by
  intro q hq
  cases e with
  | skipped => rfl
  | stays i l => rw [iWrite_node]
  | long => rfl
  | refused path _ _ hp => exact node_rotate hc a d _ k (hP path hp) q hq
  | opens path s1 l _ _ hp _ _ _ h1 =>
    rw [iWrite_node, h1, open_other _ _ (by rintro rfl; exact hq (hP _ hp))]
    exact node_rotate hc a d _ k (hP path hp) q hq

/-- Every open file has a name among the files of its device. -/
def OwnNames (U : Nat → Seat) (s : Desk) : Prop :=
  ∀ v, ∃ o, Named s.disk (s.holder v).handle o ∧ ∀ p, o = some p → SeatFiles (U v) p

/-- The device `u` alone, with names. -/
def Tracks (U : Nat → Seat) (u : Nat) (s : Desk) (t : FileSt) : Prop :=
  t.logs = (s.holder u).logs ∧ Named s.disk (s.holder u).handle t.handle ∧
    (∀ p, t.handle = some p → SeatFiles (U u) p) ∧ AgreeOn (SeatFiles (U u)) s.disk.fs t.fs

theorem tracks_log {U : Nat → Seat} (hU : SeatsApart U) {u v : Nat} {a : DiskSays} {l : FileLog} {s s' : Desk} (ha : Grants a)
    (hk : SoundDisk s.disk) (ho : OwnNames U s) (h : deskStep U (.log v a l) s = some s') {t : FileSt}
    (ht : Tracks U u s t) :
    OwnNames U s' ∧
    (u ≠ v → Tracks U u s' t) ∧
    (u = v → ∃ t', fileDevice (U u).env (U u).channel (U u).device l t = some t' ∧ Tracks U u s' t') := by
  obtain ⟨hcase, hother⟩ := desk_log h
  have hcl : Closed (SeatFiles (U v)) := filesOf_closed _ _ _
  have hP : ∀ p, fullPath (U v).env.proc ((U v).env.tm l.ts) (U v).env.fuel (U v).device (U v).channel = some p →
      SeatFiles (U v) p := fun p hp => filesOf_path hp
  have hnode := icase_node hcl hP hcase
  have keep : ∀ w, w ≠ v → ∀ o, Named s.disk (s.holder w).handle o → (∀ p, o = some p → SeatFiles (U w) p) →
      Named s'.disk (s'.holder w).handle o := by
    intro w hw o hn hp
    rw [hother w hw]
    cases hh : (s.holder w).handle with
    | none => rw [hh] at hn; rw [named_none hn]; trivial
    | some i =>
      rw [hh] at hn
      obtain ⟨p, rfl, hpi⟩ := named_some hn
      show s'.disk.node p = some i
      rw [hnode p (fun x => hU w v hw p ⟨hp p rfl, x⟩)]
      exact hpi
  obtain ⟨ov, hov, hpv⟩ := ho v
  obtain ⟨ov', hov', hfd⟩ := view_step ha hk hov hcase
  obtain ⟨⟨tv, htv, hsv⟩, hoff⟩ := fileDevice_frame hcl hP
    (SameAs.mk rfl rfl (fun _ _ => rfl) hpv : SameAs (SeatFiles (U v)) ⟨s.disk.fs, ov, (s.holder v).logs⟩
      ⟨s.disk.fs, ov, (s.holder v).logs⟩) hfd
  refine ⟨fun w => ?_, fun huv => ?_, fun huv => ?_⟩
  · by_cases hw : w = v
    · subst hw; exact ⟨ov', hov', hsv.own⟩
    · obtain ⟨o, h1, h2⟩ := ho w
      exact ⟨o, keep w hw o h1 h2, h2⟩
  · obtain ⟨h1, h2, h3, h4⟩ := ht
    refine ⟨by rw [hother u huv]; exact h1, keep u huv _ h2 h3, h3, fun p hp => ?_⟩
    rw [← h4 p hp]
    exact hoff p (fun x => hU u v huv p ⟨hp, x⟩)
  · subst huv
    obtain ⟨h1, h2, h3, h4⟩ := ht
    obtain ⟨ou', hou', hfu⟩ := view_step ha hk h2 hcase
    obtain ⟨⟨t', ht', hst'⟩, _⟩ := fileDevice_frame hcl hP
      (SameAs.mk rfl h1.symm h4 h3 : SameAs (SeatFiles (U u)) ⟨s.disk.fs, t.handle, (s.holder u).logs⟩ t) hfu
    refine ⟨t', ht', hst'.logs.symm, ?_, ?_, hst'.fs⟩
    · rw [← hst'.handle]; exact hou'
    · rw [← hst'.handle]; exact hst'.own

theorem tracks_other {U : Nat → Seat} {u : Nat} {e : DiskEv} {s s' : Desk} (he : ∀ u a l, e ≠ .log u a l)
    (hk : SoundDisk s.disk) (ho : OwnNames U s) (hf : ∀ p, Touches e p → ∀ v, ¬ SeatFiles (U v) p)
    (h : deskStep U e s = some s') {t : FileSt} (ht : Tracks U u s t) : OwnNames U s' ∧ Tracks U u s' t := by
  obtain ⟨_, _, hh, hd⟩ := other_step he hk h
  have hnode : ∀ v p, SeatFiles (U v) p → s'.disk.node p = s.disk.node p := by
    intro v p hp
    have hnt : ¬ Touches e p := fun x => hf p x v hp
    cases e with
    | log u a l => exact absurd rfl (he u a l)
    | rename a b =>
      obtain rfl := Option.some.inj h
      simp only [Touches, not_or] at hnt
      show (s.disk.rename a b).node p = _
      unfold Disk.rename
      split
      · rfl
      · simp only; rw [if_neg hnt.1, if_neg hnt.2]
    | remove a =>
      obtain rfl := Option.some.inj h
      exact if_neg hnt
    | create a =>
      obtain rfl := Option.some.inj h
      exact open_other _ _ hnt
  have keep : ∀ w o, Named s.disk (s.holder w).handle o → (∀ p, o = some p → SeatFiles (U w) p) →
      Named s'.disk (s'.holder w).handle o := by
    intro w o hn hp
    rw [hh]
    cases hx : (s.holder w).handle with
    | none => rw [hx] at hn; rw [named_none hn]; trivial
    | some i =>
      rw [hx] at hn
      obtain ⟨p, rfl, hpi⟩ := named_some hn
      show s'.disk.node p = some i
      rw [hnode w p (hp p rfl)]
      exact hpi
  refine ⟨fun w => ?_, ?_⟩
  · obtain ⟨o, h1, h2⟩ := ho w
    exact ⟨o, keep w o h1 h2, h2⟩
  · obtain ⟨h1, h2, h3, h4⟩ := ht
    refine ⟨by rw [hh]; exact h1, keep u _ h2 h3, h3, fun p hp => ?_⟩
    rw [← h4 p hp]
    unfold Disk.fs
    rw [hnode u p hp, hd]

theorem tracks_run {U : Nat → Seat} (hU : SeatsApart U) {u : Nat} (es : List DiskEv)
    (ha : ∀ v a l, DiskEv.log v a l ∈ es → Grants a)
    (hf : ∀ e ∈ es, ∀ p, Touches e p → ∀ v, ¬ SeatFiles (U v) p) :
    ∀ {s s' : Desk} {t : FileSt}, SoundDisk s.disk → Held s → OwnNames U s → Tracks U u s t → deskRun U es s = some s' →
      ∃ t', fileDeviceAll (U u).env (U u).channel (U u).device (logsOf u es) t = some t' ∧ Tracks U u s' t' := by
  induction es with
  | nil =>
    intro s s' t _ _ _ ht h
    obtain rfl := Option.some.inj h
    exact ⟨t, rfl, ht⟩
  | cons e es ih =>
    intro s s' t hk hh ho ht h
    have ih := @ih (fun v a l x => ha v a l (List.mem_cons_of_mem _ x)) (fun e he => hf e (List.mem_cons_of_mem _ he))
    simp only [deskRun, Option.bind_eq_some_iff] at h
    obtain ⟨s1, h1, h⟩ := h
    by_cases hl : ∃ v a l, e = .log v a l
    · obtain ⟨v, a, l, rfl⟩ := hl
      obtain ⟨q1, q2, q3⟩ := tracks_log hU (ha v a l List.mem_cons_self) hk ho h1 ht
      obtain ⟨p1, p2, _⟩ := log_step hk hh h1
      by_cases huv : u = v
      · obtain ⟨t1, ht1, hq⟩ := q3 huv
        obtain ⟨t', ht', hq'⟩ := ih p1 p2 q1 hq h
        refine ⟨t', ?_, hq'⟩
        simp only [logsOf]
        rw [if_pos huv.symm]
        simp only [fileDeviceAll, ht1, Option.bind_some]
        exact ht'
      · obtain ⟨t', ht', hq'⟩ := ih p1 p2 q1 (q2 huv) h
        refine ⟨t', ?_, hq'⟩
        simp only [logsOf]
        rw [if_neg (fun x => huv x.symm)]
        exact ht'
    · have he : ∀ v a l, e ≠ .log v a l := fun v a l x => hl ⟨v, a, l, x⟩
      obtain ⟨q1, q2⟩ := tracks_other he hk ho (hf e List.mem_cons_self) h1 ht
      obtain ⟨p1, p2, p3, _⟩ := other_step he hk h1
      obtain ⟨t', ht', hq'⟩ := ih p1 (fun v i hi => Nat.lt_of_lt_of_le (hh v i (by rw [← p3]; exact hi)) p2) q1 q2 h
      refine ⟨t', ?_, hq'⟩
      cases e with
      | log v a l => exact absurd rfl (he v a l)
      | rename a b => exact ht'
      | remove p => exact ht'
      | create p => exact ht'

end FNLog
