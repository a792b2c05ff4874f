import Verif.Proof.Inode

/-! # Steps and runs on the file system of inodes -/

namespace FNLog
open Spec

/-! ## Writing -/

theorem iWrite_data (log : FileLog) (i : Nat) (s : Disk × Holder) (j : Nat) :
    (iWriteFile log i s).1.data j = s.1.data j ++ if j = i then block log else [] := by
  unfold iWriteFile block
  split
  · split <;> simp
  · cases log.short with
    | none =>
      simp only [Disk.append]
      split
      · rename_i h; rw [h]
      · simp
    | some n =>
      simp only [Disk.append]
      split
      · rename_i h; rw [h]
      · simp

theorem iWrite_node (log : FileLog) (i : Nat) (s : Disk × Holder) : (iWriteFile log i s).1.node = s.1.node := by
  unfold iWriteFile
  split
  · rfl
  · split <;> rfl

theorem iWrite_next (log : FileLog) (i : Nat) (s : Disk × Holder) : (iWriteFile log i s).1.next = s.1.next := by
  unfold iWriteFile
  split
  · rfl
  · split <;> rfl

theorem iWrite_handle (log : FileLog) (i j : Nat) (s : Disk × Holder) (h : (iWriteFile log i s).2.handle = some j) :
    s.2.handle = some j := by
  unfold iWriteFile at h
  split at h
  · exact h
  · split at h
    · exact h
    · cases h

theorem iWrite_full {log : FileLog} (hs : log.short = none) (i : Nat) (s : Disk × Holder) :
    (iWriteFile log i s).2.handle = s.2.handle := by
  unfold iWriteFile
  split
  · rfl
  · rw [hs]

theorem iWrite_sound {k : Disk} (hk : SoundDisk k) {i : Nat} (hi : i < k.next) (log : FileLog) (h : Holder) :
    SoundDisk (iWriteFile log i (k, h)).1 := by
  refine ⟨?_, ?_, ?_⟩
  · rw [iWrite_node]; exact hk.one
  · rw [iWrite_node, iWrite_next]; exact hk.old
  · intro j hj
    rw [iWrite_next] at hj
    have hj : k.next ≤ j := hj
    rw [iWrite_data, if_neg (by omega), hk.clean j hj]
    rfl

/-! ## Which lines find a file -/

/-- The part of the state that decides. -/
abbrev seen (h : Holder) : FileSt := ⟨fun _ => none, h.handle.map fun _ => [], h.logs⟩

theorem stays_iff {d : Device} {log : FileLog} {h : Holder} :
    Stays d (seen h) log ↔ (iClose d log h).handle ≠ none := by
  unfold Stays
  rw [← limitOut_iff, ← periodOut_iff]
  unfold iClose
  cases hb : (limitOut d h.logs log.content.length || periodOut d h.logs log.ts) with
  | true =>
    simp only [if_true, ne_eq, not_true_eq_false, iff_false]
    rintro ⟨_, h1, h2⟩
    rcases Bool.or_eq_true_iff.mp hb with e | e
    · exact h1 e
    · exact h2 e
  | false =>
    obtain ⟨h1, h2⟩ := Bool.or_eq_false_iff.mp hb
    simp only [h1, h2]
    simp

theorem tries_iff {d : Device} {log : FileLog} {h : Holder} :
    Tries d (seen h) log ↔ (iClose d log h).handle = none ∧
      (h.handle = none → h.logs DEVICE_LOG_LAST_TRY_CREATE_TIMESTAMP + 5 ≤ log.ts) := by
  unfold Tries
  rw [stays_iff]
  simp only [ne_eq, Decidable.not_not, Option.map_eq_none_iff]
  constructor
  · rintro ⟨a, b⟩
    exact ⟨a, fun hn => b.resolve_left (fun x => x hn)⟩
  · rintro ⟨a, b⟩
    refine ⟨a, ?_⟩
    by_cases hn : h.handle = none
    · exact Or.inr (b hn)
    · exact Or.inl hn

/-- What one log does: whether it finds a file, where it goes, and the number of lines. -/
theorem icase_step {c : Seat} {a : DiskSays} {log : FileLog} {k k' : Disk} {h h' : Holder}
    (hk : SoundDisk k) (hh : ∀ i, h.handle = some i → i < k.next)
    (e : ICase c.env c.channel c.device a log k h k' h') :
    SoundDisk k' ∧ k.next ≤ k'.next ∧ (∀ i, h'.handle = some i → i < k'.next) ∧
    ((Finds c h log ∧ ∃ i, i < k'.next ∧ (∀ j, k'.data j = k.data j ++ if j = i then block log else []) ∧
        ∃ f, accountFile f log.priority log.content.length = some h'.logs ∧
          f DEVICE_LOG_TOTAL_WRITE_LINE = h.logs DEVICE_LOG_TOTAL_WRITE_LINE) ∨
      (¬ Finds c h log ∧ k'.data = k.data ∧ h'.logs DEVICE_LOG_TOTAL_WRITE_LINE = h.logs DEVICE_LOG_TOTAL_WRITE_LINE)) := by
  have hcl : (iClose c.device log h).logs DEVICE_LOG_TOTAL_WRITE_LINE = h.logs DEVICE_LOG_TOTAL_WRITE_LINE := by
    unfold iClose
    split <;> rfl
  cases e with
  | skipped hn hw =>
    refine ⟨hk, Nat.le_refl _, hh, Or.inr ⟨?_, rfl, rfl⟩⟩
    rintro (hs | ⟨ht, _⟩)
    · exact hs.1 (by simp [hn])
    · have := (tries_iff.mp ht).2 hn
      omega
  | stays i l hi hc hl =>
    have hlt := hh i hi
    refine ⟨iWrite_sound hk hlt log h, by rw [iWrite_next]; exact Nat.le_refl _, fun j hj => ?_,
      Or.inl ⟨Or.inl (stays_iff.mpr (by rw [hc, hi]; nofun)), i, by rw [iWrite_next]; exact hlt,
        fun j => iWrite_data log i (k, h) j, h.logs, hl, rfl⟩⟩
    rw [iWrite_next]
    exact hh j (iWrite_handle log i j (k, h) hj)
  | long path hn hw hp hl =>
    refine ⟨hk, Nat.le_refl _, fun i hi => absurd (hn.symm.trans hi) (by nofun), Or.inr ⟨?_, rfl, ?_⟩⟩
    · rintro (hs | ⟨_, _, p, hp', hl'⟩)
      · exact stays_iff.mp hs hn
      · rw [hp] at hp'
        obtain rfl := Option.some.inj hp'
        omega
    · rw [← hcl]; rfl
  | refused path hn hw hp hl ho =>
    have hm := moves_rotate a c.device (limitOut c.device h.logs log.content.length) path k
    refine ⟨hm.sound hk, by rw [hm.next]; exact Nat.le_refl _, fun i hi => absurd (hn.symm.trans hi) (by nofun),
      Or.inr ⟨?_, hm.data, ?_⟩⟩
    · rintro (hs | ⟨_, ho', _⟩)
      · exact stays_iff.mp hs hn
      · rw [ho] at ho'; cases ho'
    · rw [← hcl]; rfl
  | opens path s1 l hn hw hp hl ho hs1 h1 h2 hacc =>
    have hm := moves_rotate a c.device (limitOut c.device h.logs log.content.length) path k
    have hks := hm.sound hk
    obtain ⟨kr, hkr⟩ : ∃ kr, kr = iRotate a c.device (limitOut c.device h.logs log.content.length) path k := ⟨_, rfl⟩
    rw [← hkr] at hs1 h1 h2 hks hm ⊢
    have hlt := open_lt hks path
    have hso := open_sound hks path
    rw [← h1] at hlt hso
    have hnx : k.next ≤ s1.1.next := by
      rw [h1, ← hm.next]; exact open_next kr path
    refine ⟨iWrite_sound (k := s1.1) (h := s1.2) hso hlt log, by rw [iWrite_next]; exact hnx, fun j hj => ?_,
      Or.inl ⟨Or.inr ⟨tries_iff.mpr ⟨hn, hw⟩, ho, path, hp, hl⟩, (kr.openAppend path).1, by rw [iWrite_next]; exact hlt,
        fun j => ?_, s1.2.logs, hacc, ?_⟩⟩
    · rw [iWrite_next]
      have := iWrite_handle _ _ _ _ hj
      rw [h2] at this
      obtain rfl := Option.some.inj this
      exact hlt
    · rw [iWrite_data, h1, open_data hks, hm.data]
    · rw [← hcl, hs1]
      unfold iOpenFile
      rw [if_neg (by rw [ho]; nofun)]
      rfl

theorem account_line {f g : Fields} {log : FileLog} (hv : Valid log)
    (h : accountFile f log.priority log.content.length = some g) :
    g DEVICE_LOG_TOTAL_WRITE_LINE = f DEVICE_LOG_TOTAL_WRITE_LINE + 1 := by
  rw [accountFile_eq hv] at h
  obtain rfl := Option.some.inj h
  have h0 := hv.1
  have h1 := hv.2
  unfold accounted
  have a1 : DEVICE_LOG_TOTAL_WRITE_LINE = 15 := rfl
  have a2 : DEVICE_LOG_TOTAL_WRITE_BYTE = 16 := rfl
  have a3 : DEVICE_LOG_CUR_FILE_SIZE = 0 := rfl
  have a4 : DEVICE_LOG_PRIORITY = 7 := rfl
  simp only [a1, a2, a3, a4]
  rw [if_pos trivial, if_neg (by omega), if_neg (by omega), if_neg (by omega)]
  omega

/-! ## Events -/

theorem desk_log {U : Nat → Seat} {u : Nat} {a : DiskSays} {l : FileLog} {s s' : Desk}
    (h : deskStep U (.log u a l) s = some s') :
    ICase (U u).env (U u).channel (U u).device a l s.disk (s.holder u) s'.disk (s'.holder u) ∧
      ∀ v, v ≠ u → s'.holder v = s.holder v := by
  simp only [deskStep, Option.map_eq_some_iff] at h
  obtain ⟨⟨k, hd⟩, h, rfl⟩ := h
  refine ⟨?_, fun v hv => if_neg hv⟩
  simp only [if_true]
  exact iFileDevice_cases h

theorem other_step {U : Nat → Seat} {e : DiskEv} {s s' : Desk} (he : ∀ u a l, e ≠ .log u a l)
    (hk : SoundDisk s.disk) (h : deskStep U e s = some s') :
    SoundDisk s'.disk ∧ s.disk.next ≤ s'.disk.next ∧ s'.holder = s.holder ∧ s'.disk.data = s.disk.data := by
  cases e with
  | log u a l => exact absurd rfl (he u a l)
  | rename a b =>
    obtain rfl := Option.some.inj h
    have hm := moves_rename s.disk a b
    exact ⟨hm.sound hk, Nat.le_of_eq hm.next.symm, rfl, hm.data⟩
  | remove p =>
    obtain rfl := Option.some.inj h
    have hm := moves_unlink s.disk p
    exact ⟨hm.sound hk, Nat.le_of_eq hm.next.symm, rfl, hm.data⟩
  | create p =>
    obtain rfl := Option.some.inj h
    exact ⟨open_sound hk p, open_next _ _, rfl, open_data hk p⟩

/-- What a log leaves behind. -/
theorem log_step {U : Nat → Seat} {u : Nat} {a : DiskSays} {l : FileLog} {s s' : Desk}
    (hk : SoundDisk s.disk) (hh : Held s) (h : deskStep U (.log u a l) s = some s') :
    SoundDisk s'.disk ∧ Held s' ∧ s.disk.next ≤ s'.disk.next ∧
    ((Finds (U u) (s.holder u) l ∧ ∃ i, i < s'.disk.next ∧
        (∀ j, s'.disk.data j = s.disk.data j ++ if j = i then block l else []) ∧
        (Valid l → ∀ v, (s'.holder v).logs DEVICE_LOG_TOTAL_WRITE_LINE =
          (s.holder v).logs DEVICE_LOG_TOTAL_WRITE_LINE + if v = u then 1 else 0)) ∨
      (¬ Finds (U u) (s.holder u) l ∧ s'.disk.data = s.disk.data ∧
        ∀ v, (s'.holder v).logs DEVICE_LOG_TOTAL_WRITE_LINE = (s.holder v).logs DEVICE_LOG_TOTAL_WRITE_LINE)) := by
  obtain ⟨hc, ho⟩ := desk_log h
  obtain ⟨h1, h2, h3, h4⟩ := icase_step hk (hh u) hc
  refine ⟨h1, fun v i hv => ?_, h2, ?_⟩
  · by_cases hvu : v = u
    · subst hvu; exact h3 i hv
    · rw [ho v hvu] at hv
      exact Nat.lt_of_lt_of_le (hh v i hv) h2
  · rcases h4 with ⟨hf, i, hi, hd, f, hacc, hl⟩ | ⟨hf, hd, hl⟩
    · refine Or.inl ⟨hf, i, hi, hd, fun hval v => ?_⟩
      by_cases hvu : v = u
      · subst hvu
        rw [if_pos rfl, account_line hval hacc, hl]
      · rw [if_neg hvu, ho v hvu]; simp
    · refine Or.inr ⟨hf, hd, fun v => ?_⟩
      by_cases hvu : v = u
      · subst hvu; exact hl
      · rw [ho v hvu]

theorem desk_logs {U : Nat → Seat} (es : List DiskEv) : ∀ {s s' : Desk}, deskRun U es s = some s' →
    ∃ t, DeskLogs U s es t s' := by
  induction es with
  | nil =>
    intro s s' h
    obtain rfl := Option.some.inj h
    exact ⟨[], .nil s⟩
  | cons e es ih =>
    intro s s' h
    simp only [deskRun, Option.bind_eq_some_iff] at h
    obtain ⟨s1, h1, h⟩ := h
    obtain ⟨t, ht⟩ := ih h
    cases e with
    | log u a l =>
      by_cases hf : Finds (U u) (s.holder u) l
      · exact ⟨_, .taken h1 hf ht⟩
      · exact ⟨_, .dropped h1 hf ht⟩
    | rename a b => exact ⟨_, .other (by nofun) h1 ht⟩
    | remove p => exact ⟨_, .other (by nofun) h1 ht⟩
    | create p => exact ⟨_, .other (by nofun) h1 ht⟩

theorem logs_run {U : Nat → Seat} {s s' : Desk} {es : List DiskEv} {t : List (Nat × FileLog)}
    (h : DeskLogs U s es t s') : deskRun U es s = some s' := by
  induction h with
  | nil => rfl
  | taken h1 _ _ ih => simp only [deskRun, h1, Option.bind_some]; exact ih
  | dropped h1 _ _ ih => simp only [deskRun, h1, Option.bind_some]; exact ih
  | other _ h1 _ ih => simp only [deskRun, h1, Option.bind_some]; exact ih

theorem logs_sublist {U : Nat → Seat} {s s' : Desk} {es : List DiskEv} {t : List (Nat × FileLog)}
    (h : DeskLogs U s es t s') : t.Sublist (allLogs es) := by
  induction h with
  | nil => exact .slnil
  | taken _ _ _ ih => exact ih.cons_cons _
  | dropped _ _ _ ih => exact ih.cons _
  | other he _ _ ih =>
    rename_i e _ _ _ _
    cases e with
    | log u a l => exact absurd rfl (he u a l)
    | rename a b => exact ih
    | remove p => exact ih
    | create p => exact ih

end FNLog
