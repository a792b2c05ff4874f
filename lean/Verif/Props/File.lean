import Verif.Proof.FileRun
import Verif.Proof.KernelRfl

/-!
# C46–C54: the file device
-/

namespace FNLog

open Spec

/-! ## C46, C47: rotation -/

/-- **C46**: rotation shifts the file and its backups by one as far as there is no gap, and changes nothing else. -/
theorem C46_rotation {F : List Char} (hF : Plain F) (N : Nat) (fs : Fs) : Rotated N F fs (rollback N F 1 fs) :=
  rollback_rotated hF N fs

/-- **C46**: nothing is lost but the oldest backup: what was in `F.i` is afterwards in `F.i` or in `F.(i+1)`; the same
holds for `F.N` unless all of `F`, `F.1`, …, `F.N` existed. -/
theorem C46_nothing_lost {F : List Char} (hF : Plain F) (N : Nat) (fs : Fs) (i : Nat) (c : Blocks)
    (hi : i < N ∨ (i = N ∧ ∃ j, j < N ∧ fs (backup F j) = none)) (hc : fs (backup F i) = some c) :
    rollback N F 1 fs (backup F i) = some c ∨ rollback N F 1 fs (backup F (i + 1)) = some c := by
  have h := rollback_rotated hF N fs
  by_cases hr : Run fs F i
  · rcases hi with hi | ⟨_, j, hj, hj'⟩
    · right
      rw [h.moved (i + 1) (by omega) (by omega) (run_succ.mpr ⟨hr, by rw [hc]; nofun⟩)]
      exact hc
    · exact absurd hj' (hr j (by omega))
  · left
    have h0 : i ≠ 0 := fun e => hr fun j hj => by omega
    rw [h.stays i (by omega) (by omega) hr]
    exact hc

/-- **C46**: the names the device generates satisfy the condition on the name. -/
theorem C46_names {p : Proc} {t : Tm} {fuel : Nat} {d : Device} {ch : Int} {F : List Char}
    (h : fullPath p t fuel d ch = some F) : Plain F := fullPath_plain h

/-- A file with a gap behind its first backup: `F` goes to `F.1`, that to `F.2`; `F.4` stays. -/
example : Plain "a.log".toList ∧ ∃ fs : Fs,
    rollback 5 "a.log".toList 1 fs "a.log.1".toList = some [['x']] ∧
    rollback 5 "a.log".toList 1 fs "a.log.2".toList = some [['y']] ∧
    rollback 5 "a.log".toList 1 fs "a.log.4".toList = some [['z']] := by
  have hF : Plain "a.log".toList := plain_log (by decide)
  refine ⟨hF, fun q => if q = "a.log".toList then some [['x']] else if q = backup "a.log".toList 1 then some [['y']]
    else if q = backup "a.log".toList 4 then some [['z']] else none, ?_⟩
  obtain ⟨fs, hfs⟩ : ∃ fs : Fs, fs = fun q => if q = "a.log".toList then some [['x']] else
    if q = backup "a.log".toList 1 then some [['y']] else if q = backup "a.log".toList 4 then some [['z']] else none :=
    ⟨_, rfl⟩
  rw [← hfs]
  have b1 : backup "a.log".toList 1 = "a.log.1".toList := by
    unfold backup; rw [numeral_lt (by decide)]; decide
  have b2 : backup "a.log".toList 2 = "a.log.2".toList := by
    unfold backup; rw [numeral_lt (by decide)]; decide
  have b3 : backup "a.log".toList 3 = "a.log.3".toList := by
    unfold backup; rw [numeral_lt (by decide)]; decide
  have b4 : backup "a.log".toList 4 = "a.log.4".toList := by
    unfold backup; rw [numeral_lt (by decide)]; decide
  rw [b1, b4] at hfs
  have h := C46_rotation hF 5 fs
  have r1 : Run fs "a.log".toList 1 := by
    intro j hj
    obtain rfl : j = 0 := by omega
    rw [hfs]; decide
  have r2 : Run fs "a.log".toList 2 := by
    intro j hj
    obtain rfl | rfl : j = 0 ∨ j = 1 := by omega
    · rw [hfs]; decide
    · rw [b1, hfs]; decide
  have r4 : ¬ Run fs "a.log".toList 4 := by
    intro h
    have := h 3 (by omega)
    rw [b3, hfs] at this
    exact this (by decide)
  refine ⟨?_, ?_, ?_⟩
  · rw [← b1]
    refine (h.moved 1 (by omega) (by omega) r1).trans ?_
    rw [hfs]; decide
  · rw [← b2]
    refine (h.moved 2 (by omega) (by omega) r2).trans ?_
    rw [show 2 - 1 = 1 from rfl, b1, hfs]; decide
  · rw [← b4]
    refine (h.stays 4 (by omega) (by omega) r4).trans ?_
    rw [b4, hfs]; decide

/-- **C46** does not hold for a number of backups of 2^31: it becomes negative, and rotation removes the file. -/
theorem C46_negative_counterexample (d : Device) (hd : d.cfg.rollback = 2 ^ 31) (hs : d.cfg.stuffUp = 0) (lim : Bool)
    (F : List Char) (fs : Fs) : rotate d lim F fs = fs.set F none := by
  unfold rotate
  rw [hd, if_pos (Or.inl (by decide)), if_pos (Or.inl hs), if_pos (by decide)]
  exact rollback_neg (by decide) fs

/-- **C47**: a file that exists after any number of lines and did not exist before is a file or one of the first `N`
backups of a file whose name the device generated for one of these lines. -/
theorem C47_created {E : FileEnv} {ch : Int} {d : Device} {logs t : List FileLog} {s s' : FileSt}
    (hs : s.handle = none) (hv : ∀ log ∈ logs, Valid log) (h : Runs E ch d s logs t s') (q : List Char)
    (h0 : s.fs q = none) (h1 : s'.fs q ≠ none) :
    ∃ log ∈ logs, ∃ F, fullPath E.proc (E.tm log.ts) E.fuel d ch = some F ∧ ∃ k, k ≤ backups d ∧ q = backup F k := by
  apply Classical.byContradiction
  intro hno
  have rot : ∀ log ∈ logs, ∀ (fs : Fs) (path : List Char) (lim : Bool),
      fullPath E.proc (E.tm log.ts) E.fuel d ch = some path → fs q = none → rotate d lim path fs q = none := by
    intro log hl fs path lim hf hq
    rcases rotate_cases (d := d) (lim := lim) (fullPath_plain hf) fs with ⟨e, _⟩ | ⟨e, _⟩ | ⟨n, _, hn, _, e⟩
    · rw [e]; exact hq
    · rw [e]; unfold Fs.set; split
      · rfl
      · exact hq
    · rw [e.others q fun i hi e => hno ⟨log, hl, path, hf, i, by omega, e⟩]; exact hq
  have main : Opened E ch d s' ∧ s'.fs q = none := by
    refine runs_induct (P := fun s => Opened E ch d s ∧ s.fs q = none) ?_ h ⟨opened_closed hs, h0⟩
    intro log hl s s' ⟨ho, hq⟩ h
    refine ⟨opened_step ho (hv log hl) h, ?_⟩
    rcases taken_cases h (hv log hl) with ⟨_, _, path, hh, rfl⟩ | ⟨_, _, path, s1, hf, _, hop, hs1, rfl⟩ | ⟨_, _, _, hfs⟩
    · obtain ⟨c, _, hc, _⟩ := ho path hh
      show (writeFile log path s).fs q = none
      rw [writeFile_fs hc, Fs.set_other _ _ (fun e => by rw [e, hc] at hq; exact absurd hq (by nofun))]
      exact hq
    · obtain ⟨c, _, f1, _⟩ := openFile_fs hop hs1
      have hne : q ≠ path := fun e => hno ⟨log, hl, path, hf, 0, Nat.zero_le _, e⟩
      have hc : s1.fs path = some c := by rw [f1, Fs.set_self]
      show (writeFile log path s1).fs q = none
      rw [writeFile_fs hc, Fs.set_other _ _ hne, f1, Fs.set_other _ _ hne]
      exact rot log hl s.fs path _ hf hq
    · rcases hfs with e | ⟨path, lim, hf, e⟩
      · rw [e]; exact hq
      · rw [e]; exact rot log hl s.fs path lim hf hq
  exact h1 main.2

/-! ## C48: the limit of the size -/

/-- **C48** for devices without `stuff_up` (with it, see the counterexample below): no file grows beyond the limit,
except by one single line that is longer. -/
theorem C48_limit_partial {E : FileEnv} {ch : Int} {d : Device} (hl : 0 < d.cfg.limitSize) (hr : 0 < d.cfg.rollback)
    (hu : d.cfg.stuffUp = 0) {logs t : List FileLog} {s s' : FileSt} (hs : s.handle = none)
    (hv : ∀ log ∈ logs, Valid log) (h : Runs E ch d s logs t s') (q : List Char) (c : Blocks) (hc : s'.fs q = some c) :
    Within d.cfg.limitSize c ∨ ∃ q0, s.fs q0 = some c := by
  have main : Opened E ch d s' ∧ ∀ q c, s'.fs q = some c → Within d.cfg.limitSize c ∨ ∃ q0, s.fs q0 = some c := by
    refine runs_induct (P := fun s' => Opened E ch d s' ∧
      ∀ q c, s'.fs q = some c → Within d.cfg.limitSize c ∨ ∃ q0, s.fs q0 = some c) ?_ h
      ⟨opened_closed hs, fun q c h => Or.inr ⟨q, h⟩⟩
    intro log hlog s1 s2 ⟨ho, hi⟩ h
    refine ⟨opened_step ho (hv log hlog) h, ?_⟩
    have one : ∀ x, fileSize (block log) ≤ x → x ≤ d.cfg.limitSize → Within d.cfg.limitSize (block log) := by
      intro x h1 h2; left; omega
    rcases taken_cases h (hv log hlog) with ⟨_, hst, path, hh, rfl⟩ | ⟨_, _, path, s3, hf, _, hop, hs3, rfl⟩ |
      ⟨_, _, _, hfs⟩
    · obtain ⟨c0, _, hc0, hsz, _⟩ := ho path hh
      intro q c hq
      change (writeFile log path s1).fs q = some c at hq
      rw [writeFile_fs hc0] at hq
      by_cases e : q = path
      · rw [e, Fs.set_self] at hq
        obtain rfl := Option.some.inj hq
        left; left
        have hnb := hst.2.1
        have hb : ¬ d.cfg.limitSize < s1.logs DEVICE_LOG_CUR_FILE_SIZE + log.content.length :=
          fun e => hnb ⟨hl, hr, e⟩
        rw [fileSize_append]
        have := fileSize_block log
        omega
      · rw [Fs.set_other _ _ e] at hq
        exact hi q c hq
    · obtain ⟨c0, hc0, f1, _⟩ := openFile_fs hop hs3
      rw [rotate_gone (fullPath_plain hf) s1.fs (Or.inl hr) (Or.inl hu)] at hc0
      have hc1 : s3.fs path = some c0 := by rw [f1, Fs.set_self]
      intro q c hq
      change (writeFile log path s3).fs q = some c at hq
      rw [writeFile_fs hc1] at hq
      by_cases e : q = path
      · rw [e, Fs.set_self, hc0] at hq
        obtain rfl := Option.some.inj hq
        left
        show Within _ (block log)
        unfold block
        split
        · left; exact Int.le_of_lt hl
        · split
          · exact Or.inr ⟨_, rfl⟩
          · exact Or.inr ⟨_, rfl⟩
      · rw [Fs.set_other _ _ e, f1, Fs.set_other _ _ e] at hq
        obtain ⟨q', hq'⟩ := rotate_from (fullPath_plain hf) hq
        exact hi q' c hq'
    · intro q c hq
      rcases hfs with e | ⟨path, lim, hf, e⟩
      · rw [e] at hq; exact hi q c hq
      · rw [e] at hq
        obtain ⟨q', hq'⟩ := rotate_from (fullPath_plain hf) hq
        exact hi q' c hq'
  exact main.2 q c hc

/-! ## C49: what the backups keep -/

/-- **C49**: for a device whose file name does not change, the content of the backups and the file, oldest first, is the
end of what they contained before followed by all lines taken; nothing at all is missing as long as fewer files were
opened than there were missing among the file and its `N` backups. -/
theorem C49_suffix {E : FileEnv} {ch : Int} {d : Device} (hr : d.cfg.rollback < 2 ^ 31) {F : List Char}
    {logs t : List FileLog} {s s' : FileSt} (hs : s.handle = none) (hv : ∀ log ∈ logs, Valid log)
    (hF : ∀ log ∈ logs, fullPath E.proc (E.tm log.ts) E.fuel d ch = some F) (h : Runs E ch d s logs t s') :
    kept (backups d) F s'.fs <:+ kept (backups d) F s.fs ++ t.flatMap block ∧
    (s'.logs DEVICE_LOG_LAST_TRY_CREATE_CNT - s.logs DEVICE_LOG_LAST_TRY_CREATE_CNT < gaps (backups d) F s.fs →
      kept (backups d) F s'.fs = kept (backups d) F s.fs ++ t.flatMap block) := by
  obtain ⟨h1, _, h3⟩ := kept_runs (F := F) hr h hv
    (fun log hl p hp => Option.some.inj (hp.symm.trans (hF log hl))) (opened_closed hs)
    (fun p hp => by rw [hs] at hp; exact absurd hp (by nofun))
  exact ⟨h1, h3⟩

theorem kept_empty (N : Nat) (F : List Char) : kept N F (fun _ => none) = [] ∧ gaps N F (fun _ => none) = N + 1 := by
  induction N with
  | zero => exact ⟨rfl, rfl⟩
  | succ n ih =>
    constructor
    · show [] ++ _ = _; rw [ih.1]; rfl
    · show 1 + _ = _; rw [ih.2]; omega

/-- **C49** in an empty directory: at most `N` files opened means fewer than `N` rotations, and no line is lost. -/
theorem C49_no_loss {E : FileEnv} {ch : Int} {d : Device} (hr : d.cfg.rollback < 2 ^ 31) {F : List Char}
    {logs t : List FileLog} {s s' : FileSt} (hs : s.handle = none) (hfs : s.fs = fun _ => none)
    (hv : ∀ log ∈ logs, Valid log)
    (hF : ∀ log ∈ logs, fullPath E.proc (E.tm log.ts) E.fuel d ch = some F) (h : Runs E ch d s logs t s')
    (hN : s'.logs DEVICE_LOG_LAST_TRY_CREATE_CNT - s.logs DEVICE_LOG_LAST_TRY_CREATE_CNT ≤ backups d) :
    kept (backups d) F s'.fs = t.flatMap block := by
  have := (C49_suffix hr hs hv hF h).2 (by rw [hfs, (kept_empty _ _).2]; omega)
  rw [this, hfs, (kept_empty _ _).1]
  rfl

/-! ## C50: days and hours -/

/-- **C50** for time zones with a fixed offset (else see the counterexamples below): every line taken is appended to a
file whose name was generated from a time of the same local day (with `rolldaily`) or hour (with `rollhourly` alone), in whatever order the times come. -/
theorem C50_period_partial {E : FileEnv} {ch : Int} {d : Device} {off : Int} (hz : FixedOffset E off) {logs t : List FileLog}
    {s s' s'' : FileSt} {log : FileLog} (hs : s.handle = none) (hv : ∀ log ∈ logs, Valid log) (hv' : Valid log)
    (h : Runs E ch d s logs t s') (h' : fileDevice E ch d log s' = some s'') (hk : Taken E ch d s' log) :
    ∃ F c ts, fullPath E.proc (E.tm ts) E.fuel d ch = some F ∧ s''.fs F = some (c ++ block log) ∧
      (log.short = none → s''.handle = some F) ∧
      (d.cfg.rolldaily ≠ 0 → (ts + off) / 86400 = (log.ts + off) / 86400) ∧
      (d.cfg.rolldaily = 0 → d.cfg.rollhourly ≠ 0 → (ts + off) / 3600 = (log.ts + off) / 3600) := by
  have ho : Opened E ch d s' :=
    runs_induct (P := Opened E ch d) (fun log hl s s' ho h => opened_step ho (hv log hl) h) h (opened_closed hs)
  rcases taken_cases h' hv' with ⟨_, hst, path, hh, rfl⟩ | ⟨_, _, path, s1, hf, _, hop, hs1, rfl⟩ | ⟨hn, _⟩
  · obtain ⟨c, ts, hc, _, _, hf, hd, hh'⟩ := ho path hh
    refine ⟨path, c, ts, hf, ?_, fun e => ?_, fun e => ?_, fun e1 e2 => ?_⟩
    · show (writeFile log path s').fs path = _
      rw [writeFile_fs hc, Fs.set_self]
    · exact (writeFile_handle_full e).trans hh
    · have : ¬ ¬ (s'.logs DEVICE_LOG_CUR_FILE_CREATE_DAY ≤ log.ts ∧
          log.ts < s'.logs DEVICE_LOG_CUR_FILE_CREATE_DAY + 86400) := fun x => hst.2.2 (Or.inl ⟨e, x⟩)
      rw [hd, (hz ts).1] at this
      omega
    · have : ¬ ¬ (s'.logs DEVICE_LOG_CUR_FILE_CREATE_HOUR ≤ log.ts ∧
          log.ts < s'.logs DEVICE_LOG_CUR_FILE_CREATE_HOUR + 3600) := fun x => hst.2.2 (Or.inr ⟨e1, e2, x⟩)
      rw [hh', (hz ts).2] at this
      omega
  · obtain ⟨c, _, f1, f2, _⟩ := openFile_fs hop hs1
    have hc : s1.fs path = some c := by rw [f1, Fs.set_self]
    refine ⟨path, c, log.ts, hf, ?_, fun e => ?_, fun _ => rfl, fun _ _ => rfl⟩
    · show (writeFile log path s1).fs path = _
      rw [writeFile_fs hc, Fs.set_self]
    · exact (writeFile_handle_full e).trans f2
  · exact absurd hk hn

/-! ## C51: statistics -/

/-- **C51**: the counters grow by the number and the size of the lines taken, and the counter of every priority by the
size of the lines of that priority. -/
theorem C51_statistics {E : FileEnv} {ch : Int} {d : Device} {logs t : List FileLog} {s s' : FileSt}
    (hv : ∀ log ∈ logs, Valid log) (h : Runs E ch d s logs t s') :
    s'.logs DEVICE_LOG_TOTAL_WRITE_LINE = s.logs DEVICE_LOG_TOTAL_WRITE_LINE + t.length ∧
    s'.logs DEVICE_LOG_TOTAL_WRITE_BYTE = s.logs DEVICE_LOG_TOTAL_WRITE_BYTE +
      (t.map fun log => (log.content.length : Int)).sum ∧
    ∀ q : Nat, q < 8 → s'.logs (DEVICE_LOG_PRIORITY + q) = s.logs (DEVICE_LOG_PRIORITY + q) +
      ((t.filter fun log => decide (log.priority = (q : Int))).map fun log => (log.content.length : Int)).sum := by
  induction h with
  | nil => simp
  | @taken s s1 s2 log logs t h1 hk _ ih =>
    obtain ⟨i1, i2, i3⟩ := ih fun l hl => hv l (List.mem_cons_of_mem _ hl)
    have hvl := hv log List.mem_cons_self
    have one : s1.logs DEVICE_LOG_TOTAL_WRITE_LINE = s.logs DEVICE_LOG_TOTAL_WRITE_LINE + 1 ∧
        s1.logs DEVICE_LOG_TOTAL_WRITE_BYTE = s.logs DEVICE_LOG_TOTAL_WRITE_BYTE + log.content.length ∧
        ∀ q : Nat, q < 8 → s1.logs (DEVICE_LOG_PRIORITY + q) = s.logs (DEVICE_LOG_PRIORITY + q) +
          if log.priority = (q : Int) then (log.content.length : Int) else 0 := by
      rcases taken_cases h1 hvl with ⟨_, _, path, _, rfl⟩ | ⟨_, _, path, s3, _, _, hop, hs3, rfl⟩ | ⟨hn, _⟩
      · exact ⟨accounted_line hvl, accounted_byte hvl, fun q hq => accounted_priority hvl hq⟩
      · obtain ⟨_, _, _, _, _, _, _, _, _, _, _, f⟩ := openFile_fs hop hs3
        have ob : ∀ k, 7 ≤ k → s3.logs k = s.logs k := fun k hk => by rw [f k hk, openBase_other (by omega)]
        refine ⟨?_, ?_, fun q hq => ?_⟩
        · show accounted _ _ _ _ = _
          rw [accounted_line hvl, ob _ (by decide)]
        · show accounted _ _ _ _ = _
          rw [accounted_byte hvl, ob _ (by decide)]
        · show accounted _ _ _ _ = _
          rw [accounted_priority hvl hq, ob _ (by have : DEVICE_LOG_PRIORITY = 7 := rfl; omega)]
      · exact absurd hk hn
    obtain ⟨o1, o2, o3⟩ := one
    refine ⟨?_, ?_, fun q hq => ?_⟩
    · rw [i1, o1, List.length_cons]; omega
    · rw [i2, o2, List.map_cons, List.sum_cons]; omega
    · rw [i3 q hq, o3 q hq, List.filter_cons]
      by_cases e : log.priority = (q : Int)
      · rw [if_pos e, if_pos (by simpa using e), List.map_cons, List.sum_cons]; omega
      · rw [if_neg e, if_neg (by simpa using e)]; omega
  | @dropped s s1 s2 log logs t h1 hk _ ih =>
    obtain ⟨i1, i2, i3⟩ := ih fun l hl => hv l (List.mem_cons_of_mem _ hl)
    have hvl := hv log List.mem_cons_self
    have same : ∀ k, 6 ≤ k → s1.logs k = s.logs k := by
      rcases taken_cases h1 hvl with ⟨hn, _⟩ | ⟨hn, _⟩ | ⟨_, _, hs, _⟩
      · exact absurd hn hk
      · exact absurd hn hk
      · exact hs
    refine ⟨?_, ?_, fun q hq => ?_⟩
    · rw [i1, same _ (by decide)]
    · rw [i2, same _ (by decide)]
    · rw [i3 q hq, same _ (by have : DEVICE_LOG_PRIORITY = 7 := rfl; omega)]

/-- **C51**: if the eight counters of the priorities add up to the bytes written, they still do after any lines. -/
theorem C51_priorities {E : FileEnv} {ch : Int} {d : Device} {logs t : List FileLog} {s s' : FileSt}
    (hv : ∀ log ∈ logs, Valid log) (h : Runs E ch d s logs t s')
    (h0 : ((List.range 8).map fun q => s.logs (DEVICE_LOG_PRIORITY + q)).sum = s.logs DEVICE_LOG_TOTAL_WRITE_BYTE) :
    ((List.range 8).map fun q => s'.logs (DEVICE_LOG_PRIORITY + q)).sum = s'.logs DEVICE_LOG_TOTAL_WRITE_BYTE := by
  have key : ∀ t : List FileLog, (∀ log ∈ t, Valid log) → ((List.range 8).map fun q : Nat =>
      ((t.filter fun log => decide (log.priority = (q : Int))).map fun log => (log.content.length : Int)).sum).sum =
      (t.map fun log => (log.content.length : Int)).sum := by
    intro t
    induction t with
    | nil => intro _; rfl
    | cons log t ih =>
      intro hv
      have ih := ih fun l hl => hv l (List.mem_cons_of_mem _ hl)
      obtain ⟨h1, h2⟩ := hv log List.mem_cons_self
      have each : ∀ q : Nat, (((log :: t).filter fun log => decide (log.priority = (q : Int))).map fun log =>
          (log.content.length : Int)).sum = (if log.priority = (q : Int) then (log.content.length : Int) else 0) +
          ((t.filter fun log => decide (log.priority = (q : Int))).map fun log => (log.content.length : Int)).sum := by
        intro q
        rw [List.filter_cons]
        by_cases e : log.priority = (q : Int)
        · rw [if_pos e, if_pos (by simpa using e), List.map_cons, List.sum_cons]
        · rw [if_neg e, if_neg (by simpa using e)]; omega
      simp only [each]
      rw [List.map_cons, List.sum_cons, ← ih]
      have r8 : List.range 8 = [0, 1, 2, 3, 4, 5, 6, 7] := rfl
      rw [r8]
      simp only [List.map_cons, List.map_nil, List.sum_cons, List.sum_nil]
      have : log.priority = 0 ∨ log.priority = 1 ∨ log.priority = 2 ∨ log.priority = 3 ∨ log.priority = 4 ∨
        log.priority = 5 ∨ log.priority = 6 ∨ log.priority = 7 := by omega
      rcases this with e | e | e | e | e | e | e | e <;> rw [e] <;> simp <;> omega
  have sub : ∀ log ∈ t, log ∈ logs := by
    clear h0 hv key
    induction h with
    | nil => intro log h; exact h
    | taken _ _ _ ih =>
      intro l hl
      rcases List.mem_cons.mp hl with rfl | hl
      · exact List.mem_cons_self
      · exact List.mem_cons_of_mem _ (ih l hl)
    | dropped _ _ _ ih => intro l hl; exact List.mem_cons_of_mem _ (ih l hl)
  obtain ⟨_, h2, h3⟩ := C51_statistics hv h
  have k := key t fun log hl => hv log (sub log hl)
  rw [h2, ← h0, ← k]
  have r8 : List.range 8 = [0, 1, 2, 3, 4, 5, 6, 7] := rfl
  rw [r8]
  simp only [List.map_cons, List.map_nil, List.sum_cons, List.sum_nil]
  rw [h3 0 (by omega), h3 1 (by omega), h3 2 (by omega), h3 3 (by omega), h3 4 (by omega), h3 5 (by omega),
    h3 6 (by omega), h3 7 (by omega)]
  omega

/-- **C51**: the size noted for the open file is its size. -/
theorem C51_size {E : FileEnv} {ch : Int} {d : Device} {logs t : List FileLog} {s s' : FileSt}
    (hs : s.handle = none) (hv : ∀ log ∈ logs, Valid log) (h : Runs E ch d s logs t s') (F : List Char)
    (hF : s'.handle = some F) : ∃ c, s'.fs F = some c ∧ s'.logs DEVICE_LOG_CUR_FILE_SIZE = fileSize c := by
  have ho : Opened E ch d s' :=
    runs_induct (P := Opened E ch d) (fun log hl s s' ho h => opened_step ho (hv log hl) h) h (opened_closed hs)
  obtain ⟨c, _, h1, h2, _⟩ := ho F hF
  exact ⟨c, h1, h2⟩

/-! ## C52: retrying -/

/-- **C52**: while the file is closed, lines that come less than five seconds after the last failure (or before it) have
no effect at all. -/
theorem C52_skips {E : FileEnv} {ch : Int} {d : Device} {s : FileSt} (hs : s.handle = none) (logs : List FileLog)
    (hl : ∀ log ∈ logs, log.ts < s.logs DEVICE_LOG_LAST_TRY_CREATE_TIMESTAMP + 5) :
    fileDeviceAll E ch d logs s = some s := by
  induction logs with
  | nil => rfl
  | cons log logs ih =>
    rw [fileDeviceAll]
    have : fileDevice E ch d log s = some s := by
      unfold fileDevice
      rw [if_pos ⟨hs, hl log List.mem_cons_self⟩]
    rw [this]
    exact ih fun l h => hl l (List.mem_cons_of_mem _ h)

/-- **C52**: after a failed open at one line, the lines of the next five seconds are skipped without an effect, and the
next line, if its file can be opened, is written. -/
theorem C52_retry {E : FileEnv} {ch : Int} {d : Device} {s s1 : FileSt} {log0 log : FileLog} {skips : List FileLog}
    {path : List Char} (hv : Valid log) (hd : ¬ Taken E ch d s log0) (ht : Tries d s log0)
    (h0 : fileDevice E ch d log0 s = some s1)
    (hsk : ∀ l ∈ skips, l.ts < log0.ts + 5) (hts : log0.ts + 5 ≤ log.ts)
    (hp : fullPath E.proc (E.tm log.ts) E.fuel d ch = some path) (hlen : path.length < 250) (hop : log.opens = true) :
    s1.handle = none ∧ s1.logs DEVICE_LOG_LAST_TRY_CREATE_ERROR ≠ 0 ∧
    fileDeviceAll E ch d skips s1 = some s1 ∧
    ∃ s' c, fileDevice E ch d log s1 = some s' ∧ Taken E ch d s1 log ∧
      s'.logs DEVICE_LOG_LAST_TRY_CREATE_ERROR = 0 ∧ s'.fs path = some (c ++ block log) := by
  have hf : s1.handle = none ∧ s1.logs DEVICE_LOG_LAST_TRY_CREATE_ERROR ≠ 0 ∧
      s1.logs DEVICE_LOG_LAST_TRY_CREATE_TIMESTAMP = log0.ts := by
    cases fileDevice_cases h0 with
    | skipped _ hn _ => exact absurd ht hn
    | stays path l hh hs hl => exact absurd hs ht.1
    | long path _ _ _ => exact ⟨rfl, by show (1 : Int) ≠ 0; decide, rfl⟩
    | refused path _ _ _ _ => exact ⟨rfl, by show (2 : Int) ≠ 0; decide, rfl⟩
    | opens path s2 l ht hf hlen hop hs1 hl => exact absurd (Or.inr ⟨ht, hop, path, hf, hlen⟩) hd
  obtain ⟨f1, f2, f3⟩ := hf
  have hskip := C52_skips (E := E) (ch := ch) (d := d) f1 skips (by rw [f3]; exact hsk)
  have hst : ¬ Stays d s1 log := fun e => e.1 f1
  have hk : Taken E ch d s1 log := Or.inr ⟨⟨hst, Or.inr (by rw [f3]; exact hts)⟩, hop, path, hp, hlen⟩
  obtain ⟨s', h1⟩ := fileDevice_total (s := s1) hv hp
  refine ⟨f1, f2, hskip, s', ?_⟩
  rcases taken_cases h1 hv with ⟨_, hs, _⟩ | ⟨_, _, path', s3, hf', _, hop', hs3, rfl⟩ | ⟨hn, _⟩
  · exact absurd hs hst
  · obtain rfl : path' = path := Option.some.inj (hf'.symm.trans hp)
    obtain ⟨c, _, g1, _, _, _, _, _, _, g8, _⟩ := openFile_fs hop' hs3
    have hc : s3.fs path' = some c := by rw [g1, Fs.set_self]
    refine ⟨c, h1, hk, ?_, ?_⟩
    · exact (accounted_other (by decide) (by decide)).trans g8
    · show (writeFile log path' s3).fs path' = _
      rw [writeFile_fs hc, Fs.set_self]
  · exact absurd hk hn

/-! ## C53: names -/

/-- **C53**: if the process name has no `$`, generating a name ends, and all placeholders are replaced in one pass. -/
theorem C53_name {p : Proc} {t : Tm} (hp : '$' ∉ p.name) (s : List Char) :
    ∃ n, ∀ fuel, n ≤ fuel → fmtName p t fuel s = some (subst (placeholders p t) s) :=
  ⟨2 * s.length + 1, fun _ h => fmtName_eq hp h⟩

/-- **C53**: the complete path. -/
theorem C53_path {p : Proc} {t : Tm} (hp : '$' ∉ p.name) (d : Device) (ch : Int) :
    ∃ n, ∀ fuel, n ≤ fuel → fullPath p t fuel d ch = some (pathSpec p t d ch) :=
  ⟨2 * (nameOf d ch ++ ".log".toList).length + 2 * d.path.length + 1,
    fun _ h => fullPath_eq hp (by omega) (by omega)⟩

/-- **C53** needs the condition on the process name: with a process called `…$PNAME…` it never ends. -/
theorem C53_endless_counterexample (t : Tm) (pid : Int) (a b x y : List Char) (ha : '$' ∉ a) (hx : '$' ∉ x)
    (hx' : '%' ∉ x) (fuel : Nat) :
    fmtName { name := a ++ ("$PNAME".toList ++ b), pid := pid } t fuel (x ++ ("$PNAME".toList ++ y)) = none := by
  obtain ⟨p, hp⟩ : ∃ p : Proc, p = { name := a ++ ("$PNAME".toList ++ b), pid := pid } := ⟨_, rfl⟩
  rw [← hp]
  have loop : ∀ (fuel : Nat) (u v : List Char), '$' ∉ u → fmtLoop p t fuel (u ++ ("$PNAME".toList ++ v)) = none := by
    intro fuel
    induction fuel with
    | zero => intro u v _; rfl
    | succ fuel ih =>
      intro u v hu
      rw [fmtLoop]
      have hall : ∀ c ∈ u, decide (c ≠ '$') = true := fun c hc => by
        simp only [decide_eq_true_eq]; intro e; exact hu (e ▸ hc)
      have h2 : (u ++ ("$PNAME".toList ++ v)).dropWhile (fun c => decide (c ≠ '$')) =
          '$' :: 'P' :: 'N' :: 'A' :: 'M' :: 'E' :: v := by
        rw [List.dropWhile_append_of_pos hall]; simp
      have h3 : fmtReplace p t ('P' :: 'N' :: 'A' :: 'M' :: 'E' :: v) =
          some (a ++ ("$PNAME".toList ++ (b ++ v))) := by
        rw [fmtReplace, if_pos (by simp), hp]
        simp
      rw [h2]
      simp only
      rw [h3]
      simp only
      rw [ih a (b ++ v) ha]
      rfl
  unfold fmtName
  rw [if_neg (by simp), preFmt_key x _ hx', preFmt_key "$PNAME".toList _ (by decide)]
  exact loop fuel x _ hx

/-- Placeholders, text that looks like one, and `%F`. -/
example : '$' ∉ "test".toList ∧ fmtName { name := "test".toList, pid := 42 } ⟨124, 1, 29, 5, 6, 7⟩ 100
    "$PNAME_%F-$HOUR$X.$PID".toList = some "test_2024-02-29-05$X.000042".toList :=
  ⟨by decide, by kernel_rfl⟩

/-! ## Concrete devices -/

namespace Demo

/-- Local time without an offset, and a file name that contains the day. -/
def env : FileEnv where
  proc := { name := "test".toList, pid := 1 }
  tm ts := ⟨70, 0, ts / 86400 + 1, ts / 3600 % 24, ts / 60 % 60, ts % 60⟩
  createHour ts := ts - ts % 3600
  createDay ts := ts - ts % 86400
  fuel := 20

/-- A zone in which the first day has 23 hours: at 02:00 the clock goes forward by one hour. -/
def springOff (ts : Int) : Int := if ts < 7200 then 0 else 3600

def spring : FileEnv where
  proc := { name := "test".toList, pid := 1 }
  tm ts := ⟨70, 0, (ts + springOff ts) / 86400 + 1, (ts + springOff ts) / 3600 % 24, ts / 60 % 60, ts % 60⟩
  createHour ts := ts - (ts + springOff ts) % 3600
  createDay ts := ts - (ts + springOff ts) % 86400
  fuel := 20

def line (ts : Int) (text : String) : FileLog := { ts := ts, priority := 1, content := text.toList, opens := true }

/-- Nothing there, nothing open. -/
def start : FileSt := { fs := fun _ => none, handle := none, logs := fun _ => 0 }

def daily : Device := { file := "$DAY".toList, cfg := { rolldaily := 1 } }
def hourly : Device := { file := "$HOUR".toList, cfg := { rollhourly := 1 } }
def both : Device := { file := "$HOUR".toList, cfg := { rolldaily := 1, rollhourly := 1 } }
def limited : Device := { file := "a".toList, cfg := { limitSize := 10, rollback := 3 } }
def stuffed : Device := { file := "a".toList, cfg := { limitSize := 10, rollback := 3, stuffUp := 1 } }

end Demo

/-- The conditions of C47, C48, C49, C51: two lines that do not fit into one file. -/
example : ∃ t s', Runs Demo.env 0 Demo.limited Demo.start [Demo.line 10 "abcdefgh", Demo.line 11 "ijklmn"] t s' ∧
    t.length = 2 ∧ s'.fs "a.log".toList = some ["ijklmn".toList] ∧ s'.fs "a.log.1".toList = some ["abcdefgh".toList] ∧
    s'.logs DEVICE_LOG_LAST_TRY_CREATE_CNT = 2 ∧ backups Demo.limited = 3 ∧
    (∀ log ∈ [Demo.line 10 "abcdefgh", Demo.line 11 "ijklmn"],
      Valid log ∧ fullPath Demo.env.proc (Demo.env.tm log.ts) Demo.env.fuel Demo.limited 0 = some "a.log".toList) := by
  cases h : fileDeviceAll Demo.env 0 Demo.limited [Demo.line 10 "abcdefgh", Demo.line 11 "ijklmn"] Demo.start with
  | none =>
    have : (fileDeviceAll Demo.env 0 Demo.limited [Demo.line 10 "abcdefgh", Demo.line 11 "ijklmn"] Demo.start).isSome =
      true := by kernel_rfl
    rw [h] at this; exact absurd this (by nofun)
  | some s' =>
    obtain ⟨t, ht⟩ := runs_ex _ h
    have e : ∀ {α : Type} (f : FileSt → α), f s' = f ((fileDeviceAll Demo.env 0 Demo.limited
        [Demo.line 10 "abcdefgh", Demo.line 11 "ijklmn"] Demo.start).getD Demo.start) := by
      intro α f; rw [h]; rfl
    have hl : s'.logs DEVICE_LOG_TOTAL_WRITE_LINE = 2 := by
      rw [e fun s => s.logs DEVICE_LOG_TOTAL_WRITE_LINE]; kernel_rfl
    have hv : ∀ log ∈ [Demo.line 10 "abcdefgh", Demo.line 11 "ijklmn"], Valid log := by
      intro log hl
      simp only [List.mem_cons, List.not_mem_nil, or_false] at hl
      rcases hl with rfl | rfl <;> exact ⟨by decide, by decide⟩
    have h1 := (C51_statistics hv ht).1
    rw [hl] at h1
    refine ⟨t, s', ht, ?_, ?_, ?_, ?_, by decide, fun log hm => ⟨hv log hm, ?_⟩⟩
    · have : Demo.start.logs DEVICE_LOG_TOTAL_WRITE_LINE = 0 := rfl
      omega
    · rw [e fun s => s.fs "a.log".toList]; kernel_rfl
    · rw [e fun s => s.fs "a.log.1".toList]; kernel_rfl
    · rw [e fun s => s.logs DEVICE_LOG_LAST_TRY_CREATE_CNT]; kernel_rfl
    · simp only [List.mem_cons, List.not_mem_nil, or_false] at hm
      rcases hm with rfl | rfl <;> kernel_rfl

/-- **C48** does not hold with `stuff_up`: after a restart a file of 8 bytes takes a line of 8 more, beyond the limit
of 10. -/
theorem C48_stuff_up_counterexample :
    ∃ s1 s2, fileDevice Demo.env 0 Demo.stuffed (Demo.line 10 "abcdefgh") Demo.start = some s1 ∧
      fileDevice Demo.env 0 Demo.stuffed (Demo.line 20 "ijklmnop") { Demo.start with fs := s1.fs } = some s2 ∧
      ∃ c, s2.fs "a.log".toList = some c ∧ ¬ Within Demo.stuffed.cfg.limitSize c := by
  cases h1 : fileDevice Demo.env 0 Demo.stuffed (Demo.line 10 "abcdefgh") Demo.start with
  | none =>
    have : (fileDevice Demo.env 0 Demo.stuffed (Demo.line 10 "abcdefgh") Demo.start).isSome = true := by kernel_rfl
    rw [h1] at this; exact absurd this (by nofun)
  | some s1 =>
    have e1 : s1 = (fileDevice Demo.env 0 Demo.stuffed (Demo.line 10 "abcdefgh") Demo.start).getD Demo.start := by
      rw [h1]; rfl
    cases h2 : fileDevice Demo.env 0 Demo.stuffed (Demo.line 20 "ijklmnop") { Demo.start with fs := s1.fs } with
    | none =>
      have : (fileDevice Demo.env 0 Demo.stuffed (Demo.line 20 "ijklmnop") { Demo.start with fs := s1.fs }).isSome = true := by
        rw [e1]; kernel_rfl
      rw [h2] at this; exact absurd this (by nofun)
    | some s2 =>
      refine ⟨s1, s2, rfl, h2, ["abcdefgh".toList, "ijklmnop".toList], ?_, ?_⟩
      · have e2 : s2.fs "a.log".toList = ((fileDevice Demo.env 0 Demo.stuffed (Demo.line 20 "ijklmnop")
            { Demo.start with fs := s1.fs }).getD Demo.start).fs "a.log".toList := by rw [h2]; rfl
        refine e2.trans ?_
        rw [e1]; kernel_rfl
      · intro h
        rcases h with h | ⟨b, h⟩
        · exact absurd h (by decide)
        · exact absurd h (by simp)

/-- The conditions of C50: two lines on both sides of midnight, the later one first. -/
example : FixedOffset Demo.env 0 ∧ (fileDeviceAll Demo.env 0 Demo.daily [Demo.line 86400 "b", Demo.line 86399 "a"]
    Demo.start).map (fun s => (s.handle, s.fs "01.log".toList, s.fs "02.log".toList)) =
    some (some "01.log".toList, some [['a']], some [['b']]) :=
  ⟨fun ts => ⟨by show ts - ts % 86400 = _; rw [Int.add_zero], by show ts - ts % 3600 = _; rw [Int.add_zero]⟩,
    by kernel_rfl⟩

/-- **C50** does not hold on a day of 23 hours: a line of 00:20 of the second day goes into the file of the first. -/
theorem C50_short_day_counterexample :
    (fileDeviceAll Demo.spring 0 Demo.daily [Demo.line 100 "a", Demo.line 84000 "b"] Demo.start).map
      (fun s => (s.handle, s.fs "01.log".toList)) = some (some "01.log".toList, some [['a'], ['b']]) ∧
    (Demo.spring.tm 84000).mday = 2 ∧
    fullPath Demo.spring.proc (Demo.spring.tm 84000) Demo.spring.fuel Demo.daily 0 = some "02.log".toList :=
  ⟨by kernel_rfl, by decide, by kernel_rfl⟩

/-- **C50** does not hold for `rollhourly` if `rolldaily` is set, too: then the hours are not looked at. -/
theorem C50_both_counterexample :
    (fileDeviceAll Demo.env 0 Demo.both [Demo.line 100 "a", Demo.line 4000 "b"] Demo.start).map
      (fun s => (s.handle, s.fs "00.log".toList)) = some (some "00.log".toList, some [['a'], ['b']]) ∧
    fullPath Demo.env.proc (Demo.env.tm 4000) Demo.env.fuel Demo.both 0 = some "01.log".toList ∧
    (fileDeviceAll Demo.env 0 Demo.hourly [Demo.line 100 "a", Demo.line 4000 "b"] Demo.start).map
      (fun s => (s.handle, s.fs "00.log".toList)) = some (some "01.log".toList, some [['a']]) :=
  ⟨by kernel_rfl, by kernel_rfl, by kernel_rfl⟩

/-- The counters of **C51** are about lines handed to an open file, not about bytes in it: a write that fails is
counted in full. -/
theorem C51_failed_write_counterexample :
    (fileDevice Demo.env 0 Demo.daily { Demo.line 100 "abc" with short := some 0 } Demo.start).map
      (fun s => (s.fs "01.log".toList, s.handle, s.logs DEVICE_LOG_TOTAL_WRITE_BYTE)) = some (some [[]], none, 3) := by
  kernel_rfl

/-- The conditions of C52: a failed open at 100, lines at 104 and (the clock set back) 50, a retry at 105. -/
example : (fileDevice Demo.env 0 Demo.daily { Demo.line 100 "a" with opens := false } Demo.start).isSome = true ∧
    ¬ Taken Demo.env 0 Demo.daily Demo.start { Demo.line 100 "a" with opens := false } ∧
    Tries Demo.daily Demo.start { Demo.line 100 "a" with opens := false } ∧
    (fileDeviceAll Demo.env 0 Demo.daily [{ Demo.line 100 "a" with opens := false }, Demo.line 104 "b",
      Demo.line 50 "c", Demo.line 105 "d"] Demo.start).map (fun s => (s.handle, s.fs "01.log".toList)) =
      some (some "01.log".toList, some [['d']]) := by
  have hs : ¬ Stays Demo.daily Demo.start { Demo.line 100 "a" with opens := false } := fun h => h.1 rfl
  refine ⟨by kernel_rfl, fun h => ?_, ⟨hs, Or.inr (by decide)⟩, by kernel_rfl⟩
  rcases h with h | ⟨_, h, _⟩
  · exact hs h
  · exact absurd h (by nofun)

end FNLog
