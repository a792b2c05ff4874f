import Verif.Proof.FileName

/-!
# Proofs about the file device
-/

namespace FNLog

open Spec

theorem limitOut_iff {d : Device} {s : FileSt} {log : FileLog} :
    limitOut d s.logs log.content.length = true ↔ TooBig d s log := by
  unfold limitOut TooBig
  simp only [Bool.and_eq_true, decide_eq_true_eq, gt_iff_lt, and_assoc]

theorem periodOut_iff {d : Device} {s : FileSt} {log : FileLog} :
    periodOut d s.logs log.ts = true ↔ OtherPeriod d s log := by
  unfold periodOut OtherPeriod
  by_cases h1 : d.cfg.rolldaily ≠ 0
  · rw [if_pos h1]
    simp only [Bool.or_eq_true, decide_eq_true_eq]
    omega
  · rw [if_neg h1]
    by_cases h2 : d.cfg.rollhourly ≠ 0
    · rw [if_pos h2]
      simp only [Bool.or_eq_true, decide_eq_true_eq]
      omega
    · rw [if_neg h2]
      constructor
      · nofun
      · intro h
        rcases h with h | h
        · exact absurd h.1 h1
        · exact absurd h.2.1 h2

/-- The statistics with which a file is opened. -/
def openBase (d : Device) (s : FileSt) (log : FileLog) : Fields :=
  if limitOut d s.logs log.content.length || periodOut d s.logs log.ts then s.logs.put DEVICE_LOG_CUR_FILE_SIZE 0
  else s.logs

/-- The cases of EnterProcOutFileDevice. -/
inductive FCase (E : FileEnv) (ch : Int) (d : Device) (log : FileLog) (s : FileSt) : FileSt → Prop
  | skipped : s.handle = none → ¬ Tries d s log → log.ts < s.logs DEVICE_LOG_LAST_TRY_CREATE_TIMESTAMP + 5 →
    FCase E ch d log s s
  | stays (path : List Char) (l : Fields) : s.handle = some path → Stays d s log →
    accountFile s.logs log.priority log.content.length = some l →
    FCase E ch d log s { writeFile log path s with logs := l }
  | long (path : List Char) : Tries d s log → fullPath E.proc (E.tm log.ts) E.fuel d ch = some path →
    250 ≤ path.length →
    FCase E ch d log s (openFailed 1 log.ts { fs := s.fs, handle := none, logs := openBase d s log })
  | refused (path : List Char) : Tries d s log → fullPath E.proc (E.tm log.ts) E.fuel d ch = some path →
    path.length < 250 → log.opens = false →
    FCase E ch d log s (openFailed 2 log.ts (FileSt.mk (rotate d (limitOut d s.logs log.content.length) path s.fs) none
      (openBase d s log)))
  | opens (path : List Char) (s1 : FileSt) (l : Fields) : Tries d s log →
    fullPath E.proc (E.tm log.ts) E.fuel d ch = some path →
    path.length < 250 → log.opens = true →
    s1 = openFile E log path (FileSt.mk (rotate d (limitOut d s.logs log.content.length) path s.fs) none
      (openBase d s log)) →
    accountFile s1.logs log.priority log.content.length = some l →
    FCase E ch d log s { writeFile log path s1 with logs := l }

theorem writeFile_logs (log : FileLog) (path : List Char) (s : FileSt) : (writeFile log path s).logs = s.logs := by
  unfold writeFile
  split
  · rfl
  · split <;> rfl

theorem fileDevice_cases {E : FileEnv} {ch : Int} {d : Device} {log : FileLog} {s s' : FileSt}
    (h : fileDevice E ch d log s = some s') : FCase E ch d log s s' := by
  unfold fileDevice at h
  by_cases hk : s.handle = none ∧ s.logs DEVICE_LOG_LAST_TRY_CREATE_TIMESTAMP + 5 > log.ts
  · rw [if_pos hk] at h
    obtain rfl := Option.some.inj h
    refine .skipped hk.1 (fun ht => ?_) hk.2
    rcases ht.2 with e | e
    · exact e hk.1
    · have := hk.2; omega
  · rw [if_neg hk] at h
    cases ho : openFileDevice E ch d log s with
    | none => rw [ho] at h; exact absurd h (by nofun)
    | some s1 =>
      rw [ho] at h
      change (match s1.handle with
        | none => some s1
        | some path => (accountFile (writeFile log path s1).logs log.priority log.content.length).bind fun logs =>
          some { writeFile log path s1 with logs := logs }) = some s' at h
      unfold openFileDevice at ho
      by_cases hs : Stays d s log
      · have h1 : limitOut d s.logs log.content.length = false := Bool.eq_false_iff.mpr fun e => hs.2.1 (limitOut_iff.mp e)
        have h2 : periodOut d s.logs log.ts = false := Bool.eq_false_iff.mpr fun e => hs.2.2 (periodOut_iff.mp e)
        rw [h1, h2] at ho
        simp only [Bool.or_self, Bool.false_eq_true, if_false] at ho
        rw [if_pos hs.1] at ho
        obtain rfl := Option.some.inj ho
        cases hh : s.handle with
        | none => exact absurd hh hs.1
        | some path =>
          rw [hh] at h
          simp only at h
          rw [writeFile_logs] at h
          obtain ⟨l, hl, h⟩ := Option.bind_eq_some_iff.mp h
          obtain rfl := Option.some.inj h
          exact .stays path l hh hs hl
      · have ht : Tries d s log := by
          refine ⟨hs, ?_⟩
          by_cases hn : s.handle = none
          · right
            have : ¬ s.logs DEVICE_LOG_LAST_TRY_CREATE_TIMESTAMP + 5 > log.ts := fun e => hk ⟨hn, e⟩
            omega
          · exact Or.inl hn
        obtain ⟨o, hob⟩ : ∃ o, o = (limitOut d s.logs log.content.length || periodOut d s.logs log.ts) := ⟨_, rfl⟩
        have hclosed : (if o = true then
            { s with logs := s.logs.put DEVICE_LOG_CUR_FILE_SIZE 0, handle := none } else s) =
            ({ fs := s.fs, handle := none, logs := openBase d s log } : FileSt) := by
          unfold openBase
          rw [← hob]
          cases o with
          | true => rfl
          | false =>
            obtain ⟨ha, hb⟩ := Bool.or_eq_false_iff.mp hob.symm
            have hn : s.handle = none := by
              apply Decidable.byContradiction
              intro hn
              refine hs ⟨hn, fun e => ?_, fun e => ?_⟩
              · rw [limitOut_iff.mpr e] at ha; exact absurd ha (by nofun)
              · rw [periodOut_iff.mpr e] at hb; exact absurd hb (by nofun)
            cases s
            simp only at hn
            subst hn
            rfl
        dsimp only at ho
        rw [← hob, hclosed] at ho
        rw [if_neg (fun e => e rfl)] at ho
        obtain ⟨path, hp, ho⟩ := Option.bind_eq_some_iff.mp ho
        by_cases hl : path.length ≥ 250
        · rw [if_pos hl] at ho
          obtain rfl := Option.some.inj ho
          obtain rfl := Option.some.inj h
          exact .long path ht hp hl
        · rw [if_neg hl] at ho
          have ho := Option.some.inj ho
          cases hop : log.opens with
          | false =>
            have e : s1 = openFailed 2 log.ts (FileSt.mk (rotate d (limitOut d s.logs log.content.length) path s.fs)
                none (openBase d s log)) := by
              rw [← ho]; unfold openFile; rw [if_pos hop]
            subst e
            obtain rfl := Option.some.inj h
            exact .refused path ht hp (by omega) hop
          | true =>
            have hh : s1.handle = some path := by
              rw [← ho]; unfold openFile; rw [if_neg (by rw [hop]; nofun)]
            rw [hh] at h
            simp only at h
            rw [writeFile_logs] at h
            obtain ⟨l, hl', h⟩ := Option.bind_eq_some_iff.mp h
            obtain rfl := Option.some.inj h
            exact .opens path s1 l ht hp (by omega) hop ho.symm hl'

/-! ## Statistics -/

/-- The statistics after a line. -/
def accounted (f : Fields) (priority len : Int) : Fields := fun k =>
  f k + (if k = DEVICE_LOG_TOTAL_WRITE_LINE then 1 else 0) + (if k = DEVICE_LOG_TOTAL_WRITE_BYTE then len else 0) +
    (if k = DEVICE_LOG_CUR_FILE_SIZE then len else 0) + (if k = DEVICE_LOG_PRIORITY + priority.toNat then len else 0)

theorem accountFile_eq {f : Fields} {p len : Int} (hp : 0 ≤ p ∧ p < 8) :
    accountFile f p len = some (accounted f p len) := by
  have e1 : ∀ g v, incField DEVICE_LOG_MAX_ID g DEVICE_LOG_TOTAL_WRITE_LINE v =
      some (fun k => if k = DEVICE_LOG_TOTAL_WRITE_LINE then g k + v else g k) := fun g v => rfl
  have e2 : ∀ g v, incField DEVICE_LOG_MAX_ID g DEVICE_LOG_TOTAL_WRITE_BYTE v =
      some (fun k => if k = DEVICE_LOG_TOTAL_WRITE_BYTE then g k + v else g k) := fun g v => rfl
  have e3 : ∀ g v, incField DEVICE_LOG_MAX_ID g DEVICE_LOG_CUR_FILE_SIZE v =
      some (fun k => if k = DEVICE_LOG_CUR_FILE_SIZE then g k + v else g k) := fun g v => rfl
  have e4 : ∀ g v, incField DEVICE_LOG_MAX_ID g (DEVICE_LOG_PRIORITY + p) v =
      some (fun k => if k = DEVICE_LOG_PRIORITY + p.toNat then g k + v else g k) := by
    intro g v
    obtain ⟨n, rfl⟩ : ∃ n : Nat, p = n := ⟨p.toNat, by omega⟩
    have hm : ((DEVICE_LOG_PRIORITY : Int) + (n : Int)) % 2 ^ 32 = (DEVICE_LOG_PRIORITY : Int) + (n : Int) := by
      apply Int.emod_eq_of_lt
      · omega
      · have : (DEVICE_LOG_PRIORITY : Int) = 7 := rfl
        have : (2 : Int) ^ 32 = 4294967296 := rfl
        omega
    have ht : ((DEVICE_LOG_PRIORITY : Int) + (n : Int)).toNat = DEVICE_LOG_PRIORITY + n := by omega
    unfold incField
    simp only [hm, ht, Int.toNat_natCast]
    rw [if_pos (by have : DEVICE_LOG_PRIORITY = 7 := rfl; have : DEVICE_LOG_MAX_ID = 18 := rfl; omega)]
  unfold accountFile
  rw [e1]; simp only [Option.bind_eq_bind, Option.bind_some]
  rw [e2]; simp only [Option.bind_some]
  rw [e3]; simp only [Option.bind_some]
  rw [e4]
  congr 1
  funext k
  unfold accounted
  have a1 : DEVICE_LOG_TOTAL_WRITE_LINE = 15 := rfl
  have a2 : DEVICE_LOG_TOTAL_WRITE_BYTE = 16 := rfl
  have a3 : DEVICE_LOG_CUR_FILE_SIZE = 0 := rfl
  have a4 : DEVICE_LOG_PRIORITY = 7 := rfl
  simp only [a1, a2, a3, a4]
  by_cases h1 : k = 15
  · subst h1; simp; rw [if_neg (by omega), if_neg (by omega)]; simp
  by_cases h2 : k = 16
  · subst h2; simp; rw [if_neg (by omega), if_neg (by omega)]; simp
  by_cases h3 : k = 0
  · subst h3; simp; rw [if_neg (by omega), if_neg (by omega)]; simp
  simp [h1, h2, h3]
  split <;> simp_all

/-! ## The steps -/

theorem writeFile_fs {log : FileLog} {path : List Char} {s : FileSt} {c : Blocks} (h : s.fs path = some c) :
    (writeFile log path s).fs = s.fs.set path (some (c ++ block log)) := by
  unfold writeFile block
  by_cases he : log.content = []
  · rw [if_pos he, if_pos he, List.append_nil, ← h, Fs.set_eq]
  · rw [if_neg he, if_neg he, h]
    cases log.short <;> rfl

theorem writeFile_handle {log : FileLog} {path p : List Char} {s : FileSt} (h : (writeFile log path s).handle = some p) :
    s.handle = some p ∧ fileSize (block log) = log.content.length := by
  unfold writeFile at h
  unfold block
  by_cases he : log.content = []
  · rw [if_pos he] at h ⊢
    rw [he]; exact ⟨h, rfl⟩
  · rw [if_neg he] at h ⊢
    cases hs : log.short with
    | none =>
      rw [hs] at h
      refine ⟨h, ?_⟩
      simp [fileSize]
    | some n => rw [hs] at h; exact absurd h (by nofun)

theorem writeFile_handle_full {log : FileLog} {path : List Char} {s : FileSt} (h : log.short = none) :
    (writeFile log path s).handle = s.handle := by
  unfold writeFile
  by_cases he : log.content = []
  · rw [if_pos he]
  · rw [if_neg he, h]

theorem fileSize_append (a b : Blocks) : fileSize (a ++ b) = fileSize a + fileSize b := by
  unfold fileSize
  rw [List.map_append, List.sum_append]
  omega

theorem fileSize_nonneg (a : Blocks) : 0 ≤ fileSize a := by unfold fileSize; omega

theorem fileSize_block (log : FileLog) : fileSize (block log) ≤ log.content.length := by
  unfold block
  split
  · exact Int.natCast_nonneg _
  · split <;> simp [fileSize]
    exact Nat.min_le_right _ _

theorem openFile_fs {E : FileEnv} {log : FileLog} {path : List Char} {r : Fs} {L : Fields} {s1 : FileSt}
    (h : log.opens = true) (hs1 : s1 = openFile E log path (FileSt.mk r none L)) :
    ∃ c, c = (r path).getD [] ∧ s1.fs = r.set path (some c) ∧ s1.handle = some path ∧
    s1.logs DEVICE_LOG_CUR_FILE_SIZE = fileSize c ∧
    s1.logs DEVICE_LOG_CUR_FILE_CREATE_TIMESTAMP = log.ts ∧
    s1.logs DEVICE_LOG_CUR_FILE_CREATE_DAY = E.createDay log.ts ∧
    s1.logs DEVICE_LOG_CUR_FILE_CREATE_HOUR = E.createHour log.ts ∧
    s1.logs DEVICE_LOG_LAST_TRY_CREATE_TIMESTAMP = 0 ∧
    s1.logs DEVICE_LOG_LAST_TRY_CREATE_ERROR = 0 ∧
    s1.logs DEVICE_LOG_LAST_TRY_CREATE_CNT = L DEVICE_LOG_LAST_TRY_CREATE_CNT + 1 ∧
    ∀ k, 7 ≤ k → s1.logs k = L k := by
  subst hs1
  unfold openFile
  rw [if_neg (by rw [h]; nofun)]
  refine ⟨_, rfl, rfl, rfl, rfl, rfl, rfl, rfl, rfl, rfl, rfl, ?_⟩
  intro k hk
  have a1 : DEVICE_LOG_CUR_FILE_SIZE = 0 := rfl
  have a2 : DEVICE_LOG_CUR_FILE_CREATE_TIMESTAMP = 1 := rfl
  have a3 : DEVICE_LOG_CUR_FILE_CREATE_DAY = 2 := rfl
  have a4 : DEVICE_LOG_CUR_FILE_CREATE_HOUR = 3 := rfl
  have a5 : DEVICE_LOG_LAST_TRY_CREATE_TIMESTAMP = 4 := rfl
  have a6 : DEVICE_LOG_LAST_TRY_CREATE_ERROR = 5 := rfl
  have a7 : DEVICE_LOG_LAST_TRY_CREATE_CNT = 6 := rfl
  simp only [Fields.put]
  rw [if_neg (by omega), if_neg (by omega), if_neg (by omega), if_neg (by omega), if_neg (by omega),
    if_neg (by omega), if_neg (by omega)]

theorem openBase_other {d : Device} {s : FileSt} {log : FileLog} {k : Nat} (h : k ≠ 0) : openBase d s log k = s.logs k := by
  unfold openBase
  split
  · exact if_neg h
  · rfl

theorem accounted_other {f : Fields} {p len : Int} {k : Nat} (h : 0 < k) (h7 : k < 7) : accounted f p len k = f k := by
  unfold accounted
  have a1 : DEVICE_LOG_TOTAL_WRITE_LINE = 15 := rfl
  have a2 : DEVICE_LOG_TOTAL_WRITE_BYTE = 16 := rfl
  have a3 : DEVICE_LOG_CUR_FILE_SIZE = 0 := rfl
  have a4 : DEVICE_LOG_PRIORITY = 7 := rfl
  rw [if_neg (by omega), if_neg (by omega), if_neg (by omega), if_neg (by omega)]
  omega

theorem accounted_size {f : Fields} {p len : Int} :
    accounted f p len DEVICE_LOG_CUR_FILE_SIZE = f DEVICE_LOG_CUR_FILE_SIZE + len := by
  unfold accounted
  have a1 : DEVICE_LOG_TOTAL_WRITE_LINE = 15 := rfl
  have a2 : DEVICE_LOG_TOTAL_WRITE_BYTE = 16 := rfl
  have a3 : DEVICE_LOG_CUR_FILE_SIZE = 0 := rfl
  have a4 : DEVICE_LOG_PRIORITY = 7 := rfl
  rw [if_neg (by omega), if_neg (by omega), if_pos rfl, if_neg (by omega)]
  omega

/-! ## Rotation by the device -/

theorem toInt_small {x : Int} (h0 : 0 < x) (h : x < 2 ^ 31) : toInt x = x := by
  unfold toInt; omega

theorem toInt_le {x : Int} (h0 : 0 < x) : toInt x ≤ x := by
  unfold toInt; omega

theorem rotate_cases {d : Device} {lim : Bool} {path : List Char} (hp : Plain path) (fs : Fs) :
    (rotate d lim path fs = fs ∧ ¬ ((0 < d.cfg.rollback ∨ 0 < d.cfg.limitSize) ∧ (d.cfg.stuffUp = 0 ∨ lim = true))) ∨
    (rotate d lim path fs = fs.set path none ∧ 2 ^ 31 ≤ d.cfg.rollback) ∨
    ∃ n, 1 ≤ n ∧ n ≤ backups d ∧ (d.cfg.rollback < 2 ^ 31 → n = backups d) ∧ Rotated n path fs (rotate d lim path fs) := by
  unfold rotate
  by_cases h1 : d.cfg.rollback > 0 ∨ d.cfg.limitSize > 0
  · rw [if_pos h1]
    by_cases h2 : d.cfg.stuffUp = 0 ∨ lim = true
    · rw [if_pos h2]
      right
      by_cases hr : d.cfg.rollback > 0
      · rw [if_pos hr]
        by_cases hn : toInt d.cfg.rollback < 1
        · left
          refine ⟨rollback_neg hn fs, ?_⟩
          apply Int.not_lt.mp
          intro h; rw [toInt_small hr h] at hn; omega
        · right
          obtain ⟨n, hn'⟩ : ∃ n : Nat, toInt d.cfg.rollback = n := ⟨(toInt d.cfg.rollback).toNat, by omega⟩
          have hle := toInt_le hr
          have hb : backups d = d.cfg.rollback.toNat := if_pos hr
          refine ⟨n, by omega, by rw [hb]; omega, fun h => ?_, ?_⟩
          · rw [toInt_small hr h] at hn'; rw [hb]; omega
          · rw [hn']; exact rollback_rotated hp n fs
      · rw [if_neg hr]
        right
        have hb : backups d = 1 := by
          unfold backups
          rw [if_neg (by omega), if_pos (by rcases h1 with h | h; exact absurd h hr; exact h)]
        refine ⟨1, Nat.le_refl _, by rw [hb]; exact Nat.le_refl _, fun _ => hb.symm, ?_⟩
        exact rollback_rotated hp 1 fs
    · rw [if_neg h2]
      exact Or.inl ⟨rfl, fun h => h2 h.2⟩
  · rw [if_neg h1]
    exact Or.inl ⟨rfl, fun h => h1 h.1⟩

theorem rotated_from {n : Nat} {F : List Char} {old new : Fs} (h : Rotated n F old new) {q : List Char} {c : Blocks}
    (hq : new q = some c) : ∃ q', old q' = some c := by
  by_cases hb : ∃ i, i ≤ n ∧ q = backup F i
  · obtain ⟨i, hi, rfl⟩ := hb
    by_cases h0 : i = 0
    · subst h0
      rw [show backup F 0 = F from rfl, h.gone] at hq
      exact absurd hq (by nofun)
    · by_cases hr : Run old F i
      · rw [h.moved i (by omega) hi hr] at hq; exact ⟨_, hq⟩
      · rw [h.stays i (by omega) hi hr] at hq; exact ⟨_, hq⟩
  · rw [h.others q fun i hi e => hb ⟨i, hi, e⟩] at hq
    exact ⟨q, hq⟩

theorem rotate_from {d : Device} {lim : Bool} {path : List Char} (hp : Plain path) {fs : Fs} {q : List Char} {c : Blocks}
    (hq : rotate d lim path fs q = some c) : ∃ q', fs q' = some c := by
  rcases rotate_cases (d := d) (lim := lim) hp fs with ⟨h, _⟩ | ⟨h, _⟩ | ⟨n, _, _, _, h⟩
  · rw [h] at hq; exact ⟨q, hq⟩
  · rw [h] at hq
    by_cases e : q = path
    · rw [e, Fs.set_self] at hq; exact absurd hq (by nofun)
    · rw [Fs.set_other _ _ e] at hq; exact ⟨q, hq⟩
  · exact rotated_from h hq

theorem rotate_gone {d : Device} {lim : Bool} {path : List Char} (hp : Plain path) (fs : Fs)
    (h1 : 0 < d.cfg.rollback ∨ 0 < d.cfg.limitSize) (h2 : d.cfg.stuffUp = 0 ∨ lim = true) :
    rotate d lim path fs path = none := by
  rcases rotate_cases (d := d) (lim := lim) hp fs with ⟨_, h⟩ | ⟨h, _⟩ | ⟨n, _, _, _, h⟩
  · exact absurd ⟨h1, h2⟩ h
  · rw [h, Fs.set_self]
  · exact h.gone

/-! ## The open file -/

theorem opened_step {E : FileEnv} {ch : Int} {d : Device} {log : FileLog} {s s' : FileSt} (ho : Opened E ch d s)
    (hv : Valid log) (h : fileDevice E ch d log s = some s') : Opened E ch d s' := by
  cases fileDevice_cases h with
  | skipped _ _ _ => exact ho
  | stays path l hh hs hl =>
    intro p hp
    obtain ⟨hp', hsz⟩ := writeFile_handle hp
    obtain ⟨c, ts, hc, h0, h1, h2, h3, h4⟩ := ho p hp'
    obtain rfl : path = p := Option.some.inj (hh.symm.trans hp')
    rw [accountFile_eq hv] at hl
    obtain rfl := Option.some.inj hl
    refine ⟨c ++ block log, ts, ?_, ?_, ?_, h2, ?_, ?_⟩
    · show (writeFile log path s).fs path = _
      rw [writeFile_fs hc, Fs.set_self]
    · show accounted _ _ _ _ = _
      rw [accounted_size, fileSize_append, hsz, h0]
    · exact (accounted_other (by decide) (by decide)).trans h1
    · exact (accounted_other (by decide) (by decide)).trans h3
    · exact (accounted_other (by decide) (by decide)).trans h4
  | long path _ _ _ => intro p hp; exact absurd hp (by nofun)
  | refused path _ _ _ _ => intro p hp; exact absurd hp (by nofun)
  | opens path s1 l ht hf hlen hop hs1 hl =>
    intro p hp
    obtain ⟨hp', hsz⟩ := writeFile_handle hp
    obtain ⟨c, _, f1, f2, f3, f4, f5, f6, _⟩ := openFile_fs hop hs1
    obtain rfl : path = p := Option.some.inj (f2.symm.trans hp')
    have hc := congrFun f1 path
    rw [Fs.set_self] at hc
    rw [accountFile_eq hv] at hl
    obtain rfl := Option.some.inj hl
    refine ⟨c ++ block log, log.ts, ?_, ?_, ?_, hf, ?_, ?_⟩
    · show (writeFile log path s1).fs path = _
      rw [writeFile_fs hc, Fs.set_self]
    · show accounted _ _ _ _ = _
      rw [accounted_size, fileSize_append, hsz, f3]
    · exact (accounted_other (by decide) (by decide)).trans f4
    · exact (accounted_other (by decide) (by decide)).trans f5
    · exact (accounted_other (by decide) (by decide)).trans f6

theorem opened_closed {E : FileEnv} {ch : Int} {d : Device} {s : FileSt} (h : s.handle = none) : Opened E ch d s := by
  intro p hp; rw [h] at hp; exact absurd hp (by nofun)

theorem taken_of_stays {E : FileEnv} {ch : Int} {d : Device} {s : FileSt} {log : FileLog} (h : Stays d s log) :
    Taken E ch d s log := Or.inl h

theorem runs_ex {E : FileEnv} {ch : Int} {d : Device} (logs : List FileLog) : ∀ {s s' : FileSt},
    fileDeviceAll E ch d logs s = some s' → ∃ t, Runs E ch d s logs t s' := by
  induction logs with
  | nil => intro s s' h; exact ⟨[], Option.some.inj h ▸ .nil s⟩
  | cons log logs ih =>
    intro s s' h
    obtain ⟨s1, h1, h2⟩ := Option.bind_eq_some_iff.mp h
    obtain ⟨t, ht⟩ := ih h2
    by_cases hk : Taken E ch d s log
    · exact ⟨_, .taken h1 hk ht⟩
    · exact ⟨_, .dropped h1 hk ht⟩

theorem runs_all {E : FileEnv} {ch : Int} {d : Device} {logs t : List FileLog} {s s' : FileSt}
    (h : Runs E ch d s logs t s') : fileDeviceAll E ch d logs s = some s' := by
  induction h with
  | nil => rfl
  | taken h1 _ _ ih => rw [fileDeviceAll, h1]; exact ih
  | dropped h1 _ _ ih => rw [fileDeviceAll, h1]; exact ih

/-- An invariant of the steps holds after all of them. -/
theorem runs_induct {E : FileEnv} {ch : Int} {d : Device} {P : FileSt → Prop} {logs t : List FileLog} {s s' : FileSt}
    (step : ∀ log ∈ logs, ∀ s s', P s → fileDevice E ch d log s = some s' → P s') (h : Runs E ch d s logs t s') (hs : P s) :
    P s' := by
  induction h with
  | nil => exact hs
  | taken h1 _ _ ih =>
    exact ih (fun log hl => step log (List.mem_cons_of_mem _ hl)) (step _ List.mem_cons_self _ _ hs h1)
  | dropped h1 _ _ ih =>
    exact ih (fun log hl => step log (List.mem_cons_of_mem _ hl)) (step _ List.mem_cons_self _ _ hs h1)

end FNLog
