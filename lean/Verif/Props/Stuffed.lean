import Verif.Props.File

/-!
# C48 with `stuff_up`
-/

namespace FNLog
open Spec

theorem runs_shorter {E : FileEnv} {ch : Int} {d : Device} {logs t : List FileLog} {s s' : FileSt}
    (h : Runs E ch d s logs t s') : t.length ≤ logs.length := by
  induction h with
  | nil => exact Nat.le_refl _
  | taken _ _ _ ih => exact Nat.succ_le_succ ih
  | dropped _ _ _ ih => exact Nat.le_succ_of_le ih

theorem runs_sublist {E : FileEnv} {ch : Int} {d : Device} {logs t : List FileLog} {s s' : FileSt}
    (h : Runs E ch d s logs t s') : t.Sublist logs := by
  induction h with
  | nil => exact List.Sublist.refl _
  | taken _ _ _ ih => exact ih.cons_cons _
  | dropped _ _ _ ih => exact ih.cons _

/-- Induction along a run in which every line is taken. -/
theorem runs_taken_induct {E : FileEnv} {ch : Int} {d : Device} {P : FileSt → Prop} {logs t : List FileLog} {s s' : FileSt}
    (h : Runs E ch d s logs t s') (ht : t = logs)
    (step : ∀ log ∈ logs, ∀ s s', P s → fileDevice E ch d log s = some s' → Taken E ch d s log → P s') (hs : P s) : P s' := by
  induction h with
  | nil => exact hs
  | taken h1 h2 _ ih =>
    exact ih (List.cons.inj ht).2 (fun log hl => step log (List.mem_cons_of_mem _ hl)) (step _ List.mem_cons_self _ _ hs h1 h2)
  | dropped _ _ h3 _ =>
    have := runs_shorter h3
    rw [ht, List.length_cons] at this
    omega

/-- **C48** with `stuff_up`, for a device that does not roll by the day or hour: if every line is taken and written
completely, every file is within the limit afterwards, or is one that was there before, with at most one line more.
Missing: with daily or hourly rolling there is no limit at all (`C48_two_days_counterexample`). -/
theorem C48_stuffed_partial {E : FileEnv} {ch : Int} {d : Device} (hl : 0 < d.cfg.limitSize) (hr : 0 < d.cfg.rollback)
    (hd : d.cfg.rolldaily = 0) (hh : d.cfg.rollhourly = 0) {logs : List FileLog} {s s' : FileSt} (hs : s.handle = none)
    (hv : ∀ log ∈ logs, Valid log) (hw : ∀ log ∈ logs, log.short = none) (h : Runs E ch d s logs logs s')
    (q : List Char) (c : Blocks) (hc : s'.fs q = some c) :
    Within d.cfg.limitSize c ∨ ∃ q0 c0, s.fs q0 = some c0 ∧ (c = c0 ∨ ∃ b, c = c0 ++ [b]) := by
  have main : Opened E ch d s' ∧ ((s'.handle = none ∧ ∀ q c, s'.fs q = some c → ∃ q0, s.fs q0 = some c) ∨
      (s'.handle ≠ none ∧ ∀ q c, s'.fs q = some c →
        Within d.cfg.limitSize c ∨ ∃ q0 c0, s.fs q0 = some c0 ∧ (c = c0 ∨ ∃ b, c = c0 ++ [b]))) := by
    refine runs_taken_induct (P := fun s' => Opened E ch d s' ∧ ((s'.handle = none ∧ ∀ q c, s'.fs q = some c → ∃ q0, s.fs q0 = some c) ∨
      (s'.handle ≠ none ∧ ∀ q c, s'.fs q = some c →
        Within d.cfg.limitSize c ∨ ∃ q0 c0, s.fs q0 = some c0 ∧ (c = c0 ∨ ∃ b, c = c0 ++ [b])))) h rfl ?_
      ⟨opened_closed hs, Or.inl ⟨hs, fun q c h => ⟨q, h⟩⟩⟩
    intro log hlog s1 s2 ⟨ho, hi⟩ h htk
    refine ⟨opened_step ho (hv log hlog) h, Or.inr ?_⟩
    have hsame : ∀ (p : List Char) (x : FileSt), (writeFile log p x).handle = x.handle := by
      intro p x
      unfold writeFile
      rw [hw log hlog]
      split <;> rfl
    have hb : block log = [] ∨ ∃ b, block log = [b] := by
      unfold block
      split
      · exact Or.inl rfl
      · split <;> exact Or.inr ⟨_, rfl⟩
    have hi' : ∀ q c, s1.fs q = some c →
        Within d.cfg.limitSize c ∨ ∃ q0 c0, s.fs q0 = some c0 ∧ (c = c0 ∨ ∃ b, c = c0 ++ [b]) := by
      rcases hi with ⟨_, hi⟩ | ⟨_, hi⟩
      · intro q c hq
        obtain ⟨q0, h0⟩ := hi q c hq
        exact Or.inr ⟨q0, c, h0, Or.inl rfl⟩
      · exact hi
    rcases taken_cases h (hv log hlog) with ⟨_, hst, path, hhd, rfl⟩ | ⟨_, htr, path, s3, hf, _, hop, hs3, rfl⟩ | ⟨hn, _⟩
    · obtain ⟨c0, _, hc0, hsz, _⟩ := ho path hhd
      refine ⟨by show (writeFile log path s1).handle ≠ none; rw [hsame]; exact hst.1, ?_⟩
      intro q c hq
      change (writeFile log path s1).fs q = some c at hq
      rw [writeFile_fs hc0] at hq
      by_cases e : q = path
      · rw [e, Fs.set_self] at hq
        obtain rfl := Option.some.inj hq
        left; left
        have hnb := hst.2.1
        have hb : ¬ d.cfg.limitSize < s1.logs DEVICE_LOG_CUR_FILE_SIZE + log.content.length :=
          fun e => hnb ⟨hl, hr, e⟩
        rw [fileSize_append]
        have := fileSize_block log
        omega
      · rw [Fs.set_other _ _ e] at hq
        exact hi' q c hq
    · obtain ⟨c0, hc0, f1, f2, _⟩ := openFile_fs hop hs3
      have hc1 : s3.fs path = some c0 := by rw [f1, Fs.set_self]
      refine ⟨by show (writeFile log path s3).handle ≠ none; rw [hsame, f2]; nofun, ?_⟩
      intro q c hq
      change (writeFile log path s3).fs q = some c at hq
      rw [writeFile_fs hc1] at hq
      by_cases e : q = path
      · rw [e, Fs.set_self] at hq
        obtain rfl := Option.some.inj hq
        have gone : c0 = [] → Within d.cfg.limitSize (c0 ++ block log) := by
          rintro rfl
          rcases hb with e | ⟨b, e⟩ <;> rw [e]
          · left; exact Int.le_of_lt hl
          · exact Or.inr ⟨b, rfl⟩
        rcases hi with ⟨_, hi⟩ | ⟨hnn, _⟩
        · cases hro : rotate d (limitOut d s1.logs log.content.length) path s1.fs path with
          | none => rw [hro] at hc0; exact Or.inl (gone hc0)
          | some c1 =>
            rw [hro] at hc0
            obtain rfl : c0 = c1 := hc0
            obtain ⟨q', hq'⟩ := rotate_from (fullPath_plain hf) hro
            obtain ⟨q0, h0⟩ := hi q' _ hq'
            refine Or.inr ⟨q0, c0, h0, ?_⟩
            rcases hb with e | ⟨b, e⟩ <;> rw [e]
            · exact Or.inl (List.append_nil _)
            · exact Or.inr ⟨b, rfl⟩
        · have hbig : TooBig d s1 log := by
            refine Classical.byContradiction fun hnb => htr.1 ⟨hnn, hnb, ?_⟩
            rintro (⟨h, _⟩ | ⟨_, h, _⟩)
            · exact h hd
            · exact h hh
          have hlim : limitOut d s1.logs log.content.length = true := by
            unfold limitOut
            simp only [Bool.and_eq_true, decide_eq_true_eq]
            exact ⟨⟨hbig.1, hbig.2.1⟩, hbig.2.2⟩
          rw [rotate_gone (fullPath_plain hf) s1.fs (Or.inl hr) (Or.inr hlim)] at hc0
          exact Or.inl (gone hc0)
      · rw [Fs.set_other _ _ e, f1, Fs.set_other _ _ e] at hq
        obtain ⟨q', hq'⟩ := rotate_from (fullPath_plain hf) hq
        exact hi' q' c hq'
    · exact absurd htk hn
  rcases main.2 with ⟨_, hi⟩ | ⟨_, hi⟩
  · obtain ⟨q0, h0⟩ := hi q c hc
    exact Or.inr ⟨q0, c, h0, Or.inl rfl⟩
  · exact hi q c hc

/-- A line that closes the open file and opens one: what is in it, and the statistics. -/
theorem reopens {E : FileEnv} {ch : Int} {d : Device} {log : FileLog} {s : FileSt} {path : List Char} (hh : s.handle ≠ none)
    (hv : 0 ≤ log.priority ∧ log.priority < 8) (hc : log.content ≠ []) (hw : log.short = none) (ho : log.opens = true)
    (hp : fullPath E.proc (E.tm log.ts) E.fuel d ch = some path) (hl : path.length < 250)
    (hclose : (limitOut d s.logs log.content.length || periodOut d s.logs log.ts) = true) :
    ∃ c s', c = (rotate d (limitOut d s.logs log.content.length) path s.fs path).getD [] ∧
      fileDevice E ch d log s = some s' ∧ s'.handle = some path ∧ s'.fs path = some (c ++ [log.content]) ∧
      (∀ q, q ≠ path → s'.fs q = rotate d (limitOut d s.logs log.content.length) path s.fs q) ∧
      s'.logs DEVICE_LOG_CUR_FILE_SIZE = fileSize c + log.content.length ∧
      s'.logs DEVICE_LOG_CUR_FILE_CREATE_DAY = E.createDay log.ts := by
  obtain ⟨s1, hs1⟩ : ∃ s1, s1 = openFile E log path (FileSt.mk (rotate d (limitOut d s.logs log.content.length) path s.fs) none
    (s.logs.put DEVICE_LOG_CUR_FILE_SIZE 0)) := ⟨_, rfl⟩
  obtain ⟨c, hc0, f1, f2, f3, _, f5, _⟩ := openFile_fs ho hs1
  have hop : openFileDevice E ch d log s = some s1 := by
    unfold openFileDevice
    simp only
    rw [if_pos hclose, if_neg (by simp), hp]
    simp only [Option.bind_eq_bind, Option.bind_some]
    rw [if_neg (by omega), hs1]
    rfl
  have hc1 : s1.fs path = some c := by rw [f1, Fs.set_self]
  have hblock : block log = [log.content] := by unfold block; rw [if_neg hc, hw]
  refine ⟨c, { writeFile log path s1 with logs := accounted s1.logs log.priority log.content.length }, hc0, ?_, ?_, ?_, ?_, ?_, ?_⟩
  · unfold fileDevice
    rw [if_neg (fun h => hh h.1), hop]
    simp only [Option.bind_eq_bind, Option.bind_some, f2]
    have : (writeFile log path s1).logs = s1.logs := by unfold writeFile; rw [if_neg hc, hw]
    rw [this, accountFile_eq hv]
    rfl
  · show (writeFile log path s1).handle = _
    unfold writeFile; rw [if_neg hc, hw]; exact f2
  · show (writeFile log path s1).fs path = _
    rw [writeFile_fs hc1, Fs.set_self, hblock]
  · intro q hq
    show (writeFile log path s1).fs q = _
    rw [writeFile_fs hc1, Fs.set_other _ _ hq, f1, Fs.set_other _ _ hq]
  · show accounted _ _ _ _ = _
    rw [accounted_size, f3]
  · exact (accounted_other (by decide) (by decide)).trans f5

namespace Demo

/-- One file for each day, at most 10 bytes each, three backups, `stuff_up`. -/
def twoDays : Device := { file := "$DAY".toList, cfg := { rolldaily := 1, limitSize := 10, rollback := 3, stuffUp := 1 } }

/-- A line of the first day and one of the second. -/
def midnight : List FileLog := [line 86399 "abcdefgh", line 86400 "x"]

end Demo

/-- After the lines of two days the file of the second is open, and that of the first has `k` lines. -/
structure TwoDays (k : Nat) (s : FileSt) : Prop where
  handle : s.handle = some "02.log".toList
  size : s.logs DEVICE_LOG_CUR_FILE_SIZE = 1
  day : s.logs DEVICE_LOG_CUR_FILE_CREATE_DAY = 86400
  first : s.fs "01.log".toList = some (List.replicate k "abcdefgh".toList)

theorem fileSize_replicate (k : Nat) : fileSize (List.replicate k "abcdefgh".toList) = 8 * k := by
  unfold fileSize
  rw [List.map_replicate, List.sum_replicate_nat]
  show ((k * 8 : Nat) : Int) = _
  omega

theorem twoDays_step {k : Nat} (hk : 1 ≤ k) {s : FileSt} (h : TwoDays k s) :
    ∃ s', fileDeviceAll Demo.env 0 Demo.twoDays Demo.midnight s = some s' ∧ TwoDays (k + 1) s' := by
  have hlen : (Demo.line 86399 "abcdefgh").content.length = 8 := by decide
  have hlen2 : (Demo.line 86400 "x").content.length = 1 := by decide
  have l1 : limitOut Demo.twoDays s.logs (Demo.line 86399 "abcdefgh").content.length = false := by
    unfold limitOut; rw [h.size, hlen]; decide
  have p1 : periodOut Demo.twoDays s.logs (Demo.line 86399 "abcdefgh").ts = true := by
    unfold periodOut; rw [h.day, if_pos (by decide)]; decide
  obtain ⟨c, s1, hc, e1, h1, f1, o1, z1, d1⟩ := reopens (E := Demo.env) (ch := 0) (d := Demo.twoDays) (log := Demo.line 86399 "abcdefgh") (s := s)
    (path := "01.log".toList) (by rw [h.handle]; nofun) (by decide) (by decide) rfl rfl (by kernel_rfl) (by decide) (by rw [p1, Bool.or_true])
  have hr : rotate Demo.twoDays false "01.log".toList s.fs = s.fs := by
    unfold rotate
    rw [if_pos (by decide), if_neg (by decide)]
  rw [l1, hr, h.first] at hc
  change c = List.replicate k _ at hc
  rw [hc] at f1 z1
  rw [fileSize_replicate, hlen] at z1
  have l2 : limitOut Demo.twoDays s1.logs (Demo.line 86400 "x").content.length = true := by
    unfold limitOut
    rw [z1, hlen2]
    simp only [Bool.and_eq_true, decide_eq_true_eq]
    refine ⟨⟨by decide, by decide⟩, ?_⟩
    show (10 : Int) < _
    omega
  obtain ⟨c2, s2, hc2, e2, h2, f2, o2, z2, d2⟩ := reopens (E := Demo.env) (ch := 0) (d := Demo.twoDays) (log := Demo.line 86400 "x") (s := s1)
    (path := "02.log".toList) (by rw [h1]; nofun) (by decide) (by decide) rfl rfl (by kernel_rfl) (by decide) (by rw [l2, Bool.true_or])
  have hpl : Plain "02.log".toList := fullPath_plain (p := Demo.env.proc) (t := Demo.env.tm 86400) (fuel := Demo.env.fuel) (d := Demo.twoDays) (ch := 0) (by kernel_rfl)
  rw [rotate_gone hpl s1.fs (Or.inl (by decide)) (Or.inr l2)] at hc2
  change c2 = [] at hc2
  subst hc2
  refine ⟨s2, ?_, h2, ?_, d2, ?_⟩
  · simp only [Demo.midnight, fileDeviceAll, e1, e2, Option.bind_some]
  · rw [z2, hlen2]; rfl
  · rw [o2 _ (by decide)]
    have hother : rotate Demo.twoDays (limitOut Demo.twoDays s1.logs (Demo.line 86400 "x").content.length) "02.log".toList s1.fs "01.log".toList =
        s1.fs "01.log".toList := by
      rcases rotate_cases (d := Demo.twoDays) (lim := limitOut Demo.twoDays s1.logs (Demo.line 86400 "x").content.length) hpl s1.fs with
        ⟨h, _⟩ | ⟨_, h⟩ | ⟨n, _, _, _, h⟩
      · rw [h]
      · exact absurd h (by decide)
      · refine h.others _ fun i _ e => ?_
        unfold backup at e
        split at e
        · exact absurd e (by decide)
        · have := congrArg (fun l => l[1]?) e
          exact absurd this (by simp)
    rw [hother, f1, List.replicate_succ']
    rfl

/-- **C48** does not hold at all with `stuff_up` and daily rolling: when lines of two days alternate (threads around
midnight, or a clock that is put back), the size looked at is that of the file of the other day, and that one is rotated.
The file of the first day takes a line each time: with a limit of 10 bytes it gets any number of lines of 8 bytes. -/
theorem C48_two_days_counterexample (n : Nat) :
    ∃ s, fileDeviceAll Demo.env 0 Demo.twoDays (List.replicate (n + 1) Demo.midnight).flatten Demo.start = some s ∧
      s.fs "01.log".toList = some (List.replicate (n + 1) "abcdefgh".toList) := by
  have base : ∃ s, fileDeviceAll Demo.env 0 Demo.twoDays Demo.midnight Demo.start = some s ∧ TwoDays 1 s := by
    cases h : fileDeviceAll Demo.env 0 Demo.twoDays Demo.midnight Demo.start with
    | none =>
      have : (fileDeviceAll Demo.env 0 Demo.twoDays Demo.midnight Demo.start).isSome = true := by kernel_rfl
      rw [h] at this; exact absurd this (by nofun)
    | some s =>
      have e : s = (fileDeviceAll Demo.env 0 Demo.twoDays Demo.midnight Demo.start).getD Demo.start := by rw [h]; rfl
      refine ⟨s, rfl, ?_, ?_, ?_, ?_⟩ <;> rw [e] <;> kernel_rfl
  have app : ∀ (a b : List FileLog) (s s1 : FileSt), fileDeviceAll Demo.env 0 Demo.twoDays a s = some s1 →
      fileDeviceAll Demo.env 0 Demo.twoDays (a ++ b) s = fileDeviceAll Demo.env 0 Demo.twoDays b s1 := by
    intro a b
    induction a with
    | nil => intro s s1 h; obtain rfl := Option.some.inj h; rfl
    | cons x a ih =>
      intro s s1 h
      rw [List.cons_append, fileDeviceAll]
      rw [fileDeviceAll] at h
      cases hx : fileDevice Demo.env 0 Demo.twoDays x s with
      | none => rw [hx] at h; exact absurd h (by nofun)
      | some s2 => rw [hx] at h; exact ih s2 s1 h
  have main : ∃ s, fileDeviceAll Demo.env 0 Demo.twoDays (List.replicate (n + 1) Demo.midnight).flatten Demo.start = some s ∧
      TwoDays (n + 1) s := by
    induction n with
    | zero =>
      obtain ⟨s, h1, h2⟩ := base
      exact ⟨s, by rw [List.replicate_one, List.flatten_singleton]; exact h1, h2⟩
    | succ n ih =>
      obtain ⟨s, h1, h2⟩ := ih
      obtain ⟨s', h3, h4⟩ := twoDays_step (by omega) h2
      refine ⟨s', ?_, h4⟩
      rw [List.replicate_succ', List.flatten_append, List.flatten_singleton, app _ _ _ _ h1]
      exact h3
  obtain ⟨s, h1, h2⟩ := main
  exact ⟨s, h1, h2.first⟩

/-- The conditions of `C48_stuffed_partial`: a file of 8 bytes is there, and a session of two lines puts 16 bytes into it,
then starts a new one. -/
theorem C48_case_stuffed : ∃ s', Runs Demo.env 0 Demo.stuffed
    { Demo.start with fs := fun q => if q = "a.log".toList then some ["abcdefgh".toList] else none }
    [Demo.line 20 "ijklmnop", Demo.line 21 "q"] [Demo.line 20 "ijklmnop", Demo.line 21 "q"] s' ∧
    s'.fs "a.log.1".toList = some ["abcdefgh".toList, "ijklmnop".toList] ∧ s'.fs "a.log".toList = some ["q".toList] ∧
    (∀ log ∈ [Demo.line 20 "ijklmnop", Demo.line 21 "q"], Valid log ∧ log.short = none) ∧
    Demo.stuffed.cfg.rolldaily = 0 ∧ Demo.stuffed.cfg.rollhourly = 0 := by
  obtain ⟨s0, hs0⟩ : ∃ s0, s0 = { Demo.start with fs := fun q => if q = "a.log".toList then some ["abcdefgh".toList] else none } := ⟨_, rfl⟩
  rw [← hs0]
  cases h : fileDeviceAll Demo.env 0 Demo.stuffed [Demo.line 20 "ijklmnop", Demo.line 21 "q"] s0 with
  | none =>
    have : (fileDeviceAll Demo.env 0 Demo.stuffed [Demo.line 20 "ijklmnop", Demo.line 21 "q"] s0).isSome = true := by
      rw [hs0]; kernel_rfl
    rw [h] at this; exact absurd this (by nofun)
  | some s' =>
    obtain ⟨t, ht⟩ := runs_ex _ h
    have e : s' = (fileDeviceAll Demo.env 0 Demo.stuffed [Demo.line 20 "ijklmnop", Demo.line 21 "q"] s0).getD s0 := by rw [h]; rfl
    have hv : ∀ log ∈ [Demo.line 20 "ijklmnop", Demo.line 21 "q"], Valid log ∧ log.short = none := by
      intro log hl
      simp only [List.mem_cons, List.not_mem_nil, or_false] at hl
      rcases hl with rfl | rfl <;> exact ⟨⟨by decide, by decide⟩, rfl⟩
    have hn := (C51_statistics (fun l hl => (hv l hl).1) ht).1
    have h2 : s'.logs DEVICE_LOG_TOTAL_WRITE_LINE = 2 := by rw [e, hs0]; kernel_rfl
    have h0 : s0.logs DEVICE_LOG_TOTAL_WRITE_LINE = 0 := by rw [hs0]; rfl
    rw [h2, h0] at hn
    have hsub : t.Sublist [Demo.line 20 "ijklmnop", Demo.line 21 "q"] := runs_sublist ht
    have : t = [Demo.line 20 "ijklmnop", Demo.line 21 "q"] := hsub.eq_of_length (by simp only [List.length_cons, List.length_nil]; omega)
    rw [this] at ht
    refine ⟨s', ht, ?_, ?_, hv, rfl, rfl⟩ <;> rw [e, hs0] <;> kernel_rfl

end FNLog
