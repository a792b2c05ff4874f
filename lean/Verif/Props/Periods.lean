import Verif.Props.File

/-!
# C49 for devices whose file names change

What a file and its backups keep, when the name depends on the time: each name for itself.
-/

namespace FNLog
open Spec

/-- The device has processed `logs`; `bs` is what it has written to the file named `F`, which it has opened `n` times. -/
inductive Spec.Fills (E : FileEnv) (ch : Int) (d : Device) (F : List Char) : FileSt → List FileLog → Blocks → Nat → FileSt → Prop
  | nil (s : FileSt) : Fills E ch d F s [] [] 0 s
  /-- the line goes to the open file, which is `F` -/
  | adds {s s' s'' : FileSt} {log : FileLog} {logs : List FileLog} {bs : Blocks} {n : Nat} :
    fileDevice E ch d log s = some s' → Stays d s log → s.handle = some F → Fills E ch d F s' logs bs n s'' →
    Fills E ch d F s (log :: logs) (block log ++ bs) n s''
  /-- a file is opened for the line, and its name is `F` -/
  | opens {s s' s'' : FileSt} {log : FileLog} {logs : List FileLog} {bs : Blocks} {n : Nat} :
    fileDevice E ch d log s = some s' → ¬ Stays d s log → Taken E ch d s log →
    fullPath E.proc (E.tm log.ts) E.fuel d ch = some F → Fills E ch d F s' logs bs n s'' →
    Fills E ch d F s (log :: logs) (block log ++ bs) (n + 1) s''
  /-- the line is not taken, or goes to a file with another name -/
  | away {s s' s'' : FileSt} {log : FileLog} {logs : List FileLog} {bs : Blocks} {n : Nat} :
    fileDevice E ch d log s = some s' → ¬ (Stays d s log ∧ s.handle = some F) →
    ¬ (¬ Stays d s log ∧ Taken E ch d s log ∧ fullPath E.proc (E.tm log.ts) E.fuel d ch = some F) →
    Fills E ch d F s' logs bs n s'' → Fills E ch d F s (log :: logs) bs n s''

theorem backup_family {F G : List Char} (hF : Plain F) (hG : Plain G) {i j : Nat} (h : backup F i = backup G j) : F = G := by
  have h1 := nextPath_backup hF i 1 (by omega)
  rw [h, nextPath_backup hG j 1 (by omega)] at h1
  unfold backup at h1
  exact (List.append_inj_left' h1 rfl).symm

theorem kept_congr {N : Nat} {F : List Char} {a b : Fs} (h : ∀ i, i ≤ N → a (backup F i) = b (backup F i)) :
    kept N F a = kept N F b ∧ gaps N F a = gaps N F b := by
  induction N with
  | zero =>
    have h0 : a F = b F := h 0 (Nat.le_refl _)
    simp only [kept, gaps, h0, and_self]
  | succ n ih =>
    have h1 := h (n + 1) (Nat.le_refl _)
    obtain ⟨i1, i2⟩ := ih fun i hi => h i (by omega)
    simp only [kept, gaps, h1, i1, i2, and_self]

theorem rotate_away {d : Device} {lim : Bool} {F G : List Char} (hF : Plain F) (hG : Plain G) (hne : G ≠ F) (fs : Fs) (i : Nat) :
    rotate d lim G fs (backup F i) = fs (backup F i) := by
  rcases rotate_cases (d := d) (lim := lim) hG fs with ⟨h, _⟩ | ⟨h, _⟩ | ⟨n, _, _, _, h⟩
  · rw [h]
  · rw [h, Fs.set_other]
    intro e
    exact hne (backup_family hF hG (i := i) (j := 0) e).symm
  · exact h.others _ fun j _ e => hne (backup_family hF hG e).symm

theorem set_away {F G : List Char} (hF : Plain F) (hG : Plain G) (hne : G ≠ F) (fs : Fs) (c : Option Blocks) (i : Nat) :
    fs.set G c (backup F i) = fs (backup F i) :=
  Fs.set_other _ _ fun e => hne (backup_family hF hG (i := i) (j := 0) e).symm

theorem fills_kept {E : FileEnv} {ch : Int} {d : Device} (hr : d.cfg.rollback < 2 ^ 31) {F : List Char} (hF : Plain F)
    {logs : List FileLog} {bs : Blocks} {n : Nat} {s s' : FileSt} (h : Fills E ch d F s logs bs n s') :
    (∀ log ∈ logs, Valid log) → Opened E ch d s →
    kept (backups d) F s'.fs <:+ kept (backups d) F s.fs ++ bs ∧
    (n < gaps (backups d) F s.fs → kept (backups d) F s'.fs = kept (backups d) F s.fs ++ bs) := by
  have comp : ∀ {a b c : Blocks} (x y : Blocks), b <:+ a ++ x → c <:+ b ++ y → c <:+ a ++ (x ++ y) := by
    intro a b c x y h1 h2
    obtain ⟨u, hu⟩ := h1
    obtain ⟨v, hv⟩ := h2
    refine ⟨u ++ v, ?_⟩
    rw [List.append_assoc, hv, ← List.append_assoc, hu, List.append_assoc]
  induction h with
  | nil s =>
    intro _ _
    rw [List.append_nil]
    exact ⟨List.suffix_refl _, fun _ => rfl⟩
  | @adds s s1 s2 log logs bs n h1 hst hh _ ih =>
    intro hv ho
    have hvl := hv _ List.mem_cons_self
    obtain ⟨i1, i2⟩ := ih (fun l hl => hv l (List.mem_cons_of_mem _ hl)) (opened_step ho hvl h1)
    rcases taken_cases h1 hvl with ⟨_, _, path, hp, rfl⟩ | ⟨_, ht, _⟩ | ⟨hk, _⟩
    · obtain rfl : F = path := Option.some.inj (hh.symm.trans hp)
      obtain ⟨c, _, hc, _⟩ := ho F hp
      obtain ⟨k1, k2⟩ := kept_write (backups d) F s.fs c (block log) hc
      have e : (writeFile log F s).fs = s.fs.set F (some (c ++ block log)) := writeFile_fs hc
      rw [show ({ writeFile log F s with logs := accounted s.logs log.priority log.content.length } : FileSt).fs =
        s.fs.set F (some (c ++ block log)) from e, k1] at i1 i2
      rw [k2] at i2
      rw [← List.append_assoc]
      exact ⟨i1, i2⟩
    · exact absurd hst ht.1
    · exact absurd (Or.inl hst) hk
  | @opens s s1 s2 log logs bs n h1 hst htk hf _ ih =>
    intro hv ho
    have hvl := hv _ List.mem_cons_self
    obtain ⟨i1, i2⟩ := ih (fun l hl => hv l (List.mem_cons_of_mem _ hl)) (opened_step ho hvl h1)
    rcases taken_cases h1 hvl with ⟨_, h2, _⟩ | ⟨_, _, path, s3, hf', _, hop, hs3, rfl⟩ | ⟨hk, _⟩
    · exact absurd h2 hst
    · obtain rfl : F = path := Option.some.inj (hf.symm.trans hf')
      obtain ⟨c, hc, f1, _⟩ := openFile_fs hop hs3
      obtain ⟨r1, r2, r3⟩ := rotate_kept (lim := limitOut d s.logs log.content.length) hF hr s.fs
      obtain ⟨o1, o2⟩ := kept_open (backups d) F _ c hc
      have hc1 : s3.fs F = some c := by rw [f1, Fs.set_self]
      obtain ⟨k1, k2⟩ := kept_write (backups d) F s3.fs c (block log) hc1
      have e : (writeFile log F s3).fs = s3.fs.set F (some (c ++ block log)) := writeFile_fs hc1
      rw [show ({ writeFile log F s3 with logs := accounted s3.logs log.priority log.content.length } : FileSt).fs =
        s3.fs.set F (some (c ++ block log)) from e] at i1 i2
      rw [k1, f1, o1] at i1
      rw [k2, k1, f1, o1] at i2
      refine ⟨comp (block log) bs ?_ i1, fun hg => ?_⟩
      · obtain ⟨x, hx⟩ := r1
        exact ⟨x, by rw [← hx, List.append_assoc]⟩
      · rw [i2 (by omega), r3 (by omega), List.append_assoc]
    · exact absurd htk hk
  | @away s s1 s2 log logs bs n h1 hna hno _ ih =>
    intro hv ho
    have hvl := hv _ List.mem_cons_self
    obtain ⟨i1, i2⟩ := ih (fun l hl => hv l (List.mem_cons_of_mem _ hl)) (opened_step ho hvl h1)
    have same : (∀ i, s1.fs (backup F i) = s.fs (backup F i)) → kept (backups d) F s2.fs <:+ kept (backups d) F s.fs ++ bs ∧
        (n < gaps (backups d) F s.fs → kept (backups d) F s2.fs = kept (backups d) F s.fs ++ bs) := by
      intro hs
      obtain ⟨c1, c2⟩ := kept_congr (N := backups d) (F := F) (a := s1.fs) (b := s.fs) fun i _ => hs i
      rw [c1] at i1 i2
      rw [c2] at i2
      exact ⟨i1, i2⟩
    rcases taken_cases h1 hvl with ⟨_, hst, path, hp, rfl⟩ | ⟨htk, htr, path, s3, hf, _, hop, hs3, rfl⟩ | ⟨_, _, _, hfs⟩
    · have hne : path ≠ F := fun e => hna ⟨hst, by rw [hp, e]⟩
      obtain ⟨c, ts, hc, _, _, hf, _⟩ := ho path hp
      refine same fun i => ?_
      show (writeFile log path s).fs _ = _
      rw [writeFile_fs hc, set_away hF (fullPath_plain hf) hne]
    · have hne : path ≠ F := fun e => hno ⟨htr.1, htk, by rw [hf, e]⟩
      obtain ⟨c, _, f1, _⟩ := openFile_fs hop hs3
      have hc1 : s3.fs path = some c := by rw [f1, Fs.set_self]
      refine same fun i => ?_
      show (writeFile log path s3).fs _ = _
      rw [writeFile_fs hc1, set_away hF (fullPath_plain hf) hne, f1, set_away hF (fullPath_plain hf) hne,
        rotate_away hF (fullPath_plain hf) hne]
    · rcases hfs with e | ⟨path, lim, hf, e⟩
      · exact same fun i => by rw [e]
      · by_cases hne : path = F
        · subst hne
          obtain ⟨r1, r2, r3⟩ := rotate_kept (lim := lim) hF hr s.fs
          rw [e] at i1 i2
          refine ⟨?_, fun hg => ?_⟩
          · obtain ⟨x, hx⟩ := r1
            obtain ⟨y, hy⟩ := i1
            exact ⟨x ++ y, by rw [List.append_assoc, hy, ← List.append_assoc, hx]⟩
          · rw [i2 (by omega), r3 (by omega)]
        · exact same fun i => by rw [e, rotate_away hF (fullPath_plain hf) hne]

/-- **C49** for any file names: for every name that the device gives to a file, the content of its backups and the file,
oldest first, is the end of what they contained before followed by all lines written to files of this name, whatever is done
with other files in between; nothing is missing as long as it was opened fewer times than there were missing among the
file and its backups. -/
theorem C49_each_name {E : FileEnv} {ch : Int} {d : Device} (hr : d.cfg.rollback < 2 ^ 31) {F : List Char} {ts : Int}
    (hF : fullPath E.proc (E.tm ts) E.fuel d ch = some F) {logs : List FileLog} {bs : Blocks} {n : Nat} {s s' : FileSt}
    (hs : s.handle = none) (hv : ∀ log ∈ logs, Valid log) (h : Fills E ch d F s logs bs n s') :
    kept (backups d) F s'.fs <:+ kept (backups d) F s.fs ++ bs ∧
    (n < gaps (backups d) F s.fs → kept (backups d) F s'.fs = kept (backups d) F s.fs ++ bs) :=
  fills_kept hr (fullPath_plain hF) h hv (opened_closed hs)

theorem fills_ex {E : FileEnv} {ch : Int} {d : Device} {logs t : List FileLog} {s s' : FileSt} (h : Runs E ch d s logs t s') :
    (∀ log ∈ logs, Valid log) → Opened E ch d s →
    ∃ w : List (List Char × FileLog), w.map Prod.snd = t ∧
      (∀ x ∈ w, ∃ ts, fullPath E.proc (E.tm ts) E.fuel d ch = some x.1) ∧
      ∀ F, ∃ n, Fills E ch d F s logs ((w.filter fun x => x.1 = F).flatMap fun x => block x.2) n s' := by
  induction h with
  | nil s => exact fun _ _ => ⟨[], rfl, nofun, fun F => ⟨0, .nil s⟩⟩
  | @taken s s1 s2 log logs t h1 htk _ ih =>
    intro hv ho
    have hvl := hv _ List.mem_cons_self
    obtain ⟨w, hw, hp, hf⟩ := ih (fun l hl => hv l (List.mem_cons_of_mem _ hl)) (opened_step ho hvl h1)
    by_cases hst : Stays d s log
    · cases hh : s.handle with
      | none => exact absurd hh hst.1
      | some G =>
        obtain ⟨_, ts, _, _, _, hG, _⟩ := ho G hh
        refine ⟨(G, log) :: w, by rw [List.map_cons, hw], fun x hx => ?_, fun F => ?_⟩
        · rcases List.mem_cons.mp hx with rfl | hx
          · exact ⟨ts, hG⟩
          · exact hp x hx
        obtain ⟨n, hn⟩ := hf F
        by_cases e : G = F
        · rw [List.filter_cons_of_pos (by simpa using e), List.flatMap_cons]
          exact ⟨n, .adds h1 hst (by rw [hh, e]) hn⟩
        · rw [List.filter_cons_of_neg (by simpa using e)]
          exact ⟨n, .away h1 (fun h => e (Option.some.inj (hh.symm.trans h.2))) (fun h => h.1 hst) hn⟩
    · obtain ⟨_, _, G, hG, _⟩ := htk.resolve_left hst
      refine ⟨(G, log) :: w, by rw [List.map_cons, hw], fun x hx => ?_, fun F => ?_⟩
      · rcases List.mem_cons.mp hx with rfl | hx
        · exact ⟨_, hG⟩
        · exact hp x hx
      obtain ⟨n, hn⟩ := hf F
      by_cases e : G = F
      · rw [List.filter_cons_of_pos (by simpa using e), List.flatMap_cons]
        exact ⟨n + 1, .opens h1 hst htk (by rw [hG, e]) hn⟩
      · rw [List.filter_cons_of_neg (by simpa using e)]
        exact ⟨n, .away h1 (fun h => hst h.1) (fun h => e (Option.some.inj (hG.symm.trans h.2.2))) hn⟩
  | @dropped s s1 s2 log logs t h1 hn _ ih =>
    intro hv ho
    obtain ⟨w, hw, hp, hf⟩ := ih (fun l hl => hv l (List.mem_cons_of_mem _ hl)) (opened_step ho (hv _ List.mem_cons_self) h1)
    exact ⟨w, hw, hp, fun F => (hf F).imp fun n h => .away h1 (fun h => hn (Or.inl h.1)) (fun h => hn h.2.1) h⟩

/-- Every run is of this kind, for all names at once: each line taken goes to a file of exactly one name, `w` says which, and
what a name gets are the lines that go to it, in their order. -/
theorem C49_fills {E : FileEnv} {ch : Int} {d : Device} {logs t : List FileLog} {s s' : FileSt} (hs : s.handle = none)
    (hv : ∀ log ∈ logs, Valid log) (h : Runs E ch d s logs t s') :
    ∃ w : List (List Char × FileLog), w.map Prod.snd = t ∧
      (∀ x ∈ w, ∃ ts, fullPath E.proc (E.tm ts) E.fuel d ch = some x.1) ∧
      ∀ F, ∃ n, Fills E ch d F s logs ((w.filter fun x => x.1 = F).flatMap fun x => block x.2) n s' :=
  fills_ex h hv (opened_closed hs)

theorem fills_count {E : FileEnv} {ch : Int} {d : Device} {F : List Char} {logs : List FileLog} {bs : Blocks} {n : Nat}
    {s s' : FileSt} (h : Fills E ch d F s logs bs n s') : (∀ log ∈ logs, Valid log) →
    (n : Int) ≤ s'.logs DEVICE_LOG_LAST_TRY_CREATE_CNT - s.logs DEVICE_LOG_LAST_TRY_CREATE_CNT := by
  have step : ∀ {log : FileLog} {s s1 : FileSt}, fileDevice E ch d log s = some s1 → Valid log →
      s.logs DEVICE_LOG_LAST_TRY_CREATE_CNT ≤ s1.logs DEVICE_LOG_LAST_TRY_CREATE_CNT ∧
      (¬ Stays d s log → Taken E ch d s log →
        s1.logs DEVICE_LOG_LAST_TRY_CREATE_CNT = s.logs DEVICE_LOG_LAST_TRY_CREATE_CNT + 1) := by
    intro log s s1 h1 hv
    rcases taken_cases h1 hv with ⟨_, hs, path, hh, rfl⟩ | ⟨_, _, path, s3, _, _, hop, hs3, rfl⟩ | ⟨hk, _, hl, _⟩
    · exact ⟨Int.le_of_eq (accounted_other (by decide) (by decide)).symm, fun hn => absurd hs hn⟩
    · obtain ⟨c, _, _, _, _, _, _, _, _, _, f9, _⟩ := openFile_fs hop hs3
      have hcnt : (accounted s3.logs log.priority log.content.length) DEVICE_LOG_LAST_TRY_CREATE_CNT =
          s.logs DEVICE_LOG_LAST_TRY_CREATE_CNT + 1 := by
        rw [accounted_other (by decide) (by decide), f9, openBase_other (by decide)]
      exact ⟨by show _ ≤ accounted _ _ _ _; rw [hcnt]; omega, fun _ _ => hcnt⟩
    · exact ⟨Int.le_of_eq (hl _ (by decide)).symm, fun _ h => absurd h hk⟩
  induction h with
  | nil s => intro _; omega
  | adds h1 _ _ _ ih =>
    intro hv
    have := ih fun l hl => hv l (List.mem_cons_of_mem _ hl)
    have := (step h1 (hv _ List.mem_cons_self)).1
    omega
  | opens h1 hst htk _ _ ih =>
    intro hv
    have := ih fun l hl => hv l (List.mem_cons_of_mem _ hl)
    have := (step h1 (hv _ List.mem_cons_self)).2 hst htk
    omega
  | away h1 _ _ _ ih =>
    intro hv
    have := ih fun l hl => hv l (List.mem_cons_of_mem _ hl)
    have := (step h1 (hv _ List.mem_cons_self)).1
    omega

/-- **C49** in an empty directory, whatever names the device generates: if at most `N` files were opened, then each line
taken has a name such that the files of this name contain exactly the lines that have it, in their order: no line is lost
and none is there twice. -/
theorem C49_names_no_loss {E : FileEnv} {ch : Int} {d : Device} (hr : d.cfg.rollback < 2 ^ 31)
    {logs t : List FileLog} {s s' : FileSt} (hs : s.handle = none) (hfs : s.fs = fun _ => none)
    (hv : ∀ log ∈ logs, Valid log) (h : Runs E ch d s logs t s')
    (hN : s'.logs DEVICE_LOG_LAST_TRY_CREATE_CNT - s.logs DEVICE_LOG_LAST_TRY_CREATE_CNT ≤ backups d) :
    ∃ w : List (List Char × FileLog), w.map Prod.snd = t ∧
      ∀ x ∈ w, kept (backups d) x.1 s'.fs = (w.filter fun y => y.1 = x.1).flatMap fun y => block y.2 := by
  obtain ⟨w, hw, hp, hf⟩ := C49_fills hs hv h
  refine ⟨w, hw, fun x hx => ?_⟩
  obtain ⟨ts, hF⟩ := hp x hx
  obtain ⟨n, hn⟩ := hf x.1
  have hc := fills_count hn hv
  rw [(C49_each_name hr hF hs hv hn).2 (by rw [hfs, (kept_empty _ _).2]; omega), hfs, (kept_empty _ _).1]
  rfl

namespace Demo

/-- One file for each day, with up to three backups. -/
def kept3 : Device := { file := "$DAY".toList, cfg := { rolldaily := 1, rollback := 3 } }

/-- The state after `line ts text`. -/
def next (ts : Int) (text : String) (s : FileSt) : FileSt := (fileDevice env 0 kept3 (line ts text) s).getD start

def k1 : FileSt := next 86398 "a" start
def k2 : FileSt := next 86399 "b" k1
def k3 : FileSt := next 86400 "c" k2
def k4 : FileSt := next 86399 "d" k3

end Demo

/-- The conditions of `C49_each_name` and `C49_names_no_loss`: two lines of one day, one of the next, and again one of the first. The file of the
first day is opened twice and gets three lines, which are in it and its backup. -/
theorem C49_case_each_name :
    fullPath Demo.env.proc (Demo.env.tm 86399) Demo.env.fuel Demo.kept3 0 = some "01.log".toList ∧
    Fills Demo.env 0 Demo.kept3 "01.log".toList Demo.start
      [Demo.line 86398 "a", Demo.line 86399 "b", Demo.line 86400 "c", Demo.line 86399 "d"]
      ["a".toList, "b".toList, "d".toList] 2 Demo.k4 ∧
    Runs Demo.env 0 Demo.kept3 Demo.start
      [Demo.line 86398 "a", Demo.line 86399 "b", Demo.line 86400 "c", Demo.line 86399 "d"]
      [Demo.line 86398 "a", Demo.line 86399 "b", Demo.line 86400 "c", Demo.line 86399 "d"] Demo.k4 ∧
    Demo.k4.logs DEVICE_LOG_LAST_TRY_CREATE_CNT - Demo.start.logs DEVICE_LOG_LAST_TRY_CREATE_CNT ≤ backups Demo.kept3 ∧
    2 < gaps (backups Demo.kept3) "01.log".toList Demo.start.fs ∧
    Demo.k4.fs "01.log.1".toList = some ["a".toList, "b".toList] ∧ Demo.k4.fs "01.log".toList = some ["d".toList] ∧
    Demo.k4.fs "02.log".toList = some ["c".toList] := by
  have step : ∀ (ts : Int) (text : String) (s : FileSt), (fileDevice Demo.env 0 Demo.kept3 (Demo.line ts text) s).isSome = true →
      fileDevice Demo.env 0 Demo.kept3 (Demo.line ts text) s = some (Demo.next ts text s) := by
    intro ts text s h
    unfold Demo.next
    cases e : fileDevice Demo.env 0 Demo.kept3 (Demo.line ts text) s with
    | none => rw [e] at h; exact absurd h (by nofun)
    | some _ => rfl
  have n1 : ¬ Stays Demo.kept3 Demo.start (Demo.line 86398 "a") := fun h => h.1 rfl
  have d2 : Demo.k1.logs DEVICE_LOG_CUR_FILE_CREATE_DAY = 0 := by kernel_rfl
  have h2 : Demo.k1.handle = some "01.log".toList := by kernel_rfl
  have d3 : Demo.k2.logs DEVICE_LOG_CUR_FILE_CREATE_DAY = 0 := by kernel_rfl
  have h3 : Demo.k2.handle = some "01.log".toList := by kernel_rfl
  have d4 : Demo.k3.logs DEVICE_LOG_CUR_FILE_CREATE_DAY = 86400 := by kernel_rfl
  have h4 : Demo.k3.handle = some "02.log".toList := by kernel_rfl
  have y2 : Stays Demo.kept3 Demo.k1 (Demo.line 86399 "b") := by
    refine ⟨by rw [h2]; nofun, ?_, ?_⟩
    · unfold TooBig; intro h; exact absurd h.1 (by decide)
    · unfold OtherPeriod; rw [d2]; decide
  have n3 : ¬ Stays Demo.kept3 Demo.k2 (Demo.line 86400 "c") := by
    intro h
    apply h.2.2
    unfold OtherPeriod; rw [d3]; decide
  have n4 : ¬ Stays Demo.kept3 Demo.k3 (Demo.line 86399 "d") := by
    intro h
    apply h.2.2
    unfold OtherPeriod; rw [d4]; decide
  have t1 : Taken Demo.env 0 Demo.kept3 Demo.start (Demo.line 86398 "a") :=
    Or.inr ⟨⟨n1, Or.inr (by decide)⟩, rfl, "01.log".toList, by kernel_rfl, by decide⟩
  have t3 : Taken Demo.env 0 Demo.kept3 Demo.k2 (Demo.line 86400 "c") :=
    Or.inr ⟨⟨n3, Or.inl fun e => absurd (h3.symm.trans e) (by nofun)⟩, rfl, "02.log".toList, by kernel_rfl, by decide⟩
  have t4 : Taken Demo.env 0 Demo.kept3 Demo.k3 (Demo.line 86399 "d") :=
    Or.inr ⟨⟨n4, Or.inl fun e => absurd (h4.symm.trans e) (by nofun)⟩, rfl, "01.log".toList, by kernel_rfl, by decide⟩
  have hc : Demo.k4.logs DEVICE_LOG_LAST_TRY_CREATE_CNT = 3 := by kernel_rfl
  refine ⟨by kernel_rfl, ?_, ?_, by rw [hc]; decide, by decide, by kernel_rfl, by kernel_rfl, by kernel_rfl⟩
  · refine .opens (bs := ["b".toList, "d".toList]) (step _ _ _ (by kernel_rfl)) n1 t1 (by kernel_rfl) ?_
    refine .adds (bs := ["d".toList]) (step _ _ _ (by kernel_rfl)) y2 h2 ?_
    refine .away (step _ _ _ (by kernel_rfl)) (fun h => n3 h.1) (fun h => ?_) ?_
    · have e : fullPath Demo.env.proc (Demo.env.tm 86400) Demo.env.fuel Demo.kept3 0 = some "02.log".toList := by kernel_rfl
      exact absurd (Option.some.inj (e.symm.trans h.2.2)) (by decide)
    · exact .opens (bs := []) (step _ _ _ (by kernel_rfl)) n4 t4 (by kernel_rfl) (.nil _)
  · exact .taken (step _ _ _ (by kernel_rfl)) t1 (.taken (step _ _ _ (by kernel_rfl)) (Or.inl y2)
      (.taken (step _ _ _ (by kernel_rfl)) t3 (.taken (step _ _ _ (by kernel_rfl)) t4 (.nil _))))

end FNLog
