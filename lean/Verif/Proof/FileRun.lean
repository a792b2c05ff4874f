import Verif.Proof.File

/-!
# Proofs about sequences of lines
-/

namespace FNLog

open Spec

theorem taken_cases {E : FileEnv} {ch : Int} {d : Device} {log : FileLog} {s s' : FileSt}
    (h : fileDevice E ch d log s = some s') (hv : Valid log) :
    (Taken E ch d s log ∧ Stays d s log ∧ ∃ path, s.handle = some path ∧
      s' = { writeFile log path s with logs := accounted s.logs log.priority log.content.length }) ∨
    (Taken E ch d s log ∧ Tries d s log ∧ ∃ path s1, fullPath E.proc (E.tm log.ts) E.fuel d ch = some path ∧
      path.length < 250 ∧ log.opens = true ∧
      s1 = openFile E log path (FileSt.mk (rotate d (limitOut d s.logs log.content.length) path s.fs) none
        (openBase d s log)) ∧
      s' = { writeFile log path s1 with logs := accounted s1.logs log.priority log.content.length }) ∨
    (¬ Taken E ch d s log ∧ s'.handle = none ∧ (∀ k, 6 ≤ k → s'.logs k = s.logs k) ∧
      (s'.fs = s.fs ∨ ∃ path lim, fullPath E.proc (E.tm log.ts) E.fuel d ch = some path ∧
        s'.fs = rotate d lim path s.fs)) := by
  have key : ∀ (code : Int) (fs : Fs) (k : Nat), 6 ≤ k →
      (openFailed code log.ts (FileSt.mk fs none (openBase d s log))).logs k = s.logs k := by
    intro code fs k hk
    have a1 : DEVICE_LOG_LAST_TRY_CREATE_TIMESTAMP = 4 := rfl
    have a2 : DEVICE_LOG_LAST_TRY_CREATE_ERROR = 5 := rfl
    unfold openFailed
    simp only [Fields.put]
    rw [if_neg (by omega), if_neg (by omega), openBase_other (by omega)]
  cases fileDevice_cases h with
  | skipped hn ht hts =>
    refine Or.inr (Or.inr ⟨fun hk => ?_, hn, fun _ _ => rfl, Or.inl rfl⟩)
    rcases hk with hk | hk
    · exact hk.1 hn
    · exact ht hk.1
  | stays path l hh hs hl =>
    rw [accountFile_eq hv] at hl
    obtain rfl := Option.some.inj hl
    exact Or.inl ⟨Or.inl hs, hs, path, hh, rfl⟩
  | long path ht hf hlen =>
    refine Or.inr (Or.inr ⟨fun hk => ?_, rfl, fun k hk => key 1 _ k hk, Or.inl rfl⟩)
    rcases hk with hk | ⟨_, _, p, hp, hp'⟩
    · exact ht.1 hk
    · rw [hf] at hp
      obtain rfl := Option.some.inj hp
      omega
  | refused path ht hf hlen hop =>
    refine Or.inr (Or.inr ⟨fun hk => ?_, rfl, fun k hk => key 2 _ k hk, Or.inr ⟨path, _, hf, rfl⟩⟩)
    rcases hk with hk | ⟨_, ho, _⟩
    · exact ht.1 hk
    · rw [hop] at ho; exact absurd ho (by nofun)
  | opens path s1 l ht hf hlen hop hs1 hl =>
    rw [accountFile_eq hv] at hl
    obtain rfl := Option.some.inj hl
    exact Or.inr (Or.inl ⟨Or.inr ⟨ht, hop, path, hf, hlen⟩, ht, path, s1, hf, hlen, hop, hs1, rfl⟩)

/-- With a name and a valid priority the device never fails. -/
theorem fileDevice_total {E : FileEnv} {ch : Int} {d : Device} {log : FileLog} {s : FileSt} {path : List Char}
    (hv : Valid log) (hp : fullPath E.proc (E.tm log.ts) E.fuel d ch = some path) :
    ∃ s', fileDevice E ch d log s = some s' := by
  have ho : ∃ s1, openFileDevice E ch d log s = some s1 := by
    unfold openFileDevice
    rw [hp]
    simp only [Option.bind_eq_bind, Option.bind_some]
    repeat' split
    all_goals exact ⟨_, rfl⟩
  obtain ⟨s1, ho⟩ := ho
  unfold fileDevice
  split
  · exact ⟨_, rfl⟩
  · rw [ho]
    simp only [Option.bind_eq_bind, Option.bind_some]
    split
    · exact ⟨_, rfl⟩
    · rw [accountFile_eq hv]; exact ⟨_, rfl⟩

/-! ## Statistics -/

theorem accounted_line {f : Fields} {p len : Int} (hp : 0 ≤ p ∧ p < 8) :
    accounted f p len DEVICE_LOG_TOTAL_WRITE_LINE = f DEVICE_LOG_TOTAL_WRITE_LINE + 1 := by
  unfold accounted
  have a1 : DEVICE_LOG_TOTAL_WRITE_LINE = 15 := rfl
  have a2 : DEVICE_LOG_TOTAL_WRITE_BYTE = 16 := rfl
  have a3 : DEVICE_LOG_CUR_FILE_SIZE = 0 := rfl
  have a4 : DEVICE_LOG_PRIORITY = 7 := rfl
  rw [if_pos rfl, if_neg (by omega), if_neg (by omega), if_neg (by omega)]
  omega

theorem accounted_byte {f : Fields} {p len : Int} (hp : 0 ≤ p ∧ p < 8) :
    accounted f p len DEVICE_LOG_TOTAL_WRITE_BYTE = f DEVICE_LOG_TOTAL_WRITE_BYTE + len := by
  unfold accounted
  have a1 : DEVICE_LOG_TOTAL_WRITE_LINE = 15 := rfl
  have a2 : DEVICE_LOG_TOTAL_WRITE_BYTE = 16 := rfl
  have a3 : DEVICE_LOG_CUR_FILE_SIZE = 0 := rfl
  have a4 : DEVICE_LOG_PRIORITY = 7 := rfl
  rw [if_neg (by omega), if_pos rfl, if_neg (by omega), if_neg (by omega)]
  omega

theorem accounted_priority {f : Fields} {p len : Int} (hp : 0 ≤ p ∧ p < 8) {q : Nat} (hq : q < 8) :
    accounted f p len (DEVICE_LOG_PRIORITY + q) =
      f (DEVICE_LOG_PRIORITY + q) + if p = q then len else 0 := by
  unfold accounted
  have a1 : DEVICE_LOG_TOTAL_WRITE_LINE = 15 := rfl
  have a2 : DEVICE_LOG_TOTAL_WRITE_BYTE = 16 := rfl
  have a3 : DEVICE_LOG_CUR_FILE_SIZE = 0 := rfl
  have a4 : DEVICE_LOG_PRIORITY = 7 := rfl
  rw [if_neg (by omega), if_neg (by omega), if_neg (by omega)]
  by_cases h : p = q
  · rw [if_pos h, if_pos (by omega)]; omega
  · rw [if_neg h, if_neg (by omega)]; omega

/-! ## What is kept -/

theorem rotate_kept {d : Device} {lim : Bool} {F : List Char} (hF : Plain F) (hr : d.cfg.rollback < 2 ^ 31) (fs : Fs) :
    kept (backups d) F (rotate d lim F fs) <:+ kept (backups d) F fs ∧
    gaps (backups d) F fs ≤ gaps (backups d) F (rotate d lim F fs) ∧
    (0 < gaps (backups d) F fs → kept (backups d) F (rotate d lim F fs) = kept (backups d) F fs) := by
  rcases rotate_cases (d := d) (lim := lim) hF fs with ⟨h, _⟩ | ⟨_, h⟩ | ⟨n, _, _, hn, h⟩
  · rw [h]; exact ⟨List.suffix_refl _, Nat.le_refl _, fun _ => rfl⟩
  · omega
  · rw [hn hr] at h
    obtain ⟨h1, h2⟩ := kept_rotated h
    refine ⟨h1, ?_, fun hg => (h2 (by omega)).1⟩
    by_cases hg : gaps (backups d) F fs = 0
    · omega
    · rw [(h2 hg).2]; exact Nat.le_refl _

theorem kept_open (N : Nat) (F : List Char) (r : Fs) (c : Blocks) (hc : c = (r F).getD []) :
    kept N F (r.set F (some c)) = kept N F r ∧ gaps N F r ≤ gaps N F (r.set F (some c)) + 1 := by
  obtain ⟨front, g, h⟩ := kept_set N F r
  have h1 := h (some c)
  have h2 := h (r F)
  rw [Fs.set_eq] at h2
  constructor
  · rw [h1.1, h2.1, hc]; rfl
  · rw [h1.2, h2.2]; split <;> simp

theorem kept_write (N : Nat) (F : List Char) (fs : Fs) (c b : Blocks) (hc : fs F = some c) :
    kept N F (fs.set F (some (c ++ b))) = kept N F fs ++ b ∧ gaps N F (fs.set F (some (c ++ b))) = gaps N F fs := by
  obtain ⟨front, g, h⟩ := kept_set N F fs
  have h1 := h (some (c ++ b))
  have h2 := h (fs F)
  rw [Fs.set_eq] at h2
  constructor
  · rw [h1.1, h2.1, hc]; simp
  · rw [h1.2, h2.2, hc]; simp

theorem kept_step {E : FileEnv} {ch : Int} {d : Device} {log : FileLog} {s s' : FileSt} {F : List Char}
    (hr : d.cfg.rollback < 2 ^ 31) (hv : Valid log)
    (hF : ∀ p, fullPath E.proc (E.tm log.ts) E.fuel d ch = some p → p = F) (ho : Opened E ch d s)
    (hsF : ∀ p, s.handle = some p → p = F) (h : fileDevice E ch d log s = some s') :
    ∃ b, ((Taken E ch d s log ∧ b = block log) ∨ (¬ Taken E ch d s log ∧ b = [])) ∧
      kept (backups d) F s'.fs <:+ kept (backups d) F s.fs ++ b ∧
      s.logs DEVICE_LOG_LAST_TRY_CREATE_CNT ≤ s'.logs DEVICE_LOG_LAST_TRY_CREATE_CNT ∧
      (gaps (backups d) F s.fs : Int) ≤ gaps (backups d) F s'.fs +
        (s'.logs DEVICE_LOG_LAST_TRY_CREATE_CNT - s.logs DEVICE_LOG_LAST_TRY_CREATE_CNT) ∧
      (0 < gaps (backups d) F s.fs → kept (backups d) F s'.fs = kept (backups d) F s.fs ++ b) ∧
      ∀ p, s'.handle = some p → p = F := by
  rcases taken_cases h hv with ⟨hk, hs, path, hh, rfl⟩ | ⟨hk, ht, path, s1, hf, hlen, hop, hs1, rfl⟩ | ⟨hk, hn, hl, hfs⟩
  · obtain rfl := hsF path hh
    obtain ⟨c, _, hc, _⟩ := ho path hh
    obtain ⟨k1, k2⟩ := kept_write (backups d) path s.fs c (block log) hc
    refine ⟨block log, Or.inl ⟨hk, rfl⟩, ?_, ?_, ?_, fun _ => ?_, fun p hp => hsF p (writeFile_handle hp).1⟩
    · show kept _ _ (writeFile log path s).fs <:+ _
      rw [writeFile_fs hc, k1]; exact List.suffix_refl _
    · exact Int.le_of_eq (accounted_other (by decide) (by decide)).symm
    · show _ ≤ (gaps _ _ (writeFile log path s).fs : Int) + (accounted _ _ _ _ - _)
      rw [writeFile_fs hc, k2, accounted_other (by decide) (by decide)]; omega
    · show kept _ _ (writeFile log path s).fs = _
      rw [writeFile_fs hc, k1]
  · obtain rfl := hF path hf
    obtain ⟨c, hc, f1, f2, _, _, _, _, _, _, f9, _⟩ := openFile_fs hop hs1
    obtain ⟨r1, r2, r3⟩ := rotate_kept (lim := limitOut d s.logs log.content.length) (fullPath_plain hf) hr s.fs
    obtain ⟨o1, o2⟩ := kept_open (backups d) path _ c hc
    have hc1 : s1.fs path = some c := by rw [f1, Fs.set_self]
    obtain ⟨k1, k2⟩ := kept_write (backups d) path s1.fs c (block log) hc1
    have hcnt : (accounted s1.logs log.priority log.content.length) DEVICE_LOG_LAST_TRY_CREATE_CNT =
        s.logs DEVICE_LOG_LAST_TRY_CREATE_CNT + 1 := by
      rw [accounted_other (by decide) (by decide), f9, openBase_other (by decide)]
    rw [f1] at k1 k2
    refine ⟨block log, Or.inl ⟨hk, rfl⟩, ?_, ?_, ?_, fun hg => ?_, fun p hp => ?_⟩
    · show kept _ _ (writeFile log path s1).fs <:+ _
      rw [writeFile_fs hc1, f1, k1, o1]
      obtain ⟨x, hx⟩ := r1
      exact ⟨x, by rw [← hx, List.append_assoc]⟩
    · show _ ≤ accounted _ _ _ _
      rw [hcnt]; omega
    · show _ ≤ (gaps _ _ (writeFile log path s1).fs : Int) + (accounted _ _ _ _ - _)
      rw [writeFile_fs hc1, f1, k2, hcnt]; omega
    · show kept _ _ (writeFile log path s1).fs = _
      rw [writeFile_fs hc1, f1, k1, o1, r3 hg]
    · have := (writeFile_handle hp).1
      rw [f2] at this
      exact (Option.some.inj this).symm
  · have hcnt : s'.logs DEVICE_LOG_LAST_TRY_CREATE_CNT = s.logs DEVICE_LOG_LAST_TRY_CREATE_CNT := hl _ (by decide)
    refine ⟨[], Or.inr ⟨hk, rfl⟩, ?_, by omega, ?_, ?_, fun p hp => ?_⟩
    · rw [List.append_nil]
      rcases hfs with e | ⟨path, lim, hf, e⟩
      · rw [e]; exact List.suffix_refl _
      · obtain rfl := hF path hf
        rw [e]; exact (rotate_kept (fullPath_plain hf) hr s.fs).1
    · rcases hfs with e | ⟨path, lim, hf, e⟩
      · rw [e]; omega
      · obtain rfl := hF path hf
        have := (rotate_kept (lim := lim) (fullPath_plain hf) hr s.fs).2.1
        rw [e]; omega
    · intro hg
      rw [List.append_nil]
      rcases hfs with e | ⟨path, lim, hf, e⟩
      · rw [e]
      · obtain rfl := hF path hf
        rw [e]; exact (rotate_kept (fullPath_plain hf) hr s.fs).2.2 hg
    · rw [hn] at hp; exact absurd hp (by nofun)

theorem kept_runs {E : FileEnv} {ch : Int} {d : Device} {logs t : List FileLog} {s s' : FileSt} {F : List Char}
    (hr : d.cfg.rollback < 2 ^ 31) (h : Runs E ch d s logs t s') : (∀ log ∈ logs, Valid log) →
    (∀ log ∈ logs, ∀ p, fullPath E.proc (E.tm log.ts) E.fuel d ch = some p → p = F) → Opened E ch d s →
    (∀ p, s.handle = some p → p = F) →
    kept (backups d) F s'.fs <:+ kept (backups d) F s.fs ++ t.flatMap block ∧
    s.logs DEVICE_LOG_LAST_TRY_CREATE_CNT ≤ s'.logs DEVICE_LOG_LAST_TRY_CREATE_CNT ∧
    (s'.logs DEVICE_LOG_LAST_TRY_CREATE_CNT - s.logs DEVICE_LOG_LAST_TRY_CREATE_CNT < gaps (backups d) F s.fs →
      kept (backups d) F s'.fs = kept (backups d) F s.fs ++ t.flatMap block) := by
  have comp : ∀ {a b c : Blocks} (x y : Blocks), b <:+ a ++ x → c <:+ b ++ y → c <:+ a ++ (x ++ y) := by
    intro a b c x y h1 h2
    obtain ⟨u, hu⟩ := h1
    obtain ⟨v, hv⟩ := h2
    refine ⟨u ++ v, ?_⟩
    rw [List.append_assoc, hv, ← List.append_assoc, hu, List.append_assoc]
  induction h with
  | nil => intro _ _ _ _; simp
  | @taken s s1 s2 log logs t h1 hk _ ih =>
    intro hv hF ho hsF
    obtain ⟨b, hb, c1, c2, c3, c4, c5⟩ := kept_step hr (hv _ List.mem_cons_self) (hF _ List.mem_cons_self) ho hsF h1
    obtain rfl : b = block log := by
      rcases hb with ⟨_, hb⟩ | ⟨hb, _⟩
      · exact hb
      · exact absurd hk hb
    obtain ⟨i1, i2, i3⟩ := ih (fun l hl => hv l (List.mem_cons_of_mem _ hl)) (fun l hl => hF l (List.mem_cons_of_mem _ hl))
      (opened_step ho (hv _ List.mem_cons_self) h1) c5
    refine ⟨comp _ _ c1 i1, by omega, fun hg => ?_⟩
    rw [i3 (by omega), c4 (by omega), List.flatMap_cons, List.append_assoc]
  | @dropped s s1 s2 log logs t h1 hk _ ih =>
    intro hv hF ho hsF
    obtain ⟨b, hb, c1, c2, c3, c4, c5⟩ := kept_step hr (hv _ List.mem_cons_self) (hF _ List.mem_cons_self) ho hsF h1
    obtain rfl : b = [] := by
      rcases hb with ⟨hb, _⟩ | ⟨_, hb⟩
      · exact absurd hb hk
      · exact hb
    obtain ⟨i1, i2, i3⟩ := ih (fun l hl => hv l (List.mem_cons_of_mem _ hl)) (fun l hl => hF l (List.mem_cons_of_mem _ hl))
      (opened_step ho (hv _ List.mem_cons_self) h1) c5
    refine ⟨comp [] _ c1 i1, by omega, fun hg => ?_⟩
    rw [i3 (by omega), c4 (by omega), List.append_nil]

end FNLog
