import Verif.Props.Periods
import Verif.Props.Statement

/-!
# From log statements to rotated files

C64 and C49 together: the lines of a program in the files of a device that rotates.
-/

namespace FNLog
open Spec

theorem written_taken {E : FileEnv} {ch : Int} {d : Device} {logs t : List FileLog} {s s' : FileSt} (h : Runs E ch d s logs t s') :
    (∀ log ∈ logs, Valid log ∧ log.opens = true ∧ log.short = none ∧
      ∃ p, fullPath E.proc (E.tm log.ts) E.fuel d ch = some p ∧ p.length < 250) →
    (s.handle ≠ none ∨ ∀ log ∈ logs, s.logs DEVICE_LOG_LAST_TRY_CREATE_TIMESTAMP + 5 ≤ log.ts) → t = logs := by
  have key : ∀ {log : FileLog} {logs : List FileLog} {s : FileSt}, (∀ l ∈ log :: logs, Valid l ∧ l.opens = true ∧ l.short = none ∧
      ∃ p, fullPath E.proc (E.tm l.ts) E.fuel d ch = some p ∧ p.length < 250) →
      (s.handle ≠ none ∨ ∀ l ∈ log :: logs, s.logs DEVICE_LOG_LAST_TRY_CREATE_TIMESTAMP + 5 ≤ l.ts) → Taken E ch d s log := by
    intro log logs s hl hh
    by_cases hst : Stays d s log
    · exact Or.inl hst
    · obtain ⟨_, h2, _, h4⟩ := hl _ List.mem_cons_self
      exact Or.inr ⟨⟨hst, hh.imp id fun h => h _ List.mem_cons_self⟩, h2, h4⟩
  induction h with
  | nil => intro _ _; rfl
  | @taken s s1 s2 log logs t h1 _ _ ih =>
    intro hl hh
    obtain ⟨hv, _, hw, _⟩ := hl _ List.mem_cons_self
    have hn : s1.handle ≠ none := by
      rcases taken_cases h1 hv with ⟨_, _, path, hp, rfl⟩ | ⟨_, _, path, s3, _, _, hop, hs3, rfl⟩ | ⟨hk, _⟩
      · show (writeFile log path s).handle ≠ none
        rw [writeFile_handle_full hw, hp]; nofun
      · obtain ⟨_, _, _, f2, _⟩ := openFile_fs hop hs3
        show (writeFile log path s3).handle ≠ none
        rw [writeFile_handle_full hw, f2]; nofun
      · exact absurd (key hl hh) hk
    rw [ih (fun l h => hl l (List.mem_cons_of_mem _ h)) (Or.inl hn)]
  | @dropped s s1 s2 log logs t h1 hk _ _ =>
    intro hl hh
    exact absurd (key hl hh) hk

theorem logged_valid {S : Setup} {prog : List (Call × List StreamOp)} {recs : List (Head × List Char)}
    (h : Logged S prog recs) : (∀ x ∈ prog, Sound S x.1 x.2) → ∀ r ∈ recs, 0 ≤ r.1.priority ∧ r.1.priority < 8 := by
  induction h with
  | nil => intro _ r hr; exact absurd hr (by simp)
  | refused _ _ ih => exact fun hp => ih fun x hx => hp x (List.mem_cons_of_mem _ hx)
  | @admitted a ops file t rest recs _ _ _ _ ih =>
    intro hp r hr
    rcases List.mem_cons.mp hr with rfl | hr
    · obtain ⟨_, hf⟩ := (hp _ List.mem_cons_self).fits
      obtain ⟨h1, h2⟩ := hf.args.priority
      change 0 ≤ a.priority at h1
      change a.priority ≤ 6 at h2
      exact ⟨h1, show a.priority < 8 by omega⟩
    · exact ih (fun x hx => hp x (List.mem_cons_of_mem _ hx)) r hr

theorem rotated_runs {E : FileEnv} {ch : Int} {d : Device} (hr : d.cfg.rollback < 2 ^ 31)
    (hF : ∀ ts, ∃ p, fullPath E.proc (E.tm ts) E.fuel d ch = some p ∧ p.length < 250)
    {os : Nat → Nat → Os} {k n : Nat} (hos : ∀ n, (os n k).opens = true ∧ (os n k).short = none)
    {recs : List (Head × List Char)} {s t : FileSt} {tk : List FileLog} (hrun : Runs E ch d s (handed os k d n recs) tk t)
    (hrec : ∀ r ∈ recs, (0 ≤ r.1.priority ∧ r.1.priority < 8) ∧ r.2 ≠ [] ∧
      s.logs DEVICE_LOG_LAST_TRY_CREATE_TIMESTAMP + 5 ≤ r.1.ts)
    (hh : s.handle = none) (hfs : ∀ p, FilesOf E ch d p → s.fs p = none)
    (hN : t.logs DEVICE_LOG_LAST_TRY_CREATE_CNT - s.logs DEVICE_LOG_LAST_TRY_CREATE_CNT ≤ backups d) :
    ∃ w : List (List Char × List Char), w.map Prod.snd = linesFor d recs ∧
      ∀ x ∈ w, (∃ ts, fullPath E.proc (E.tm ts) E.fuel d ch = some x.1) ∧
        kept (backups d) x.1 t.fs = (w.filter fun y => y.1 = x.1).map Prod.snd := by
  have hval : ∀ log ∈ handed os k d n recs, Valid log ∧ log.opens = true ∧ log.short = none ∧ log.content ≠ [] ∧
      s.logs DEVICE_LOG_LAST_TRY_CREATE_TIMESTAMP + 5 ≤ log.ts := by
    intro log hm
    obtain ⟨m, r, hr, rfl⟩ := handed_mem hm
    exact ⟨(hrec r hr).1, (hos m).1, (hos m).2, (hrec r hr).2⟩
  have htk : tk = handed os k d n recs := by
    refine written_taken hrun (fun log hm => ?_) (Or.inr fun log hm => (hval log hm).2.2.2.2)
    obtain ⟨a1, a2, a3, _⟩ := hval log hm
    exact ⟨a1, a2, a3, hF _⟩
  obtain ⟨w, hw, hwp, hwf⟩ := C49_fills hh (fun log hm => (hval log hm).1) hrun
  have hblock : ∀ x ∈ w, block x.2 = [x.2.content] := by
    intro x hx
    have hm : x.2 ∈ handed os k d n recs := by
      rw [← htk, ← hw]; exact List.mem_map_of_mem hx
    obtain ⟨_, _, h3, h4, _⟩ := hval _ hm
    unfold block
    rw [if_neg h4, h3]
  refine ⟨w.map fun x => (x.1, x.2.content), ?_, fun y hy => ?_⟩
  · rw [List.map_map, ← handed_lines os k d recs n, ← htk, ← hw, List.map_map]
    rfl
  · obtain ⟨x, hx, rfl⟩ := List.mem_map.mp hy
    obtain ⟨ts, hFx⟩ := hwp x hx
    refine ⟨⟨ts, hFx⟩, ?_⟩
    obtain ⟨n, hn⟩ := hwf x.1
    have hcnt := fills_count hn fun log hm => (hval log hm).1
    have e0 := kept_congr (N := backups d) (F := x.1) (a := s.fs) (b := fun _ => none) fun i _ => hfs _ ⟨ts, _, i, hFx, rfl⟩
    have e2 := (C49_each_name hr hFx hh (fun log hm => (hval log hm).1) hn).2 (by
      rw [e0.2, (kept_empty _ _).2]
      omega)
    rw [e0.1, (kept_empty _ _).1, List.nil_append] at e2
    show kept _ x.1 _ = _
    rw [e2, List.filter_map, List.map_map]
    have : ∀ l : List (List Char × FileLog), (∀ z ∈ l, block z.2 = [z.2.content]) →
        l.flatMap (fun z => block z.2) = l.map fun z => z.2.content := by
      intro l
      induction l with
      | nil => intro _; rfl
      | cons z l ih =>
        intro h
        rw [List.flatMap_cons, h z List.mem_cons_self, ih fun z hz => h z (List.mem_cons_of_mem _ hz)]
        rfl
    exact this _ fun z hz => hblock z (List.mem_filter.mp hz).1

/-- **C64** for any file device, with rotation and names that depend on the time: none of its files is there and none open at
the beginning, and the operating system opens and writes the files. If the device has opened at most as many files as it has
backups, then each of the lines that its filter takes has a file name (`w`), and the backups and the file of each name contain
exactly the lines with that name, in program order. -/
theorem C64_rotated_partial {S : Setup} (hS : Ready S) (hap : FilesApart S.fenv S.channel.id S.channel.devices)
    {prog : List (Call × List StreamOp)} {s : Sys} (hp : ∀ x ∈ prog, Sound S x.1 x.2)
    (hl : Live S.cfg S.thread s.ring) {dates : List Int} (hc : s.cache = cacheAfter S.env.zone dates)
    (ho : Own S.fenv S.channel.id S.channel.devices s.out)
    {k : Nat} {d : Device} (hk : S.channel.devices[k]? = some d) (hd : d.outType = .file)
    (hv : S.hook = false ∨ S.channel.virtualDeviceId ≠ k) (hr : d.cfg.rollback < 2 ^ 31)
    (hF : ∀ ts, ∃ p, fullPath S.fenv.proc (S.fenv.tm ts) S.fenv.fuel d S.channel.id = some p ∧ p.length < 250)
    (hos : ∀ n, (S.os n k).opens = true ∧ (S.os n k).short = none)
    (hh : (s.out.dev k).handle = none)
    (ht : ∀ x ∈ prog, (s.out.dev k).logs DEVICE_LOG_LAST_TRY_CREATE_TIMESTAMP + 5 ≤ x.1.ts)
    (hfs : ∀ p, FilesOf S.fenv S.channel.id d p → s.out.fs p = none) :
    ∃ recs s', Logged S prog recs ∧ statements S prog s = some s' ∧
      ((s'.out.dev k).logs DEVICE_LOG_LAST_TRY_CREATE_CNT - (s.out.dev k).logs DEVICE_LOG_LAST_TRY_CREATE_CNT ≤ backups d →
        ∃ w : List (List Char × List Char), w.map Prod.snd = linesFor d recs ∧
          ∀ x ∈ w, kept (backups d) x.1 s'.out.fs = (w.filter fun y => y.1 = x.1).map Prod.snd) := by
  obtain ⟨recs, s', g1, g2, _, g4, _⟩ := C64_end_to_end_partial hS hap hp hl hc ho
  refine ⟨recs, s', g1, g2, fun hN => ?_⟩
  obtain ⟨tk, t, hrun, _, hlogs, ha⟩ := g4 k d hk hd hv
  have hline := logged_lines g1
  obtain ⟨w, hw, hx⟩ := rotated_runs hr hF hos hrun (fun r hm => by
      obtain ⟨h1, x, hx, e⟩ := hline r hm
      exact ⟨logged_valid g1 hp r hm, h1, by rw [e]; exact ht x hx⟩) hh hfs (by rw [hlogs]; exact hN)
  refine ⟨w, hw, fun x hm => ?_⟩
  obtain ⟨⟨ts, hFx⟩, e⟩ := hx x hm
  rw [← e]
  exact (kept_congr fun i _ => (ha _ ⟨ts, _, i, hFx, rfl⟩).symm).1

/-! The program of the demo of C64, with a device that puts at most 60 bytes into a file and keeps three backups. -/

def rotFile : Device := { demoFile 0 'a' 1 with cfg := { able := 1, priority := 1, limitSize := 60, rollback := 3 } }

def rotChannel : Channel := { type := .sync, state := .running, devices := [rotFile] }

def rotSetup : Setup := { demoSetup with lg := ⟨.running, some [rotChannel]⟩, channel := rotChannel }

theorem rot_path (ts : Int) :
    fullPath rotSetup.fenv.proc (rotSetup.fenv.tm ts) rotSetup.fenv.fuel rotFile 0 = some "a.log".toList := rfl

theorem rot_ready : Ready rotSetup where
  lib := (demoEnv_ok 500).1
  zone := (demoEnv_ok 500).2.1
  slots := by decide
  nl := rfl
  id := by decide
  channel := ⟨_, rfl, rfl⟩
  hook := fun h => absurd h (by decide)
  named := by
    intro d hd _ ts
    simp only [rotSetup, rotChannel, List.mem_cons, List.not_mem_nil, or_false] at hd
    subst hd
    exact ⟨_, rot_path ts⟩

theorem rot_sound : ∀ x ∈ demoProg, Sound rotSetup x.1 x.2 := by
  intro x hx
  obtain ⟨h1, _, _, file, h4⟩ := demo_sound x hx
  have hd : ∀ c i, ∀ d ∈ rotChannel.devices, DevDefined d c i := by
    intro c i d hd
    simp only [rotChannel, List.mem_cons, List.not_mem_nil, or_false] at hd
    subst hd
    exact ⟨by decide, by decide, by decide, by decide, Or.inl (by decide), Or.inl (by decide)⟩
  exact ⟨h1, ⟨⟨by decide, by decide, by decide, by decide, Or.inl (by decide), Or.inl (by decide)⟩, hd _ _⟩, hd _ _, file, h4⟩

/-- All hypotheses of `C64_rotated_partial` hold for it. The device opens two files: the first line is in the backup, the
second in the file. -/
theorem C64_case_rotated : Ready rotSetup ∧ FilesApart rotSetup.fenv rotSetup.channel.id rotSetup.channel.devices ∧
    (∀ x ∈ demoProg, Sound rotSetup x.1 x.2) ∧ Live rotSetup.cfg rotSetup.thread demoSys.ring ∧
    demoSys.cache = cacheAfter rotSetup.env.zone [] ∧
    Own rotSetup.fenv rotSetup.channel.id rotSetup.channel.devices demoSys.out ∧
    rotSetup.channel.devices[0]? = some rotFile ∧ rotFile.outType = .file ∧ rotSetup.hook = false ∧
    rotFile.cfg.rollback < 2 ^ 31 ∧
    (∀ ts, ∃ p, fullPath rotSetup.fenv.proc (rotSetup.fenv.tm ts) rotSetup.fenv.fuel rotFile rotSetup.channel.id = some p ∧
      p.length < 250) ∧
    (∀ n, (rotSetup.os n 0).opens = true ∧ (rotSetup.os n 0).short = none) ∧ (demoSys.out.dev 0).handle = none ∧
    (∀ x ∈ demoProg, (demoSys.out.dev 0).logs DEVICE_LOG_LAST_TRY_CREATE_TIMESTAMP + 5 ≤ x.1.ts) ∧
    (∀ p, FilesOf rotSetup.fenv rotSetup.channel.id rotFile p → demoSys.out.fs p = none) ∧ backups rotFile = 3 ∧
    (statements rotSetup demoProg demoSys).map (fun s => ((s.out.dev 0).logs DEVICE_LOG_LAST_TRY_CREATE_CNT,
        s.out.fs "a.log.1".toList, s.out.fs "a.log".toList)) =
      some (2, some ["[20261116 11:33:20.417][INFO ][a.cpp:17](f) n=7\n".toList],
        some ["[20261116 11:33:20.417][ERROR][a.cpp:17](f) oops\n".toList]) := by
  refine ⟨rot_ready, ?_, rot_sound, live_start rfl _, rfl, fun _ _ _ _ _ h => absurd h (by simp [demoSys]), rfl, rfl, rfl,
    by decide, fun ts => ⟨_, rot_path ts, by decide⟩, fun _ => ⟨rfl, rfl⟩, rfl, ?_, fun _ _ => rfl, by decide, by kernel_rfl⟩
  · intro i j a b hij ha hb _ _
    match i, j with
    | 0, 0 => exact absurd rfl hij
    | 0, j + 1 => exact absurd hb (by simp [rotSetup, rotChannel])
    | i + 1, _ => exact absurd ha (by simp [rotSetup, rotChannel])
  · intro x hx
    simp only [demoProg, List.mem_cons, List.not_mem_nil, or_false] at hx
    rcases hx with rfl | rfl | rfl <;> decide

end FNLog
