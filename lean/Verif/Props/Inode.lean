import Verif.Proof.InodeShare
import Verif.Proof.KernelRfl
import Verif.Props.File

/-! # C109, C110: file devices on a file system with inodes -/

namespace FNLog
open Spec

/-! ## C109: devices with files of their own -/

/-- **C109**: several devices, of one process or of several, whose files are different, on a file system where others
rename, remove and create files elsewhere: every device leaves exactly the files, the statistics and the open file it
would leave with the file system for itself, where an open file is its name. -/
theorem C109_own_files {U : Nat → Seat} (hU : SeatsApart U) {es : List DiskEv}
    (ha : ∀ v a l, DiskEv.log v a l ∈ es → Grants a)
    (hf : ∀ e ∈ es, ∀ p, Touches e p → ∀ v, ¬ SeatFiles (U v) p) {s s' : Desk} (hk : SoundDisk s.disk)
    (hh : ∀ v, (s.holder v).handle = none) (h : deskRun U es s = some s') (u : Nat) :
    ∃ t, fileDeviceAll (U u).env (U u).channel (U u).device (logsOf u es) ⟨s.disk.fs, none, (s.holder u).logs⟩ = some t ∧
      (s'.holder u).logs = t.logs ∧ (∀ p, SeatFiles (U u) p → s'.disk.fs p = t.fs p) ∧
      ((s'.holder u).handle = none ↔ t.handle = none) ∧
      ∀ p, t.handle = some p → s'.disk.node p = (s'.holder u).handle := by
  have ho : OwnNames U s := fun v => ⟨none, by rw [hh v]; trivial, nofun⟩
  obtain ⟨t, ht, h1, h2, _, h4⟩ := tracks_run hU (u := u) es ha hf (t := ⟨s.disk.fs, none, (s.holder u).logs⟩) hk
    (fun v i hi => by rw [hh v] at hi; cases hi) ho ⟨rfl, by rw [hh u]; trivial, nofun, fun _ _ => rfl⟩ h
  refine ⟨t, ht, h1.symm, h4, ?_, fun p hp => ?_⟩
  · cases hx : (s'.holder u).handle with
    | none => rw [hx] at h2; simp [named_none h2]
    | some i =>
      rw [hx] at h2
      obtain ⟨p, hp, _⟩ := named_some h2
      simp [hp]
  · rw [hp] at h2
    cases hx : (s'.holder u).handle with
    | none => rw [hx] at h2; exact absurd (named_none h2) (by nofun)
    | some i => rw [hx] at h2; exact h2

/-! ## C110: devices that share files -/

/-- **C110**: whatever the devices, the other programs and the operating system do – shared files, rotations by others,
renames and removes of open files, failing ones: the contents of an inode only grow, by the lines the devices have taken,
each of them whole (as far as `fwrite` wrote it), each in one place, in the order of the events; and they are counted. -/
theorem C110_whole {U : Nat → Seat} {s s' : Desk} {es : List DiskEv} {t : List (Nat × FileLog)}
    (h : DeskLogs U s es t s') (hk : SoundDisk s.disk) (hh : Held s) :
    ∃ w : List Stamp, w.map (fun x => (x.user, x.text)) = texts t ∧
      (∀ i, s'.disk.data i = s.disk.data i ++ intoNode i w) ∧
      ((∀ x ∈ t, Valid x.2) → ∀ u, (s'.holder u).logs DEVICE_LOG_TOTAL_WRITE_LINE =
        (s.holder u).logs DEVICE_LOG_TOTAL_WRITE_LINE + (t.filter (·.1 = u)).length) :=
  (whole_run h hk hh).2.2

/-- **C110**: every run is one of `DeskLogs`, and if the files can always be opened, all lines are taken. -/
theorem C110_taken {U : Nat → Seat} {s s' : Desk} {es : List DiskEv} (h : deskRun U es s = some s') :
    ∃ t, DeskLogs U s es t s' ∧ t.Sublist (allLogs es) ∧
      ((∀ x ∈ allLogs es, CanOpen (U x.1) x.2) →
        (∀ v, (s.holder v).logs DEVICE_LOG_LAST_TRY_CREATE_TIMESTAMP = 0) → t = allLogs es) := by
  obtain ⟨t, ht⟩ := desk_logs es h
  exact ⟨t, ht, logs_sublist ht, all_taken ht⟩

/-- **C110** where nobody takes names away: without rotation, or when every rename and remove fails, a file has in it what
was in it and then the lines of all the devices that share its name, in the order of the events.
Missing: devices with rotation; see the counterexamples. -/
theorem C110_shared_partial {U : Nat → Seat} {name : Nat → List Char} {s s' : Desk} {es : List DiskEv}
    {t : List (Nat × FileLog)} (h : DeskLogs U s es t s') (hm : ∀ e ∈ es, Harmless U e)
    (hp : ∀ x ∈ allLogs es, fullPath (U x.1).env.proc ((U x.1).env.tm x.2.ts) (U x.1).env.fuel (U x.1).device
      (U x.1).channel = some (name x.1))
    (hk : SoundDisk s.disk) (hh : Held s) (hn : AtName name s) (p : List Char) :
    (s'.disk.fs p).getD [] = (s.disk.fs p).getD [] ++ linesInto name p t :=
  shared_run h hm hp hk hh hn p

/-- **C110** fails with rotation: the file of a device was rotated out of existence by another device (or removed by
another program) and nothing makes the device close it.  Whatever happens then, all its lines are taken and counted, and
no file of any name has one of them. -/
theorem C110_nowhere_counterexample {U : Nat → Seat} {u i : Nat} (hd : Stubborn (U u).device) {s s' : Desk} {es : List DiskEv}
    {t : List (Nat × FileLog)} (h : DeskLogs U s es t s') (hk : SoundDisk s.disk) (hh : Held s)
    (hs : ∀ x ∈ allLogs es, Valid x.2 ∧ (x.1 = u → x.2.short = none)) (hi : (s.holder u).handle = some i)
    (hn : Nameless s.disk i) :
    t.filter (·.1 = u) = (allLogs es).filter (·.1 = u) ∧
    (s'.holder u).logs DEVICE_LOG_TOTAL_WRITE_LINE =
      (s.holder u).logs DEVICE_LOG_TOTAL_WRITE_LINE + ((allLogs es).filter (·.1 = u)).length ∧
    ∀ p c, s'.disk.fs p = some c → ∃ (j : Nat) (w : List Stamp), c = s.disk.data j ++ w.map (·.text) ∧
      (∀ x ∈ w, x.user ≠ u) ∧ (w.map (fun x => (x.user, x.text))).Sublist (texts t) := by
  obtain ⟨_, q2, q3, w, q4, q5, q6⟩ := nowhere_run hd h hk hh (fun x hx => (hs x hx).2) hi hn
  obtain ⟨_, _, _, _, _, hl⟩ := whole_run h hk hh
  refine ⟨q3, ?_, fun p c hc => ?_⟩
  · rw [hl (fun x hx => (hs x ((logs_sublist h).subset hx)).1) u, q3]
  · unfold Disk.fs at hc
    obtain ⟨j, hj, rfl⟩ := Option.map_eq_some_iff.mp hc
    refine ⟨j, w.filter (·.inode = j), q5 j, fun x hx hu => ?_, ?_⟩
    · obtain ⟨hx, he⟩ := List.mem_filter.mp hx
      have := q6 x hx hu
      simp only [decide_eq_true_eq] at he
      rw [this] at he
      exact q2 p (he ▸ hj)
    · rw [← q4]
      exact List.filter_sublist.map _

/-- **C110**: a program (logrotate) renames the file a device has open: the device goes on writing to it, under the new
name, and no file has the old name. -/
theorem C110_moved {U : Nat → Seat} {u i : Nat} (hd : Stubborn (U u).device) {s s' : Desk} {p q : List Char} {a : DiskSays}
    {l : FileLog} (hi : (s.holder u).handle = some i) (hp : s.disk.node p = some i) (hq : s.disk.node q ≠ some i)
    (h : deskRun U [.rename p q, .log u a l] s = some s') :
    s'.disk.fs q = some (s.disk.data i ++ block l) ∧ s'.disk.fs p = none := by
  simp only [deskRun, deskStep, Option.bind_some, Option.bind_eq_some_iff, Option.map_eq_some_iff] at h
  obtain ⟨s1, ⟨⟨k, g⟩, h, rfl⟩, h2⟩ := h
  obtain rfl := Option.some.inj h2
  have hc := iFileDevice_cases h
  have hr : s.disk.rename p q = { s.disk with node := fun x => if x = p then none else if x = q then s.disk.node p else s.disk.node x } := by
    unfold Disk.rename
    rw [if_neg]
    rintro (e | e)
    · rw [hp] at e; cases e
    · exact hq (e ▸ hp)
  have hpq : q ≠ p := fun e => hq (e ▸ hp)
  have hcl := stubborn_close hd l (s.holder u)
  rw [hr] at hc
  show k.fs q = _ ∧ k.fs p = _
  cases hc with
  | skipped hx => rw [hi] at hx; cases hx
  | stays j l' hj =>
    rw [hi] at hj
    obtain rfl := Option.some.inj hj
    unfold Disk.fs
    rw [iWrite_node]
    simp only [if_true, if_neg hpq, hp]
    refine ⟨?_, rfl⟩
    simp only [Option.map_some, iWrite_data, if_true]
  | long path hx => rw [hcl, hi] at hx; cases hx
  | refused path hx => rw [hcl, hi] at hx; cases hx
  | opens path s1 l' hx => rw [hcl, hi] at hx; cases hx

/-! ## Examples -/

namespace Desks

def free : DiskSays := ⟨fun _ _ => true, fun _ => true⟩

/-- A directory `a.log.2` is in the way. -/
def blocked : DiskSays := ⟨fun _ q => q ≠ "a.log.2".toList, fun _ => true⟩

/-- The directory may not be changed. -/
def denied : DiskSays := ⟨fun _ _ => false, fun _ => false⟩

/-- Nothing there, nothing open. -/
def empty : Desk := ⟨⟨fun _ => none, fun _ => [], 0⟩, fun _ => ⟨none, fun _ => 0⟩⟩

/-- Two devices on `a.log`: number 0 with a limit of 10 bytes and one backup, the others without rotation. -/
def shared : Nat → Seat := fun u =>
  ⟨Demo.env, 0, { file := "a".toList, cfg := { limitSize := if u = 0 then 10 else 0, rollback := if u = 0 then 1 else 0 } }⟩

/-- A device with a limit of 10 bytes and two backups. -/
def backups2 : Nat → Seat := fun _ => ⟨Demo.env, 0, { file := "a".toList, cfg := { limitSize := 10, rollback := 2 } }⟩

/-- Two devices on `a.log` and `b.log`; the others make no name. -/
def apart : Nat → Seat := fun u =>
  ⟨{ Demo.env with fuel := if u ≤ 1 then 20 else 0 }, 0,
    { file := if u = 0 then "a".toList else "b".toList, cfg := { limitSize := 10, rollback := 1 } }⟩

theorem empty_sound : SoundDisk empty.disk := ⟨nofun, nofun, fun _ _ => rfl⟩

theorem empty_held : Held empty := nofun

end Desks

/-- The conditions of C110: one device rotates the file of the other away, its two lines are counted, no file has them, and
this is the state from which no later line of it is found. -/
theorem C110_rotated_away_counterexample :
    ∃ s, deskRun Desks.shared [.log 1 Desks.free (Demo.line 10 "first"), .log 0 Desks.free (Demo.line 11 "abcdefgh"),
        .log 0 Desks.free (Demo.line 12 "ijklmnop"), .log 1 Desks.free (Demo.line 13 "second")] Desks.empty = some s ∧
      (s.holder 1).logs DEVICE_LOG_TOTAL_WRITE_LINE = 2 ∧ (s.holder 1).handle = some 0 ∧ Nameless s.disk 0 ∧
      s.disk.data 0 = ["first".toList, "second".toList] ∧ Stubborn (Desks.shared 1).device ∧
      ∀ p c, s.disk.fs p = some c → c = ["abcdefgh".toList] ∨ c = ["ijklmnop".toList] := by
  obtain ⟨es, hes⟩ : ∃ es, es = [DiskEv.log 1 Desks.free (Demo.line 10 "first"), .log 0 Desks.free (Demo.line 11 "abcdefgh"),
        .log 0 Desks.free (Demo.line 12 "ijklmnop"), .log 1 Desks.free (Demo.line 13 "second")] := ⟨_, rfl⟩
  rw [← hes]
  have hpath : ∀ u ts, fullPath (Desks.shared u).env.proc ((Desks.shared u).env.tm ts) (Desks.shared u).env.fuel
      (Desks.shared u).device (Desks.shared u).channel = some "a.log".toList := fun _ _ => rfl
  obtain ⟨s, h⟩ := deskRun_some (U := Desks.shared) es (by
    intro x hx
    rw [hes] at hx
    simp only [allLogs, List.mem_cons, List.not_mem_nil, or_false] at hx
    rw [hpath]
    rcases hx with rfl | rfl | rfl | rfl <;> exact ⟨⟨by decide, by decide⟩, rfl⟩) Desks.empty
  have e : ∀ {α : Type} (f : Desk → α), f s = f ((deskRun Desks.shared es Desks.empty).getD Desks.empty) := by
    intro α f; rw [h]; rfl
  have hnames := names_run (P := fun q => q = "a.log".toList ∨ q = "a.log.1".toList) es (by
    intro x hx
    rw [hes] at hx
    have hw : ∀ u, RotatesIn (fun q => q = "a.log".toList ∨ q = "a.log.1".toList) (Desks.shared u).device := by
      intro u q n hq h1 h2
      have : n = 1 := by
        by_cases hu : u = 0
        · subst hu
          have : toInt (if (Desks.shared 0).device.cfg.rollback > 0 then (Desks.shared 0).device.cfg.rollback else 1) = 1 := by
            decide
          omega
        · have : toInt (if (Desks.shared u).device.cfg.rollback > 0 then (Desks.shared u).device.cfg.rollback else 1) = 1 := by
            have : (Desks.shared u).device.cfg.rollback = 0 := by
              show (if u = 0 then (1 : Int) else 0) = 0
              rw [if_neg hu]
            rw [this]
            decide
          omega
      subst this
      rcases hq with rfl | rfl
      · exact Or.inr (by kernel_rfl)
      · exact Or.inr (by kernel_rfl)
    simp only [List.mem_cons, List.not_mem_nil, or_false] at hx
    rcases hx with rfl | rfl | rfl | rfl
    all_goals exact ⟨_, _, _, rfl, hw _, fun p hp => by rw [hpath] at hp; exact Or.inl (Option.some.inj hp).symm⟩) h nofun
  have n0 : s.disk.node "a.log".toList = some 2 := by rw [e fun s => s.disk.node "a.log".toList, hes]; kernel_rfl
  have n1 : s.disk.node "a.log.1".toList = some 1 := by rw [e fun s => s.disk.node "a.log.1".toList, hes]; kernel_rfl
  refine ⟨s, h, ?_, ?_, fun p hp => ?_, ?_, ?_, fun p c hc => ?_⟩
  · rw [e fun s => (s.holder 1).logs DEVICE_LOG_TOTAL_WRITE_LINE, hes]; kernel_rfl
  · rw [e fun s => (s.holder 1).handle, hes]; kernel_rfl
  · rcases hnames p (by rw [hp]; nofun) with rfl | rfl
    · rw [n0] at hp; cases hp
    · rw [n1] at hp; cases hp
  · rw [e fun s => s.disk.data 0, hes]; kernel_rfl
  · exact ⟨by decide, rfl, rfl⟩
  · unfold Disk.fs at hc
    obtain ⟨j, hj, rfl⟩ := Option.map_eq_some_iff.mp hc
    rcases hnames p (by rw [hj]; nofun) with rfl | rfl
    · rw [n0] at hj
      obtain rfl := Option.some.inj hj
      right
      rw [e fun s => s.disk.data 2, hes]; kernel_rfl
    · rw [n1] at hj
      obtain rfl := Option.some.inj hj
      left
      rw [e fun s => s.disk.data 1, hes]; kernel_rfl

/-- A backup is lost before its time when the `rename` behind it fails, as over a directory `a.log.2`: of three lines in
three files, with two backups, the first is in no file any more. -/
theorem C110_blocked_counterexample :
    ∃ s, deskRun Desks.backups2 [.log 0 Desks.blocked (Demo.line 10 "abcdefgh"), .log 0 Desks.blocked (Demo.line 11 "ijklmnop"),
        .log 0 Desks.blocked (Demo.line 12 "qrstuvwx")] Desks.empty = some s ∧
      (s.holder 0).logs DEVICE_LOG_TOTAL_WRITE_LINE = 3 ∧
      ∀ p c, s.disk.fs p = some c → c = ["ijklmnop".toList] ∨ c = ["qrstuvwx".toList] := by
  obtain ⟨es, hes⟩ : ∃ es, es = [DiskEv.log 0 Desks.blocked (Demo.line 10 "abcdefgh"),
    .log 0 Desks.blocked (Demo.line 11 "ijklmnop"), .log 0 Desks.blocked (Demo.line 12 "qrstuvwx")] := ⟨_, rfl⟩
  rw [← hes]
  have hpath : ∀ u ts, fullPath (Desks.backups2 u).env.proc ((Desks.backups2 u).env.tm ts) (Desks.backups2 u).env.fuel
      (Desks.backups2 u).device (Desks.backups2 u).channel = some "a.log".toList := fun _ _ => rfl
  obtain ⟨s, h⟩ := deskRun_some (U := Desks.backups2) es (by
    intro x hx
    rw [hes] at hx
    simp only [allLogs, List.mem_cons, List.not_mem_nil, or_false] at hx
    rw [hpath]
    rcases hx with rfl | rfl | rfl <;> exact ⟨⟨by decide, by decide⟩, rfl⟩) Desks.empty
  have e : ∀ {α : Type} (f : Desk → α), f s = f ((deskRun Desks.backups2 es Desks.empty).getD Desks.empty) := by
    intro α f; rw [h]; rfl
  have hnames := names_run (P := fun q => q = "a.log".toList ∨ q = "a.log.1".toList ∨ q = "a.log.2".toList) es (by
    intro x hx
    rw [hes] at hx
    have hw : ∀ u, RotatesIn (fun q => q = "a.log".toList ∨ q = "a.log.1".toList ∨ q = "a.log.2".toList)
        (Desks.backups2 u).device := by
      intro u q n hq h1 h2
      have : toInt (if (Desks.backups2 u).device.cfg.rollback > 0 then (Desks.backups2 u).device.cfg.rollback else 1) = 2 := by
        show toInt (if (2 : Int) > 0 then 2 else 1) = 2
        decide
      have : n = 1 ∨ n = 2 := by omega
      rcases this with rfl | rfl
      · rcases hq with rfl | rfl | rfl <;> exact Or.inr (Or.inl (by kernel_rfl))
      · rcases hq with rfl | rfl | rfl <;> exact Or.inr (Or.inr (by kernel_rfl))
    simp only [List.mem_cons, List.not_mem_nil, or_false] at hx
    rcases hx with rfl | rfl | rfl
    all_goals exact ⟨_, _, _, rfl, hw _, fun p hp => by rw [hpath] at hp; exact Or.inl (Option.some.inj hp).symm⟩) h nofun
  refine ⟨s, h, ?_, fun p c hc => ?_⟩
  · rw [e fun s => (s.holder 0).logs DEVICE_LOG_TOTAL_WRITE_LINE, hes]; kernel_rfl
  · have hne : s.disk.node p ≠ none := fun x => by unfold Disk.fs at hc; rw [x] at hc; cases hc
    rcases hnames p hne with rfl | rfl | rfl
    · right
      rw [e fun s => s.disk.fs "a.log".toList, hes] at hc
      exact (Option.some.inj (hc.symm.trans (by kernel_rfl)))
    · left
      rw [e fun s => s.disk.fs "a.log.1".toList, hes] at hc
      exact (Option.some.inj (hc.symm.trans (by kernel_rfl)))
    · rw [e fun s => s.disk.fs "a.log.2".toList, hes] at hc
      have : (Option.some c : Option Blocks) = none := hc.symm.trans (by kernel_rfl)
      cases this

theorem linesInto_same {name : Nat → List Char} {p : List Char} (l : FileLog) (b : List Char) (hb : block l = [b]) (u : Nat)
    (hu : name u = p) (n : Nat) : linesInto name p (List.replicate n (u, l)) = List.replicate n b := by
  induction n with
  | zero => rfl
  | succ n ih =>
    simp only [List.replicate_succ, linesInto, List.flatMap_cons] at ih ⊢
    rw [ih, if_pos hu, hb]
    rfl

theorem allLogs_same (u : Nat) (a : DiskSays) (l : FileLog) (n : Nat) :
    allLogs (List.replicate n (.log u a l)) = List.replicate n (u, l) := by
  induction n with
  | zero => rfl
  | succ n ih => simp only [List.replicate_succ, allLogs, ih]

/-- The limit of the size holds nothing back when the directory may not be changed: no line is lost, but a device with a
limit of 10 bytes and two backups (without `stuff_up`) makes one file of any length. -/
theorem C48_denied_counterexample (n : Nat) :
    ∃ s, deskRun Desks.backups2 (List.replicate (n + 1) (.log 0 Desks.denied (Demo.line 10 "abcdefgh"))) Desks.empty = some s ∧
      s.disk.fs "a.log".toList = some (List.replicate (n + 1) "abcdefgh".toList) ∧
      (s.holder 0).logs DEVICE_LOG_TOTAL_WRITE_LINE = n + 1 := by
  have hpath : ∀ u ts, fullPath (Desks.backups2 u).env.proc ((Desks.backups2 u).env.tm ts) (Desks.backups2 u).env.fuel
      (Desks.backups2 u).device (Desks.backups2 u).channel = some "a.log".toList := fun _ _ => rfl
  obtain ⟨es, hes⟩ : ∃ es, es = List.replicate (n + 1) (DiskEv.log 0 Desks.denied (Demo.line 10 "abcdefgh")) := ⟨_, rfl⟩
  rw [← hes]
  have hall : allLogs es = List.replicate (n + 1) (0, Demo.line 10 "abcdefgh") := by rw [hes, allLogs_same]
  have hmem : ∀ x ∈ allLogs es, x = (0, Demo.line 10 "abcdefgh") := by
    intro x hx
    rw [hall] at hx
    exact (List.mem_replicate.mp hx).2
  have hval : Valid (Demo.line 10 "abcdefgh") := ⟨by decide, by decide⟩
  obtain ⟨s, h⟩ := deskRun_some (U := Desks.backups2) es (fun x hx => by
    rw [hmem x hx, hpath]; exact ⟨hval, rfl⟩) Desks.empty
  obtain ⟨t, ht, _, hx⟩ := C110_taken h
  have hteq := hx (fun x hx => by
    rw [hmem x hx]
    exact ⟨rfl, by decide, hval, _, hpath 0 _, by decide⟩) (fun _ => rfl)
  have hsh := C110_shared_partial (name := fun _ => "a.log".toList) ht (fun x hx => by
    rw [hes] at hx
    rw [(List.mem_replicate.mp hx).2]
    exact Or.inr ⟨fun _ _ => rfl, fun _ => rfl⟩) (fun x hx => hpath _ _) Desks.empty_sound Desks.empty_held nofun "a.log".toList
  obtain ⟨_, _, _, hl⟩ := C110_whole ht Desks.empty_sound Desks.empty_held
  rw [hteq, hall] at hsh hl
  rw [linesInto_same _ "abcdefgh".toList rfl _ rfl] at hsh
  refine ⟨s, h, ?_, ?_⟩
  · cases hf : s.disk.fs "a.log".toList with
    | none => rw [hf] at hsh; simp [Desks.empty, Disk.fs] at hsh
    | some c =>
      rw [hf] at hsh
      have hsh : c = [] ++ List.replicate (n + 1) "abcdefgh".toList := hsh
      rw [hsh]
      rfl
  · rw [hl (fun x hx => by rw [(List.mem_replicate.mp hx).2]; exact hval) 0, List.filter_eq_self.mpr (by
      intro x hx; rw [(List.mem_replicate.mp hx).2]; rfl)]
    simp [Desks.empty]

/-- The conditions of C109: two devices with files of their own, one of which rotates, and another program that creates,
renames and removes a file. -/
example : SeatsApart Desks.apart ∧ ∃ s, deskRun Desks.apart
    [.log 0 Desks.free (Demo.line 10 "abcdefgh"), .create "c".toList, .log 1 Desks.free (Demo.line 11 "other"),
      .rename "c".toList "d".toList, .log 0 Desks.free (Demo.line 12 "ijklmnop"), .remove "d".toList] Desks.empty = some s ∧
    s.disk.fs "a.log".toList = some ["ijklmnop".toList] ∧ s.disk.fs "a.log.1".toList = some ["abcdefgh".toList] ∧
    s.disk.fs "b.log".toList = some ["other".toList] ∧ (∀ p, p = "c".toList ∨ p = "d".toList → ∀ v, ¬ SeatFiles (Desks.apart v) p) := by
  have hf : ∀ v p, SeatFiles (Desks.apart v) p → (v = 0 ∧ ∃ i, p = backup "a.log".toList i) ∨
      (v = 1 ∧ ∃ i, p = backup "b.log".toList i) := by
    rintro v p ⟨ts, F, i, hF, rfl⟩
    match v with
    | 0 => exact Or.inl ⟨rfl, i, by
        have : some "a.log".toList = some F := hF
        obtain rfl := Option.some.inj this
        rfl⟩
    | 1 => exact Or.inr ⟨rfl, i, by
        have : some "b.log".toList = some F := hF
        obtain rfl := Option.some.inj this
        rfl⟩
    | v + 2 => exact absurd hF (by intro hF; cases (hF : (none : Option (List Char)) = some F))
  have hh : ∀ i, (backup ("a.log".toList) i).head? = some 'a' ∧ (backup ("b.log".toList) i).head? = some 'b' := by
    intro i
    unfold backup
    refine ⟨?_, ?_⟩ <;> (split <;> rfl)
  refine ⟨?_, ?_⟩
  · rintro u v huv p ⟨h1, h2⟩
    rcases hf u p h1 with ⟨rfl, i, rfl⟩ | ⟨rfl, i, rfl⟩ <;> rcases hf v _ h2 with ⟨rfl, j, hj⟩ | ⟨rfl, j, hj⟩
    · exact huv rfl
    · have := congrArg List.head? hj
      rw [(hh i).1, (hh j).2] at this
      exact absurd this (by decide)
    · have := congrArg List.head? hj
      rw [(hh i).2, (hh j).1] at this
      exact absurd this (by decide)
    · exact huv rfl
  · obtain ⟨es, hes⟩ : ∃ es, es = [DiskEv.log 0 Desks.free (Demo.line 10 "abcdefgh"), .create "c".toList,
      .log 1 Desks.free (Demo.line 11 "other"), .rename "c".toList "d".toList, .log 0 Desks.free (Demo.line 12 "ijklmnop"),
      .remove "d".toList] := ⟨_, rfl⟩
    rw [← hes]
    obtain ⟨s, h⟩ := deskRun_some (U := Desks.apart) es (by
      intro x hx
      rw [hes] at hx
      simp only [allLogs, List.mem_cons, List.not_mem_nil, or_false] at hx
      rcases hx with rfl | rfl | rfl <;> exact ⟨⟨by decide, by decide⟩, rfl⟩) Desks.empty
    have e : ∀ {α : Type} (f : Desk → α), f s = f ((deskRun Desks.apart es Desks.empty).getD Desks.empty) := by
      intro α f; rw [h]; rfl
    refine ⟨s, h, ?_, ?_, ?_, fun p hp v hv => ?_⟩
    · rw [e fun s => s.disk.fs "a.log".toList, hes]; kernel_rfl
    · rw [e fun s => s.disk.fs "a.log.1".toList, hes]; kernel_rfl
    · rw [e fun s => s.disk.fs "b.log".toList, hes]; kernel_rfl
    · rcases hf v p hv with ⟨_, i, hi⟩ | ⟨_, i, hi⟩ <;> rcases hp with rfl | rfl
      all_goals
        have := congrArg List.head? hi
        first
          | rw [(hh i).1] at this; exact absurd this (by decide)
          | rw [(hh i).2] at this; exact absurd this (by decide)

end FNLog
