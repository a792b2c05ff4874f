import Verif.Spec.Durable
import Verif.Proof.Shut

/-! # The disk and the operating system -/

namespace FNLog
open Spec Ring

/-! ## Files -/

/-- As `Behind`, for one file. -/
def BehindAt (a b : Option Blocks) : Prop :=
  (a = none ∧ b = none) ∨ ∃ x y, b.map List.flatten = some x ∧ a.map List.flatten = some (x ++ y)

theorem BehindAt.self (a : Option Blocks) : BehindAt a a := by
  cases a with
  | none => exact Or.inl ⟨rfl, rfl⟩
  | some c => exact Or.inr ⟨c.flatten, [], rfl, by simp⟩

theorem BehindAt.none_iff {a b : Option Blocks} (h : BehindAt a b) : a = none ↔ b = none := by
  rcases h with ⟨rfl, rfl⟩ | ⟨x, y, h1, h2⟩
  · exact Iff.rfl
  · cases a <;> cases b <;> simp at h1 h2 ⊢

theorem BehindAt.more {a b : Option Blocks} (h : BehindAt a b) (ha : a ≠ none) (z : List Char) :
    BehindAt (some (a.getD [] ++ [z])) b := by
  rcases h with ⟨rfl, rfl⟩ | ⟨x, y, h1, h2⟩
  · exact absurd rfl ha
  · refine Or.inr ⟨x, y ++ z, h1, ?_⟩
    cases a with
    | none => exact absurd rfl ha
    | some c =>
      simp only [Option.map_some, Option.some.injEq] at h2
      simp [h2]

theorem BehindAt.opened {a b : Option Blocks} (h : BehindAt a b) : BehindAt (some (a.getD [])) (some (b.getD [])) := by
  rcases h with ⟨rfl, rfl⟩ | ⟨x, y, h1, h2⟩
  · exact BehindAt.self _
  · cases a <;> cases b <;> simp at h1 h2
    exact Or.inr ⟨x, y, by simpa using h1, by simpa using h2⟩

theorem Spec.Behind.set {a b : Fs} (h : Behind a b) (p : List Char) {x y : Option Blocks} (hx : BehindAt x y) :
    Behind (a.set p x) (b.set p y) := by
  intro q
  show BehindAt _ _
  unfold Fs.set
  split
  · exact hx
  · exact h q

theorem Spec.Behind.rename {a b : Fs} (h : Behind a b) (p q : List Char) : Behind (a.rename p q) (b.rename p q) := by
  unfold Fs.rename
  have hn := BehindAt.none_iff (h p)
  by_cases e : a p = none ∨ p = q
  · rw [if_pos e, if_pos (by rwa [← hn])]
    exact h
  · rw [if_neg e, if_neg (by rwa [← hn])]
    exact (h.set q (h p)).set p (BehindAt.self _)

theorem Spec.Behind.rollback {a b : Fs} (h : Behind a b) (N : Int) (p : List Char) (k : Nat) :
    Behind (rollback N p k a) (rollback N p k b) := by
  induction hn : (N + 1 - k).toNat generalizing p k with
  | zero =>
    rw [rollback.eq_def N p k a, rollback.eq_def N p k b]
    have hp := BehindAt.none_iff (h p)
    cases ha : a p with
    | none => rw [hp.mp ha]; exact h
    | some c =>
      cases hb : b p with
      | none => rw [hp.mpr hb] at ha; cases ha
      | some e =>
        simp only
        rw [if_pos (by omega), if_pos (by omega)]
        exact h.set _ (BehindAt.self _)
  | succ n ih =>
    rw [rollback.eq_def N p k a, rollback.eq_def N p k b]
    have hp := BehindAt.none_iff (h p)
    cases ha : a p with
    | none => rw [hp.mp ha]; exact h
    | some c =>
      cases hb : b p with
      | none => rw [hp.mpr hb] at ha; cases ha
      | some e =>
        simp only
        split
        · exact h.set _ (BehindAt.self _)
        · exact (ih _ _ (by omega)).rename _ _

theorem Spec.Behind.rotate {a b : Fs} (h : Behind a b) (d : Device) (lim : Bool) (p : List Char) :
    Behind (rotate d lim p a) (rotate d lim p b) := by
  unfold FNLog.rotate
  split
  · split
    · exact h.rollback _ _ _
    · exact h
  · exact h

/-! ## One device -/

/-- The device `b` and the disk; `K`: nothing has been lost by closing files. -/
structure DRel (K : Prop) (P : List Char → Prop) (b : BufSt) (disk : Fs) : Prop where
  own : ∀ p, b.handle = some p → P p ∧ b.fs p ≠ none
  behind : Behind b.fs disk
  kept : K → ∀ p, P p → b.handle = some p ∨ bytesOf disk p = bytesOf b.fs p

/-- `FileHandler::close`. -/
theorem DRel.close {K : Prop} {P : List Char → Prop} {b : BufSt} {disk : Fs} (h : DRel K P b disk) (hb : K → b.buf = []) :
    DRel K P b.close (b.sync disk) ∧ ∀ q, ¬ P q → b.close.fs q = b.fs q ∧ b.sync disk q = disk q := by
  unfold BufSt.close BufSt.flush BufSt.sync
  cases hh : b.handle with
  | none =>
    refine ⟨⟨nofun, h.behind, fun hK p hp => Or.inr ?_⟩, fun _ _ => ⟨rfl, rfl⟩⟩
    rcases h.kept hK p hp with e | e
    · rw [hh] at e; cases e
    · exact e
  | some p =>
    obtain ⟨hp, hex⟩ := h.own p hh
    refine ⟨⟨nofun, h.behind.set p ((BehindAt.self _).more hex _), fun hK q hq => Or.inr ?_⟩, fun q hq => ?_⟩
    · simp only [hb hK]
      by_cases e : q = p
      · subst e
        show _ = bytesOf (b.fs.append q []) q
        rw [bytesOf_append_self _ _ _ hex, option_map_append_nil]
        simp [bytesOf, Fs.set]
      · show bytesOf _ q = bytesOf (b.fs.append p []) q
        unfold bytesOf
        rw [append_other _ _ e]
        unfold Fs.set
        rw [if_neg e]
        rcases h.kept hK q hq with x | x
        · rw [hh] at x; exact absurd (Option.some.inj x).symm e
        · exact x
    · exact ⟨append_other _ _ (by rintro rfl; exact hq hp), set_off hp _ _ q hq⟩

/-- Rotation and opening, with nothing open. -/
theorem DRel.opened {K : Prop} {P : List Char → Prop} (hc : Closed P) {b : BufSt} {disk : Fs} (h : DRel K P b disk)
    (hn : b.handle = none) (E : FileEnv) (d : Device) (lim : Bool) (log : FileLog) {p : List Char} (hp : P p) :
    DRel K P (bufOpenFile E log p { b with fs := rotate d lim p b.fs })
      (if log.opens = false then rotate d lim p disk
        else (rotate d lim p disk).set p (some ((rotate d lim p disk p).getD []))) ∧
    ∀ q, ¬ P q → (bufOpenFile E log p { b with fs := rotate d lim p b.fs }).fs q = b.fs q ∧
      (if log.opens = false then rotate d lim p disk
        else (rotate d lim p disk).set p (some ((rotate d lim p disk p).getD []))) q = disk q := by
  have hr := h.behind.rotate d lim p
  have hk : K → ∀ q, P q → bytesOf (rotate d lim p disk) q = bytesOf (rotate d lim p b.fs) q := by
    intro hK
    have h1 : AgreeOn P (flatFs disk) (flatFs b.fs) := bytes_agree fun q hq => by
      rcases h.kept hK q hq with e | e
      · rw [hn] at e; cases e
      · exact e
    have := (rotate_frame hc d lim hp h1).1
    rw [← flatFs_rotate, ← flatFs_rotate] at this
    exact agree_bytes this
  have o1 := (rotate_frame hc d lim hp (a := b.fs) (b := b.fs) fun _ _ => rfl).2
  have o2 := (rotate_frame hc d lim hp (a := disk) (b := disk) fun _ _ => rfl).2
  unfold bufOpenFile FNLog.openFile
  simp only
  by_cases ho : log.opens = false
  · simp only [if_pos ho]
    refine ⟨⟨fun q hq => absurd (hn.symm.trans hq) nofun, hr, fun hK q hq => Or.inr (hk hK q hq)⟩, fun q hq => ⟨o1 q hq, o2 q hq⟩⟩
  · simp only [if_neg ho]
    refine ⟨⟨?_, hr.set p (BehindAt.opened (hr p)), fun hK q hq => ?_⟩, fun q hq => ?_⟩
    · intro q hq
      obtain rfl := Option.some.inj hq
      exact ⟨hp, by simp [Fs.set]⟩
    · by_cases e : q = p
      · exact Or.inl (by rw [e])
      · right
        have := hk hK q hq
        unfold bytesOf at this ⊢
        unfold Fs.set
        simp only [if_neg e]
        exact this
    · exact ⟨(set_off hp _ _ q hq).trans (o1 q hq), (set_off hp _ _ q hq).trans (o2 q hq)⟩

/-- OpenFileDevice. -/
theorem DRel.openDevice {K : Prop} {P : List Char → Prop} (hc : Closed P) {E : FileEnv} {ch : Int} {d : Device} {log : FileLog}
    (hP : ∀ p, fullPath E.proc (E.tm log.ts) E.fuel d ch = some p → P p) {b b' : BufSt} {disk : Fs} (h : DRel K P b disk)
    (hK : K → (limitOut d b.logs log.content.length = true ∨ periodOut d b.logs log.ts = true) → b.buf = [])
    (hb : bufOpenFileDevice E ch d log b = some b') :
    DRel K P b' (diskOpen E ch d log b disk) ∧ ∀ q, ¬ P q → b'.fs q = b.fs q ∧ diskOpen E ch d log b disk q = disk q := by
  have shut : ∀ (lim : Bool) (b0 : BufSt) (dk : Fs), DRel K P b0 dk → b0.handle = none →
      ((fullPath E.proc (E.tm log.ts) E.fuel d ch).bind fun path =>
        if path.length ≥ 250 then some { b0 with logs := (openFailed 1 log.ts ⟨b0.fs, b0.handle, b0.logs⟩).logs }
        else some (bufOpenFile E log path { b0 with fs := FNLog.rotate d lim path b0.fs })) = some b' →
      ∀ dk', dk' = (match fullPath E.proc (E.tm log.ts) E.fuel d ch with
        | none => dk
        | some path => if path.length ≥ 250 then dk
          else if log.opens = false then rotate d lim path dk
            else (rotate d lim path dk).set path (some ((rotate d lim path dk path).getD []))) →
      DRel K P b' dk' ∧ ∀ q, ¬ P q → b'.fs q = b0.fs q ∧ dk' q = dk q := by
    intro lim b0 dk h0 hn h1 dk' hdk
    rw [Option.bind_eq_some_iff] at h1
    obtain ⟨p, hp, h1⟩ := h1
    rw [hp] at hdk
    simp only at hdk
    by_cases hl : p.length ≥ 250
    · rw [if_pos hl] at hdk h1
      obtain rfl := Option.some.inj h1
      subst hdk
      exact ⟨⟨h0.own, h0.behind, h0.kept⟩, fun _ _ => ⟨rfl, rfl⟩⟩
    · rw [if_neg hl] at hdk h1
      obtain rfl := Option.some.inj h1
      subst hdk
      exact h0.opened hc hn E d lim log (hP p hp)
  unfold bufOpenFileDevice at hb
  simp only [Option.bind_eq_bind, Option.pure_def] at hb
  unfold diskOpen
  simp only
  by_cases hlim : (limitOut d b.logs log.content.length || periodOut d b.logs log.ts) = true
  · rw [if_pos hlim] at hb
    simp only [if_pos hlim]
    rw [if_neg (by simp [BufSt.close])] at hb
    rw [if_neg (by simp [hlim])]
    obtain ⟨c1, c2⟩ := h.close fun hk => hK hk (by simpa using hlim)
    obtain ⟨r1, r2⟩ := shut _ { b.close with logs := b.logs.put DEVICE_LOG_CUR_FILE_SIZE 0 } _ ⟨c1.own, c1.behind, c1.kept⟩ rfl hb _ rfl
    exact ⟨r1, fun q hq => ⟨(r2 q hq).1.trans (c2 q hq).1, (r2 q hq).2.trans (c2 q hq).2⟩⟩
  · rw [if_neg hlim] at hb
    simp only [if_neg hlim]
    by_cases hh : b.handle ≠ none
    · rw [if_pos hh] at hb
      rw [if_pos ⟨by simpa using hlim, hh⟩]
      obtain rfl := Option.some.inj hb
      exact ⟨h, fun _ _ => ⟨rfl, rfl⟩⟩
    · rw [if_neg hh] at hb
      rw [if_neg (fun x => hh x.2)]
      exact shut _ b disk h (by simpa using hh) hb _ rfl

/-- `FileHandler::write`. -/
theorem DRel.write {K : Prop} {P : List Char → Prop} {b : BufSt} {disk : Fs} (h : DRel K P b disk) {p : List Char}
    (hh : b.handle = some p) (t n : Nat) {log : FileLog} (hs : K → log.short = none) :
    DRel K P (bufWriteFile t n log p b) (diskWrite log b disk) ∧
      ∀ q, ¬ P q → (bufWriteFile t n log p b).fs q = b.fs q ∧ diskWrite log b disk q = disk q := by
  obtain ⟨hp, hex⟩ := h.own p hh
  unfold bufWriteFile diskWrite
  by_cases hc : log.content = []
  · rw [if_pos hc, if_pos hc]
    exact ⟨h, fun _ _ => ⟨rfl, rfl⟩⟩
  · rw [if_neg hc, if_neg hc]
    cases hsh : log.short with
    | some k =>
      have h' : DRel K P { b with buf := b.buf ++ [(t, log.content.take k)] } disk := ⟨h.own, h.behind, h.kept⟩
      have := h'.close fun hK => by rw [hs hK] at hsh; cases hsh
      exact this
    | none =>
      refine ⟨⟨fun q hq => ⟨(h.own q hq).1, append_ne _ _ _ _ (h.own q hq).2⟩, ?_, fun hK q hq => ?_⟩,
        fun q hq => ⟨append_other _ _ (by rintro rfl; exact hq hp), rfl⟩⟩
      · intro q
        show BehindAt _ _
        show BehindAt ((b.fs.append p _) q) _
        by_cases e : q = p
        · subst e
          unfold Fs.append Fs.set
          rw [if_pos rfl]
          exact BehindAt.more (h.behind q) hex _
        · rw [append_other _ _ e]
          exact h.behind q
      · by_cases e : q = p
        · exact Or.inl (by rw [e]; exact hh)
        · rcases h.kept hK q hq with x | x
          · exact Or.inl x
          · right
            rw [x]
            show _ = bytesOf (b.fs.append p _) q
            unfold bytesOf
            rw [append_other _ _ e]

/-- EnterProcOutFileDevice. -/
theorem DRel.line {K : Prop} {P : List Char → Prop} (hc : Closed P) {E : FileEnv} {ch : Int} {t n : Nat} {d : Device}
    {log : FileLog} (hP : ∀ p, fullPath E.proc (E.tm log.ts) E.fuel d ch = some p → P p) {b b' : BufSt} {disk : Fs}
    (h : DRel K P b disk)
    (hK : K → (limitOut d b.logs log.content.length = true ∨ periodOut d b.logs log.ts = true) → b.buf = [])
    (hs : K → log.short = none) (hb : bufFileDevice E ch t n d log b = some b') :
    DRel K P b' (diskLine E ch d log b disk) ∧ ∀ q, ¬ P q → b'.fs q = b.fs q ∧ diskLine E ch d log b disk q = disk q := by
  unfold bufFileDevice at hb
  unfold diskLine
  by_cases hskip : b.handle = none ∧ b.logs DEVICE_LOG_LAST_TRY_CREATE_TIMESTAMP + 5 > log.ts
  · rw [if_pos hskip] at hb ⊢
    obtain rfl := Option.some.inj hb
    exact ⟨h, fun _ _ => ⟨rfl, rfl⟩⟩
  · rw [if_neg hskip] at hb ⊢
    simp only [Option.bind_eq_bind, Option.bind_eq_some_iff] at hb
    obtain ⟨b1, h1, hb⟩ := hb
    obtain ⟨r1, r2⟩ := h.openDevice hc hP hK h1
    rw [h1]
    simp only
    cases hh : b1.handle with
    | none =>
      rw [hh] at hb
      simp only [Option.pure_def, Option.some.injEq] at hb
      subst hb
      rw [if_pos rfl]
      exact ⟨r1, r2⟩
    | some p =>
      rw [hh] at hb
      simp only [Option.bind_eq_some_iff, Option.pure_def] at hb
      obtain ⟨l, _, hb⟩ := hb
      obtain rfl := Option.some.inj hb
      rw [if_neg (by nofun)]
      obtain ⟨w1, w2⟩ := r1.write hh t n hs
      exact ⟨⟨w1.own, w1.behind, w1.kept⟩, fun q hq => ⟨(w2 q hq).1.trans (r2 q hq).1, (w2 q hq).2.trans (r2 q hq).2⟩⟩

/-! ## All devices -/

/-- The disk and all file devices. -/
def DAll (K : Prop) (S : Setup) (f : FCrew) (disk : Fs) : Prop :=
  Behind f.crew.out.fs disk ∧
  ∀ (j : Nat) (d : Device), S.channel.devices[j]? = some d → d.outType = .file →
    K → ∀ p, FilesOf S.fenv S.channel.id d p → (f.crew.out.dev j).handle = some p ∨ bytesOf disk p = bytesOf f.crew.out.fs p

theorem DAll.rel {K : Prop} {S : Setup} {f : FCrew} {disk : Fs} (h : DAll K S f disk) {s : Crew} (hr : FRel S f s) {j : Nat}
    {d : Device} (hj : S.channel.devices[j]? = some d) (hd : d.outType = .file) :
    DRel K (FilesOf S.fenv S.channel.id d) (f.file j) disk :=
  ⟨(hr.files j d hj hd).own, h.1, h.2 j d hj hd⟩

/-- One device has changed. -/
theorem DAll.setFile {K : Prop} {S : Setup} (hap : FilesApart S.fenv S.channel.id S.channel.devices) {f : FCrew} {disk : Fs}
    (h : DAll K S f disk) {j : Nat} {d : Device} (hj : S.channel.devices[j]? = some d) (hd : d.outType = .file) {b : BufSt}
    {disk' : Fs} (hr : DRel K (FilesOf S.fenv S.channel.id d) b disk')
    (ho : ∀ q, ¬ FilesOf S.fenv S.channel.id d q → b.fs q = f.crew.out.fs q ∧ disk' q = disk q) :
    DAll K S (f.setFile j b) disk' := by
  refine ⟨hr.behind, fun i a hi ha hK p hp => ?_⟩
  by_cases e : i = j
  · subst e
    rw [hj] at hi
    obtain rfl := Option.some.inj hi
    rw [setFile_dev_self]
    exact hr.kept hK p hp
  · rw [setFile_dev_ne _ _ e]
    have hnp : ¬ FilesOf S.fenv S.channel.id d p := fun x => hap i j a d e hi hj ha hd p ⟨hp, x⟩
    rcases h.2 i a hi ha hK p hp with x | x
    · exact Or.inl x
    · right
      unfold bytesOf at x ⊢
      rw [(ho p hnp).2, x]
      show _ = (b.fs p).map _
      rw [(ho p hnp).1]

/-- The devices have not changed. -/
theorem DAll.same {K : Prop} {S : Setup} {f f' : FCrew} {disk : Fs} (h : DAll K S f disk) (hs : f'.crew.out = f.crew.out) :
    DAll K S f' disk := by
  unfold DAll
  rw [hs]
  exact h

/-- A device gets a record. -/
theorem DAll.enter {K : Prop} {S : Setup} {B : Stdio} (hap : FilesApart S.fenv S.channel.id S.channel.devices) {f f' : FCrew}
    {s : Crew} (hr : FRel S f s) {disk : Fs} (h : DAll K S f disk) {t n j : Nat} {d : Device}
    (hj : S.channel.devices[j]? = some d) {log : DevLog}
    (hK : K → d.outType = .file → (limitOut d (f.crew.out.dev j).logs log.text.length = true ∨
      periodOut d (f.crew.out.dev j).logs log.ts = true) → f.buf j = [])
    (hs : K → (S.os n j).short = none)
    (he : enterBuf S B t n j d log f = some f') : DAll K S f' (diskEnter S n j d log f disk) := by
  unfold enterBuf at he
  unfold diskEnter
  by_cases hd : d.outType = .file
  · rw [if_pos hd] at he ⊢
    obtain ⟨b, hb, rfl⟩ := Option.map_eq_some_iff.mp he
    obtain ⟨r1, r2⟩ := (h.rel hr hj hd).line (filesOf_closed _ _ _) (fun p hp => filesOf_path hp) (b := f.file j)
      (log := ⟨log.ts, log.priority, log.text, (S.os n j).opens, (S.os n j).short⟩) (fun k => hK k hd) hs hb
    exact h.setFile hap hj hd r1 r2
  · rw [if_neg hd] at he ⊢
    obtain ⟨o', ho, rfl⟩ := Option.map_eq_some_iff.mp he
    have hfs := enter_nofile hd ho
    refine ⟨by show Behind o'.fs disk; rw [hfs]; exact h.1, fun i a hi ha hk p hp => ?_⟩
    show (o'.dev i).handle = some p ∨ _ = bytesOf o'.fs p
    have e : i ≠ j := by
      rintro rfl
      rw [hj] at hi
      obtain rfl := Option.some.inj hi
      exact hd ha
    rw [hfs, enter_other ho e]
    exact h.2 i a hi ha hk p hp

/-- Nothing is flushed to the disk. -/
theorem DAll.flush {K : Prop} {S : Setup} (hap : FilesApart S.fenv S.channel.id S.channel.devices) {f : FCrew}
    {s : Crew} (hr : FRel S f s) {disk : Fs} (h : DAll K S f disk) {j : Nat} {d : Device}
    (hj : S.channel.devices[j]? = some d) (hd : d.outType = .file) : DAll K S (f.setFile j (f.file j).flush) disk := by
  have hrel := h.rel hr hj hd
  unfold BufSt.flush
  cases hh : (f.file j).handle with
  | none => exact h.setFile hap hj hd hrel fun _ _ => ⟨rfl, rfl⟩
  | some p =>
    obtain ⟨hp, hex⟩ := hrel.own p hh
    refine h.setFile hap hj hd ⟨?_, ?_, fun hK q hq => ?_⟩ fun q hq => ⟨append_other _ _ (by rintro rfl; exact hq hp), rfl⟩
    · intro q hq
      obtain rfl := Option.some.inj hq
      exact ⟨hp, append_ne _ _ _ _ hex⟩
    · intro q
      show BehindAt ((Fs.append _ p _) q) _
      by_cases e : q = p
      · subst e
        unfold Fs.append Fs.set
        rw [if_pos rfl]
        exact BehindAt.more (h.1 q) hex _
      · rw [append_other _ _ e]
        exact h.1 q
    · by_cases e : q = p
      · exact Or.inl (by rw [e])
      · rcases hrel.kept hK q hq with x | x
        · rw [hh] at x; exact absurd (Option.some.inj x).symm e
        · right
          rw [x]
          show _ = bytesOf ((f.file j).fs.append p _) q
          unfold bytesOf
          rw [append_other _ _ e]

/-- One event. -/
theorem DAll.act {K : Prop} {S : Setup} {B : Stdio} (hap : FilesApart S.fenv S.channel.id S.channel.devices) {o : OutSt}
    {f f' : FCrew} {s : Crew} (hi : FInv S B o f s) {disk : Fs} (h : DAll K S f disk) {e : Act} (hK : K → FlushedFirst S f e)
    (hs : K → ∀ n j, (S.os n j).short = none) (he : fAct S B f e = some f') : DAll K S f' (diskAct S f disk e) := by
  by_cases hr : ∃ t, e = .run t
  · obtain ⟨t, rfl⟩ := hr
    have he' : fRunThread S B t f = some f' := he
    unfold fRunThread at he'
    simp only [diskAct]
    cases hfl : f.fl t with
    | look j =>
      rw [hfl] at he'
      obtain rfl := Option.some.inj he'
      refine h.same ?_
      unfold flushLook
      split
      · rfl
      · split <;> rfl
    | call j g =>
      rw [hfl] at he'
      simp only [flushCall] at he'
      split at he'
      · cases he'
      · obtain rfl := Option.some.inj he'
        obtain ⟨d, hj, hd⟩ := hi.dev t j g hfl
        exact (h.flush hap hi.rel hj hd).same rfl
    | off =>
      rw [hfl] at he'
      simp only [bufRunThread] at he'
      have move : (∀ k, f.crew.ring.pc t = .cDisp k → S.channel.devices[f.crew.pos t]? = none) →
          (runThread S t f.crew).map (f.moved B t) = some f' → DAll K S f' disk := by
        intro hn hm
        obtain ⟨c, hc, rfl⟩ := Option.map_eq_some_iff.mp hm
        refine h.same ?_
        exact (act_out (e := .run t) hc (fun u k hu hk => by cases hu; exact hn k hk) f.crew.out).1
      cases hpc : f.crew.ring.pc t with
      | cDisp k =>
        rw [hpc] at he'
        simp only at he' ⊢
        cases hd : S.channel.devices[f.crew.pos t]? with
        | none =>
          rw [hd] at he'
          exact move (fun _ _ => hd) he'
        | some d =>
          rw [hd] at he'
          simp only [bufDispatchNext, Option.bind_eq_bind, Option.bind_eq_some_iff] at he'
          obtain ⟨⟨hh, text⟩, e1, r, e2, f1, e3, e4⟩ := he'
          obtain rfl := Option.some.inj e4
          simp only at e2 e3
          simp only [diskDispatch, e1, e2]
          cases r with
          | false =>
            rw [if_neg (by simp)]
            simp only [enterBufIf] at e3
            rw [if_neg (by nofun)] at e3
            obtain rfl := Option.some.inj e3
            exact h.same rfl
          | true =>
            rw [if_pos rfl]
            simp only [enterBufIf, if_true] at e3
            refine (h.enter hap hi.rel hd (fun k0 hfile hx => ?_) (fun k0 => hs k0 _ _) e3).same rfl
            exact hK k0 t k d hh text rfl hfl hpc hd hfile e1 hx
      | _ =>
        rw [hpc] at he'
        exact move (fun k hk => by rw [hpc] at hk; cases hk) he'
  · have hne : ∀ t, e ≠ .run t := fun t x => hr ⟨t, x⟩
    have hd : diskAct S f disk e = disk := by
      cases e with
      | run t => exact absurd rfl (hne t)
      | _ => rfl
    rw [hd]
    have : ∃ c, FNLog.act S f.crew e = some c ∧ { f with crew := c } = f' := by
      cases e with
      | run t => exact absurd rfl (hne t)
      | _ => simp only [fAct] at he; exact Option.map_eq_some_iff.mp he
    obtain ⟨c, hc, rfl⟩ := this
    exact h.same (act_out hc (fun u k hu _ => absurd hu (hne u)) f.crew.out).1

/-- A sequence of events. -/
theorem DAll.acts {K : Prop} {S : Setup} {B : Stdio} (hS : Ready S)
    (hap : FilesApart S.fenv S.channel.id S.channel.devices) {o : OutSt} (hs : K → ∀ n j, (S.os n j).short = none) :
    ∀ {es : List Act} {f : FCrew} {s : Crew} {disk : Fs}, FInv S B o f s → DAll K S f disk →
    Guarded S ∨ Serial S B es f → (∀ e ∈ es, SoundAct S e) →
    FOnTime S B es f → (K → FlushedRun S B es f) →
    ∃ (f' : FCrew) (disk' : Fs), fActs S B es f = some f' ∧ diskEvents S B (es.map .act) f disk = some (f', disk') ∧
      DAll K S f' disk' := by
  intro es
  induction es with
  | nil => intro f s disk _ h _ _ _ _; exact ⟨f, disk, rfl, rfl, h⟩
  | cons e es ih =>
    intro f s disk hi h hG he ht hK
    obtain ⟨f1, g1, g2⟩ := hi.act hS hap (hG.imp id And.left) (he e (List.mem_cons_self ..)) ht.1
    have h1 := h.act hap hi (fun k => (hK k).1) hs g1
    have : ∃ s1, FInv S B o f1 s1 := by
      rcases g2 with ⟨_, _, g2⟩ | ⟨_, s1, _, g4⟩
      · exact ⟨s, g2⟩
      · exact ⟨s1, g4⟩
    obtain ⟨s1, hi1⟩ := this
    obtain ⟨f', disk', a1, a2, a3⟩ := ih hi1 h1 (hG.imp id fun x => x.2 f1 g1) (fun x hx => he x (List.mem_cons_of_mem _ hx)) (ht.2 f1 g1)
      fun k => (hK k).2 f1 g1
    refine ⟨f', disk', ?_, ?_, a3⟩
    · show (fAct S B f e).bind _ = _
      rw [g1]; exact a1
    · show (fAct S B f e).bind _ = _
      rw [g1]; exact a2

/-! ## StopLogger -/

/-- Nothing is dispatched any more. -/
theorem Over.disk {S : Setup} {f : FCrew} (h : Over S f) (disk : Fs) (e : Act) : diskAct S f disk e = disk := by
  cases e with
  | run t =>
    have hn : ∀ k, f.crew.ring.pc t ≠ .cDisp k := by
      intro k hk
      rcases h.pc with ⟨_, hw, ho⟩ | hi
      · by_cases e : t = worker
        · subst e; rw [hw] at hk; cases hk
        · have := ho t e; rw [hk] at this; cases this
      · rw [hi t] at hk; cases hk
    simp only [diskAct]
    split
    · rename_i hk _
      exact absurd hk (hn _)
    · rfl
  | _ => rfl

/-- One event while StopLogger closes the files. -/
theorem DAll.event {K : Prop} {S : Setup} {B : Stdio} (hap : FilesApart S.fenv S.channel.id S.channel.devices) {f f' : FCrew}
    (h : Over S f) (hm : mayShut S f = true) (hb : ∀ j, f.buf j = [])
    (hown : ∀ (j : Nat) (d : Device) (p : List Char), S.channel.devices[j]? = some d → d.outType = .file →
      (f.crew.out.dev j).handle = some p → FilesOf S.fenv S.channel.id d p ∧ f.crew.out.fs p ≠ none) {disk : Fs}
    (hD : DAll K S f disk) {e : FEv} (hJ : ∀ j, e = .shut j → ∃ d, S.channel.devices[j]? = some d ∧ d.outType = .file)
    (he : fEvent S B f e = some f') : DAll K S f' (diskEvent S f disk e) ∧
      ∀ (j : Nat) (d : Device) (p : List Char), S.channel.devices[j]? = some d → d.outType = .file →
        (f'.crew.out.dev j).handle = some p → FilesOf S.fenv S.channel.id d p ∧ f'.crew.out.fs p ≠ none := by
  cases e with
  | act e =>
    obtain ⟨f1, h1, _, h3, _⟩ := h.act (B := B) e
    have he' : fAct S B f e = some f' := he
    rw [h1] at he'
    obtain rfl := Option.some.inj he'
    show DAll K S f1 (diskAct S f disk e) ∧ _
    rw [h.disk, h3]
    exact ⟨hD.same h3, hown⟩
  | clean =>
    obtain rfl := Option.some.inj he
    refine ⟨hD.same ?_, ?_⟩
    · split <;> rfl
    · split <;> exact hown
  | shut j =>
    obtain rfl := Option.some.inj he
    obtain ⟨d, hj, hd⟩ := hJ j rfl
    rw [if_pos hm]
    simp only [diskEvent, if_pos hm]
    unfold shutFile
    have hrel : DRel K (FilesOf S.fenv S.channel.id d) (f.file j) disk := ⟨fun p hp => hown j d p hj hd hp, hD.1, hD.2 j d hj hd⟩
    obtain ⟨c1, c2⟩ := hrel.close fun _ => hb j
    split
    · rename_i hn
      have : (f.file j).sync disk = disk := by
        unfold BufSt.sync
        show (match (f.crew.out.dev j).handle with | none => disk | some p => disk.set p _) = disk
        rw [hn]
      rw [this]
      exact ⟨hD, hown⟩
    · refine ⟨hD.setFile hap hj hd c1 c2, fun i a p hi ha hp => ?_⟩
      by_cases e : i = j
      · subst e; rw [setFile_dev_self] at hp; cases hp
      · rw [setFile_dev_ne _ _ e] at hp
        obtain ⟨q1, q2⟩ := hown i a p hi ha hp
        refine ⟨q1, ?_⟩
        show (f.file j).close.fs p ≠ none
        rw [(c2 p fun x => hap i j a d e hi hj ha hd p ⟨q1, x⟩).1]
        exact q2

theorem Over.may {S : Setup} {f : FCrew} (h : Over S f) (hm : S.cfg.async = true → f.crew.ring.pc worker = .done) :
    mayShut S f = true := by
  unfold mayShut
  rw [h.closed]
  by_cases hA : S.cfg.async = true
  · simp [hm hA]
  · simp [hA]

theorem DAll.events {K : Prop} {S : Setup} {B : Stdio} (hap : FilesApart S.fenv S.channel.id S.channel.devices) :
    ∀ (es : List FEv), (∀ j, .shut j ∈ es → ∃ d, S.channel.devices[j]? = some d ∧ d.outType = .file) → ∀ {f : FCrew} {disk : Fs},
    Over S f → (S.cfg.async = true → f.crew.ring.pc worker = .done) → (∀ j, f.buf j = []) →
    (∀ (j : Nat) (d : Device) (p : List Char), S.channel.devices[j]? = some d → d.outType = .file →
      (f.crew.out.dev j).handle = some p → FilesOf S.fenv S.channel.id d p ∧ f.crew.out.fs p ≠ none) →
    DAll K S f disk → ∃ f' disk', fEvents S B es f = some f' ∧ diskEvents S B es f disk = some (f', disk') ∧ DAll K S f' disk' := by
  intro es
  induction es with
  | nil => intro _ f disk _ _ _ _ h; exact ⟨f, disk, rfl, rfl, h⟩
  | cons e es ih =>
    intro hJ f disk h hm hb hown hD
    have hJe : ∀ j, e = .shut j → ∃ d, S.channel.devices[j]? = some d ∧ d.outType = .file :=
      fun j e => hJ j (by rw [e]; exact List.mem_cons_self ..)
    obtain ⟨f1, g1, g2, g3, g4, _⟩ := h.event (B := B) hm hb
      (J := fun j => ∃ d, S.channel.devices[j]? = some d ∧ d.outType = .file)
      (fun j p ⟨d, hj, hd⟩ hp => (hown j d p hj hd hp).2) e hJe
    obtain ⟨d1, d2⟩ := hD.event hap h (h.may hm) hb hown hJe g1
    obtain ⟨f', disk', a1, a2, a3⟩ := ih (fun j hx => hJ j (List.mem_cons_of_mem _ hx)) g2 g3 g4 d2 d1
    refine ⟨f', disk', ?_, ?_, a3⟩
    · show (fEvent S B f e).bind _ = _
      rw [g1]; exact a1
    · show (fEvent S B f e).bind _ = _
      rw [g1]; exact a2

theorem diskEvents_append {S : Setup} {B : Stdio} (as bs : List FEv) : ∀ (f : FCrew) (disk : Fs),
    diskEvents S B (as ++ bs) f disk = (diskEvents S B as f disk).bind fun r => diskEvents S B bs r.1 r.2 := by
  induction as with
  | nil => intro f disk; rfl
  | cons e as ih =>
    intro f disk
    show (fEvent S B f e).bind _ = ((fEvent S B f e).bind _).bind _
    cases fEvent S B f e with
    | none => rfl
    | some f1 => exact ih f1 _

end FNLog
