import Verif.Proof.FileRun
import Verif.Props.Path
import Verif.Model.Device
import Verif.Spec.Statement

/-! # A file device looks at and changes only its own files -/

namespace FNLog
open Spec

/-- A set of names closed under making the names of backups. -/
def Closed (P : List Char → Prop) : Prop := ∀ q d, P q → d ≠ 0 → P (nextPath q d)

theorem agree_set {P : List Char → Prop} {a b : Fs} (h : AgreeOn P a b) (p : List Char) (c : Option Blocks) :
    AgreeOn P (a.set p c) (b.set p c) := by
  intro q hq
  unfold Fs.set
  split
  · rfl
  · exact h q hq

theorem set_off {P : List Char → Prop} {p : List Char} (hp : P p) (a : Fs) (c : Option Blocks) :
    ∀ q, ¬ P q → (a.set p c) q = a q := by
  intro q hq
  unfold Fs.set
  rw [if_neg]
  rintro rfl
  exact hq hp

theorem rename_agree {P : List Char → Prop} {a b : Fs} (h : AgreeOn P a b) {p q : List Char} (hp : P p) :
    AgreeOn P (a.rename p q) (b.rename p q) := by
  unfold Fs.rename
  rw [h p hp]
  split
  · exact h
  · exact agree_set (agree_set h _ _) _ _

theorem rename_off {P : List Char → Prop} {p q : List Char} (hp : P p) (hq : P q) (a : Fs) :
    ∀ x, ¬ P x → (a.rename p q) x = a x := by
  intro x hx
  unfold Fs.rename
  split
  · rfl
  · rw [set_off hp _ _ x hx, set_off hq _ _ x hx]

theorem rollback_frame {P : List Char → Prop} (hc : Closed P) (N : Int) (p : List Char) (k : Nat) {a b : Fs} (hp : P p)
    (hk : k ≠ 0) (h : AgreeOn P a b) :
    AgreeOn P (rollback N p k a) (rollback N p k b) ∧ ∀ q, ¬ P q → rollback N p k a q = a q := by
  induction hn : (N + 1 - k).toNat generalizing p k with
  | zero =>
    have hb := h p hp
    cases ha : a p with
    | none =>
      rw [rollback.eq_def N p k a, rollback.eq_def N p k b, ← hb, ha]
      exact ⟨h, fun _ _ => rfl⟩
    | some c =>
      rw [rollback.eq_def N p k a, rollback.eq_def N p k b, ← hb, ha]
      simp only
      rw [if_pos (by omega), if_pos (by omega)]
      exact ⟨agree_set h _ _, set_off hp _ _⟩
  | succ n ih =>
    have hb := h p hp
    cases ha : a p with
    | none =>
      rw [rollback.eq_def N p k a, rollback.eq_def N p k b, ← hb, ha]
      exact ⟨h, fun _ _ => rfl⟩
    | some c =>
      rw [rollback.eq_def N p k a, rollback.eq_def N p k b, ← hb, ha]
      simp only
      by_cases hm : (k : Int) > N
      · rw [if_pos hm, if_pos hm]
        exact ⟨agree_set h _ _, set_off hp _ _⟩
      · rw [if_neg hm, if_neg hm]
        obtain ⟨i1, i2⟩ := ih (nextPath p k) (k + 1) (hc p k hp hk) (by omega) (by omega)
        refine ⟨rename_agree i1 hp, fun q hq => ?_⟩
        rw [rename_off hp (hc p k hp hk) _ q hq]
        exact i2 q hq

theorem rotate_frame {P : List Char → Prop} (hc : Closed P) (d : Device) (lim : Bool) {p : List Char} (hp : P p) {a b : Fs}
    (h : AgreeOn P a b) :
    AgreeOn P (rotate d lim p a) (rotate d lim p b) ∧ ∀ q, ¬ P q → rotate d lim p a q = a q := by
  unfold rotate
  split
  · split
    · exact rollback_frame hc _ p 1 hp (by omega) h
    · exact ⟨h, fun _ _ => rfl⟩
  · exact ⟨h, fun _ _ => rfl⟩

/-- Two states of a device that differ at most in files that are not in `P`. -/
structure SameAs (P : List Char → Prop) (s t : FileSt) : Prop where
  handle : s.handle = t.handle
  logs : s.logs = t.logs
  fs : AgreeOn P s.fs t.fs
  own : ∀ p, s.handle = some p → P p

theorem openFile_frame {P : List Char → Prop} (E : FileEnv) (log : FileLog) {p : List Char} (hp : P p) {s t : FileSt}
    (h : SameAs P s t) :
    SameAs P (openFile E log p s) (openFile E log p t) ∧ ∀ q, ¬ P q → (openFile E log p s).fs q = s.fs q := by
  unfold openFile
  split
  · unfold openFailed
    exact ⟨⟨h.handle, by simp only [h.logs], h.fs, h.own⟩, fun _ _ => rfl⟩
  · rw [h.fs p hp, h.logs]
    refine ⟨⟨rfl, rfl, agree_set h.fs _ _, ?_⟩, set_off hp _ _⟩
    intro q hq
    obtain rfl := Option.some.inj hq
    exact hp

theorem writeFile_frame {P : List Char → Prop} (log : FileLog) {p : List Char} (hp : P p) {s t : FileSt}
    (h : SameAs P s t) :
    SameAs P (writeFile log p s) (writeFile log p t) ∧ ∀ q, ¬ P q → (writeFile log p s).fs q = s.fs q := by
  unfold writeFile
  split
  · exact ⟨h, fun _ _ => rfl⟩
  · rw [h.fs p hp]
    split
    · exact ⟨⟨h.handle, h.logs, agree_set h.fs _ _, h.own⟩, set_off hp _ _⟩
    · exact ⟨⟨rfl, h.logs, agree_set h.fs _ _, nofun⟩, set_off hp _ _⟩

/-- The device reads and writes only files of `P` if the names it makes are in `P`. -/
theorem fileDevice_frame {P : List Char → Prop} (hc : Closed P) {E : FileEnv} {ch : Int} {d : Device} {log : FileLog}
    (hP : ∀ p, fullPath E.proc (E.tm log.ts) E.fuel d ch = some p → P p) {s t s' : FileSt} (h : SameAs P s t)
    (hs : fileDevice E ch d log s = some s') :
    (∃ t', fileDevice E ch d log t = some t' ∧ SameAs P s' t') ∧ ∀ q, ¬ P q → s'.fs q = s.fs q := by
  unfold fileDevice at hs ⊢
  rw [← h.handle, ← h.logs]
  split at hs
  · rename_i hn
    rw [if_pos hn]
    obtain rfl := Option.some.inj hs
    exact ⟨⟨_, rfl, h⟩, fun _ _ => rfl⟩
  · rename_i hn
    rw [if_neg hn]
    simp only [Option.bind_eq_bind, Option.bind_eq_some_iff] at hs ⊢
    obtain ⟨s1, ho, hs⟩ := hs
    have key : (∃ t1, openFileDevice E ch d log t = some t1 ∧ SameAs P s1 t1) ∧ ∀ q, ¬ P q → s1.fs q = s.fs q := by
      unfold openFileDevice at ho ⊢
      rw [← h.logs]
      by_cases hlim : (limitOut d s.logs log.content.length || periodOut d s.logs log.ts) = true
      · simp only [hlim, if_true, ne_eq, not_true_eq_false, if_false, Option.bind_eq_bind, Option.bind_eq_some_iff,
          Option.pure_def] at ho ⊢
        obtain ⟨p, hp, ho⟩ := ho
        have hpp := hP p hp
        split at ho
        · obtain rfl := Option.some.inj ho
          refine ⟨⟨_, ⟨p, hp, by rw [if_pos ‹_›]⟩, ?_⟩, fun _ _ => rfl⟩
          exact ⟨rfl, by unfold openFailed; rfl, h.fs, nofun⟩
        · obtain rfl := Option.some.inj ho
          obtain ⟨r1, r2⟩ := rotate_frame hc d (limitOut d s.logs log.content.length) hpp h.fs
          obtain ⟨o1, o2⟩ := openFile_frame E log hpp 
            (s := ⟨rotate d (limitOut d s.logs log.content.length) p s.fs, none, s.logs.put DEVICE_LOG_CUR_FILE_SIZE 0⟩)
            (t := ⟨rotate d (limitOut d s.logs log.content.length) p t.fs, none, s.logs.put DEVICE_LOG_CUR_FILE_SIZE 0⟩)
            ⟨rfl, rfl, r1, nofun⟩
          refine ⟨⟨_, ⟨p, hp, by rw [if_neg ‹_›]⟩, o1⟩, fun q hq => ?_⟩
          exact (o2 q hq).trans (r2 q hq)
      · simp only [hlim, if_false, Option.bind_eq_bind, Option.pure_def, Bool.false_eq_true] at ho ⊢
        rw [← h.handle]
        split at ho
        · rename_i hh
          rw [if_pos hh]
          obtain rfl := Option.some.inj ho
          exact ⟨⟨_, rfl, h⟩, fun _ _ => rfl⟩
        · rename_i hh
          rw [if_neg hh]
          simp only [Option.bind_eq_some_iff] at ho ⊢
          obtain ⟨p, hp, ho⟩ := ho
          have hpp := hP p hp
          split at ho
          · obtain rfl := Option.some.inj ho
            refine ⟨⟨_, ⟨p, hp, by rw [if_pos ‹_›]⟩, ?_⟩, fun _ _ => rfl⟩
            exact ⟨h.handle, by unfold openFailed; simp only [h.logs], h.fs, h.own⟩
          · obtain rfl := Option.some.inj ho
            obtain ⟨r1, r2⟩ := rotate_frame hc d (limitOut d s.logs log.content.length) hpp h.fs
            obtain ⟨o1, o2⟩ := openFile_frame E log hpp 
              (s := ⟨rotate d (limitOut d s.logs log.content.length) p s.fs, s.handle, s.logs⟩)
              (t := ⟨rotate d (limitOut d s.logs log.content.length) p t.fs, s.handle, t.logs⟩)
              ⟨rfl, h.logs, r1, h.own⟩
            exact ⟨⟨_, ⟨p, hp, by rw [if_neg ‹_›]⟩, o1⟩, fun q hq => (o2 q hq).trans (r2 q hq)⟩
    obtain ⟨⟨t1, ht1, hst⟩, hoff⟩ := key
    refine ⟨?_, ?_⟩
    · rw [ht1]
      simp only [Option.some.injEq, exists_eq_left']
      cases hh : s1.handle with
      | none =>
        rw [hh] at hs
        rw [← hst.handle, hh]
        obtain rfl := Option.some.inj hs
        exact ⟨t1, rfl, hst⟩
      | some p =>
        rw [hh] at hs
        rw [← hst.handle, hh]
        obtain ⟨w1, _⟩ := writeFile_frame log (hst.own p hh) hst
        simp only [Option.bind_eq_some_iff, Option.pure_def] at hs ⊢
        obtain ⟨l, hl, hs⟩ := hs
        obtain rfl := Option.some.inj hs
        rw [← w1.logs]
        exact ⟨_, ⟨l, hl, rfl⟩, w1.handle, rfl, w1.fs, w1.own⟩
    · intro q hq
      rw [← hoff q hq]
      cases hh : s1.handle with
      | none =>
        rw [hh] at hs
        obtain rfl := Option.some.inj hs
        rfl
      | some p =>
        rw [hh] at hs
        simp only [Option.bind_eq_some_iff, Option.pure_def] at hs
        obtain ⟨l, _, hs⟩ := hs
        obtain rfl := Option.some.inj hs
        exact (writeFile_frame log (hst.own p hh) hst).2 q hq

end FNLog
