import Verif.Spec.Flush
import Verif.Proof.ThreadsEnd

/-! # A buffered file device is a file device whose last bytes are still in the buffer -/

namespace FNLog
open Spec

/-! ## Buffers -/

theorem bytes_append (a b : Chunks) : (a ++ b).bytes = a.bytes ++ b.bytes := by simp [Chunks.bytes]

theorem bytes_one (t : Nat) (x : List Char) : Chunks.bytes [(t, x)] = x := by simp [Chunks.bytes]

theorem spill_bytes (n : Nat) (b : Chunks) : (b.spill n).1 ++ (b.spill n).2.bytes = b.bytes := by
  induction b generalizing n with
  | nil => rfl
  | cons x r ih =>
    obtain ⟨t, x⟩ := x
    unfold Chunks.spill
    split
    · have := ih (n - x.length)
      simp only [Chunks.bytes, List.map_cons, List.flatten_cons, List.append_assoc] at this ⊢
      rw [this]
    · simp only [Chunks.bytes, List.map_cons, List.flatten_cons, ← List.append_assoc, List.take_append_drop]

/-- What is left comes from the threads that have written. -/
theorem spill_writers (n : Nat) (b : Chunks) : ((b.spill n).2.map Prod.fst).Sublist (b.map Prod.fst) := by
  induction b generalizing n with
  | nil => exact .slnil
  | cons x r ih =>
    obtain ⟨t, x⟩ := x
    unfold Chunks.spill
    split
    · exact (ih _).cons _
    · exact .refl _

/-! ## Blocks and bytes -/

/-- The files with the bytes of each as one block. -/
def flatFs (fs : Fs) : Fs := fun p => (fs p).map fun c => [c.flatten]

theorem flatFs_set (fs : Fs) (p : List Char) (c : Option Blocks) :
    flatFs (fs.set p c) = (flatFs fs).set p (c.map fun c => [c.flatten]) := by
  funext q
  unfold flatFs Fs.set
  split <;> rfl

theorem flatFs_none (fs : Fs) (p : List Char) : flatFs fs p = none ↔ fs p = none := by
  unfold flatFs
  cases fs p <;> simp

theorem flatFs_rename (fs : Fs) (p q : List Char) : flatFs (fs.rename p q) = (flatFs fs).rename p q := by
  unfold Fs.rename
  by_cases h : fs p = none ∨ p = q
  · rw [if_pos h, if_pos (by rwa [flatFs_none])]
  · rw [if_neg h, if_neg (by rwa [flatFs_none]), flatFs_set, flatFs_set]
    rfl

theorem flatFs_rollback (N : Int) (p : List Char) (k : Nat) (fs : Fs) :
    flatFs (rollback N p k fs) = rollback N p k (flatFs fs) := by
  induction hn : (N + 1 - k).toNat generalizing p k with
  | zero =>
    rw [rollback.eq_def N p k fs, rollback.eq_def N p k (flatFs fs)]
    cases ha : fs p with
    | none => rw [(flatFs_none fs p).mpr ha]
    | some c =>
      have : flatFs fs p = some [c.flatten] := by simp [flatFs, ha]
      rw [this]
      simp only
      rw [if_pos (by omega), if_pos (by omega), flatFs_set]
      rfl
  | succ n ih =>
    rw [rollback.eq_def N p k fs, rollback.eq_def N p k (flatFs fs)]
    cases ha : fs p with
    | none => rw [(flatFs_none fs p).mpr ha]
    | some c =>
      have : flatFs fs p = some [c.flatten] := by simp [flatFs, ha]
      rw [this]
      simp only
      split
      · rw [flatFs_set]; rfl
      · rw [flatFs_rename, ih _ _ (by omega)]

theorem flatFs_rotate (d : Device) (lim : Bool) (p : List Char) (fs : Fs) :
    flatFs (rotate d lim p fs) = rotate d lim p (flatFs fs) := by
  unfold rotate
  split
  · split
    · exact flatFs_rollback _ _ _ _
    · rfl
  · rfl

theorem fileSize_flatten (c : Blocks) : fileSize [c.flatten] = fileSize c := by
  simp [fileSize, List.length_flatten]

theorem bytesOf_flat (fs : Fs) (p : List Char) : flatFs fs p = (bytesOf fs p).map fun x => [x] := by
  unfold flatFs bytesOf
  cases fs p <;> rfl

theorem bytesOf_none (fs : Fs) (p : List Char) : bytesOf fs p = none ↔ fs p = none := by
  unfold bytesOf
  cases fs p <;> simp

theorem bytesOf_append_self (fs : Fs) (p x : List Char) (h : fs p ≠ none) :
    bytesOf (fs.append p x) p = (bytesOf fs p).map (· ++ x) := by
  unfold bytesOf Fs.append Fs.set
  cases hp : fs p with
  | none => exact absurd hp h
  | some c => simp

theorem append_other (fs : Fs) {p q : List Char} (x : List Char) (h : q ≠ p) : fs.append p x q = fs q := by
  unfold Fs.append Fs.set
  rw [if_neg h]

theorem append_ne (fs : Fs) (p q x : List Char) (h : fs q ≠ none) : fs.append p x q ≠ none := by
  unfold Fs.append Fs.set
  split
  · simp
  · exact h

/-! ## One device -/

/-- What is not yet in file `p`. -/
def pendingAt (b : BufSt) (p : List Char) : List Char := if b.handle = some p then b.buf.bytes else []

/-- `b` is the device `s` with the last bytes of its file in the buffer; `P` are the files of the device. -/
structure BufRel (P : List Char → Prop) (b : BufSt) (s : FileSt) : Prop where
  handle : b.handle = s.handle
  logs : b.logs = s.logs
  own : ∀ p, b.handle = some p → P p ∧ b.fs p ≠ none
  closed : b.handle = none → b.buf = []
  files : ∀ p, P p → bytesOf s.fs p = (bytesOf b.fs p).map (· ++ pendingAt b p)

theorem option_map_append_nil (x : Option (List Char)) : x.map (· ++ []) = x := by cases x <;> simp

theorem BufRel.flush {P : List Char → Prop} {b : BufSt} {s : FileSt} (h : BufRel P b s) : BufRel P b.flush s ∧
    b.flush.buf = [] ∧ b.flush.handle = b.handle ∧ b.flush.gen = b.gen ∧ (∀ q, ¬ P q → b.flush.fs q = b.fs q) := by
  unfold BufSt.flush
  cases hh : b.handle with
  | none => exact ⟨h, h.closed hh, hh, rfl, fun _ _ => rfl⟩
  | some p =>
    obtain ⟨hp, hex⟩ := h.own p hh
    refine ⟨⟨?_, h.logs, ?_, nofun, ?_⟩, rfl, rfl, rfl, fun q hq => append_other _ _ (by rintro rfl; exact hq hp)⟩
    · rw [← h.handle, hh]
    · intro q hq
      obtain rfl := Option.some.inj hq
      exact ⟨hp, append_ne _ _ _ _ hex⟩
    · intro q hq
      have := h.files q hq
      rw [this]
      unfold pendingAt
      rw [hh]
      by_cases e : q = p
      · subst e
        rw [bytesOf_append_self _ _ _ hex]
        simp only [if_true, Chunks.bytes, List.map_nil, List.flatten_nil, option_map_append_nil]
      · have e' : ¬ (some p = some q) := fun x => e (Option.some.inj x).symm
        simp only [e', if_false]
        unfold bytesOf
        rw [append_other _ _ e]

theorem BufRel.close {P : List Char → Prop} {b : BufSt} {s : FileSt} (h : BufRel P b s) :
    BufRel P b.close { s with handle := none } ∧ b.close.gen = b.gen ∧ (∀ q, ¬ P q → b.close.fs q = b.fs q) := by
  obtain ⟨f1, f2, f3, f4, f5⟩ := h.flush
  refine ⟨⟨rfl, f1.logs, nofun, fun _ => f2, ?_⟩, f4, f5⟩
  intro p hp
  rw [show (({ s with handle := none } : FileSt).fs) = s.fs from rfl, f1.files p hp]
  show _ = (bytesOf b.flush.fs p).map (· ++ pendingAt b.close p)
  unfold pendingAt
  have : b.flush.buf.bytes = [] := by rw [f2]; rfl
  rw [this]
  simp [BufSt.close]

theorem bytes_agree {P : List Char → Prop} {a b : Fs} (h : ∀ p, P p → bytesOf a p = bytesOf b p) :
    AgreeOn P (flatFs a) (flatFs b) := by
  intro p hp
  rw [bytesOf_flat, bytesOf_flat, h p hp]

theorem agree_bytes {P : List Char → Prop} {a b : Fs} (h : AgreeOn P (flatFs a) (flatFs b)) :
    ∀ p, P p → bytesOf a p = bytesOf b p := by
  intro p hp
  have := h p hp
  rw [bytesOf_flat, bytesOf_flat] at this
  cases h1 : bytesOf a p <;> cases h2 : bytesOf b p <;> simp_all

/-- While nothing is open the files are the same. -/
theorem BufRel.shut {P : List Char → Prop} {b : BufSt} {s : FileSt} (h : BufRel P b s) (hn : b.handle = none) :
    ∀ p, P p → bytesOf s.fs p = bytesOf b.fs p := by
  intro p hp
  rw [h.files p hp]
  unfold pendingAt
  rw [hn]
  simp

theorem BufRel.rotate {P : List Char → Prop} (hc : Closed P) {b : BufSt} {s : FileSt} (h : BufRel P b s)
    (hn : b.handle = none) (d : Device) (lim : Bool) {p : List Char} (hp : P p) :
    BufRel P { b with fs := rotate d lim p b.fs } { s with fs := FNLog.rotate d lim p s.fs } ∧
      (∀ q, ¬ P q → (FNLog.rotate d lim p b.fs) q = b.fs q) := by
  have h1 := bytes_agree (h.shut hn)
  obtain ⟨r1, _⟩ := rotate_frame hc d lim hp h1
  rw [← flatFs_rotate, ← flatFs_rotate] at r1
  refine ⟨⟨h.handle, h.logs, ?_, h.closed, ?_⟩, (rotate_frame hc d lim hp (a := b.fs) (b := b.fs) fun _ _ => rfl).2⟩
  · intro q hq
    exact absurd (hn.symm.trans hq) nofun
  · intro q hq
    rw [show (({ s with fs := FNLog.rotate d lim p s.fs } : FileSt).fs) = FNLog.rotate d lim p s.fs from rfl,
      agree_bytes r1 q hq]
    unfold pendingAt
    show _ = (bytesOf (FNLog.rotate d lim p b.fs) q).map (· ++ if b.handle = some q then _ else _)
    rw [hn]
    simp

theorem BufRel.openFile {P : List Char → Prop} {b : BufSt} {s : FileSt} (h : BufRel P b s)
    (hn : b.handle = none) (E : FileEnv) (log : FileLog) {p : List Char} (hp : P p) :
    BufRel P (bufOpenFile E log p b) (FNLog.openFile E log p s) ∧
      (∀ q, ¬ P q → (bufOpenFile E log p b).fs q = b.fs q) := by
  unfold bufOpenFile FNLog.openFile
  simp only
  by_cases ho : log.opens = false
  · rw [if_pos ho, if_pos ho, if_pos ho]
    unfold openFailed
    exact ⟨⟨h.handle, by simp only [h.logs], h.own, h.closed, h.files⟩, fun _ _ => rfl⟩
  · rw [if_neg ho, if_neg ho, if_neg ho]
    have hb := h.shut hn p hp
    have hsz : fileSize ((b.fs p).getD []) = fileSize ((s.fs p).getD []) := by
      unfold bytesOf at hb
      cases h1 : s.fs p <;> cases h2 : b.fs p <;> simp_all
      rename_i c1 c2
      rw [← fileSize_flatten c1, ← fileSize_flatten c2, hb]
    refine ⟨⟨rfl, by simp only [h.logs, hsz], ?_, nofun, ?_⟩, set_off hp _ _⟩
    · intro q hq
      obtain rfl := Option.some.inj hq
      exact ⟨hp, by simp [Fs.set]⟩
    · intro q hq
      have hq' := h.shut hn q hq
      unfold pendingAt
      simp only [Chunks.bytes, List.map_nil, List.flatten_nil, ite_self, option_map_append_nil]
      unfold bytesOf at hq' ⊢
      unfold Fs.set
      split
      · rename_i e
        subst e
        cases h1 : s.fs q <;> cases h2 : b.fs q <;> simp_all
      · exact hq'

theorem append_bytes (fs : Fs) (p q x : List Char) (h : fs p ≠ none) :
    bytesOf (fs.append p x) q = if q = p then (bytesOf fs p).map (· ++ x) else bytesOf fs q := by
  split
  · rename_i e
    subst e
    exact bytesOf_append_self _ _ _ h
  · rename_i e
    unfold bytesOf
    rw [append_other _ _ e]

theorem BufRel.write {P : List Char → Prop} {b : BufSt} {s : FileSt} (h : BufRel P b s) {p : List Char}
    (hh : b.handle = some p) (t n : Nat) (log : FileLog) :
    BufRel P (bufWriteFile t n log p b) (writeFile log p s) ∧
      (∀ q, ¬ P q → (bufWriteFile t n log p b).fs q = b.fs q) := by
  obtain ⟨hp, hex⟩ := h.own p hh
  have hsex : s.fs p ≠ none := by
    have := h.files p hp
    intro e
    rw [(bytesOf_none s.fs p).mpr e] at this
    cases hb : bytesOf b.fs p with
    | none => exact hex ((bytesOf_none b.fs p).mp hb)
    | some _ => rw [hb] at this; exact absurd this nofun
  -- appending `x` to the buffer and to the file
  have key : ∀ x : List Char, BufRel P { b with buf := b.buf ++ [(t, x)] } { s with fs := s.fs.append p x } := by
    intro x
    refine ⟨h.handle, h.logs, h.own, fun e => absurd (hh.symm.trans e) nofun, ?_⟩
    intro q hq
    rw [show (({ s with fs := s.fs.append p x } : FileSt).fs) = s.fs.append p x from rfl, append_bytes _ _ _ _ hsex]
    show _ = (bytesOf b.fs q).map (· ++ if b.handle = some q then _ else _)
    split
    · rename_i e
      subst e
      rw [h.files q hq]
      unfold pendingAt
      rw [if_pos hh, if_pos hh]
      show _ = Option.map (fun y => y ++ Chunks.bytes (b.buf ++ [(t, x)])) _
      rw [bytes_append, bytes_one]
      cases bytesOf b.fs q <;> simp
    · rename_i e
      rw [h.files q hq]
      unfold pendingAt
      have e' : ¬ b.handle = some q := by rw [hh]; exact fun x => e (Option.some.inj x).symm
      rw [if_neg e', if_neg e']
  unfold bufWriteFile writeFile
  split
  · exact ⟨h, fun _ _ => rfl⟩
  · cases hs : log.short with
    | some k =>
      obtain ⟨c1, _, c3⟩ := (key (log.content.take k)).close
      exact ⟨⟨c1.handle, c1.logs, c1.own, c1.closed, c1.files⟩, c3⟩
    | none =>
      have hk := key log.content
      refine ⟨⟨h.handle, h.logs, ?_, fun e => absurd (hh.symm.trans e) nofun, ?_⟩,
        fun q hq => append_other _ _ (by rintro rfl; exact hq hp)⟩
      · intro q hq
        obtain ⟨g1, g2⟩ := h.own q hq
        exact ⟨g1, append_ne _ _ _ _ g2⟩
      · intro q hq
        have := hk.files q hq
        show bytesOf (s.fs.append p log.content) q = _
        rw [show bytesOf (s.fs.append p log.content) q = _ from this]
        show (bytesOf b.fs q).map (· ++ if b.handle = some q then _ else _) =
          (bytesOf (b.fs.append p _) q).map (· ++ if b.handle = some q then _ else _)
        rw [append_bytes _ _ _ _ hex]
        by_cases e : q = p
        · subst e
          rw [if_pos hh, if_pos hh, if_pos rfl]
          rw [Option.map_map]
          congr 1
          funext y
          simp only [Function.comp, List.append_assoc]
          rw [spill_bytes]
        · have e' : ¬ b.handle = some q := by rw [hh]; exact fun x => e (Option.some.inj x).symm
          rw [if_neg e', if_neg e', if_neg e]

/-- The device with a buffer does what the device without does. -/
theorem bufFileDevice_sim {P : List Char → Prop} (hc : Closed P) {E : FileEnv} {ch : Int} {d : Device} {log : FileLog}
    (hP : ∀ p, fullPath E.proc (E.tm log.ts) E.fuel d ch = some p → P p) {t n : Nat} {b : BufSt} {s s' : FileSt}
    (h : BufRel P b s) (hs : fileDevice E ch d log s = some s') :
    ∃ b', bufFileDevice E ch t n d log b = some b' ∧ BufRel P b' s' ∧ ∀ q, ¬ P q → b'.fs q = b.fs q := by
  unfold fileDevice at hs
  unfold bufFileDevice
  rw [h.handle, h.logs]
  split at hs
  · rename_i hn
    rw [if_pos hn]
    obtain rfl := Option.some.inj hs
    exact ⟨_, rfl, h, fun _ _ => rfl⟩
  · rename_i hn
    rw [if_neg hn]
    simp only [Option.bind_eq_bind, Option.bind_eq_some_iff] at hs ⊢
    obtain ⟨s1, ho, hs⟩ := hs
    have key : ∃ b1, bufOpenFileDevice E ch d log b = some b1 ∧ BufRel P b1 s1 ∧ ∀ q, ¬ P q → b1.fs q = b.fs q := by
      -- behind the test of the handle
      have shut : ∀ (lim : Bool) (b0 : BufSt) (s0 : FileSt), BufRel P b0 s0 → b0.handle = none →
          ((fullPath E.proc (E.tm log.ts) E.fuel d ch).bind fun path =>
            if path.length ≥ 250 then some (openFailed 1 log.ts s0)
            else some (FNLog.openFile E log path { s0 with fs := FNLog.rotate d lim path s0.fs })) = some s1 →
          ∃ b1, ((fullPath E.proc (E.tm log.ts) E.fuel d ch).bind fun path =>
            if path.length ≥ 250 then some { b0 with logs := (openFailed 1 log.ts ⟨b0.fs, b0.handle, b0.logs⟩).logs }
            else some (bufOpenFile E log path { b0 with fs := FNLog.rotate d lim path b0.fs })) = some b1 ∧
            BufRel P b1 s1 ∧ ∀ q, ¬ P q → b1.fs q = b0.fs q := by
        intro lim b0 s0 h0 hn0 h1
        rw [Option.bind_eq_some_iff] at h1
        obtain ⟨p, hp, h1⟩ := h1
        have hpp := hP p hp
        rw [hp]
        simp only [Option.bind_some]
        split at h1
        · rw [if_pos ‹_›]
          obtain rfl := Option.some.inj h1
          exact ⟨_, rfl, ⟨h0.handle, by simp [openFailed, h0.logs], h0.own, h0.closed, h0.files⟩, fun _ _ => rfl⟩
        · rw [if_neg ‹_›]
          obtain rfl := Option.some.inj h1
          obtain ⟨r1, r2⟩ := h0.rotate hc hn0 d lim hpp
          obtain ⟨o1, o2⟩ := r1.openFile hn0 E log hpp
          exact ⟨_, rfl, o1, fun q hq => (o2 q hq).trans (r2 q hq)⟩
      unfold openFileDevice at ho
      unfold bufOpenFileDevice
      simp only [Option.bind_eq_bind, Option.pure_def, h.logs] at ho ⊢
      by_cases hlim : (limitOut d s.logs log.content.length || periodOut d s.logs log.ts) = true
      · rw [if_pos hlim] at ho ⊢
        obtain ⟨c1, _, c3⟩ := h.close
        rw [if_neg (by simp)] at ho
        rw [if_neg (by simp [BufSt.close])]
        have hc1 : BufRel P { b.close with logs := s.logs.put DEVICE_LOG_CUR_FILE_SIZE 0 }
            ⟨s.fs, none, s.logs.put DEVICE_LOG_CUR_FILE_SIZE 0⟩ := ⟨rfl, rfl, nofun, c1.closed, c1.files⟩
        obtain ⟨b1, g1, g2, g3⟩ := shut _ _ _ hc1 rfl ho
        exact ⟨b1, g1, g2, fun q hq => (g3 q hq).trans (c3 q hq)⟩
      · rw [if_neg hlim] at ho ⊢
        rw [← h.handle] at ho
        split at ho
        · rename_i hh
          rw [if_pos hh]
          obtain rfl := Option.some.inj ho
          exact ⟨_, rfl, h, fun _ _ => rfl⟩
        · rename_i hh
          rw [if_neg hh]
          rw [h.handle] at ho
          exact shut _ b s h (by simpa using hh) ho
    obtain ⟨b1, hb1, h1, hoff⟩ := key
    rw [hb1]
    simp only [Option.some.injEq, exists_eq_left']
    rw [h1.handle]
    cases hh : s1.handle with
    | none =>
      rw [hh] at hs
      obtain rfl := Option.some.inj hs
      exact ⟨_, rfl, h1, hoff⟩
    | some p =>
      rw [hh] at hs
      simp only [Option.bind_eq_some_iff, Option.pure_def] at hs ⊢
      obtain ⟨l, hl, hs⟩ := hs
      obtain rfl := Option.some.inj hs
      obtain ⟨w1, w2⟩ := h1.write (h1.handle.trans hh) t n log
      refine ⟨_, ⟨l, by rw [w1.logs]; exact hl, rfl⟩, ⟨w1.handle, rfl, w1.own, w1.closed, w1.files⟩, fun q hq => ?_⟩
      exact (w2 q hq).trans (hoff q hq)

end FNLog
