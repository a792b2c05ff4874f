import Verif.Spec.Inode
import Verif.Proof.Dispatch

/-! # The file system of inodes -/

namespace FNLog
open Spec

/-! ## Entries move -/

/-- Only names were changed, and no inode got one that had none. -/
structure DiskMoves (k k' : Disk) : Prop where
  data : k'.data = k.data
  next : k'.next = k.next
  names : ∀ q i, k'.node q = some i → ∃ p, k.node p = some i
  one : (∀ p q i, k.node p = some i → k.node q = some i → p = q) →
    ∀ p q i, k'.node p = some i → k'.node q = some i → p = q

theorem DiskMoves.refl (k : Disk) : DiskMoves k k := ⟨rfl, rfl, fun q _ h => ⟨q, h⟩, fun h => h⟩

theorem DiskMoves.trans {a b c : Disk} (h : DiskMoves a b) (h' : DiskMoves b c) : DiskMoves a c :=
  ⟨h'.data.trans h.data, h'.next.trans h.next,
    fun q i e => by obtain ⟨p, hp⟩ := h'.names q i e; exact h.names p i hp, fun o => h'.one (h.one o)⟩

theorem moves_unlink (k : Disk) (p : List Char) : DiskMoves k (k.unlink p) := by
  refine ⟨rfl, rfl, fun q i h => ?_, fun o x y i hx hy => ?_⟩
  · simp only [Disk.unlink] at h
    split at h
    · exact absurd h (by simp)
    · exact ⟨q, h⟩
  · simp only [Disk.unlink] at hx hy
    split at hx
    · exact absurd hx (by simp)
    · split at hy
      · exact absurd hy (by simp)
      · exact o x y i hx hy

theorem moves_rename (k : Disk) (a b : List Char) : DiskMoves k (k.rename a b) := by
  unfold Disk.rename
  split
  · exact .refl k
  · refine ⟨rfl, rfl, fun q i h => ?_, fun o x y i hx hy => ?_⟩
    · simp only at h
      split at h
      · exact absurd h (by simp)
      · split at h
        · exact ⟨a, h⟩
        · exact ⟨q, h⟩
    · simp only at hx hy
      split at hx
      · exact absurd hx (by simp)
      · split at hy
        · exact absurd hy (by simp)
        · split at hx
          · split at hy
            · exact (‹x = b›).trans (‹y = b›).symm
            · exact absurd (o y a i hy hx) ‹¬ y = a›
          · split at hy
            · exact absurd (o x a i hx hy) ‹¬ x = a›
            · exact o x y i hx hy

theorem moves_rollback (a : DiskSays) (N : Int) (p : List Char) (n : Nat) (k : Disk) : DiskMoves k (iRollback a N p n k) := by
  induction hm : (N + 1 - n).toNat generalizing p n with
  | zero =>
    rw [iRollback]
    split
    · exact .refl k
    · rw [if_pos (by omega)]
      split
      · exact moves_unlink k p
      · exact .refl k
  | succ m ih =>
    rw [iRollback]
    split
    · exact .refl k
    · split
      · split
        · exact moves_unlink k p
        · exact .refl k
      · dsimp only
        have h := ih (nextPath p n) (n + 1) (by omega)
        split
        · exact h.trans (moves_rename _ _ _)
        · exact h

theorem moves_rotate (a : DiskSays) (d : Device) (lim : Bool) (p : List Char) (k : Disk) : DiskMoves k (iRotate a d lim p k) := by
  unfold iRotate
  split
  · split
    · exact moves_rollback _ _ _ _ _
    · exact .refl k
  · exact .refl k

theorem DiskMoves.sound {k k' : Disk} (h : DiskMoves k k') (hk : SoundDisk k) : SoundDisk k' := by
  refine ⟨h.one hk.one, fun p i e => ?_, fun i e => ?_⟩
  · obtain ⟨q, hq⟩ := h.names p i e
    rw [h.next]
    exact hk.old q i hq
  · rw [h.data]
    exact hk.clean i (by rw [← h.next]; exact e)

theorem DiskMoves.nameless {k k' : Disk} (h : DiskMoves k k') {i : Nat} (hi : Nameless k i) : Nameless k' i := by
  intro p e
  obtain ⟨q, hq⟩ := h.names p i e
  exact hi q hq

/-! ## Opening and writing -/

theorem open_data {k : Disk} (hk : SoundDisk k) (p : List Char) : (k.openAppend p).2.data = k.data := by
  unfold Disk.openAppend
  split
  · rfl
  · funext i
    simp only
    split
    · rename_i h; subst h; exact (hk.clean _ (Nat.le_refl _)).symm
    · rfl

theorem open_next (k : Disk) (p : List Char) : k.next ≤ (k.openAppend p).2.next := by
  unfold Disk.openAppend
  split
  · exact Nat.le_refl _
  · exact Nat.le_succ _

theorem open_node (k : Disk) (p : List Char) : (k.openAppend p).2.node p = some (k.openAppend p).1 := by
  unfold Disk.openAppend
  split
  · assumption
  · simp

theorem open_keeps (k : Disk) (p : List Char) {q : List Char} {i : Nat} (h : k.node q = some i) :
    (k.openAppend p).2.node q = some i := by
  unfold Disk.openAppend
  split
  · exact h
  · rename_i e
    simp only
    rw [if_neg]
    · exact h
    · rintro rfl
      rw [h] at e
      cases e

theorem open_other (k : Disk) (p : List Char) {q : List Char} (h : q ≠ p) : (k.openAppend p).2.node q = k.node q := by
  unfold Disk.openAppend
  split
  · rfl
  · simp only; rw [if_neg h]

theorem open_lt {k : Disk} (hk : SoundDisk k) (p : List Char) : (k.openAppend p).1 < (k.openAppend p).2.next := by
  unfold Disk.openAppend
  split
  · exact hk.old _ _ ‹_›
  · exact Nat.lt_succ_self _

theorem open_sound {k : Disk} (hk : SoundDisk k) (p : List Char) : SoundDisk (k.openAppend p).2 := by
  refine ⟨?_, ?_, fun i hi => ?_⟩
  · unfold Disk.openAppend
    split
    · exact hk.one
    · intro x y i hx hy
      simp only at hx hy
      split at hx
      · split at hy
        · exact (‹x = p›).trans (‹y = p›).symm
        · have := hk.old y i hy
          obtain rfl := Option.some.inj hx
          omega
      · split at hy
        · have := hk.old x i hx
          obtain rfl := Option.some.inj hy
          omega
        · exact hk.one x y i hx hy
  · unfold Disk.openAppend
    split
    · exact hk.old
    · intro x i hx
      simp only at hx ⊢
      split at hx
      · obtain rfl := Option.some.inj hx
        omega
      · have := hk.old x i hx
        omega
  · rw [open_data hk]
    exact hk.clean i (Nat.le_trans (open_next k p) hi)

theorem open_nameless {k : Disk} {i : Nat} (hi : Nameless k i) (hlt : i < k.next) (p : List Char) :
    Nameless (k.openAppend p).2 i := by
  unfold Disk.openAppend
  split
  · exact hi
  · intro q hq
    simp only at hq
    split at hq
    · obtain rfl := Option.some.inj hq
      omega
    · exact hi q hq

theorem append_sound {k : Disk} (hk : SoundDisk k) {i : Nat} (hi : i < k.next) (b : List Char) : SoundDisk (k.append i b) := by
  refine ⟨hk.one, hk.old, fun j hj => ?_⟩
  have hj' : k.next ≤ j := hj
  simp only [Disk.append]
  rw [if_neg (by omega)]
  exact hk.clean j hj'

/-! ## What is found under the names -/

theorem fs_unlink (k : Disk) (p : List Char) : (k.unlink p).fs = k.fs.set p none := by
  funext q
  simp only [Disk.fs, Disk.unlink, Fs.set]
  split <;> rfl

theorem fs_none {k : Disk} {p : List Char} : k.fs p = none ↔ k.node p = none := by
  unfold Disk.fs
  cases k.node p <;> simp

theorem fs_rename {k : Disk} (hk : SoundDisk k) (a b : List Char) : (k.rename a b).fs = k.fs.rename a b := by
  unfold Disk.rename Fs.rename
  by_cases hn : k.node a = none
  · rw [if_pos (Or.inl hn), if_pos (Or.inl (fs_none.mpr hn))]
  · by_cases hab : a = b
    · rw [if_pos (Or.inr (by rw [hab])), if_pos (Or.inr hab)]
    · obtain ⟨i, hi⟩ := Option.ne_none_iff_exists'.mp hn
      rw [if_neg, if_neg]
      · funext q
        simp only [Disk.fs, Fs.set]
        split
        · rfl
        · split <;> rfl
      · rintro (h | h)
        · exact hn (fs_none.mp h)
        · exact hab h
      · rintro (h | h)
        · exact hn h
        · exact hab (hk.one a b i hi (h ▸ hi))

theorem fs_open {k : Disk} (hk : SoundDisk k) (p : List Char) :
    (k.openAppend p).2.fs = k.fs.set p (some ((k.fs p).getD [])) := by
  funext q
  unfold Disk.fs
  rw [open_data hk]
  unfold Fs.set
  by_cases hq : q = p
  · subst hq
    rw [if_pos rfl, open_node]
    cases h : k.node q with
    | some i =>
      have : (k.openAppend q).1 = i := by unfold Disk.openAppend; rw [h]
      rw [this]
      simp
    | none =>
      have : (k.openAppend q).1 = k.next := by unfold Disk.openAppend; rw [h]
      rw [this]
      simp [hk.clean k.next (Nat.le_refl _)]
  · rw [if_neg hq, open_other k p hq]

theorem fs_open_size {k : Disk} (hk : SoundDisk k) (p : List Char) :
    (k.openAppend p).2.data (k.openAppend p).1 = (k.fs p).getD [] := by
  have h := congrFun (fs_open hk p) p
  unfold Disk.fs at h
  rw [open_node] at h
  simp only [Fs.set, if_true, Option.map_some, Option.some.injEq] at h
  exact h

theorem fs_append {k : Disk} (hk : SoundDisk k) {p : List Char} {i : Nat} (hi : k.node p = some i) (b : List Char) :
    (k.append i b).fs = k.fs.set p (some ((k.fs p).getD [] ++ [b])) := by
  funext q
  simp only [Disk.fs, Disk.append, Fs.set]
  by_cases hq : q = p
  · subst hq
    rw [if_pos rfl, hi]
    simp
  · rw [if_neg hq]
    cases h : k.node q with
    | none => rfl
    | some j =>
      simp only [Option.map_some, Option.some.injEq]
      rw [if_neg]
      rintro rfl
      exact hq (hk.one q p j h hi)

theorem fs_rollback {a : DiskSays} (ha : Grants a) (N : Int) (p : List Char) (n : Nat) {k : Disk} (hk : SoundDisk k) :
    (iRollback a N p n k).fs = rollback N p n k.fs := by
  induction hm : (N + 1 - n).toNat generalizing p n with
  | zero =>
    rw [iRollback.eq_def, rollback.eq_def]
    cases h : k.node p with
    | none => rw [fs_none.mpr h]
    | some i =>
      have hf : k.fs p = some (k.data i) := by unfold Disk.fs; rw [h]; rfl
      rw [hf]
      simp only
      rw [if_pos (by omega), if_pos (ha.2 p), if_pos (by omega)]
      exact fs_unlink k p
  | succ m ih =>
    rw [iRollback.eq_def, rollback.eq_def]
    cases h : k.node p with
    | none => rw [fs_none.mpr h]
    | some i =>
      have hf : k.fs p = some (k.data i) := by unfold Disk.fs; rw [h]; rfl
      rw [hf]
      simp only
      by_cases hN : (n : Int) > N
      · rw [if_pos hN, if_pos hN, if_pos (ha.2 p)]
        exact fs_unlink k p
      · rw [if_neg hN, if_neg hN, if_pos (ha.1 _ _), fs_rename ((moves_rollback a N _ _ k).sound hk),
          ih _ _ (by omega)]

theorem fs_rotate {a : DiskSays} (ha : Grants a) (d : Device) (lim : Bool) (p : List Char) {k : Disk} (hk : SoundDisk k) :
    (iRotate a d lim p k).fs = rotate d lim p k.fs := by
  unfold iRotate rotate
  split
  · split
    · exact fs_rollback ha _ _ _ hk
    · rfl
  · rfl

/-! ## Names elsewhere -/

theorem node_rollback {P : List Char → Prop} (hc : Closed P) (a : DiskSays) (N : Int) (p : List Char) (n : Nat) (k : Disk)
    (hp : P p) (hn : n ≠ 0) : ∀ q, ¬ P q → (iRollback a N p n k).node q = k.node q := by
  have hu : ∀ q, ¬ P q → (k.unlink p).node q = k.node q := by
    intro q hq
    simp only [Disk.unlink]
    rw [if_neg]
    rintro rfl
    exact hq hp
  induction hm : (N + 1 - n).toNat generalizing p n with
  | zero =>
    intro q hq
    rw [iRollback]
    split
    · rfl
    · rw [if_pos (by omega)]
      split
      · exact hu q hq
      · rfl
  | succ m ih =>
    intro q hq
    rw [iRollback]
    split
    · rfl
    · split
      · split
        · exact hu q hq
        · rfl
      · dsimp only
        have hnp := hc p n hp hn
        have h := ih (nextPath p n) (n + 1) hnp (by omega) (by
          intro q hq
          simp only [Disk.unlink]
          rw [if_neg]
          rintro rfl
          exact hq hnp) (by omega) q hq
        split
        · rw [← h]
          unfold Disk.rename
          split
          · rfl
          · simp only
            rw [if_neg, if_neg]
            · rintro rfl; exact hq hnp
            · rintro rfl; exact hq hp
        · exact h

theorem node_rotate {P : List Char → Prop} (hc : Closed P) (a : DiskSays) (d : Device) (lim : Bool) {p : List Char} (k : Disk)
    (hp : P p) : ∀ q, ¬ P q → (iRotate a d lim p k).node q = k.node q := by
  intro q hq
  unfold iRotate
  split
  · split
    · exact node_rollback hc a _ p 1 k hp (by omega) q hq
    · rfl
  · rfl

theorem fail_rollback {a : DiskSays} (ha : (∀ p q, a.ren p q = false) ∧ ∀ p, a.rem p = false) (N : Int) (p : List Char)
    (n : Nat) (k : Disk) : iRollback a N p n k = k := by
  induction hm : (N + 1 - n).toNat generalizing p n with
  | zero =>
    rw [iRollback]
    split
    · rfl
    · rw [if_pos (by omega), if_neg (by rw [ha.2]; nofun)]
  | succ m ih =>
    rw [iRollback]
    split
    · rfl
    · split
      · rw [if_neg (by rw [ha.2]; nofun)]
      · dsimp only
        rw [if_neg (by rw [ha.1]; nofun)]
        exact ih _ _ (by omega)

/-! ## One log -/

/-- What EnterProcOutFileDevice does with the disk. -/
inductive ICase (E : FileEnv) (ch : Int) (d : Device) (a : DiskSays) (log : FileLog) (k : Disk) (h : Holder) :
    Disk → Holder → Prop
  | skipped : h.handle = none → log.ts < h.logs DEVICE_LOG_LAST_TRY_CREATE_TIMESTAMP + 5 → ICase E ch d a log k h k h
  | stays (i : Nat) (l : Fields) : h.handle = some i → iClose d log h = h →
    accountFile h.logs log.priority log.content.length = some l →
    ICase E ch d a log k h (iWriteFile log i (k, h)).1 ⟨(iWriteFile log i (k, h)).2.handle, l⟩
  | long (path : List Char) : (iClose d log h).handle = none →
    (h.handle = none → h.logs DEVICE_LOG_LAST_TRY_CREATE_TIMESTAMP + 5 ≤ log.ts) →
    fullPath E.proc (E.tm log.ts) E.fuel d ch = some path → 250 ≤ path.length →
    ICase E ch d a log k h k (iOpenFailed 1 log.ts (iClose d log h))
  | refused (path : List Char) : (iClose d log h).handle = none →
    (h.handle = none → h.logs DEVICE_LOG_LAST_TRY_CREATE_TIMESTAMP + 5 ≤ log.ts) →
    fullPath E.proc (E.tm log.ts) E.fuel d ch = some path → path.length < 250 → log.opens = false →
    ICase E ch d a log k h (iRotate a d (limitOut d h.logs log.content.length) path k)
      (iOpenFailed 2 log.ts (iClose d log h))
  | opens (path : List Char) (s1 : Disk × Holder) (l : Fields) : (iClose d log h).handle = none →
    (h.handle = none → h.logs DEVICE_LOG_LAST_TRY_CREATE_TIMESTAMP + 5 ≤ log.ts) →
    fullPath E.proc (E.tm log.ts) E.fuel d ch = some path → path.length < 250 → log.opens = true →
    s1 = iOpenFile E log path (iRotate a d (limitOut d h.logs log.content.length) path k, iClose d log h) →
    s1.1 = ((iRotate a d (limitOut d h.logs log.content.length) path k).openAppend path).2 →
    s1.2.handle = some ((iRotate a d (limitOut d h.logs log.content.length) path k).openAppend path).1 →
    accountFile s1.2.logs log.priority log.content.length = some l →
    ICase E ch d a log k h (iWriteFile log ((iRotate a d (limitOut d h.logs log.content.length) path k).openAppend path).1 s1).1
      ⟨(iWriteFile log ((iRotate a d (limitOut d h.logs log.content.length) path k).openAppend path).1 s1).2.handle, l⟩

theorem iWriteFile_logs (log : FileLog) (i : Nat) (s : Disk × Holder) : (iWriteFile log i s).2.logs = s.2.logs := by
  unfold iWriteFile
  split
  · rfl
  · split <;> rfl

theorem iFileDevice_cases {E : FileEnv} {ch : Int} {d : Device} {a : DiskSays} {log : FileLog} {k k' : Disk} {h h' : Holder}
    (e : iFileDevice E ch d a log (k, h) = some (k', h')) : ICase E ch d a log k h k' h' := by
  unfold iFileDevice at e
  dsimp only at e
  by_cases hk : h.handle = none ∧ h.logs DEVICE_LOG_LAST_TRY_CREATE_TIMESTAMP + 5 > log.ts
  · rw [if_pos hk] at e
    obtain ⟨rfl, rfl⟩ := Prod.mk.inj (Option.some.inj e)
    exact .skipped hk.1 hk.2
  · rw [if_neg hk] at e
    have hw : h.handle = none → h.logs DEVICE_LOG_LAST_TRY_CREATE_TIMESTAMP + 5 ≤ log.ts := fun hn =>
      Int.not_lt.mp fun x => hk ⟨hn, x⟩
    cases ho : iOpenFileDevice E ch d a log (k, h) with
    | none => rw [ho] at e; exact absurd e (by nofun)
    | some s1 =>
      rw [ho] at e
      change (match s1.2.handle with
        | none => some s1
        | some i => (accountFile (iWriteFile log i s1).2.logs log.priority log.content.length).bind fun logs =>
          some ((iWriteFile log i s1).1, (⟨(iWriteFile log i s1).2.handle, logs⟩ : Holder))) = some (k', h') at e
      unfold iOpenFileDevice at ho
      dsimp only at ho
      by_cases hs : (iClose d log h).handle = none
      · rw [if_neg (fun x => x hs)] at ho
        obtain ⟨path, hp, ho⟩ := Option.bind_eq_some_iff.mp ho
        by_cases hl : path.length ≥ 250
        · rw [if_pos hl] at ho
          obtain rfl := Option.some.inj ho
          have hx : (iOpenFailed 1 log.ts (iClose d log h)).handle = none := hs
          simp only [hx] at e
          obtain ⟨rfl, rfl⟩ := Prod.mk.inj (Option.some.inj e)
          exact .long path hs hw hp hl
        · rw [if_neg hl] at ho
          have ho := Option.some.inj ho
          cases hop : log.opens with
          | false =>
            have hs1 : s1 = (iRotate a d (limitOut d h.logs log.content.length) path k,
                iOpenFailed 2 log.ts (iClose d log h)) := by
              rw [← ho]; unfold iOpenFile; rw [if_pos hop]
            subst hs1
            have hx : (iOpenFailed 2 log.ts (iClose d log h)).handle = none := hs
            simp only [hx] at e
            obtain ⟨rfl, rfl⟩ := Prod.mk.inj (Option.some.inj e)
            exact .refused path hs hw hp (by omega) hop
          | true =>
            have h1 : s1.1 = ((iRotate a d (limitOut d h.logs log.content.length) path k).openAppend path).2 := by
              rw [← ho]; unfold iOpenFile; rw [if_neg (by rw [hop]; nofun)]
            have h2 : s1.2.handle =
                some ((iRotate a d (limitOut d h.logs log.content.length) path k).openAppend path).1 := by
              rw [← ho]; unfold iOpenFile; rw [if_neg (by rw [hop]; nofun)]
            rw [h2] at e
            simp only at e
            rw [iWriteFile_logs] at e
            obtain ⟨l, hl', e⟩ := Option.bind_eq_some_iff.mp e
            obtain ⟨rfl, rfl⟩ := Prod.mk.inj (Option.some.inj e)
            exact .opens path s1 l hs hw hp (by omega) hop ho.symm h1 h2 hl'
      · rw [if_pos hs] at ho
        have hcl : iClose d log h = h := by
          unfold iClose at hs ⊢
          split
          · rename_i x; rw [if_pos x] at hs; exact absurd rfl hs
          · rfl
        rw [hcl] at ho hs
        obtain rfl := Option.some.inj ho
        obtain ⟨i, hi⟩ := Option.ne_none_iff_exists'.mp hs
        simp only [hi] at e
        rw [iWriteFile_logs] at e
        obtain ⟨l, hl', e⟩ := Option.bind_eq_some_iff.mp e
        obtain ⟨rfl, rfl⟩ := Prod.mk.inj (Option.some.inj e)
        exact .stays i l hi hcl hl'

end FNLog
