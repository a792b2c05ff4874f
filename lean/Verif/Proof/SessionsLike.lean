import Verif.Model.Sessions
import Verif.Proof.SerialEnd
import Verif.Proof.Capstone

/-! # A session after others behaves as the first one -/

namespace FNLog
open Spec Ring

/-- Two states of a ring that differ in the slots that nobody reads, and in statistics, only. -/
structure Ring.Like {α : Type} (c : Cfg α) (s g : St α) : Prop where
  H : s.H = g.H
  W : s.W = g.W
  P : s.P = g.P
  R : s.R = g.R
  mark : ∀ i, s.mark (i % c.L) = g.mark (i % c.L)
  state : s.state = g.state
  lg : s.lgRunning = g.lgRunning
  pc : s.pc = g.pc
  calls : s.calls = g.calls
  acquired : s.acquired = g.acquired
  out : s.out = g.out
  lost : s.lost = g.lost
  base : s.base = g.base
  old : s.old = g.old

theorem Ring.Like.timely {α : Type} {c : Cfg α} {s g : St α} (h : Like c s g) (t : Nat) :
    timelyAt c s t ↔ timelyAt c g t := by
  unfold timelyAt
  rw [h.pc, h.H, h.W, h.P, h.R]

theorem Ring.Like.cell {α : Type} {c : Cfg α} {s g : St α} (h : Like c s g) (hs : Inv c s) (hg : Inv c g) {t k : Nat}
    (hk : g.pc t = .cDisp k) : s.cell (k % c.L) = g.cell (k % c.L) := by
  have h1 := hg.ti t
  rw [hk] at h1
  obtain ⟨a1, a2, _⟩ := h1
  have a3 := hg.lePW
  have e1 := hg.sealedW k a1 (by omega)
  have e2 := hs.sealedW k (by rw [h.R]; exact a1) (by rw [h.W]; omega)
  rw [h.acquired, e1] at e2
  exact (Option.some.inj e2).symm

theorem upd_like {L i : Nat} {m m' : Nat → Mark} (h : ∀ i, m (i % L) = m' (i % L)) (v : Mark) (j : Nat) :
    upd m (i % L) v (j % L) = upd m' (i % L) v (j % L) := by
  unfold upd
  rw [h j]

theorem Ring.Like.stepT {α : Type} {c : Cfg α} {s g : St α} (h : Like c s g) (hs : Inv c s) (hg : Inv c g) (t : Nat) :
    Like c (Ring.stepT c s t) (Ring.stepT c g t) := by
  have hcell := fun k => h.cell hs hg (t := t) (k := k)
  obtain ⟨H, W, P, R, mark, cell, state, lg, pc, n1, n2, n3, n4, n5, calls, acq, out, lost, base, old⟩ := s
  obtain ⟨H', W', P', R', mark', cell', state', lg', pc', n1', n2', n3', n4', n5', calls', acq', out', lost', base', old'⟩ := g
  obtain ⟨e1, e2, e3, e4, e5, e6, e7, e8, e9, e10, e11, e12, e13, e14⟩ := h
  simp only at e1 e2 e3 e4 e5 e6 e7 e8 e9 e10 e11 e12 e13 e14 hcell
  subst e1 e2 e3 e4 e6 e7 e8 e9 e10 e11 e12 e13 e14
  unfold Ring.stepT
  dsimp only
  cases hpc : pc t with
  | fill k rest =>
    cases rest <;> (dsimp only; exact ⟨rfl, rfl, rfl, rfl, e5, rfl, rfl, rfl, rfl, rfl, rfl, rfl, rfl, rfl⟩)
  | hMark k b | pMark k | cClear k =>
    dsimp only
    exact ⟨rfl, rfl, rfl, rfl, upd_like e5 _, rfl, rfl, rfl, rfl, rfl, rfl, rfl, rfl, rfl⟩
  | cDisp k =>
    dsimp only
    rw [hcell k hpc]
    exact ⟨rfl, rfl, rfl, rfl, e5, rfl, rfl, rfl, rfl, rfl, rfl, rfl, rfl, rfl⟩
  | wMark tk | rMark tk =>
    dsimp only
    simp only [e5 tk]
    split <;> exact ⟨rfl, rfl, rfl, rfl, e5, rfl, rfl, rfl, rfl, rfl, rfl, rfl, rfl, rfl⟩
  | _ =>
    dsimp only
    (repeat' split) <;> exact ⟨rfl, rfl, rfl, rfl, e5, rfl, rfl, rfl, rfl, rfl, rfl, rfl, rfl, rfl⟩

theorem Ring.Like.step {α : Type} {c : Cfg α} {s g : St α} (h : Like c s g) (hs : Inv c s) (hg : Inv c g) (e : Ev α) :
    Like c (Ring.step c s e) (Ring.step c g e) := by
  cases e with
  | run t => exact h.stepT hs hg t
  | _ =>
    obtain ⟨H, W, P, R, mark, cell, state, lg, pc, n1, n2, n3, n4, n5, calls, acq, out, lost, base, old⟩ := s
    obtain ⟨H', W', P', R', mark', cell', state', lg', pc', n1', n2', n3', n4', n5', calls', acq', out', lost', base', old'⟩ := g
    obtain ⟨e1, e2, e3, e4, e5, e6, e7, e8, e9, e10, e11, e12, e13, e14⟩ := h
    simp only at e1 e2 e3 e4 e5 e6 e7 e8 e9 e10 e11 e12 e13 e14
    subst e1 e2 e3 e4 e6 e7 e8 e9 e10 e11 e12 e13 e14
    unfold Ring.step
    dsimp only
    (repeat' split) <;> exact ⟨rfl, rfl, rfl, rfl, e5, rfl, rfl, rfl, rfl, rfl, rfl, rfl, rfl, rfl⟩

/-! ## With the devices and the streams -/

/-- The numbers of the streams are larger. -/
def shiftFl (x : Nat → Nat) : FlushPc → FlushPc
  | .call j g => .call j (g + x j)
  | p => p

def BufSt.later (b : BufSt) (n : Nat) : BufSt := { b with gen := b.gen + n }

/-- Two states that differ in what no thread reads. -/
structure FLike (S : Setup) (n : Nat) (x : Nat → Nat) (f g : FCrew) : Prop where
  ring : Like S.cfg f.crew.ring g.crew.ring
  invF : Inv S.cfg f.crew.ring
  invG : Inv S.cfg g.crew.ring
  out : f.crew.out = g.crew.out
  caches : ∀ t, t < n → f.crew.caches t = g.crew.caches t
  pos : f.crew.pos = g.crew.pos
  made : f.crew.made = g.crew.made
  visits : f.crew.visits = g.crew.visits
  buf : f.buf = g.buf
  gen : ∀ j, f.gen j = g.gen j + x j
  count : f.count = g.count
  fl : ∀ t, f.fl t = shiftFl x (g.fl t)

theorem FLike.file {S : Setup} {n : Nat} {x : Nat → Nat} {f g : FCrew} (h : FLike S n x f g) (j : Nat) :
    f.file j = (g.file j).later (x j) := by
  unfold FCrew.file BufSt.later
  rw [h.out, h.buf, h.gen]

theorem FLike.setFile {S : Setup} {n : Nat} {x : Nat → Nat} {f g : FCrew} (h : FLike S n x f g) (j : Nat) (b : BufSt) :
    FLike S n x (f.setFile j (b.later (x j))) (g.setFile j b) where
  ring := h.ring
  invF := h.invF
  invG := h.invG
  out := by
    unfold FCrew.setFile BufSt.later
    dsimp only
    rw [h.out]
  caches := h.caches
  pos := h.pos
  made := h.made
  visits := h.visits
  buf := by
    unfold FCrew.setFile BufSt.later
    dsimp only
    rw [h.buf]
  gen := by
    intro i
    show upd f.gen j (b.gen + x j) i = upd g.gen j b.gen i + x i
    unfold upd
    split
    · rename_i e; rw [e]
    · exact h.gen i
  count := h.count
  fl := h.fl

theorem flush_later (b : BufSt) (n : Nat) : (b.later n).flush = b.flush.later n := by
  obtain ⟨fs, handle, buf, gen, logs⟩ := b
  cases handle <;> rfl

theorem close_later (b : BufSt) (n : Nat) : (b.later n).close = b.close.later n := by
  unfold BufSt.close
  rw [flush_later]
  rfl

theorem bufOpenFile_later (E : FileEnv) (log : FileLog) (p : List Char) (b : BufSt) (n : Nat) :
    bufOpenFile E log p (b.later n) = (bufOpenFile E log p b).later n := by
  unfold bufOpenFile
  dsimp only [BufSt.later]
  split
  · rfl
  · rw [Nat.add_right_comm]

theorem bufOpenFileDevice_later (E : FileEnv) (ch : Int) (d : Device) (log : FileLog) (b : BufSt) (n : Nat) :
    bufOpenFileDevice E ch d log (b.later n) = (bufOpenFileDevice E ch d log b).map (·.later n) := by
  unfold bufOpenFileDevice
  have key : ∀ c : BufSt,
      (if (c.later n).handle ≠ none then some (c.later n)
        else do
          let path ← fullPath E.proc (E.tm log.ts) E.fuel d ch
          if path.length ≥ 250 then
            return { c.later n with logs := (openFailed 1 log.ts ⟨(c.later n).fs, (c.later n).handle, (c.later n).logs⟩).logs }
          else return bufOpenFile E log path { c.later n with fs := rotate d (limitOut d b.logs log.content.length) path (c.later n).fs }) =
      (if c.handle ≠ none then some c
        else do
          let path ← fullPath E.proc (E.tm log.ts) E.fuel d ch
          if path.length ≥ 250 then return { c with logs := (openFailed 1 log.ts ⟨c.fs, c.handle, c.logs⟩).logs }
          else return bufOpenFile E log path { c with fs := rotate d (limitOut d b.logs log.content.length) path c.fs }).map (·.later n) := by
    intro c
    by_cases hc : c.handle ≠ none
    · rw [if_pos hc, if_pos (show (c.later n).handle ≠ none from hc)]; rfl
    · rw [if_neg hc, if_neg (show ¬ (c.later n).handle ≠ none from hc)]
      cases fullPath E.proc (E.tm log.ts) E.fuel d ch with
      | none => rfl
      | some p =>
        simp only [Option.bind_eq_bind, Option.bind_some]
        split
        · rfl
        · simp only [Option.pure_def, Option.map_some]
          exact congrArg some (bufOpenFile_later E log p { c with fs := rotate d (limitOut d b.logs log.content.length) p c.fs } n)
  by_cases hl : (limitOut d b.logs log.content.length || periodOut d b.logs log.ts) = true
  · have := key { b.close with logs := b.logs.put DEVICE_LOG_CUR_FILE_SIZE 0 }
    dsimp only
    rw [if_pos hl, if_pos (show (limitOut d (b.later n).logs log.content.length || periodOut d (b.later n).logs log.ts) = true from hl),
      close_later]
    exact this
  · have := key b
    dsimp only
    rw [if_neg hl, if_neg (show ¬ (limitOut d (b.later n).logs log.content.length || periodOut d (b.later n).logs log.ts) = true from hl)]
    exact this

theorem bufWriteFile_later (t m : Nat) (log : FileLog) (p : List Char) (b : BufSt) (n : Nat) :
    bufWriteFile t m log p (b.later n) = (bufWriteFile t m log p b).later n := by
  unfold bufWriteFile
  split
  · rfl
  · split
    · rfl
    · exact close_later { b with buf := b.buf ++ [(t, _)] } n

theorem bufFileDevice_later (E : FileEnv) (ch : Int) (t m : Nat) (d : Device) (log : FileLog) (b : BufSt) (n : Nat) :
    bufFileDevice E ch t m d log (b.later n) = (bufFileDevice E ch t m d log b).map (·.later n) := by
  unfold bufFileDevice
  by_cases hl : b.handle = none ∧ b.logs DEVICE_LOG_LAST_TRY_CREATE_TIMESTAMP + 5 > log.ts
  · rw [if_pos hl, if_pos (show (b.later n).handle = none ∧ (b.later n).logs DEVICE_LOG_LAST_TRY_CREATE_TIMESTAMP + 5 > log.ts from hl)]
    rfl
  · rw [if_neg hl, if_neg (show ¬ ((b.later n).handle = none ∧ (b.later n).logs DEVICE_LOG_LAST_TRY_CREATE_TIMESTAMP + 5 > log.ts) from hl),
      bufOpenFileDevice_later]
    cases bufOpenFileDevice E ch d log b with
    | none => rfl
    | some c =>
      simp only [Option.map_some, Option.bind_eq_bind, Option.bind_some]
      obtain ⟨fs, handle, buf, gen, logs⟩ := c
      cases handle with
      | none => rfl
      | some p =>
        show (accountFile (bufWriteFile t m log p (BufSt.later ⟨fs, some p, buf, gen, logs⟩ n)).logs _ _).bind _ = _
        rw [bufWriteFile_later]
        dsimp only
        generalize bufWriteFile t m log p ⟨fs, some p, buf, gen, logs⟩ = w
        show (accountFile w.logs _ _).bind _ = _
        cases accountFile w.logs log.priority log.content.length <;> rfl

/-! ## Events -/

theorem FLike.enter {S : Setup} {n : Nat} {x : Nat → Nat} {f g g' : FCrew} (h : FLike S n x f g) {B : Stdio} {t m j : Nat} {d : Device}
    {log : DevLog} (hg : enterBuf S B t m j d log g = some g') :
    ∃ f', enterBuf S B t m j d log f = some f' ∧ FLike S n x f' g' := by
  unfold enterBuf at hg ⊢
  split at hg
  · rename_i hd
    rw [if_pos hd, h.file, bufFileDevice_later]
    obtain ⟨b, hb, rfl⟩ := Option.map_eq_some_iff.mp hg
    rw [hb]
    exact ⟨_, rfl, h.setFile j b⟩
  · rename_i hd
    rw [if_neg hd, h.out]
    obtain ⟨o, ho, rfl⟩ := Option.map_eq_some_iff.mp hg
    rw [ho]
    exact ⟨_, rfl, h.ring, h.invF, h.invG, rfl, h.caches, h.pos, h.made, h.visits, h.buf, h.gen, h.count, h.fl⟩

theorem upd_congr {β : Type} {a b : Nat → β} (h : a = b) (i : Nat) (v : β) : upd a i v = upd b i v := by rw [h]

theorem upd_fl {x : Nat → Nat} {a b : Nat → FlushPc} (h : ∀ t, a t = shiftFl x (b t)) (i : Nat) {v w : FlushPc}
    (hv : v = shiftFl x w) (t : Nat) : upd a i v t = shiftFl x (upd b i w t) := by
  unfold upd
  split
  · exact hv
  · exact h t

theorem flushAfter_shift (x : Nat → Nat) (B : Stdio) (c : Nat) (p q : PC Piece) :
    (flushAfter B c p q).2 = shiftFl x (flushAfter B c p q).2 := by
  unfold flushAfter
  (repeat' split) <;> rfl

theorem FLike.moved {S : Setup} {n : Nat} {x : Nat → Nat} {f g : FCrew} (h : FLike S n x f g) {B : Stdio} {t : Nat} {c c' : Crew}
    (h1 : Like S.cfg c.ring c'.ring) (h2 : Inv S.cfg c.ring) (h3 : Inv S.cfg c'.ring) (h4 : c.out = c'.out)
    (h5 : ∀ t, t < n → c.caches t = c'.caches t) (h6 : c.pos = c'.pos) (h7 : c.made = c'.made) (h8 : c.visits = c'.visits) :
    FLike S n x (f.moved B t c) (g.moved B t c') := by
  have e : flushAfter B (f.count t) (f.crew.ring.pc t) (c.ring.pc t) = flushAfter B (g.count t) (g.crew.ring.pc t) (c'.ring.pc t) := by
    rw [h.count, h.ring.pc, h1.pc]
  refine ⟨h1, h2, h3, h4, h5, h6, h7, h8, h.buf, h.gen, ?_, ?_⟩
  · show upd f.count t _ = upd g.count t _
    rw [h.count, ← e, h.count]
  · show ∀ u, upd f.fl t _ u = _
    rw [e]
    exact upd_fl h.fl t (flushAfter_shift x B _ _ _)

theorem FLike.run {S : Setup} {n : Nat} {x : Nat → Nat} {f g g' : FCrew} (h : FLike S n x f g) {B : Stdio} {t : Nat}
    (ht : g.fl t = .off → timelyAt S.cfg g.crew.ring t) (hg : fRunThread S B t g = some g') :
    ∃ f', fRunThread S B t f = some f' ∧ FLike S n x f' g' := by
  unfold fRunThread at hg ⊢
  have hfl := h.fl t
  cases hx : g.fl t with
  | look j =>
    rw [hx] at hfl hg
    rw [hfl]
    simp only [shiftFl] at hg ⊢
    obtain rfl := Option.some.inj hg
    refine ⟨_, rfl, ?_⟩
    unfold flushLook
    cases S.channel.devices[j]? with
    | none => exact ⟨h.ring, h.invF, h.invG, h.out, h.caches, h.pos, h.made, h.visits, h.buf, h.gen, h.count, upd_fl h.fl t rfl⟩
    | some d =>
      simp only [h.out]
      split
      · exact ⟨h.ring, h.invF, h.invG, h.out, h.caches, h.pos, h.made, h.visits, h.buf, h.gen, h.count,
          upd_fl h.fl t (by rw [h.gen]; rfl)⟩
      · exact ⟨h.ring, h.invF, h.invG, h.out, h.caches, h.pos, h.made, h.visits, h.buf, h.gen, h.count, upd_fl h.fl t rfl⟩
  | call j k =>
    rw [hx] at hfl hg
    rw [hfl]
    simp only [shiftFl] at hg ⊢
    unfold flushCall at hg ⊢
    split at hg
    · cases hg
    · rename_i hc
      rw [if_neg (fun y => hc (y.imp (fun y => by rw [← h.out]; exact y) (fun y z => y (by rw [h.gen, z]))))]
      obtain rfl := Option.some.inj hg
      refine ⟨_, rfl, ?_⟩
      have e := h.setFile j (g.file j).flush
      rw [← flush_later, ← h.file] at e
      exact ⟨e.ring, e.invF, e.invG, e.out, e.caches, e.pos, e.made, e.visits, e.buf, e.gen, e.count, upd_fl h.fl t rfl⟩
  | off =>
    rw [hx] at hfl hg
    rw [hfl]
    simp only [shiftFl] at hg ⊢
    have htg := ht hx
    have htf := (h.ring.timely t).mpr htg
    have hst := h.ring.stepT h.invF h.invG t
    have i1 := h.invF.stepT htf
    have i2 := h.invG.stepT htg
    unfold bufRunThread at hg ⊢
    have hpc : f.crew.ring.pc t = g.crew.ring.pc t := by rw [h.ring.pc]
    rw [hpc, h.pos]
    have other : (∀ k, g.crew.ring.pc t = .cDisp k → S.channel.devices[g.crew.pos t]? = none) →
        (runThread S t g.crew).map (g.moved B t) = some g' →
        ∃ f', (runThread S t f.crew).map (f.moved B t) = some f' ∧ FLike S n x f' g' := by
      intro hd hg
      unfold runThread at hg ⊢
      rw [hpc, h.pos]
      cases hp : g.crew.ring.pc t with
      | cDisp k =>
        rw [hp] at hg
        simp only [hd k hp, Option.map_some] at hg ⊢
        obtain rfl := Option.some.inj hg
        exact ⟨_, rfl, h.moved hst i1 i2 h.out h.caches rfl h.made h.visits⟩
      | _ =>
        rw [hp] at hg
        simp only [Option.map_some] at hg ⊢
        obtain rfl := Option.some.inj hg
        exact ⟨_, rfl, h.moved hst i1 i2 h.out h.caches rfl h.made h.visits⟩
    cases hp : g.crew.ring.pc t with
    | cDisp k =>
      rw [hp] at hg
      simp only at hg ⊢
      cases hd : S.channel.devices[g.crew.pos t]? with
      | none =>
        rw [hd] at hg
        exact other (fun _ _ => hd) hg
      | some d =>
        rw [hd] at hg
        simp only at hg ⊢
        unfold bufDispatchNext at hg ⊢
        rw [h.ring.cell h.invF h.invG hp, h.pos, h.visits]
        simp only [Option.bind_eq_bind, Option.bind_eq_some_iff] at hg ⊢
        obtain ⟨hd', e1, r, e2, g1, e3, e4⟩ := hg
        obtain rfl := Option.some.inj e4
        have : ∃ f1, enterBufIf S B r t (visitsOf (g.crew.pos t) g.crew.visits).length (g.crew.pos t) d (devLog hd'.1 hd'.2) f = some f1 ∧
            FLike S n x f1 g1 := by
          unfold enterBufIf at e3 ⊢
          cases r with
          | true => exact h.enter e3
          | false =>
            simp only [Bool.false_eq_true, if_false] at e3 ⊢
            obtain rfl := Option.some.inj e3
            exact ⟨_, rfl, h⟩
        obtain ⟨f1, e5, e6⟩ := this
        refine ⟨_, ⟨hd', e1, r, e2, f1, e5, rfl⟩, ?_⟩
        refine ⟨e6.ring, e6.invF, e6.invG, e6.out, e6.caches, ?_, e6.made, ?_, e6.buf, e6.gen, e6.count, e6.fl⟩
        · show upd f1.crew.pos t (f1.crew.pos t + 1) = upd g1.crew.pos t (g1.crew.pos t + 1)
          rw [e6.pos]
        · show f1.crew.visits ++ _ = g1.crew.visits ++ _
          rw [e6.visits]
    | _ =>
      rw [hp] at hg
      exact other (fun k hk => by rw [hp] at hk; cases hk) hg

/-- The thread whose date cache or program counter an event uses. -/
def Act.user : Act → Option Nat
  | .log t _ _ | .run t | .dates t _ => some t
  | _ => none

theorem FLike.fAct {S : Setup} {n : Nat} {x : Nat → Nat} {f g g' : FCrew} (h : FLike S n x f g) {B : Stdio} {e : Act}
    (hn : ∀ t, e.user = some t → t < n)
    (ht : ∀ t, e = .run t → g.fl t = .off → timelyAt S.cfg g.crew.ring t) (hg : FNLog.fAct S B g e = some g') :
    ∃ f', FNLog.fAct S B f e = some f' ∧ FLike S n x f' g' := by
  cases e with
  | run t => exact h.run (ht t rfl) hg
  | started =>
    obtain rfl := Option.some.inj hg
    exact ⟨_, rfl, h.ring.step h.invF h.invG .started, h.invF.step (e := .started) trivial, h.invG.step (e := .started) trivial, h.out, h.caches, h.pos,
      h.made, h.visits, h.buf, h.gen, h.count, h.fl⟩
  | closing =>
    obtain rfl := Option.some.inj hg
    exact ⟨_, rfl, h.ring.step h.invF h.invG .closing, h.invF.step (e := .closing) trivial, h.invG.step (e := .closing) trivial, h.out, h.caches, h.pos,
      h.made, h.visits, h.buf, h.gen, h.count, h.fl⟩
  | stop =>
    obtain rfl := Option.some.inj hg
    exact ⟨_, rfl, h.ring.step h.invF h.invG .stop, h.invF.step (e := .stop) trivial, h.invG.step (e := .stop) trivial, h.out, h.caches, h.pos,
      h.made, h.visits, h.buf, h.gen, h.count, h.fl⟩
  | dates t c =>
    obtain rfl := Option.some.inj hg
    refine ⟨_, rfl, h.ring, h.invF, h.invG, h.out, fun u hu => ?_, h.pos, h.made, h.visits, h.buf, h.gen, h.count, h.fl⟩
    show upd f.crew.caches t c u = upd g.crew.caches t c u
    unfold upd
    rw [h.caches u hu]
  | log t a ops =>
    have htn := hn t rfl
    simp only [FNLog.fAct, act, beginLog] at hg ⊢
    have hpc : f.crew.ring.pc t = g.crew.ring.pc t := by rw [h.ring.pc]
    rw [hpc, h.ring.lg, h.ring.state, h.caches t htn]
    split at hg
    · split at hg
      · rename_i hr
        rw [if_pos hr]
        simp only [Option.bind_eq_bind] at hg ⊢
        cases hfm : formed S a ops (g.crew.caches t) with
        | none => rw [hfm] at hg; cases hg
        | some y =>
          rw [hfm] at hg
          simp only [Option.bind_some, Option.map_some] at hg ⊢
          obtain rfl := Option.some.inj hg
          refine ⟨_, rfl, ?_, ?_, ?_, h.out, fun u hu => ?_, h.pos, ?_, h.visits, h.buf, h.gen, h.count, h.fl⟩
          · cases y.1 with
            | none => exact h.ring
            | some b => exact h.ring.step h.invF h.invG (.call t b)
          · cases y.1 with
            | none => exact h.invF
            | some b => exact h.invF.step (e := .call t b) trivial
          · cases y.1 with
            | none => exact h.invG
            | some b => exact h.invG.step (e := .call t b) trivial
          · show upd f.crew.caches t y.2 u = upd g.crew.caches t y.2 u
            unfold upd
            rw [h.caches u hu]
          · show f.crew.made ++ _ = g.crew.made ++ _
            rw [h.made]
      · rename_i hr
        rw [if_neg hr]
        obtain rfl := Option.some.inj hg
        exact ⟨_, rfl, h⟩
    · obtain rfl := Option.some.inj hg
      exact ⟨_, rfl, h⟩

theorem FLike.onTime {S : Setup} {n : Nat} {x : Nat → Nat} {B : Stdio} : ∀ {es : List Act} {f g : FCrew}, FLike S n x f g →
    (∀ e ∈ es, ∀ t, e.user = some t → t < n) → FOnTime S B es f → FOnTime S B es g := by
  intro es
  induction es with
  | nil => intro _ _ _ _ _; trivial
  | cons e es ih =>
    intro f g h hn hf
    have ht : ∀ t, e = .run t → g.fl t = .off → timelyAt S.cfg g.crew.ring t := by
      intro t he hg
      exact (h.ring.timely t).mp (hf.1 t he (by rw [h.fl t, hg]; rfl))
    refine ⟨ht, fun g' hg => ?_⟩
    obtain ⟨f', h1, h2⟩ := h.fAct (hn e (List.mem_cons_self ..)) ht hg
    exact ih h2 (fun e he => hn e (List.mem_cons_of_mem _ he)) (hf.2 f' h1)

theorem FLike.serial {S : Setup} {n : Nat} {x : Nat → Nat} {B : Stdio} : ∀ {es : List Act} {f g : FCrew}, FLike S n x f g →
    (∀ e ∈ es, ∀ t, e.user = some t → t < n) → FOnTime S B es g → Serial S B es f → Serial S B es g := by
  intro es
  induction es with
  | nil => intro _ _ _ _ _ _; trivial
  | cons e es ih =>
    intro f g h hn ht hf
    refine ⟨fun t he u hu => by rw [← h.ring.pc]; exact hf.1 t he u hu, fun g' hg => ?_⟩
    obtain ⟨f', h1, h2⟩ := h.fAct (hn e (List.mem_cons_self ..)) ht.1 hg
    exact ih h2 (fun e he => hn e (List.mem_cons_of_mem _ he)) (ht.2 g' hg) (hf.2 f' h1)

theorem FLike.fActs {S : Setup} {n : Nat} {x : Nat → Nat} {B : Stdio} : ∀ {es : List Act} {f g g' : FCrew}, FLike S n x f g →
    (∀ e ∈ es, ∀ t, e.user = some t → t < n) → FOnTime S B es g → FNLog.fActs S B es g = some g' →
    ∃ f', FNLog.fActs S B es f = some f' ∧ FLike S n x f' g' := by
  intro es
  induction es with
  | nil => intro f g g' h _ _ hg; obtain rfl := Option.some.inj hg; exact ⟨f, rfl, h⟩
  | cons e es ih =>
    intro f g g' h hn ht hg
    simp only [FNLog.fActs, Option.bind_eq_bind, Option.bind_eq_some_iff] at hg ⊢
    obtain ⟨g1, h1, hg⟩ := hg
    obtain ⟨f1, h2, h3⟩ := h.fAct (hn e (List.mem_cons_self ..)) ht.1 h1
    obtain ⟨f', h4, h5⟩ := ih h3 (fun e he => hn e (List.mem_cons_of_mem _ he)) (ht.2 g1 h1) hg
    exact ⟨f', ⟨f1, h2, h4⟩, h5⟩

end FNLog
