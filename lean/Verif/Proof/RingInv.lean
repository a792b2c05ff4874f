import Verif.Model.Ring

/-! # The invariant of the ring transition system -/

namespace FNLog.Ring
open FNLog

variable {α : Type}

/-- The position of the slot a producing log statement holds. -/
def pown : PC α → Option Nat
  | .hInc k _ | .hMark k _ | .fInit k _ | .fill k _ | .pChk k | .pSeal k | .pMark k => some k
  | _ => none

/-- The position of the slot a consumer is outputting (mark not yet cleared). -/
def cown : PC α → Option Nat
  | .cDisp k | .cClear k => some k
  | _ => none

/-- Inside EnterProcChannel. -/
def isCons : PC α → Bool
  | .cLoad | .cWrite _ | .cCas _ | .cDisp _ | .cClear _ | .cStat _ | .cBytes _ | .rLoad | .rProc _
  | .rMark _ | .rCas _ | .cEnd | .cSet | .cLoop | .cLoopW | .cLoopR _ | .cFin | .done => true
  | _ => false

/-- `k` is a held, unpublished position with the given mark. -/
def Own (c : Cfg α) (s : St α) (k : Nat) (m : Mark) : Prop :=
  s.W ≤ k ∧ k < s.H ∧ s.mark (k % c.L) = m

/-- What holds of the shared state when thread `t` is at the given program counter. -/
def TI (c : Cfg α) (s : St α) (t : Nat) : PC α → Prop
  | .hRead _ tk _ => tk ≤ s.H
  | .hCas _ tk _ => tk ≤ s.H ∧ (tk = s.H → s.H + 1 < s.R + c.L)
  | .hInc k b => Own c s k .invalid ∧ s.acquired[k]? = some (t, b ++ [c.nl])
  | .hMark k b => Own c s k .invalid ∧ s.acquired[k]? = some (t, b ++ [c.nl])
  | .fInit k b => Own c s k .hold ∧ s.acquired[k]? = some (t, b ++ [c.nl])
  | .fill k rest => Own c s k .hold ∧ s.acquired[k]? = some (t, s.cell (k % c.L) ++ rest ++ [c.nl])
  | .pChk k => Own c s k .hold ∧ s.acquired[k]? = some (t, s.cell (k % c.L) ++ [c.nl])
  | .pSeal k => Own c s k .hold ∧ s.acquired[k]? = some (t, s.cell (k % c.L) ++ [c.nl])
  | .pMark k => Own c s k .hold ∧ s.acquired[k]? = some (t, s.cell (k % c.L))
  | .wHold tk => tk ≤ s.W
  | .wMark tk => tk ≤ s.W ∧ (tk = s.W → tk < s.H)
  | .wCas tk => tk ≤ s.W ∧ (tk = s.W → tk < s.H ∧ s.mark (tk % c.L) = .ready)
  | .cWrite tk => tk ≤ s.P
  | .cCas tk => tk ≤ s.P ∧ (tk = s.P → tk < s.W)
  | .cDisp k => s.R ≤ k ∧ k < s.P ∧ (s.old ≤ k → s.mark (k % c.L) = .ready)
  | .cClear k => s.R ≤ k ∧ k < s.P ∧ (s.old ≤ k → s.mark (k % c.L) = .ready)
  | .rProc tk => tk ≤ s.R
  | .rMark tk => tk ≤ s.R ∧ (tk = s.R → tk < s.P)
  | .rCas tk => tk ≤ s.R ∧ (tk = s.R → tk < s.P ∧ s.mark (tk % c.L) = .invalid)
  | .cLoopR w => w ≤ s.W
  | _ => True

/-- The invariant. -/
structure Inv (c : Cfg α) (s : St α) : Prop where
  leRP : s.R ≤ s.P
  lePW : s.P ≤ s.W
  leWH : s.W ≤ s.H
  cap : s.H < s.R + c.L
  len : s.acquired.length = s.H
  baseR : s.base ≤ s.R
  oldOk : c.async = true ∨ s.old ≤ s.R
  mPW : ∀ k, s.P ≤ k → k < s.W → s.old ≤ k → s.mark (k % c.L) = .ready
  mFree : ∀ k, s.H ≤ k → k < s.R + c.L → s.mark (k % c.L) = .invalid
  mRP : ∀ k, s.R ≤ k → k < s.P → s.mark (k % c.L) = .invalid ∨ ∃ t, cown (s.pc t) = some k
  mWH : ∀ k, s.W ≤ k → k < s.H → s.mark (k % c.L) = .ready ∨ (∃ t, pown (s.pc t) = some k) ∨
    (s.mark (k % c.L) = .hold ∧ k ∈ s.lost)
  sealedW : ∀ k, s.R ≤ k → k < s.W → s.acquired[k]?.map Prod.snd = some (s.cell (k % c.L))
  sealedH : ∀ k, s.W ≤ k → k < s.H → s.mark (k % c.L) = .ready →
    s.acquired[k]?.map Prod.snd = some (s.cell (k % c.L))
  ti : ∀ t, TI c s t (s.pc t)
  uniqC : ∀ t u k, cown (s.pc t) = some k → cown (s.pc u) = some k → t = u
  consTid : c.async = true → ∀ t, isCons (s.pc t) = true → t = worker
  outND : (s.out.map Prod.fst).Nodup
  outMem : ∀ k, k ∈ s.out.map Prod.fst ↔ s.base ≤ k ∧ k < s.P ∧ ∀ t, s.pc t ≠ .cDisp k
  outVal : ∀ e ∈ s.out, s.acquired[e.1]?.map Prod.snd = some e.2
  lostR : ∀ k ∈ s.lost, k < s.H ∧ s.W ≤ k ∧ s.mark (k % c.L) = .hold ∧ ∀ t, pown (s.pc t) ≠ some k

theorem mod_inj {a b L : Nat} (h : a % L = b % L) (h1 : a ≤ b) (h2 : b < a + L) : a = b := by
  have := Nat.sub_mod_eq_zero_of_mod_eq h.symm
  have h3 : b - a < L := by omega
  rw [Nat.mod_eq_of_lt h3] at this
  omega

/-- Two positions of the live window that use the same slot are equal. -/
theorem slot_inj {c : Cfg α} {s : St α} {a b : Nat} (h : a % c.L = b % c.L)
    (ha : s.R ≤ a) (ha' : a < s.R + c.L) (hb : s.R ≤ b) (hb' : b < s.R + c.L) : a = b := by
  rcases Nat.le_total a b with hab | hab
  · exact mod_inj h hab (by omega)
  · exact (mod_inj h.symm hab (by omega)).symm

@[simp] theorem go_pc (s : St α) (t u : Nat) (p : PC α) :
    (s.go t p).pc u = if u = t then p else s.pc u := rfl
@[simp] theorem go_H (s : St α) (t : Nat) (p : PC α) : (s.go t p).H = s.H := rfl
@[simp] theorem go_W (s : St α) (t : Nat) (p : PC α) : (s.go t p).W = s.W := rfl
@[simp] theorem go_P (s : St α) (t : Nat) (p : PC α) : (s.go t p).P = s.P := rfl
@[simp] theorem go_R (s : St α) (t : Nat) (p : PC α) : (s.go t p).R = s.R := rfl
@[simp] theorem go_mark (s : St α) (t : Nat) (p : PC α) : (s.go t p).mark = s.mark := rfl
@[simp] theorem go_cell (s : St α) (t : Nat) (p : PC α) : (s.go t p).cell = s.cell := rfl
@[simp] theorem go_state (s : St α) (t : Nat) (p : PC α) : (s.go t p).state = s.state := rfl
@[simp] theorem go_lg (s : St α) (t : Nat) (p : PC α) : (s.go t p).lgRunning = s.lgRunning := rfl
@[simp] theorem go_nWait (s : St α) (t : Nat) (p : PC α) : (s.go t p).nWait = s.nWait := rfl
@[simp] theorem go_nHold (s : St α) (t : Nat) (p : PC α) : (s.go t p).nHold = s.nHold := rfl
@[simp] theorem go_nPush (s : St α) (t : Nat) (p : PC α) : (s.go t p).nPush = s.nPush := rfl
@[simp] theorem go_nProc (s : St α) (t : Nat) (p : PC α) : (s.go t p).nProc = s.nProc := rfl
@[simp] theorem go_nBytes (s : St α) (t : Nat) (p : PC α) : (s.go t p).nBytes = s.nBytes := rfl
@[simp] theorem go_calls (s : St α) (t : Nat) (p : PC α) : (s.go t p).calls = s.calls := rfl
@[simp] theorem go_acquired (s : St α) (t : Nat) (p : PC α) : (s.go t p).acquired = s.acquired := rfl
@[simp] theorem go_out (s : St α) (t : Nat) (p : PC α) : (s.go t p).out = s.out := rfl
@[simp] theorem go_lost (s : St α) (t : Nat) (p : PC α) : (s.go t p).lost = s.lost := rfl
@[simp] theorem go_base (s : St α) (t : Nat) (p : PC α) : (s.go t p).base = s.base := rfl
@[simp] theorem go_old (s : St α) (t : Nat) (p : PC α) : (s.go t p).old = s.old := rfl

theorem upd_same {β : Type} (f : Nat → β) (i : Nat) (v : β) : upd f i v i = v := by simp [upd]
theorem upd_ne {β : Type} (f : Nat → β) {i j : Nat} (v : β) (h : j ≠ i) : upd f i v j = f j := by
  simp [upd, h]

/-- Owner of a held position: the thread recorded in `acquired`. -/
theorem pown_acq {c : Cfg α} {s : St α} {t k : Nat} {p : PC α} (h : TI c s t p)
    (hp : pown p = some k) :
    s.W ≤ k ∧ k < s.H ∧ s.mark (k % c.L) ≠ .ready ∧ ∃ x, s.acquired[k]? = some (t, x) := by
  cases p <;> simp [pown] at hp <;> subst hp <;> simp [TI, Own] at h <;>
    (obtain ⟨⟨h1, h2, h3⟩, h4⟩ := h; exact ⟨h1, h2, by simp [h3], _, h4⟩)

theorem pown_uniq {c : Cfg α} {s : St α} (h : Inv c s) {t u k : Nat}
    (ht : pown (s.pc t) = some k) (hu : pown (s.pc u) = some k) : t = u := by
  obtain ⟨_, _, _, x, hx⟩ := pown_acq (h.ti t) ht
  obtain ⟨_, _, _, y, hy⟩ := pown_acq (h.ti u) hu
  rw [hx] at hy; cases hy; rfl

theorem cown_range {c : Cfg α} {s : St α} {t k : Nat} {p : PC α} (h : TI c s t p)
    (hp : cown p = some k) : s.R ≤ k ∧ k < s.P ∧ (s.old ≤ k → s.mark (k % c.L) = .ready) := by
  cases p <;> simp [cown] at hp <;> subst hp <;> simpa [TI] using h

/-- Thread facts only look at these parts of the state. -/
theorem TI.congr {c : Cfg α} {s s' : St α} {t : Nat} {p : PC α}
    (hH : s'.H = s.H) (hW : s'.W = s.W) (hP : s'.P = s.P) (hR : s'.R = s.R)
    (hm : s'.mark = s.mark) (hc : s'.cell = s.cell) (ha : s'.acquired = s.acquired)
    (ho : s'.old = s.old) (h : TI c s t p) : TI c s' t p := by
  cases p <;> simp_all [TI, Own]

/-- A step that changes only program counters, statistics, channel state: the invariant is kept if the
thread keeps its ownership. -/
theorem Inv.loc {c : Cfg α} {s s' : St α} (h : Inv c s) {t : Nat} {p : PC α}
    (hpc : s'.pc = fun u => if u = t then p else s.pc u)
    (hH : s'.H = s.H) (hW : s'.W = s.W) (hP : s'.P = s.P) (hR : s'.R = s.R)
    (hm : s'.mark = s.mark) (hc : s'.cell = s.cell) (ha : s'.acquired = s.acquired)
    (hout : s'.out = s.out) (hl : s'.lost = s.lost) (hb : s'.base = s.base) (hold : s'.old = s.old)
    (hpo : pown p = pown (s.pc t)) (hco : cown p = cown (s.pc t))
    (hcd : ∀ k, p = .cDisp k ↔ s.pc t = .cDisp k)
    (hic : c.async = true → isCons p = true → t = worker)
    (hti : TI c s t p) : Inv c s' := by
  have hpown : ∀ u, pown (s'.pc u) = pown (s.pc u) := by
    intro u; rw [hpc]; simp only; split
    · rename_i e; rw [hpo, e]
    · rfl
  have hcown : ∀ u, cown (s'.pc u) = cown (s.pc u) := by
    intro u; rw [hpc]; simp only; split
    · rename_i e; rw [hco, e]
    · rfl
  have hdisp : ∀ u k, s'.pc u ≠ .cDisp k ↔ s.pc u ≠ .cDisp k := by
    intro u k; rw [hpc]; simp only; split
    · rename_i e; rw [e]; exact not_congr (hcd k)
    · rfl
  constructor
  case leRP => rw [hR, hP]; exact h.leRP
  case lePW => rw [hP, hW]; exact h.lePW
  case leWH => rw [hW, hH]; exact h.leWH
  case cap => rw [hH, hR]; exact h.cap
  case len => rw [ha, hH]; exact h.len
  case baseR => rw [hb, hR]; exact h.baseR
  case oldOk => rw [hold, hR]; exact h.oldOk
  case mPW => rw [hP, hW, hm, hold]; exact h.mPW
  case mFree => rw [hH, hR, hm]; exact h.mFree
  case mRP => rw [hR, hP, hm]; simp only [hcown]; exact h.mRP
  case mWH => rw [hW, hH, hm, hl]; simp only [hpown]; exact h.mWH
  case sealedW => rw [hR, hW, ha, hc]; exact h.sealedW
  case sealedH => rw [hW, hH, hm, ha, hc]; exact h.sealedH
  case ti =>
    intro u
    apply TI.congr hH hW hP hR hm hc ha hold
    rw [hpc]; simp only; split
    · rename_i e; rw [e]; exact hti
    · exact h.ti u
  case uniqC => simp only [hcown]; exact h.uniqC
  case consTid =>
    intro hA u
    rw [hpc]; simp only; split
    · rename_i e; rw [e]; exact hic hA
    · exact h.consTid hA u
  case outND => rw [hout]; exact h.outND
  case outMem => rw [hout, hb, hP]; simp only [hdisp]; exact h.outMem
  case outVal => rw [hout, ha]; exact h.outVal
  case lostR => rw [hl, hH, hW, hm]; simp only [hpown]; exact h.lostR

end FNLog.Ring
