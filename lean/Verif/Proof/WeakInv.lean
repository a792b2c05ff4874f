import Verif.Model.Weak
import Verif.Proof.RingFinal

/-! # The invariant of the ring under the C++ memory model -/

namespace FNLog.Weak
open FNLog FNLog.Ring

variable {α : Type}

/-- The n-th value of a mark. -/
def markOf (n : Nat) : Mark := if n % 3 = 0 then .invalid else if n % 3 = 1 then .hold else .ready

theorem markOf_ready {n : Nat} : markOf n = .ready ↔ n % 3 = 2 := by
  unfold markOf
  split
  · simp; omega
  · split
    · simp; omega
    · simp; omega

theorem markOf_invalid {n : Nat} : markOf n = .invalid ↔ n % 3 = 0 := by
  unfold markOf
  split
  · simp; omega
  · split
    · simp; omega
    · simp; omega

theorem markOf_hold {n : Nat} : markOf n = .hold ↔ n % 3 = 1 := by
  unfold markOf
  split
  · simp; omega
  · split
    · simp; omega
    · simp; omega

/-- One view knows at least as much as another. -/
structure View.Le (v u : View) : Prop where
  h : v.h ≤ u.h
  w : v.w ≤ u.w
  p : v.p ≤ u.p
  r : v.r ≤ u.r
  m : ∀ i, v.m i ≤ u.m i
  a : ∀ i, v.a i ≤ u.a i

theorem View.Le.rfl' (v : View) : v.Le v :=
  ⟨Nat.le_refl _, Nat.le_refl _, Nat.le_refl _, Nat.le_refl _, fun _ => Nat.le_refl _, fun _ => Nat.le_refl _⟩

theorem View.le_join (v u : View) : v.Le (v.join u) :=
  ⟨Nat.le_max_left _ _, Nat.le_max_left _ _, Nat.le_max_left _ _, Nat.le_max_left _ _,
    fun _ => Nat.le_max_left _ _, fun _ => Nat.le_max_left _ _⟩

theorem View.le_join' (v u : View) : u.Le (v.join u) :=
  ⟨Nat.le_max_right _ _, Nat.le_max_right _ _, Nat.le_max_right _ _, Nat.le_max_right _ _,
    fun _ => Nat.le_max_right _ _, fun _ => Nat.le_max_right _ _⟩

/-- What is always true of a view: it is bounded by what happened, and it is closed under what must have
happened before. -/
structure Good (c : Cfg α) (x : WSt α) (v : View) : Prop where
  bh : v.h ≤ x.s.H
  bw : v.w ≤ x.s.W
  bp : v.p ≤ x.s.P
  br : v.r ≤ x.s.R
  bm : ∀ i, v.m i ≤ x.mlen i
  ba : ∀ i, v.a i ≤ x.acc i
  rp : v.r ≤ v.p
  pw : v.p ≤ v.w
  wh : v.w ≤ v.h
  cap : v.h + 1 ≤ v.r + c.L
  clr : ∀ j, j < v.r → 3 * (j / c.L) + 3 ≤ v.m (j % c.L)
  rdy : ∀ j, j < v.w → 3 * (j / c.L) + 2 ≤ v.m (j % c.L)
  am : ∀ i, (x.msgM i (v.m i)).a i ≤ v.a i

theorem Good.join {c : Cfg α} {x : WSt α} {v u : View} (hv : Good c x v) (hu : Good c x u) :
    Good c x (v.join u) where
  bh := Nat.max_le.mpr ⟨hv.bh, hu.bh⟩
  bw := Nat.max_le.mpr ⟨hv.bw, hu.bw⟩
  bp := Nat.max_le.mpr ⟨hv.bp, hu.bp⟩
  br := Nat.max_le.mpr ⟨hv.br, hu.br⟩
  bm i := Nat.max_le.mpr ⟨hv.bm i, hu.bm i⟩
  ba i := Nat.max_le.mpr ⟨hv.ba i, hu.ba i⟩
  rp := by have := hv.rp; have := hu.rp; simp only [View.join]; omega
  pw := by have := hv.pw; have := hu.pw; simp only [View.join]; omega
  wh := by have := hv.wh; have := hu.wh; simp only [View.join]; omega
  cap := by have := hv.cap; have := hu.cap; simp only [View.join]; omega
  clr j hj := by
    simp only [View.join] at hj ⊢
    rcases Nat.lt_or_ge j v.r with h | h
    · have := hv.clr j h; omega
    · have := hu.clr j (by omega); omega
  rdy j hj := by
    simp only [View.join] at hj ⊢
    rcases Nat.lt_or_ge j v.w with h | h
    · have := hv.rdy j h; omega
    · have := hu.rdy j (by omega); omega
  am i := by
    simp only [View.join]
    rcases Nat.le_total (v.m i) (u.m i) with h | h
    · rw [Nat.max_eq_right h]; have := hu.am i; omega
    · rw [Nat.max_eq_left h]; have := hv.am i; omega

/-- More can happen. -/
theorem Good.mono {c : Cfg α} {x x' : WSt α} {v : View} (h : Good c x v)
    (hH : x.s.H ≤ x'.s.H) (hW : x.s.W ≤ x'.s.W) (hP : x.s.P ≤ x'.s.P) (hR : x.s.R ≤ x'.s.R)
    (hm : ∀ i, x.mlen i ≤ x'.mlen i) (ha : ∀ i, x.acc i ≤ x'.acc i)
    (hM : ∀ i n, n ≤ x.mlen i → x'.msgM i n = x.msgM i n) : Good c x' v where
  bh := Nat.le_trans h.bh hH
  bw := Nat.le_trans h.bw hW
  bp := Nat.le_trans h.bp hP
  br := Nat.le_trans h.br hR
  bm i := Nat.le_trans (h.bm i) (hm i)
  ba i := Nat.le_trans (h.ba i) (ha i)
  rp := h.rp
  pw := h.pw
  wh := h.wh
  cap := h.cap
  clr := h.clr
  rdy := h.rdy
  am i := by rw [hM i _ (h.bm i)]; exact h.am i

/-- What a thread knows at each point of the program. -/
def WTI (c : Cfg α) (v : View) : PC α → Prop
  | .hRead _ tk _ => tk ≤ v.h
  | .hCas _ tk _ => tk ≤ v.h ∧ tk + 1 < v.r + c.L
  | .hInc k _ | .hMark k _ => k < v.h
  | .fInit k _ | .fill k _ | .pChk k | .pSeal k | .pMark k => 3 * (k / c.L) + 1 ≤ v.m (k % c.L)
  | .wHold tk => tk ≤ v.w
  | .wMark tk => tk ≤ v.w ∧ tk < v.h
  | .wCas tk => tk ≤ v.w ∧ tk < v.h ∧ 3 * (tk / c.L) + 2 ≤ v.m (tk % c.L)
  | .cWrite tk => tk ≤ v.p
  | .cCas tk => tk ≤ v.p ∧ tk < v.w
  | .cDisp k | .cClear k => k < v.w
  | .rProc tk => tk ≤ v.r
  | .rMark tk => tk ≤ v.r ∧ tk < v.p
  | .rCas tk => tk ≤ v.r ∧ tk < v.p ∧ 3 * (tk / c.L) + 3 ≤ v.m (tk % c.L)
  | _ => True

theorem WTI.mono {c : Cfg α} {v u : View} {p : PC α} (h : WTI c v p) (hle : v.Le u) : WTI c u p := by
  have h1 := hle.h
  have h2 := hle.w
  have h3 := hle.p
  have h4 := hle.r
  have h5 := hle.m
  cases p <;> simp only [WTI] at h ⊢ <;> (try omega) <;>
    (rename_i k; first
      | (have := h5 (k % c.L); omega)
      | (rename_i k' ; have := h5 (k' % c.L); omega))

/-- The slot a thread is working on, between setting the mark and setting it again. -/
def held : PC α → Option Nat
  | .fInit k _ | .fill k _ | .pChk k | .pSeal k | .pMark k | .cClear k => some k
  | _ => none

/-- The invariant. -/
structure WInv (c : Cfg α) (x : WSt α) : Prop where
  inv : Inv c x.s
  old0 : x.s.old = 0
  val : ∀ i n, n ≤ x.mlen i → x.vals i n = markOf n
  cur : ∀ i, x.s.mark i = markOf (x.mlen i)
  lenF : ∀ k, x.s.H ≤ k → k < x.s.R + c.L → x.mlen (k % c.L) = 3 * (k / c.L)
  lenWH : ∀ k, x.s.W ≤ k → k < x.s.H →
    3 * (k / c.L) ≤ x.mlen (k % c.L) ∧ x.mlen (k % c.L) ≤ 3 * (k / c.L) + 2
  lenPW : ∀ k, x.s.P ≤ k → k < x.s.W → x.mlen (k % c.L) = 3 * (k / c.L) + 2
  lenRP : ∀ k, x.s.R ≤ k → k < x.s.P →
    3 * (k / c.L) + 2 ≤ x.mlen (k % c.L) ∧ x.mlen (k % c.L) ≤ 3 * (k / c.L) + 3
  gH : ∀ n, n ≤ x.s.H → Good c x (x.msgH n) ∧ n ≤ (x.msgH n).h
  gW : ∀ n, n ≤ x.s.W → Good c x (x.msgW n) ∧ n ≤ (x.msgW n).w
  gP : ∀ n, n ≤ x.s.P → Good c x (x.msgP n) ∧ n ≤ (x.msgP n).p
  gR : ∀ n, n ≤ x.s.R → Good c x (x.msgR n) ∧ n ≤ (x.msgR n).r
  gM : ∀ i n, n ≤ x.mlen i → Good c x (x.msgM i n) ∧ n ≤ (x.msgM i n).m i
  thr : ∀ t, Good c x (x.view t)
  wti : ∀ t, WTI c (x.view t) (x.s.pc t)
  accI : ∀ i, x.mlen i % 3 = 0 → (x.msgM i (x.mlen i)).a i = x.acc i
  accR : ∀ i, x.mlen i % 3 = 2 → (x.msgM i (x.mlen i)).a i = x.acc i ∨
    ∃ t k, x.s.pc t = .cClear k ∧ k % c.L = i
  accO : ∀ t k, held (x.s.pc t) = some k → (x.view t).a (k % c.L) = x.acc (k % c.L)
  clean : x.race = false ∧ x.unordered = false

/-- A step that changes program counters, statistics and what one thread knows. -/
theorem WInv.quiet {c : Cfg α} {x x' : WSt α} (h : WInv c x) {t : Nat} {p : PC α} {v : View}
    (hinv : Inv c x'.s) (hold : x'.s.old = x.s.old)
    (hpc : x'.s.pc = fun u => if u = t then p else x.s.pc u)
    (hH : x'.s.H = x.s.H) (hW : x'.s.W = x.s.W) (hP : x'.s.P = x.s.P) (hR : x'.s.R = x.s.R)
    (hmk : x'.s.mark = x.s.mark)
    (hmH : x'.msgH = x.msgH) (hmW : x'.msgW = x.msgW) (hmP : x'.msgP = x.msgP) (hmR : x'.msgR = x.msgR)
    (hvals : x'.vals = x.vals) (hlen : x'.mlen = x.mlen) (hmM : x'.msgM = x.msgM) (hacc : x'.acc = x.acc)
    (hrace : x'.race = x.race) (hun : x'.unordered = x.unordered)
    (hview : x'.view = upd x.view t v) (hle : (x.view t).Le v) (hgood : Good c x v) (hw : WTI c v p)
    (hheld : ∀ k, held p = some k → held (x.s.pc t) = some k)
    (hclr : ∀ k, x.s.pc t ≠ .cClear k) : WInv c x' := by
  have hg : ∀ {u}, Good c x u → Good c x' u := fun hu =>
    hu.mono (by omega) (by omega) (by omega) (by omega) (fun i => by rw [hlen]; exact Nat.le_refl _)
      (fun i => by rw [hacc]; exact Nat.le_refl _) (fun i n _ => by rw [hmM])
  constructor
  case inv => exact hinv
  case old0 => rw [hold]; exact h.old0
  case val => rw [hvals, hlen]; exact h.val
  case cur => rw [hmk, hlen]; exact h.cur
  case lenF => rw [hH, hR, hlen]; exact h.lenF
  case lenWH => rw [hH, hW, hlen]; exact h.lenWH
  case lenPW => rw [hP, hW, hlen]; exact h.lenPW
  case lenRP => rw [hP, hR, hlen]; exact h.lenRP
  case gH => rw [hH, hmH]; exact fun n hn => ⟨hg (h.gH n hn).1, (h.gH n hn).2⟩
  case gW => rw [hW, hmW]; exact fun n hn => ⟨hg (h.gW n hn).1, (h.gW n hn).2⟩
  case gP => rw [hP, hmP]; exact fun n hn => ⟨hg (h.gP n hn).1, (h.gP n hn).2⟩
  case gR => rw [hR, hmR]; exact fun n hn => ⟨hg (h.gR n hn).1, (h.gR n hn).2⟩
  case gM => rw [hmM, hlen]; exact fun i n hn => ⟨hg (h.gM i n hn).1, (h.gM i n hn).2⟩
  case thr =>
    intro u; rw [hview]; unfold upd; split
    · exact hg hgood
    · exact hg (h.thr u)
  case wti =>
    intro u; rw [hview, hpc]; unfold upd; simp only; split
    · exact hw
    · exact h.wti u
  case accI => rw [hlen, hmM, hacc]; exact h.accI
  case accR =>
    rw [hlen, hmM, hacc]
    intro i hi
    rcases h.accR i hi with h1 | ⟨u, k, hu, hk⟩
    · exact Or.inl h1
    · refine Or.inr ⟨u, k, ?_, hk⟩
      have : u ≠ t := by rintro rfl; exact hclr k hu
      rw [hpc]; simpa [this] using hu
  case accO =>
    intro u k hk
    rw [hacc, hview]
    rw [hpc] at hk
    unfold upd
    simp only at hk
    split
    · rename_i e
      rw [if_pos e] at hk
      have h1 := h.accO t k (hheld k hk)
      have h2 := hle.a (k % c.L)
      have h3 := hgood.ba (k % c.L)
      omega
    · rename_i e
      rw [if_neg e] at hk
      exact h.accO u k hk
  case clean => rw [hrace, hun]; exact h.clean

theorem upd_self {β : Type} (f : Nat → β) (i : Nat) : upd f i (f i) = f := by
  funext j; unfold upd; split <;> simp_all

/-- The same without news. -/
theorem WInv.still {c : Cfg α} {x : WSt α} (h : WInv c x) {t : Nat} {p : PC α} {s' : St α}
    (hinv : Inv c s') (hold : s'.old = x.s.old)
    (hpc : s'.pc = fun u => if u = t then p else x.s.pc u)
    (hH : s'.H = x.s.H) (hW : s'.W = x.s.W) (hP : s'.P = x.s.P) (hR : s'.R = x.s.R)
    (hmk : s'.mark = x.s.mark) (hw : WTI c (x.view t) p)
    (hheld : ∀ k, held p = some k → held (x.s.pc t) = some k)
    (hclr : ∀ k, x.s.pc t ≠ .cClear k) : WInv c (x.put s') :=
  h.quiet (x' := x.put s') (v := x.view t) hinv hold hpc hH hW hP hR hmk rfl rfl rfl rfl rfl rfl rfl rfl rfl rfl
    (upd_self _ _).symm (View.Le.rfl' _) (h.thr t) hw hheld hclr

/-- The same with news. -/
theorem WInv.news {c : Cfg α} {x : WSt α} (h : WInv c x) {t : Nat} {p : PC α} {s' : St α} {u : View}
    (hu : Good c x u) (hinv : Inv c s') (hold : s'.old = x.s.old)
    (hpc : s'.pc = fun u => if u = t then p else x.s.pc u)
    (hH : s'.H = x.s.H) (hW : s'.W = x.s.W) (hP : s'.P = x.s.P) (hR : s'.R = x.s.R)
    (hmk : s'.mark = x.s.mark) (hw : WTI c ((x.view t).join u) p)
    (hheld : ∀ k, held p = some k → held (x.s.pc t) = some k)
    (hclr : ∀ k, x.s.pc t ≠ .cClear k) : WInv c ((x.see t u).put s') :=
  h.quiet (x' := (x.see t u).put s') (v := (x.view t).join u) hinv hold hpc hH hW hP hR hmk rfl rfl rfl rfl rfl
    rfl rfl rfl rfl rfl rfl (View.le_join _ _) ((h.thr t).join hu) hw hheld hclr

end FNLog.Weak
