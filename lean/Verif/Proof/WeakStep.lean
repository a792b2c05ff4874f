import Verif.Proof.WeakInv

/-! # Every step of the weak model preserves the invariant -/

namespace FNLog.Weak
open FNLog FNLog.Ring

variable {α : Type}

/-- 461: a successful compare-and-swap on `hold_idx_`. -/
theorem WInv.swapH {c : Cfg α} {x : WSt α} (h : WInv c x) {t : Nat} {p : PC α} {s' : St α}
    (hinv : Inv c s') (hold : s'.old = x.s.old)
    (hpc : s'.pc = fun u => if u = t then p else x.s.pc u)
    (hH : s'.H = x.s.H + 1) (hW : s'.W = x.s.W) (hP : s'.P = x.s.P) (hR : s'.R = x.s.R)
    (hmk : s'.mark = x.s.mark)
    (hcap : x.s.H + 1 < (x.view t).r + c.L)
    (hw : ∀ v : View, x.s.H < v.h → WTI c v p) (hheld : held p = none)
    (hclr : ∀ k, x.s.pc t ≠ .cClear k) : WInv c ((x.swapH t).put s') := by
  have hg : ∀ {u}, Good c x u → Good c ((x.swapH t).put s') u := fun hu =>
    hu.mono (by show _ ≤ s'.H; omega) (by show _ ≤ s'.W; omega) (by show _ ≤ s'.P; omega)
      (by show _ ≤ s'.R; omega) (fun i => Nat.le_refl _) (fun i => Nat.le_refl _) (fun i n _ => rfl)
  have hj := (h.thr t).join (h.gH x.s.H (Nat.le_refl _)).1
  have hv : Good c ((x.swapH t).put s')
      { (x.view t).join (x.msgH x.s.H) with h := x.s.H + 1 } := by
    have hj' := hg hj
    refine ⟨by show _ ≤ s'.H; rw [hH]; exact Nat.le_refl _, hj'.bw, hj'.bp, hj'.br, hj'.bm, hj'.ba, hj'.rp, hj'.pw, ?_, ?_,
      hj'.clr, hj'.rdy, hj'.am⟩
    · have := hj.wh; have := hj.bh; simp only at *; omega
    · have := Nat.le_max_left (x.view t).r (x.msgH x.s.H).r
      simp only [View.join]; omega
  have hcap0 := h.inv.cap
  constructor
  case inv => exact hinv
  case old0 => exact hold.trans h.old0
  case val => exact h.val
  case cur => intro i; show s'.mark i = _; rw [hmk]; exact h.cur i
  case lenF =>
    intro k h1 h2
    exact h.lenF k (by have : s'.H ≤ k := h1; omega) (by have : k < s'.R + c.L := h2; omega)
  case lenWH =>
    intro k h1 h2
    have h1' : s'.W ≤ k := h1
    have h2' : k < s'.H := h2
    show 3 * (k / c.L) ≤ x.mlen (k % c.L) ∧ x.mlen (k % c.L) ≤ 3 * (k / c.L) + 2
    rcases Nat.lt_or_ge k x.s.H with h3 | h3
    · exact h.lenWH k (by omega) h3
    · have := h.lenF k h3 (by omega); omega
  case lenPW => intro k h1 h2; exact h.lenPW k (by have : s'.P ≤ k := h1; omega) (by have : k < s'.W := h2; omega)
  case lenRP => intro k h1 h2; exact h.lenRP k (by have : s'.R ≤ k := h1; omega) (by have : k < s'.P := h2; omega)
  case gH =>
    intro n hn
    have hn' : n ≤ s'.H := hn
    show Good c _ (upd x.msgH (x.s.H + 1) _ n) ∧ n ≤ (upd x.msgH (x.s.H + 1) _ n).h
    unfold upd; split
    · exact ⟨hv, by simp only; omega⟩
    · exact ⟨hg (h.gH n (by omega)).1, (h.gH n (by omega)).2⟩
  case gW => intro n hn; have hn' : n ≤ s'.W := hn; exact ⟨hg (h.gW n (by omega)).1, (h.gW n (by omega)).2⟩
  case gP => intro n hn; have hn' : n ≤ s'.P := hn; exact ⟨hg (h.gP n (by omega)).1, (h.gP n (by omega)).2⟩
  case gR => intro n hn; have hn' : n ≤ s'.R := hn; exact ⟨hg (h.gR n (by omega)).1, (h.gR n (by omega)).2⟩
  case gM => intro i n hn; exact ⟨hg (h.gM i n hn).1, (h.gM i n hn).2⟩
  case thr =>
    intro u
    show Good c _ (upd x.view t _ u)
    unfold upd; split
    · exact hv
    · exact hg (h.thr u)
  case wti =>
    intro u
    show WTI c (upd x.view t _ u) (s'.pc u)
    rw [hpc]; unfold upd; simp only; split
    · exact hw _ (Nat.lt_succ_self _)
    · exact h.wti u
  case accI => exact h.accI
  case accR =>
    intro i hi
    rcases h.accR i hi with h1 | ⟨u, k, hu, hk⟩
    · exact Or.inl h1
    · refine Or.inr ⟨u, k, ?_, hk⟩
      have : u ≠ t := by rintro rfl; exact hclr k hu
      show s'.pc u = _
      rw [hpc]; simpa [this] using hu
  case accO =>
    intro u k hk
    have hk' : held (s'.pc u) = some k := hk
    rw [hpc] at hk'
    show (upd x.view t _ u).a _ = _
    unfold upd
    simp only at hk'
    split
    · rename_i e; rw [if_pos e, hheld] at hk'; cases hk'
    · rename_i e; rw [if_neg e] at hk'; exact h.accO u k hk'
  case clean => exact h.clean

/-- 514: a successful compare-and-swap on `write_idx_`. -/
theorem WInv.swapW {c : Cfg α} {x : WSt α} (h : WInv c x) {t : Nat} {p : PC α} {s' : St α}
    (hinv : Inv c s') (hold : s'.old = x.s.old)
    (hpc : s'.pc = fun u => if u = t then p else x.s.pc u)
    (hH : s'.H = x.s.H) (hW : s'.W = x.s.W + 1) (hP : s'.P = x.s.P) (hR : s'.R = x.s.R)
    (hmk : s'.mark = x.s.mark)
    (hlt : x.s.W < (x.view t).h) (hrdy : 3 * (x.s.W / c.L) + 2 ≤ (x.view t).m (x.s.W % c.L))
    (hw : ∀ v : View, WTI c v p) (hheld : held p = none)
    (hclr : ∀ k, x.s.pc t ≠ .cClear k) : WInv c ((x.swapW t).put s') := by
  have hg : ∀ {u}, Good c x u → Good c ((x.swapW t).put s') u := fun hu =>
    hu.mono (by show _ ≤ s'.H; omega) (by show _ ≤ s'.W; omega) (by show _ ≤ s'.P; omega)
      (by show _ ≤ s'.R; omega) (fun i => Nat.le_refl _) (fun i => Nat.le_refl _) (fun i n _ => rfl)
  have hj := (h.thr t).join (h.gW x.s.W (Nat.le_refl _)).1
  have hgw := (h.gW x.s.W (Nat.le_refl _)).2
  have hv : Good c ((x.swapW t).put s')
      { (x.view t).join (x.msgW x.s.W) with w := x.s.W + 1 } := by
    have hj' := hg hj
    refine ⟨hj'.bh, by show _ ≤ s'.W; rw [hW]; exact Nat.le_refl _, hj'.bp, hj'.br, hj'.bm, hj'.ba, hj'.rp, ?_, ?_, hj'.cap,
      hj'.clr, ?_, hj'.am⟩
    · have := hj.pw; have := hj.bw; simp only at *; omega
    · have := Nat.le_max_left (x.view t).h (x.msgW x.s.W).h
      simp only [View.join]; omega
    · intro j hjw
      simp only at hjw ⊢
      rcases Nat.lt_or_ge j x.s.W with h3 | h3
      · exact hj.rdy j (by simp only [View.join]; omega)
      · have : j = x.s.W := by omega
        subst this
        simp only [View.join]; omega
  have hcap0 := h.inv.cap
  have hbh := (h.thr t).bh
  have hbm := (h.thr t).bm (x.s.W % c.L)
  constructor
  case inv => exact hinv
  case old0 => exact hold.trans h.old0
  case val => exact h.val
  case cur => intro i; show s'.mark i = _; rw [hmk]; exact h.cur i
  case lenF => intro k h1 h2; exact h.lenF k (by have : s'.H ≤ k := h1; omega) (by have : k < s'.R + c.L := h2; omega)
  case lenWH => intro k h1 h2; exact h.lenWH k (by have : s'.W ≤ k := h1; omega) (by have : k < s'.H := h2; omega)
  case lenPW =>
    intro k h1 h2
    have h1' : s'.P ≤ k := h1
    have h2' : k < s'.W := h2
    show x.mlen (k % c.L) = 3 * (k / c.L) + 2
    rcases Nat.lt_or_ge k x.s.W with h3 | h3
    · exact h.lenPW k (by omega) h3
    · have : k = x.s.W := by omega
      subst this
      have := h.lenWH x.s.W (Nat.le_refl _) (by omega)
      omega
  case lenRP => intro k h1 h2; exact h.lenRP k (by have : s'.R ≤ k := h1; omega) (by have : k < s'.P := h2; omega)
  case gH => intro n hn; have hn' : n ≤ s'.H := hn; exact ⟨hg (h.gH n (by omega)).1, (h.gH n (by omega)).2⟩
  case gW =>
    intro n hn
    have hn' : n ≤ s'.W := hn
    show Good c _ (upd x.msgW (x.s.W + 1) _ n) ∧ n ≤ (upd x.msgW (x.s.W + 1) _ n).w
    unfold upd; split
    · exact ⟨hv, by simp only; omega⟩
    · exact ⟨hg (h.gW n (by omega)).1, (h.gW n (by omega)).2⟩
  case gP => intro n hn; have hn' : n ≤ s'.P := hn; exact ⟨hg (h.gP n (by omega)).1, (h.gP n (by omega)).2⟩
  case gR => intro n hn; have hn' : n ≤ s'.R := hn; exact ⟨hg (h.gR n (by omega)).1, (h.gR n (by omega)).2⟩
  case gM => intro i n hn; exact ⟨hg (h.gM i n hn).1, (h.gM i n hn).2⟩
  case thr =>
    intro u
    show Good c _ (upd x.view t _ u)
    unfold upd; split
    · exact hv
    · exact hg (h.thr u)
  case wti =>
    intro u
    show WTI c (upd x.view t _ u) (s'.pc u)
    rw [hpc]; unfold upd; simp only; split
    · exact hw _
    · exact h.wti u
  case accI => exact h.accI
  case accR =>
    intro i hi
    rcases h.accR i hi with h1 | ⟨u, k, hu, hk⟩
    · exact Or.inl h1
    · refine Or.inr ⟨u, k, ?_, hk⟩
      have : u ≠ t := by rintro rfl; exact hclr k hu
      show s'.pc u = _
      rw [hpc]; simpa [this] using hu
  case accO =>
    intro u k hk
    have hk' : held (s'.pc u) = some k := hk
    rw [hpc] at hk'
    show (upd x.view t _ u).a _ = _
    unfold upd
    simp only at hk'
    split
    · rename_i e; rw [if_pos e, hheld] at hk'; cases hk'
    · rename_i e; rw [if_neg e] at hk'; exact h.accO u k hk'
  case clean => exact h.clean

/-- 118: a successful compare-and-swap on `proc_idx_`. -/
theorem WInv.swapP {c : Cfg α} {x : WSt α} (h : WInv c x) {t : Nat} {p : PC α} {s' : St α}
    (hinv : Inv c s') (hold : s'.old = x.s.old)
    (hpc : s'.pc = fun u => if u = t then p else x.s.pc u)
    (hH : s'.H = x.s.H) (hW : s'.W = x.s.W) (hP : s'.P = x.s.P + 1) (hR : s'.R = x.s.R)
    (hmk : s'.mark = x.s.mark)
    (hlt : x.s.P < (x.view t).w)
    (hw : ∀ v : View, x.s.P < v.w → WTI c v p) (hheld : held p = none)
    (hclr : ∀ k, x.s.pc t ≠ .cClear k) : WInv c ((x.swapP t).put s') := by
  have hg : ∀ {u}, Good c x u → Good c ((x.swapP t).put s') u := fun hu =>
    hu.mono (by show _ ≤ s'.H; omega) (by show _ ≤ s'.W; omega) (by show _ ≤ s'.P; omega)
      (by show _ ≤ s'.R; omega) (fun i => Nat.le_refl _) (fun i => Nat.le_refl _) (fun i n _ => rfl)
  have hj := (h.thr t).join (h.gP x.s.P (Nat.le_refl _)).1
  have hlt' : x.s.P < ((x.view t).join (x.msgP x.s.P)).w := by simp only [View.join]; omega
  have hv : Good c ((x.swapP t).put s')
      { (x.view t).join (x.msgP x.s.P) with p := x.s.P + 1 } := by
    have hj' := hg hj
    refine ⟨hj'.bh, hj'.bw, by show _ ≤ s'.P; rw [hP]; exact Nat.le_refl _, hj'.br, hj'.bm, hj'.ba, ?_, ?_, hj'.wh, hj'.cap,
      hj'.clr, hj'.rdy, hj'.am⟩
    · have := hj.rp; have := hj.bp; simp only at *; omega
    · simp only at *; omega
  have hbw := (h.thr t).bw
  constructor
  case inv => exact hinv
  case old0 => exact hold.trans h.old0
  case val => exact h.val
  case cur => intro i; show s'.mark i = _; rw [hmk]; exact h.cur i
  case lenF => intro k h1 h2; exact h.lenF k (by have : s'.H ≤ k := h1; omega) (by have : k < s'.R + c.L := h2; omega)
  case lenWH => intro k h1 h2; exact h.lenWH k (by have : s'.W ≤ k := h1; omega) (by have : k < s'.H := h2; omega)
  case lenPW => intro k h1 h2; exact h.lenPW k (by have : s'.P ≤ k := h1; omega) (by have : k < s'.W := h2; omega)
  case lenRP =>
    intro k h1 h2
    have h1' : s'.R ≤ k := h1
    have h2' : k < s'.P := h2
    show 3 * (k / c.L) + 2 ≤ x.mlen (k % c.L) ∧ x.mlen (k % c.L) ≤ 3 * (k / c.L) + 3
    rcases Nat.lt_or_ge k x.s.P with h3 | h3
    · exact h.lenRP k (by omega) h3
    · have := h.lenPW k h3 (by omega); omega
  case gH => intro n hn; have hn' : n ≤ s'.H := hn; exact ⟨hg (h.gH n (by omega)).1, (h.gH n (by omega)).2⟩
  case gW => intro n hn; have hn' : n ≤ s'.W := hn; exact ⟨hg (h.gW n (by omega)).1, (h.gW n (by omega)).2⟩
  case gP =>
    intro n hn
    have hn' : n ≤ s'.P := hn
    show Good c _ (upd x.msgP (x.s.P + 1) _ n) ∧ n ≤ (upd x.msgP (x.s.P + 1) _ n).p
    unfold upd; split
    · exact ⟨hv, by simp only; omega⟩
    · exact ⟨hg (h.gP n (by omega)).1, (h.gP n (by omega)).2⟩
  case gR => intro n hn; have hn' : n ≤ s'.R := hn; exact ⟨hg (h.gR n (by omega)).1, (h.gR n (by omega)).2⟩
  case gM => intro i n hn; exact ⟨hg (h.gM i n hn).1, (h.gM i n hn).2⟩
  case thr =>
    intro u
    show Good c _ (upd x.view t _ u)
    unfold upd; split
    · exact hv
    · exact hg (h.thr u)
  case wti =>
    intro u
    show WTI c (upd x.view t _ u) (s'.pc u)
    rw [hpc]; unfold upd; simp only; split
    · exact hw _ hlt'
    · exact h.wti u
  case accI => exact h.accI
  case accR =>
    intro i hi
    rcases h.accR i hi with h1 | ⟨u, k, hu, hk⟩
    · exact Or.inl h1
    · refine Or.inr ⟨u, k, ?_, hk⟩
      have : u ≠ t := by rintro rfl; exact hclr k hu
      show s'.pc u = _
      rw [hpc]; simpa [this] using hu
  case accO =>
    intro u k hk
    have hk' : held (s'.pc u) = some k := hk
    rw [hpc] at hk'
    show (upd x.view t _ u).a _ = _
    unfold upd
    simp only at hk'
    split
    · rename_i e; rw [if_pos e, hheld] at hk'; cases hk'
    · rename_i e; rw [if_neg e] at hk'; exact h.accO u k hk'
  case clean => exact h.clean

/-- 168: a successful compare-and-swap on `read_idx_`. -/
theorem WInv.swapR {c : Cfg α} {x : WSt α} (h : WInv c x) {t : Nat} {p : PC α} {s' : St α}
    (hinv : Inv c s') (hold : s'.old = x.s.old)
    (hpc : s'.pc = fun u => if u = t then p else x.s.pc u)
    (hH : s'.H = x.s.H) (hW : s'.W = x.s.W) (hP : s'.P = x.s.P) (hR : s'.R = x.s.R + 1)
    (hmk : s'.mark = x.s.mark)
    (hlt : x.s.R < (x.view t).p) (hcl : 3 * (x.s.R / c.L) + 3 ≤ (x.view t).m (x.s.R % c.L))
    (hw : ∀ v : View, WTI c v p) (hheld : held p = none)
    (hclr : ∀ k, x.s.pc t ≠ .cClear k) : WInv c ((x.swapR t).put s') := by
  have hg : ∀ {u}, Good c x u → Good c ((x.swapR t).put s') u := fun hu =>
    hu.mono (by show _ ≤ s'.H; omega) (by show _ ≤ s'.W; omega) (by show _ ≤ s'.P; omega)
      (by show _ ≤ s'.R; omega) (fun i => Nat.le_refl _) (fun i => Nat.le_refl _) (fun i n _ => rfl)
  have hj := (h.thr t).join (h.gR x.s.R (Nat.le_refl _)).1
  have hgr := (h.gR x.s.R (Nat.le_refl _)).2
  have hv : Good c ((x.swapR t).put s')
      { (x.view t).join (x.msgR x.s.R) with r := x.s.R + 1 } := by
    have hj' := hg hj
    refine ⟨hj'.bh, hj'.bw, hj'.bp, by show _ ≤ s'.R; rw [hR]; exact Nat.le_refl _, hj'.bm, hj'.ba, ?_, hj'.pw, hj'.wh, ?_, ?_,
      hj'.rdy, hj'.am⟩
    · simp only [View.join]; omega
    · have := hj.cap; have := hj.br; simp only at *; omega
    · intro j hjw
      simp only at hjw ⊢
      rcases Nat.lt_or_ge j x.s.R with h3 | h3
      · exact hj.clr j (by simp only [View.join]; omega)
      · have : j = x.s.R := by omega
        subst this
        simp only [View.join]; omega
  have hcap0 := h.inv.cap
  have hL : 0 < c.L := by
    have := h.inv.leRP; have := h.inv.lePW; have := h.inv.leWH; omega
  have hbp := (h.thr t).bp
  have hbm := (h.thr t).bm (x.s.R % c.L)
  constructor
  case inv => exact hinv
  case old0 => exact hold.trans h.old0
  case val => exact h.val
  case cur => intro i; show s'.mark i = _; rw [hmk]; exact h.cur i
  case lenF =>
    intro k h1 h2
    have h1' : s'.H ≤ k := h1
    have h2' : k < s'.R + c.L := h2
    show x.mlen (k % c.L) = 3 * (k / c.L)
    rcases Nat.lt_or_ge k (x.s.R + c.L) with h3 | h3
    · exact h.lenF k (by omega) h3
    · have : k = x.s.R + c.L := by omega
      subst this
      rw [Nat.add_mod_right, Nat.add_div_right _ hL]
      have := h.lenRP x.s.R (Nat.le_refl _) (by omega)
      omega
  case lenWH => intro k h1 h2; exact h.lenWH k (by have : s'.W ≤ k := h1; omega) (by have : k < s'.H := h2; omega)
  case lenPW => intro k h1 h2; exact h.lenPW k (by have : s'.P ≤ k := h1; omega) (by have : k < s'.W := h2; omega)
  case lenRP => intro k h1 h2; exact h.lenRP k (by have : s'.R ≤ k := h1; omega) (by have : k < s'.P := h2; omega)
  case gH => intro n hn; have hn' : n ≤ s'.H := hn; exact ⟨hg (h.gH n (by omega)).1, (h.gH n (by omega)).2⟩
  case gW => intro n hn; have hn' : n ≤ s'.W := hn; exact ⟨hg (h.gW n (by omega)).1, (h.gW n (by omega)).2⟩
  case gP => intro n hn; have hn' : n ≤ s'.P := hn; exact ⟨hg (h.gP n (by omega)).1, (h.gP n (by omega)).2⟩
  case gR =>
    intro n hn
    have hn' : n ≤ s'.R := hn
    show Good c _ (upd x.msgR (x.s.R + 1) _ n) ∧ n ≤ (upd x.msgR (x.s.R + 1) _ n).r
    unfold upd; split
    · exact ⟨hv, by simp only; omega⟩
    · exact ⟨hg (h.gR n (by omega)).1, (h.gR n (by omega)).2⟩
  case gM => intro i n hn; exact ⟨hg (h.gM i n hn).1, (h.gM i n hn).2⟩
  case thr =>
    intro u
    show Good c _ (upd x.view t _ u)
    unfold upd; split
    · exact hv
    · exact hg (h.thr u)
  case wti =>
    intro u
    show WTI c (upd x.view t _ u) (s'.pc u)
    rw [hpc]; unfold upd; simp only; split
    · exact hw _
    · exact h.wti u
  case accI => exact h.accI
  case accR =>
    intro i hi
    rcases h.accR i hi with h1 | ⟨u, k, hu, hk⟩
    · exact Or.inl h1
    · refine Or.inr ⟨u, k, ?_, hk⟩
      have : u ≠ t := by rintro rfl; exact hclr k hu
      show s'.pc u = _
      rw [hpc]; simpa [this] using hu
  case accO =>
    intro u k hk
    have hk' : held (s'.pc u) = some k := hk
    rw [hpc] at hk'
    show (upd x.view t _ u).a _ = _
    unfold upd
    simp only at hk'
    split
    · rename_i e; rw [if_pos e, hheld] at hk'; cases hk'
    · rename_i e; rw [if_neg e] at hk'; exact h.accO u k hk'
  case clean => exact h.clean

/-- 125, 464, 499: a store to the mark of a slot by a thread that knows everything about the slot. -/
theorem WInv.store {c : Cfg α} {x : WSt α} (h : WInv c x) {t k : Nat} {p : PC α} {s' : St α} {m : Mark}
    (hinv : Inv c s') (hold : s'.old = x.s.old)
    (hpc : s'.pc = fun u => if u = t then p else x.s.pc u)
    (hH : s'.H = x.s.H) (hW : s'.W = x.s.W) (hP : s'.P = x.s.P) (hR : s'.R = x.s.R)
    (hmk : s'.mark = upd x.s.mark (k % c.L) m)
    (hm : m = markOf (x.mlen (k % c.L) + 1))
    (hwin : (x.s.W ≤ k ∧ k < x.s.H ∧ x.mlen (k % c.L) + 1 ≤ 3 * (k / c.L) + 2) ∨
      (x.s.R ≤ k ∧ k < x.s.P ∧ x.mlen (k % c.L) + 1 = 3 * (k / c.L) + 3))
    (hvm : (x.view t).m (k % c.L) = x.mlen (k % c.L))
    (hva : (x.view t).a (k % c.L) = x.acc (k % c.L))
    (hw : ∀ v : View, x.mlen (k % c.L) < v.m (k % c.L) → WTI c v p)
    (hheld : ∀ j, held p = some j → j = k)
    (hclr : ∀ j, x.s.pc t = .cClear j → j = k) : WInv c ((x.store t (k % c.L) m).put s') := by
  have hmlen : ∀ i, x.mlen i ≤ upd x.mlen (k % c.L) (x.mlen (k % c.L) + 1) i := by
    intro i; unfold upd; split
    · rename_i e; rw [e]; omega
    · exact Nat.le_refl _
  obtain ⟨v, hvdef⟩ : ∃ v : View, v = { x.view t with m := upd (x.view t).m (k % c.L) (x.mlen (k % c.L) + 1) } :=
    ⟨_, rfl⟩
  have hM : ∀ i n, n ≤ x.mlen i →
      upd x.msgM (k % c.L) (upd (x.msgM (k % c.L)) (x.mlen (k % c.L) + 1) v) i n = x.msgM i n := by
    intro i n hn; unfold upd
    by_cases e : i = k % c.L
    · subst e
      rw [if_pos rfl, if_neg (by omega)]
    · rw [if_neg e]
  have hg : ∀ {u}, Good c x u → Good c ((x.store t (k % c.L) m).put s') u := fun hu =>
    hu.mono (by show _ ≤ s'.H; omega) (by show _ ≤ s'.W; omega) (by show _ ≤ s'.P; omega)
      (by show _ ≤ s'.R; omega) hmlen (fun i => Nat.le_refl _)
      (fun i n hn => by rw [hvdef] at hM; exact hM i n hn)
  have hvle : (x.view t).Le v := by
    subst hvdef
    refine ⟨Nat.le_refl _, Nat.le_refl _, Nat.le_refl _, Nat.le_refl _, fun i => ?_, fun _ => Nat.le_refl _⟩
    show _ ≤ upd (x.view t).m _ _ i
    unfold upd; split
    · rename_i e; rw [e]; omega
    · exact Nat.le_refl _
  have hmsgk : upd x.msgM (k % c.L) (upd (x.msgM (k % c.L)) (x.mlen (k % c.L) + 1) v) (k % c.L)
      (x.mlen (k % c.L) + 1) = v := by simp [upd]
  have hv : Good c ((x.store t (k % c.L) m).put s') v := by
    have h0 := hg (h.thr t)
    refine ⟨?_, ?_, ?_, ?_, ?_, ?_, ?_, ?_, ?_, ?_, ?_, ?_, ?_⟩
    · subst hvdef; exact h0.bh
    · subst hvdef; exact h0.bw
    · subst hvdef; exact h0.bp
    · subst hvdef; exact h0.br
    · intro i
      subst hvdef
      show upd (x.view t).m _ _ i ≤ upd x.mlen _ _ i
      unfold upd; split
      · exact Nat.le_refl _
      · exact (h.thr t).bm i
    · subst hvdef; exact h0.ba
    · subst hvdef; exact h0.rp
    · subst hvdef; exact h0.pw
    · subst hvdef; exact h0.wh
    · subst hvdef; exact h0.cap
    · intro j hj
      have hj' : j < (x.view t).r := by subst hvdef; exact hj
      exact Nat.le_trans (h0.clr j hj') (hvle.m _)
    · intro j hj
      have hj' : j < (x.view t).w := by subst hvdef; exact hj
      exact Nat.le_trans (h0.rdy j hj') (hvle.m _)
    · intro i
      show (upd x.msgM (k % c.L) (upd (x.msgM (k % c.L)) (x.mlen (k % c.L) + 1) _) i (v.m i)).a i ≤ _
      rw [← hvdef]
      by_cases e : i = k % c.L
      · subst e
        have : v.m (k % c.L) = x.mlen (k % c.L) + 1 := by rw [hvdef]; simp [upd]
        rw [this, hmsgk]; exact Nat.le_refl _
      · have h1 : v.m i = (x.view t).m i := by rw [hvdef]; simp [upd, e]
        have h2 : v.a = (x.view t).a := by rw [hvdef]
        rw [h1, h2, hM i _ ((h.thr t).bm i)]
        exact (h.thr t).am i
  have h1 := h.inv.leRP
  have h2 := h.inv.lePW
  have h3 := h.inv.leWH
  have h4 := h.inv.cap
  have hkw : x.s.R ≤ k ∧ k < x.s.H := by rcases hwin with h | h <;> omega
  have hne : ∀ j, x.s.R ≤ j → j < x.s.R + c.L → j ≠ k → j % c.L ≠ k % c.L := by
    intro j h1 h2 h3 h4
    exact h3 (slot_inj (c := c) (s := x.s) h4 h1 h2 (by omega) (by omega))
  constructor
  case inv => exact hinv
  case old0 => exact hold.trans h.old0
  case val =>
    intro i n hn
    show upd x.vals (k % c.L) (upd (x.vals (k % c.L)) (x.mlen (k % c.L) + 1) m) i n = markOf n
    have hn' : n ≤ upd x.mlen (k % c.L) (x.mlen (k % c.L) + 1) i := hn
    unfold upd at hn' ⊢
    by_cases e : i = k % c.L
    · subst e
      rw [if_pos rfl] at hn' ⊢
      split
      · rename_i e2; rw [e2, hm]
      · exact h.val _ n (by omega)
    · rw [if_neg e] at hn' ⊢
      exact h.val i n hn'
  case cur =>
    intro i
    show s'.mark i = markOf (upd x.mlen _ _ i)
    rw [hmk]; unfold upd; split
    · exact hm
    · exact h.cur i
  case lenF =>
    intro j hj1 hj2
    have hj1' : s'.H ≤ j := hj1
    have hj2' : j < s'.R + c.L := hj2
    show upd x.mlen _ _ (j % c.L) = _
    rw [upd_ne _ _ (hne j (by omega) (by omega) (by omega))]
    exact h.lenF j (by omega) (by omega)
  case lenWH =>
    intro j hj1 hj2
    have hj1' : s'.W ≤ j := hj1
    have hj2' : j < s'.H := hj2
    show _ ≤ upd x.mlen _ _ (j % c.L) ∧ upd x.mlen _ _ (j % c.L) ≤ _
    have h0 := h.lenWH j (by omega) (by omega)
    by_cases e : j = k
    · subst e; rw [upd_same]; omega
    · rw [upd_ne _ _ (hne j (by omega) (by omega) e)]; exact h0
  case lenPW =>
    intro j hj1 hj2
    have hj1' : s'.P ≤ j := hj1
    have hj2' : j < s'.W := hj2
    show upd x.mlen _ _ (j % c.L) = _
    have e : j ≠ k := by omega
    rw [upd_ne _ _ (hne j (by omega) (by omega) e)]
    exact h.lenPW j (by omega) (by omega)
  case lenRP =>
    intro j hj1 hj2
    have hj1' : s'.R ≤ j := hj1
    have hj2' : j < s'.P := hj2
    show _ ≤ upd x.mlen _ _ (j % c.L) ∧ upd x.mlen _ _ (j % c.L) ≤ _
    have h0 := h.lenRP j (by omega) (by omega)
    by_cases e : j = k
    · subst e; rw [upd_same]; omega
    · rw [upd_ne _ _ (hne j (by omega) (by omega) e)]; exact h0
  case gH => intro n hn; have hn' : n ≤ s'.H := hn; exact ⟨hg (h.gH n (by omega)).1, (h.gH n (by omega)).2⟩
  case gW => intro n hn; have hn' : n ≤ s'.W := hn; exact ⟨hg (h.gW n (by omega)).1, (h.gW n (by omega)).2⟩
  case gP => intro n hn; have hn' : n ≤ s'.P := hn; exact ⟨hg (h.gP n (by omega)).1, (h.gP n (by omega)).2⟩
  case gR => intro n hn; have hn' : n ≤ s'.R := hn; exact ⟨hg (h.gR n (by omega)).1, (h.gR n (by omega)).2⟩
  case gM =>
    intro i n hn
    have hn' : n ≤ upd x.mlen (k % c.L) (x.mlen (k % c.L) + 1) i := hn
    show Good c _ (upd x.msgM (k % c.L) (upd (x.msgM (k % c.L)) (x.mlen (k % c.L) + 1) _) i n) ∧
      n ≤ (upd x.msgM (k % c.L) (upd (x.msgM (k % c.L)) (x.mlen (k % c.L) + 1) _) i n).m i
    rw [← hvdef]
    rcases Nat.lt_or_ge (x.mlen i) n with h5 | h5
    · have e : i = k % c.L := by
        apply Classical.byContradiction; intro e
        rw [upd_ne _ _ e] at hn'; omega
      subst e
      rw [upd_same] at hn'
      have : n = x.mlen (k % c.L) + 1 := by omega
      subst this
      rw [hmsgk]
      exact ⟨hv, by rw [hvdef]; simp [upd]⟩
    · rw [hM i n h5]
      exact ⟨hg (h.gM i n h5).1, (h.gM i n h5).2⟩
  case thr =>
    intro u
    show Good c _ (upd x.view t _ u)
    rw [← hvdef]
    unfold upd; split
    · exact hv
    · exact hg (h.thr u)
  case wti =>
    intro u
    show WTI c (upd x.view t _ u) (s'.pc u)
    rw [← hvdef, hpc]; unfold upd; simp only; split
    · refine hw v ?_
      rw [hvdef]; simp [upd]
    · exact h.wti u
  case accI =>
    intro i hi
    have hi' : upd x.mlen (k % c.L) (x.mlen (k % c.L) + 1) i % 3 = 0 := hi
    show (upd x.msgM (k % c.L) (upd (x.msgM (k % c.L)) (x.mlen (k % c.L) + 1) _) i (upd x.mlen _ _ i)).a i = x.acc i
    rw [← hvdef]
    by_cases e : i = k % c.L
    · subst e
      rw [upd_same x.mlen, hmsgk, hvdef]; exact hva
    · rw [upd_ne _ _ e] at hi'
      rw [upd_ne x.mlen _ e, hM i _ (Nat.le_refl _)]
      exact h.accI i hi'
  case accR =>
    intro i hi
    have hi' : upd x.mlen (k % c.L) (x.mlen (k % c.L) + 1) i % 3 = 2 := hi
    show (upd x.msgM (k % c.L) (upd (x.msgM (k % c.L)) (x.mlen (k % c.L) + 1) _) i (upd x.mlen _ _ i)).a i = x.acc i ∨ _
    rw [← hvdef]
    by_cases e : i = k % c.L
    · subst e
      left
      rw [upd_same x.mlen, hmsgk, hvdef]; exact hva
    · rw [upd_ne _ _ e] at hi'
      rw [upd_ne x.mlen _ e, hM i _ (Nat.le_refl _)]
      rcases h.accR i hi' with h1 | ⟨u, j, hu, hj⟩
      · exact Or.inl h1
      · refine Or.inr ⟨u, j, ?_, hj⟩
        have : u ≠ t := by rintro rfl; rw [hclr j hu] at hj; exact e hj.symm
        show s'.pc u = _
        rw [hpc]; simpa [this] using hu
  case accO =>
    intro u j hj
    have hj' : held (s'.pc u) = some j := hj
    rw [hpc] at hj'
    show (upd x.view t _ u).a _ = x.acc _
    rw [← hvdef]
    unfold upd
    simp only at hj'
    split
    · rename_i e
      rw [if_pos e] at hj'
      rw [hheld j hj', hvdef]; exact hva
    · rename_i e; rw [if_neg e] at hj'; exact h.accO u j hj'
  case clean =>
    refine ⟨h.clean.1, ?_⟩
    show (x.unordered || (x.view t).m (k % c.L) != x.mlen (k % c.L)) = false
    rw [h.clean.2, hvm]; simp

theorem held_owned {p : PC α} {j : Nat} (h : held p = some j) : pown p = some j ∨ cown p = some j := by
  cases p <;> simp_all [held, pown, cown]

/-- An access to a record by a thread that knows of all earlier accesses. -/
theorem WInv.touch {c : Cfg α} {x : WSt α} (h : WInv c x) {t k : Nat} {p : PC α} {s' : St α}
    (hinv : Inv c s') (hold : s'.old = x.s.old)
    (hpc : s'.pc = fun u => if u = t then p else x.s.pc u)
    (hH : s'.H = x.s.H) (hW : s'.W = x.s.W) (hP : s'.P = x.s.P) (hR : s'.R = x.s.R)
    (hmk : s'.mark = x.s.mark)
    (hva : (x.view t).a (k % c.L) = x.acc (k % c.L))
    (hown : pown (x.s.pc t) = some k ∨ cown (x.s.pc t) = some k)
    (hmod : x.mlen (k % c.L) % 3 = 1 ∨ (x.mlen (k % c.L) % 3 = 2 ∧ p = .cClear k))
    (hw : ∀ v : View, (x.view t).Le v → WTI c v p)
    (hheld : held p = some k)
    (hclr : ∀ j, x.s.pc t ≠ .cClear j) : WInv c ((x.touch t (k % c.L)).put s') := by
  have hacc : ∀ i, x.acc i ≤ upd x.acc (k % c.L) (x.acc (k % c.L) + 1) i := by
    intro i; unfold upd; split
    · rename_i e; rw [e]; omega
    · exact Nat.le_refl _
  have hg : ∀ {u}, Good c x u → Good c ((x.touch t (k % c.L)).put s') u := fun hu =>
    hu.mono (by show _ ≤ s'.H; omega) (by show _ ≤ s'.W; omega) (by show _ ≤ s'.P; omega)
      (by show _ ≤ s'.R; omega) (fun _ => Nat.le_refl _) hacc (fun _ _ _ => rfl)
  obtain ⟨v, hvdef⟩ : ∃ v : View, v = { x.view t with a := upd (x.view t).a (k % c.L) (x.acc (k % c.L) + 1) } :=
    ⟨_, rfl⟩
  have hvle : (x.view t).Le v := by
    subst hvdef
    refine ⟨Nat.le_refl _, Nat.le_refl _, Nat.le_refl _, Nat.le_refl _, fun _ => Nat.le_refl _, fun i => ?_⟩
    show _ ≤ upd (x.view t).a _ _ i
    unfold upd; split
    · rename_i e; rw [e]; omega
    · exact Nat.le_refl _
  have hv : Good c ((x.touch t (k % c.L)).put s') v := by
    have h0 := hg (h.thr t)
    refine ⟨?_, ?_, ?_, ?_, ?_, ?_, ?_, ?_, ?_, ?_, ?_, ?_, ?_⟩
    · subst hvdef; exact h0.bh
    · subst hvdef; exact h0.bw
    · subst hvdef; exact h0.bp
    · subst hvdef; exact h0.br
    · subst hvdef; exact h0.bm
    · intro i
      subst hvdef
      show upd (x.view t).a _ _ i ≤ upd x.acc _ _ i
      unfold upd; split
      · exact Nat.le_refl _
      · exact (h.thr t).ba i
    · subst hvdef; exact h0.rp
    · subst hvdef; exact h0.pw
    · subst hvdef; exact h0.wh
    · subst hvdef; exact h0.cap
    · subst hvdef; exact h0.clr
    · subst hvdef; exact h0.rdy
    · intro i
      have h2 : v.m = (x.view t).m := by rw [hvdef]
      rw [h2]
      exact Nat.le_trans (h0.am i) (hvle.a i)
  have hother : ∀ u j, u ≠ t → held (x.s.pc u) = some j → j % c.L ≠ k % c.L := by
    intro u j hu hj
    rcases hown with ho | ho <;> rcases held_owned hj with hj | hj
    · exact fun e => pown_slots h.inv (Ne.symm hu) ho hj e.symm
    · exact cown_pown_slots h.inv hj ho
    · exact fun e => cown_pown_slots h.inv ho hj e.symm
    · exact fun e => cown_slots h.inv (Ne.symm hu) ho hj e.symm
  constructor
  case inv => exact hinv
  case old0 => exact hold.trans h.old0
  case val => exact h.val
  case cur => intro i; show s'.mark i = _; rw [hmk]; exact h.cur i
  case lenF => intro k h1 h2; exact h.lenF k (by have : s'.H ≤ k := h1; omega) (by have : k < s'.R + c.L := h2; omega)
  case lenWH => intro k h1 h2; exact h.lenWH k (by have : s'.W ≤ k := h1; omega) (by have : k < s'.H := h2; omega)
  case lenPW => intro k h1 h2; exact h.lenPW k (by have : s'.P ≤ k := h1; omega) (by have : k < s'.W := h2; omega)
  case lenRP => intro k h1 h2; exact h.lenRP k (by have : s'.R ≤ k := h1; omega) (by have : k < s'.P := h2; omega)
  case gH => intro n hn; have hn' : n ≤ s'.H := hn; exact ⟨hg (h.gH n (by omega)).1, (h.gH n (by omega)).2⟩
  case gW => intro n hn; have hn' : n ≤ s'.W := hn; exact ⟨hg (h.gW n (by omega)).1, (h.gW n (by omega)).2⟩
  case gP => intro n hn; have hn' : n ≤ s'.P := hn; exact ⟨hg (h.gP n (by omega)).1, (h.gP n (by omega)).2⟩
  case gR => intro n hn; have hn' : n ≤ s'.R := hn; exact ⟨hg (h.gR n (by omega)).1, (h.gR n (by omega)).2⟩
  case gM => intro i n hn; exact ⟨hg (h.gM i n hn).1, (h.gM i n hn).2⟩
  case thr =>
    intro u
    show Good c _ (upd x.view t _ u)
    rw [← hvdef]
    unfold upd; split
    · exact hv
    · exact hg (h.thr u)
  case wti =>
    intro u
    show WTI c (upd x.view t _ u) (s'.pc u)
    rw [← hvdef, hpc]; unfold upd; simp only; split
    · exact hw v hvle
    · exact h.wti u
  case accI =>
    intro i hi
    have hi' : x.mlen i % 3 = 0 := hi
    show (x.msgM i (x.mlen i)).a i = upd x.acc _ _ i
    have e : i ≠ k % c.L := by rintro rfl; omega
    rw [upd_ne _ _ e]
    exact h.accI i hi'
  case accR =>
    intro i hi
    have hi' : x.mlen i % 3 = 2 := hi
    show (x.msgM i (x.mlen i)).a i = upd x.acc _ _ i ∨ ∃ u j, s'.pc u = _ ∧ _
    by_cases e : i = k % c.L
    · subst e
      right
      rcases hmod with h1 | ⟨_, h1⟩
      · omega
      · exact ⟨t, k, by rw [hpc, h1]; simp, rfl⟩
    · rw [upd_ne _ _ e]
      rcases h.accR i hi' with h1 | ⟨u, j, hu, hj⟩
      · exact Or.inl h1
      · refine Or.inr ⟨u, j, ?_, hj⟩
        have : u ≠ t := by rintro rfl; exact hclr j hu
        rw [hpc]; simpa [this] using hu
  case accO =>
    intro u j hj
    have hj' : held (s'.pc u) = some j := hj
    rw [hpc] at hj'
    show (upd x.view t _ u).a _ = upd x.acc _ _ _
    rw [← hvdef]
    simp only at hj'
    by_cases e : u = t
    · rw [if_pos e, hheld] at hj'
      cases hj'
      rw [e, upd_same, upd_same, hvdef]; simp [upd]
    · rw [if_neg e] at hj'
      rw [upd_ne _ _ e, upd_ne _ _ (hother u j e hj')]
      exact h.accO u j hj'
  case clean =>
    refine ⟨?_, h.clean.2⟩
    show (x.race || (x.view t).a (k % c.L) != x.acc (k % c.L)) = false
    rw [h.clean.1, hva]; simp

end FNLog.Weak
