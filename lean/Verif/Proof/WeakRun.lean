import Verif.Proof.WeakStep

/-! # The invariant of the weak model holds of every execution -/

namespace FNLog.Weak
open FNLog FNLog.Ring

variable {α : Type}

theorem choose_bounds {lo hi : Nat} (h : lo ≤ hi) (n : Nat) : lo ≤ choose lo hi n ∧ choose lo hi n ≤ hi := by
  unfold choose; omega

theorem WInv.stepT {c : Cfg α} {x : WSt α} (h : WInv c x) {t n : Nat} {b : Bool}
    (ht : timelyAt c x.s t) : WInv c (stepT c x t n b) := by
  have hti := h.inv.ti t
  have hwt := h.wti t
  have hg := h.thr t
  have hct := fun hA => h.inv.consTid hA t
  have hs := h.inv.stepT ht
  have hwin := h.inv.cap
  have h1 := h.inv.leRP
  have h2 := h.inv.lePW
  have h3 := h.inv.leWH
  obtain ⟨kH, hkH⟩ : ∃ k, k = choose (x.view t).h x.s.H n := ⟨_, rfl⟩
  obtain ⟨kW, hkW⟩ : ∃ k, k = choose (x.view t).w x.s.W n := ⟨_, rfl⟩
  obtain ⟨kP, hkP⟩ : ∃ k, k = choose (x.view t).p x.s.P n := ⟨_, rfl⟩
  obtain ⟨kR, hkR⟩ : ∃ k, k = choose (x.view t).r x.s.R n := ⟨_, rfl⟩
  have bH := choose_bounds hg.bh n
  have bW := choose_bounds hg.bw n
  have bP := choose_bounds hg.bp n
  have bR := choose_bounds hg.br n
  rw [← hkH] at bH; rw [← hkW] at bW; rw [← hkP] at bP; rw [← hkR] at bR
  have mH := h.gH kH bH.2
  have mW := h.gW kW bW.2
  have mP := h.gP kP bP.2
  have mR := h.gR kR bR.2
  have jH := View.le_join (x.view t) (x.msgH kH)
  have jW := View.le_join (x.view t) (x.msgW kW)
  have jP := View.le_join (x.view t) (x.msgP kP)
  have jR := View.le_join (x.view t) (x.msgR kR)
  have iH := View.le_join' (x.view t) (x.msgH kH)
  have iW := View.le_join' (x.view t) (x.msgW kW)
  have iP := View.le_join' (x.view t) (x.msgP kP)
  have iR := View.le_join' (x.view t) (x.msgR kR)
  unfold Weak.stepT
  unfold Ring.stepT at hs
  unfold timelyAt at ht
  simp only
  rw [← hkH, ← hkW, ← hkP, ← hkR]
  unfold Ring.stepT
  cases hpc : x.s.pc t <;> rw [hpc] at hti hwt hct ht hs <;> (try simp only at hs ⊢) <;>
    (try simp only at ht) <;>
    (try simp only [TI, Own] at hti) <;> (try simp only [WTI] at hwt) <;> (try simp only [isCons] at hct)
  case idle => exact h
  case done => exact h
  case hChk i body =>
    split <;> exact h.still (t := t) (h.inv.loc (t := t) rfl rfl rfl rfl rfl rfl rfl rfl rfl rfl rfl rfl
      (by rw [hpc]; rfl) (by rw [hpc]; rfl) (by simp [hpc]) (by simp [isCons]) trivial)
      rfl rfl rfl rfl rfl rfl rfl trivial (by simp [held]) (by simp [hpc])
  case hOut body =>
    split <;> exact h.still (t := t) (h.inv.loc (t := t) rfl rfl rfl rfl rfl rfl rfl rfl rfl rfl rfl rfl
      (by rw [hpc]; rfl) (by rw [hpc]; rfl) (by simp [hpc]) (by simp [isCons]) trivial)
      rfl rfl rfl rfl rfl rfl rfl trivial (by simp [held]) (by simp [hpc])
  case hSleep body =>
    exact h.still (t := t) hs rfl rfl rfl rfl rfl rfl rfl trivial (by simp [held]) (by simp [hpc])
  case hInc k body =>
    exact h.still (t := t) hs rfl rfl rfl rfl rfl rfl rfl hwt (by simp [held]) (by simp [hpc])
  case wInc =>
    exact h.still (t := t) hs rfl rfl rfl rfl rfl rfl rfl trivial (by simp [held]) (by simp [hpc])
  case wCond =>
    split <;> exact h.still (t := t) (h.inv.loc (t := t) rfl rfl rfl rfl rfl rfl rfl rfl rfl rfl rfl rfl
      (by rw [hpc]; rfl) (by rw [hpc]; rfl) (by simp [hpc]) (by simp [isCons]) trivial)
      rfl rfl rfl rfl rfl rfl rfl trivial (by simp [held]) (by simp [hpc])
  case wExit =>
    split
    · rename_i hA
      exact h.still (t := t) (h.inv.loc (t := t) rfl rfl rfl rfl rfl rfl rfl rfl rfl rfl rfl rfl
        (by rw [hpc]; rfl) (by rw [hpc]; rfl) (by simp [hpc]) (by simp [hA.1]) trivial)
        rfl rfl rfl rfl rfl rfl rfl trivial (by simp [held]) (by simp [hpc])
    · exact h.still (t := t) (h.inv.loc (t := t) rfl rfl rfl rfl rfl rfl rfl rfl rfl rfl rfl rfl
        (by rw [hpc]; rfl) (by rw [hpc]; rfl) (by simp [hpc]) (by simp [isCons]) trivial)
        rfl rfl rfl rfl rfl rfl rfl trivial (by simp [held]) (by simp [hpc])
  case cStat k =>
    exact h.still (t := t) hs rfl rfl rfl rfl rfl rfl rfl trivial (by simp [held]) (by simp [hpc])
  case cBytes k =>
    exact h.still (t := t) hs rfl rfl rfl rfl rfl rfl rfl trivial (by simp [held]) (by simp [hpc])
  case cEnd =>
    split <;> exact h.still (t := t) (h.inv.loc (t := t) rfl rfl rfl rfl rfl rfl rfl rfl rfl rfl rfl rfl
      (by rw [hpc]; rfl) (by rw [hpc]; rfl) (by simp [hpc]) (fun a _ => hct a trivial) trivial)
      rfl rfl rfl rfl rfl rfl rfl trivial (by simp [held]) (by simp [hpc])
  case cSet =>
    exact h.still (t := t) hs rfl rfl rfl rfl rfl rfl rfl trivial (by simp [held]) (by simp [hpc])
  case cLoop =>
    split
    · exact h.still (t := t) (h.inv.loc (t := t) rfl rfl rfl rfl rfl rfl rfl rfl rfl rfl rfl rfl
        (by rw [hpc]; rfl) (by rw [hpc]; rfl) (by simp [hpc]) (by simp [isCons]) trivial)
        rfl rfl rfl rfl rfl rfl rfl trivial (by simp [held]) (by simp [hpc])
    · split <;> exact h.still (t := t) (h.inv.loc (t := t) rfl rfl rfl rfl rfl rfl rfl rfl rfl rfl rfl rfl
        (by rw [hpc]; rfl) (by rw [hpc]; rfl) (by simp [hpc]) (fun a _ => hct a trivial) trivial)
        rfl rfl rfl rfl rfl rfl rfl trivial (by simp [held]) (by simp [hpc])
  case cFin =>
    exact h.still (t := t) hs rfl rfl rfl rfl rfl rfl rfl trivial (by simp [held]) (by simp [hpc])
  case pChk k =>
    split
    · exact h.still (t := t) (h.inv.loc (t := t) rfl rfl rfl rfl rfl rfl rfl rfl rfl rfl rfl rfl
        (by rw [hpc]; rfl) (by rw [hpc]; rfl) (by simp [hpc]) (by simp [isCons]) hti)
        rfl rfl rfl rfl rfl rfl rfl hwt (by simp [held, hpc]) (by simp [hpc])
    · exact h.still (t := t) (h.inv.drop hpc) rfl rfl rfl rfl rfl rfl rfl trivial (by simp [held])
        (by simp [hpc])
  -- loads
  case hLoad i body =>
    exact h.news (t := t) mH.1 (h.inv.loc (t := t) rfl rfl rfl rfl rfl rfl rfl rfl rfl rfl rfl rfl
      (by rw [hpc]; rfl) (by rw [hpc]; rfl) (by simp [hpc]) (by simp [isCons]) bH.2)
      rfl rfl rfl rfl rfl rfl rfl (Nat.le_trans mH.2 iH.h) (by simp [held]) (by simp [hpc])
  case hRead i tk body =>
    have hcap := ((h.thr t).join mR.1).cap
    have hh := jR.h
    have hr := iR.r
    have hr' := jR.r
    have hrr : ((x.view t).join (x.msgR kR)).r = max (x.view t).r (x.msgR kR).r := rfl
    have hmr := mR.1.br
    split
    · exact h.news (t := t) mR.1 (h.inv.loc (t := t) rfl rfl rfl rfl rfl rfl rfl rfl rfl rfl rfl rfl
        (by rw [hpc]; rfl) (by rw [hpc]; rfl) (by simp [hpc]) (by simp [isCons]) trivial)
        rfl rfl rfl rfl rfl rfl rfl trivial (by simp [held]) (by simp [hpc])
    · rename_i hne
      have hcv := (h.thr t).cap
      have hne' : tk + 1 ≠ kR + c.L := by
        intro e; rw [e, Nat.add_mod_right] at hne; exact hne rfl
      have hlt : tk + 1 < kR + c.L := by omega
      refine h.news (t := t) mR.1 (h.inv.loc (t := t) rfl rfl rfl rfl rfl rfl rfl rfl rfl rfl rfl rfl
        (by rw [hpc]; rfl) (by rw [hpc]; rfl) (by simp [hpc]) (by simp [isCons]) ⟨hti, fun e => ?_⟩)
        rfl rfl rfl rfl rfl rfl rfl ⟨?_, ?_⟩ (by simp [held]) (by simp [hpc])
      · omega
      · omega
      · have := mR.2; omega
  case wLoad =>
    exact h.news (t := t) mW.1 (h.inv.loc (t := t) rfl rfl rfl rfl rfl rfl rfl rfl rfl rfl rfl rfl
      (by rw [hpc]; rfl) (by rw [hpc]; rfl) (by simp [hpc]) (by simp [isCons]) bW.2)
      rfl rfl rfl rfl rfl rfl rfl (Nat.le_trans mW.2 iW.w) (by simp [held]) (by simp [hpc])
  case wHold tk =>
    split
    · exact h.news (t := t) mH.1 (h.inv.loc (t := t) rfl rfl rfl rfl rfl rfl rfl rfl rfl rfl rfl rfl
        (by rw [hpc]; rfl) (by rw [hpc]; rfl) (by simp [hpc]) (by simp [isCons]) trivial)
        rfl rfl rfl rfl rfl rfl rfl trivial (by simp [held]) (by simp [hpc])
    · rename_i hne
      have hne' : tk ≠ kH := by rintro rfl; exact hne rfl
      have hwh := hg.wh
      have := mH.2
      have := iH.h
      have := jH.w
      exact h.news (t := t) mH.1 (h.inv.loc (t := t) rfl rfl rfl rfl rfl rfl rfl rfl rfl rfl rfl rfl
        (by rw [hpc]; rfl) (by rw [hpc]; rfl) (by simp [hpc]) (by simp [isCons]) ⟨hti, fun e => by omega⟩)
        rfl rfl rfl rfl rfl rfl rfl ⟨by omega, by omega⟩ (by simp [held]) (by simp [hpc])
  case wMark tk =>
    obtain ⟨kM, hkM⟩ : ∃ k, k = choose ((x.view t).m (tk % c.L)) (x.mlen (tk % c.L)) n := ⟨_, rfl⟩
    have bM := choose_bounds (hg.bm (tk % c.L)) n
    rw [← hkM] at bM ⊢
    have mM := h.gM (tk % c.L) kM bM.2
    have iM := View.le_join' (x.view t) (x.msgM (tk % c.L) kM)
    have jM := View.le_join (x.view t) (x.msgM (tk % c.L) kM)
    rw [h.val _ _ bM.2]
    split
    · exact h.news (t := t) mM.1 (h.inv.loc (t := t) rfl rfl rfl rfl rfl rfl rfl rfl rfl rfl rfl rfl
        (by rw [hpc]; rfl) (by rw [hpc]; rfl) (by simp [hpc]) (by simp [isCons]) trivial)
        rfl rfl rfl rfl rfl rfl rfl trivial (by simp [held]) (by simp [hpc])
    · rename_i hne
      have hrd : kM % 3 = 2 := markOf_ready.mp (by simpa using hne)
      -- the previous round of this slot is known to be over
      have hlow : 3 * (tk / c.L) ≤ kM := by
        rcases Nat.lt_or_ge tk c.L with h5 | h5
        · rw [Nat.div_eq_of_lt h5]; omega
        · have hcv := hg.cap
          have hcl := hg.clr (tk - c.L) (by omega)
          have e1 : (tk - c.L) % c.L = tk % c.L := (Nat.mod_eq_sub_mod h5).symm
          have e2 : (tk - c.L) / c.L = tk / c.L - 1 := by
            have := Nat.sub_mul_div tk c.L 1; rw [Nat.mul_one] at this; exact this
          have e3 : 1 ≤ tk / c.L := (Nat.one_le_div_iff (by omega)).mpr h5
          rw [e1, e2] at hcl
          omega
      have hval : 3 * (tk / c.L) + 2 ≤ kM := by omega
      have := mM.2
      have := iM.m (tk % c.L)
      have := jM.w
      have := jM.h
      refine h.news (t := t) mM.1 (h.inv.loc (t := t) rfl rfl rfl rfl rfl rfl rfl rfl rfl rfl rfl rfl
        (by rw [hpc]; rfl) (by rw [hpc]; rfl) (by simp [hpc]) (by simp [isCons])
        ⟨hti.1, fun e => ⟨hti.2 e, ?_⟩⟩)
        rfl rfl rfl rfl rfl rfl rfl ⟨by omega, by omega, by omega⟩ (by simp [held]) (by simp [hpc])
      have hl := h.lenWH tk (by omega) (hti.2 e)
      rw [h.cur, markOf_ready]; omega
  case cLoad =>
    exact h.news (t := t) mP.1 (h.inv.loc (t := t) rfl rfl rfl rfl rfl rfl rfl rfl rfl rfl rfl rfl
      (by rw [hpc]; rfl) (by rw [hpc]; rfl) (by simp [hpc]) (fun a _ => hct a trivial) bP.2)
      rfl rfl rfl rfl rfl rfl rfl (Nat.le_trans mP.2 iP.p) (by simp [held]) (by simp [hpc])
  case cWrite tk =>
    split
    · exact h.news (t := t) mW.1 (h.inv.loc (t := t) rfl rfl rfl rfl rfl rfl rfl rfl rfl rfl rfl rfl
        (by rw [hpc]; rfl) (by rw [hpc]; rfl) (by simp [hpc]) (fun a _ => hct a trivial) trivial)
        rfl rfl rfl rfl rfl rfl rfl trivial (by simp [held]) (by simp [hpc])
    · rename_i hne
      have hne' : tk ≠ kW := by rintro rfl; exact hne rfl
      have := hg.pw
      have := mW.2
      have := iW.w
      have := jW.p
      exact h.news (t := t) mW.1 (h.inv.loc (t := t) rfl rfl rfl rfl rfl rfl rfl rfl rfl rfl rfl rfl
        (by rw [hpc]; rfl) (by rw [hpc]; rfl) (by simp [hpc]) (fun a _ => hct a trivial)
        ⟨hti, fun e => by omega⟩)
        rfl rfl rfl rfl rfl rfl rfl ⟨by omega, by omega⟩ (by simp [held]) (by simp [hpc])
  case rLoad =>
    exact h.news (t := t) mR.1 (h.inv.loc (t := t) rfl rfl rfl rfl rfl rfl rfl rfl rfl rfl rfl rfl
      (by rw [hpc]; rfl) (by rw [hpc]; rfl) (by simp [hpc]) (fun a _ => hct a trivial) bR.2)
      rfl rfl rfl rfl rfl rfl rfl (Nat.le_trans mR.2 iR.r) (by simp [held]) (by simp [hpc])
  case rProc tk =>
    split
    · exact h.news (t := t) mP.1 (h.inv.loc (t := t) rfl rfl rfl rfl rfl rfl rfl rfl rfl rfl rfl rfl
        (by rw [hpc]; rfl) (by rw [hpc]; rfl) (by simp [hpc]) (fun a _ => hct a trivial) trivial)
        rfl rfl rfl rfl rfl rfl rfl trivial (by simp [held]) (by simp [hpc])
    · rename_i hne
      have hne' : tk ≠ kP := by rintro rfl; exact hne rfl
      have := hg.rp
      have := mP.2
      have := iP.p
      have := jP.r
      exact h.news (t := t) mP.1 (h.inv.loc (t := t) rfl rfl rfl rfl rfl rfl rfl rfl rfl rfl rfl rfl
        (by rw [hpc]; rfl) (by rw [hpc]; rfl) (by simp [hpc]) (fun a _ => hct a trivial)
        ⟨hti, fun e => by omega⟩)
        rfl rfl rfl rfl rfl rfl rfl ⟨by omega, by omega⟩ (by simp [held]) (by simp [hpc])
  case rMark tk =>
    obtain ⟨kM, hkM⟩ : ∃ k, k = choose ((x.view t).m (tk % c.L)) (x.mlen (tk % c.L)) n := ⟨_, rfl⟩
    have bM := choose_bounds (hg.bm (tk % c.L)) n
    rw [← hkM] at bM ⊢
    have mM := h.gM (tk % c.L) kM bM.2
    have iM := View.le_join' (x.view t) (x.msgM (tk % c.L) kM)
    have jM := View.le_join (x.view t) (x.msgM (tk % c.L) kM)
    rw [h.val _ _ bM.2]
    split
    · exact h.news (t := t) mM.1 (h.inv.loc (t := t) rfl rfl rfl rfl rfl rfl rfl rfl rfl rfl rfl rfl
        (by rw [hpc]; rfl) (by rw [hpc]; rfl) (by simp [hpc]) (fun a _ => hct a trivial) trivial)
        rfl rfl rfl rfl rfl rfl rfl trivial (by simp [held]) (by simp [hpc])
    · rename_i hne
      have hrd : kM % 3 = 0 := markOf_invalid.mp (by simpa using hne)
      have hpw := hg.pw
      have hlow := hg.rdy tk (by omega)
      have hval : 3 * (tk / c.L) + 3 ≤ kM := by omega
      have := mM.2
      have := iM.m (tk % c.L)
      have := jM.p
      have := jM.r
      refine h.news (t := t) mM.1 (h.inv.loc (t := t) rfl rfl rfl rfl rfl rfl rfl rfl rfl rfl rfl rfl
        (by rw [hpc]; rfl) (by rw [hpc]; rfl) (by simp [hpc]) (fun a _ => hct a trivial)
        ⟨hti.1, fun e => ⟨hti.2 e, ?_⟩⟩)
        rfl rfl rfl rfl rfl rfl rfl ⟨by omega, by omega, by omega⟩ (by simp [held]) (by simp [hpc])
      have hl := h.lenRP tk (by omega) (hti.2 e)
      rw [h.cur, markOf_invalid]; omega
  case cLoopW =>
    exact h.news (t := t) mW.1 (h.inv.loc (t := t) rfl rfl rfl rfl rfl rfl rfl rfl rfl rfl rfl rfl
      (by rw [hpc]; rfl) (by rw [hpc]; rfl) (by simp [hpc]) (fun a _ => hct a trivial) bW.2)
      rfl rfl rfl rfl rfl rfl rfl trivial (by simp [held]) (by simp [hpc])
  case cLoopR w =>
    split <;> exact h.news (t := t) mR.1 (h.inv.loc (t := t) rfl rfl rfl rfl rfl rfl rfl rfl rfl rfl rfl rfl
      (by rw [hpc]; rfl) (by rw [hpc]; rfl) (by simp [hpc]) (fun a _ => hct a trivial) trivial)
      rfl rfl rfl rfl rfl rfl rfl trivial (by simp [held]) (by simp [hpc])
  -- compare-and-swap
  case hCas i tk body =>
    by_cases he : x.s.H % c.L = tk % c.L
    · rw [if_pos he] at hs
      rw [if_pos he, if_pos he]
      have : x.s.H = tk := ht he
      subst this
      exact h.swapH (t := t) hs rfl rfl rfl rfl rfl rfl rfl hwt.2 (fun v hv => hv) rfl (by simp [hpc])
    · rw [if_neg he] at hs
      rw [if_neg he, if_neg he]
      split at hs <;> rename_i hi <;> (first | rw [if_pos hi] | rw [if_neg hi]) <;>
        exact h.news (t := t) mH.1 hs rfl rfl rfl rfl rfl rfl rfl trivial (by simp [held]) (by simp [hpc])
  case wCas tk =>
    by_cases he : x.s.W % c.L = tk % c.L
    · rw [if_pos he] at hs
      rw [if_pos he, if_pos he]
      have : x.s.W = tk := ht he
      subst this
      exact h.swapW (t := t) hs rfl rfl rfl rfl rfl rfl rfl hwt.2.1 hwt.2.2 (fun v => trivial) rfl (by simp [hpc])
    · rw [if_neg he] at hs
      rw [if_neg he, if_neg he]
      exact h.news (t := t) mW.1 hs rfl rfl rfl rfl rfl rfl rfl trivial (by simp [held]) (by simp [hpc])
  case cCas tk =>
    by_cases he : x.s.P % c.L = tk % c.L
    · rw [if_pos he] at hs
      rw [if_pos he, if_pos he]
      have : x.s.P = tk := ht he
      subst this
      exact h.swapP (t := t) hs rfl rfl rfl rfl rfl rfl rfl hwt.2 (fun v hv => hv) rfl (by simp [hpc])
    · rw [if_neg he] at hs
      rw [if_neg he, if_neg he]
      exact h.news (t := t) mP.1 hs rfl rfl rfl rfl rfl rfl rfl trivial (by simp [held]) (by simp [hpc])
  case rCas tk =>
    by_cases he : x.s.R % c.L = tk % c.L
    · rw [if_pos he] at hs
      rw [if_pos he, if_pos he]
      have : x.s.R = tk := ht he
      subst this
      exact h.swapR (t := t) hs rfl rfl rfl rfl rfl rfl rfl hwt.2.1 hwt.2.2 (fun v => trivial) rfl (by simp [hpc])
    · rw [if_neg he] at hs
      rw [if_neg he, if_neg he]
      exact h.news (t := t) mR.1 hs rfl rfl rfl rfl rfl rfl rfl trivial (by simp [held]) (by simp [hpc])
  -- marks
  case hMark k body =>
    have hl := h.lenWH k hti.1.1 hti.1.2.1
    have hmk := hti.1.2.2
    rw [h.cur, markOf_invalid] at hmk
    have hlen : x.mlen (k % c.L) = 3 * (k / c.L) := by omega
    have hvm : (x.view t).m (k % c.L) = x.mlen (k % c.L) := by
      have hb := hg.bm (k % c.L)
      have : 3 * (k / c.L) ≤ (x.view t).m (k % c.L) := by
        rcases Nat.lt_or_ge k c.L with h5 | h5
        · rw [Nat.div_eq_of_lt h5]; omega
        · have hcv := hg.cap
          have hcl := hg.clr (k - c.L) (by omega)
          have e1 : (k - c.L) % c.L = k % c.L := (Nat.mod_eq_sub_mod h5).symm
          have e2 : (k - c.L) / c.L = k / c.L - 1 := by
            have := Nat.sub_mul_div k c.L 1; rw [Nat.mul_one] at this; exact this
          rw [e1, e2] at hcl
          omega
      omega
    have hva : (x.view t).a (k % c.L) = x.acc (k % c.L) := by
      have h5 := hg.am (k % c.L)
      have h6 := hg.ba (k % c.L)
      rw [hvm, h.accI _ hmk] at h5
      omega
    exact h.store (t := t) (k := k) hs rfl rfl rfl rfl rfl rfl rfl
      (by rw [hlen]; exact (markOf_hold.mpr (by omega)).symm) (Or.inl ⟨hti.1.1, hti.1.2.1, by omega⟩) hvm hva
      (fun v hv => by simp only [WTI]; omega) (by simp [held]) (by simp [hpc])
  case pMark k =>
    have hl := h.lenWH k hti.1.1 hti.1.2.1
    have hmk := hti.1.2.2
    rw [h.cur, markOf_hold] at hmk
    have hb := hg.bm (k % c.L)
    have hlen : x.mlen (k % c.L) = 3 * (k / c.L) + 1 := by omega
    exact h.store (t := t) (k := k) hs rfl rfl rfl rfl rfl rfl rfl
      (by rw [hlen]; exact (markOf_ready.mpr (by omega)).symm) (Or.inl ⟨hti.1.1, hti.1.2.1, by omega⟩)
      (by omega) (h.accO t k (by rw [hpc]; rfl))
      (fun v hv => trivial) (by simp [held]) (by simp [hpc])
  case cClear k =>
    have hl := h.lenRP k hti.1 hti.2.1
    have hmk := hti.2.2 (by rw [h.old0]; omega)
    rw [h.cur, markOf_ready] at hmk
    have hb := hg.bm (k % c.L)
    have hr := hg.rdy k hwt
    exact h.store (t := t) (k := k) hs rfl rfl rfl rfl rfl rfl rfl
      (by exact (markOf_invalid.mpr (by omega)).symm) (Or.inr ⟨hti.1, hti.2.1, by omega⟩)
      (by omega) (h.accO t k (by rw [hpc]; rfl))
      (fun v hv => trivial) (by simp [held]) (by simp [hpc])
  -- accesses
  case fInit k body =>
    have hmk := hti.1.2.2
    rw [h.cur, markOf_hold] at hmk
    exact h.touch (t := t) (k := k) hs rfl rfl rfl rfl rfl rfl rfl (h.accO t k (by rw [hpc]; rfl))
      (Or.inl (by rw [hpc]; rfl)) (Or.inl hmk) (fun v hv => WTI.mono (p := .fInit k body) hwt hv) rfl (by simp [hpc])
  case fill k rest =>
    cases rest with
    | nil =>
      exact h.still (t := t) hs rfl rfl rfl rfl rfl rfl rfl hwt (by simp [held, hpc]) (by simp [hpc])
    | cons a rest =>
      have hmk := hti.1.2.2
      rw [h.cur, markOf_hold] at hmk
      exact h.touch (t := t) (k := k) hs rfl rfl rfl rfl rfl rfl rfl (h.accO t k (by rw [hpc]; rfl))
        (Or.inl (by rw [hpc]; rfl)) (Or.inl hmk) (fun v hv => WTI.mono (p := .pChk k) hwt hv) rfl (by simp [hpc])
  case pSeal k =>
    have hmk := hti.1.2.2
    rw [h.cur, markOf_hold] at hmk
    exact h.touch (t := t) (k := k) hs rfl rfl rfl rfl rfl rfl rfl (h.accO t k (by rw [hpc]; rfl))
      (Or.inl (by rw [hpc]; rfl)) (Or.inl hmk) (fun v hv => WTI.mono (p := .pSeal k) hwt hv) rfl (by simp [hpc])
  case cDisp k =>
    have hl := h.lenRP k hti.1 hti.2.1
    have hmk := hti.2.2 (by rw [h.old0]; omega)
    rw [h.cur, markOf_ready] at hmk
    have hb := hg.bm (k % c.L)
    have hr := hg.rdy k hwt
    have hvm : (x.view t).m (k % c.L) = x.mlen (k % c.L) := by omega
    have hva : (x.view t).a (k % c.L) = x.acc (k % c.L) := by
      have h5 := hg.am (k % c.L)
      have h6 := hg.ba (k % c.L)
      rw [hvm] at h5
      rcases h.accR _ hmk with h7 | ⟨u, j, hu, hj⟩
      · omega
      · exfalso
        have hut : u ≠ t := by rintro rfl; rw [hpc] at hu; cases hu
        exact cown_slots h.inv hut (by rw [hu]; rfl) (by rw [hpc]; rfl) hj
    exact h.touch (t := t) (k := k) hs rfl rfl rfl rfl rfl rfl rfl hva
      (Or.inr (by rw [hpc]; rfl)) (Or.inr ⟨hmk, rfl⟩) (fun v hv => WTI.mono (c := c) (p := .cDisp k) hwt hv) rfl
      (by simp [hpc])

theorem WInv.step {c : Cfg α} {x : WSt α} (h : WInv c x) (e : WEv α)
    (ht : ∀ t n b, e = .run t n b → timelyAt c x.s t) : WInv c (step c x e) := by
  cases e with
  | run t n b => exact h.stepT (ht t n b rfl)
  | call t body =>
    unfold Weak.step
    simp only
    split
    · rename_i hpc
      exact h.still (t := t) (h.inv.loc (t := t) rfl rfl rfl rfl rfl rfl rfl rfl rfl rfl rfl rfl
        (by rw [hpc]; rfl) (by rw [hpc]; rfl) (by simp [hpc]) (by simp [isCons]) trivial)
        rfl rfl rfl rfl rfl rfl rfl trivial (by simp [held]) (by simp [hpc])
    · exact h

theorem WInv.run {c : Cfg α} : ∀ {es : List (WEv α)} {x : WSt α}, WInv c x → Timely c x es →
    WInv c (run c x es) := by
  intro es
  induction es with
  | nil => intro x h _; exact h
  | cons e es ih =>
    intro x h ht
    cases e with
    | call t body => exact ih (h.step _ (by simp)) ht
    | run t n b => exact ih (h.step _ (by rintro t' n' b' ⟨⟩; exact ht.1)) ht.2

theorem Good.init {c : Cfg α} (hL : 0 < c.L) : Good c (init c) View.none := by
  constructor <;> simp [Weak.init, View.none]
  exact hL

theorem WInv.init (c : Cfg α) (hL : 0 < c.L) : WInv c (init c) := by
  have hg := Good.init (c := c) hL
  constructor
  case inv => exact Inv.init c hL
  case old0 => rfl
  case val => intro i n hn; have : n = 0 := by simpa [Weak.init] using hn
              subst this; rfl
  case cur => intro i; rfl
  case lenF =>
    intro k _ h2
    have : k < c.L := by simpa [Weak.init, Ring.init] using h2
    show 0 = _
    rw [Nat.div_eq_of_lt this]
  case lenWH => intro k _ h2; exact absurd h2 (Nat.not_lt_zero _)
  case lenPW => intro k _ h2; exact absurd h2 (Nat.not_lt_zero _)
  case lenRP => intro k _ h2; exact absurd h2 (Nat.not_lt_zero _)
  case gH => intro n hn; have : n ≤ 0 := hn; exact ⟨hg, this⟩
  case gW => intro n hn; have : n ≤ 0 := hn; exact ⟨hg, this⟩
  case gP => intro n hn; have : n ≤ 0 := hn; exact ⟨hg, this⟩
  case gR => intro n hn; have : n ≤ 0 := hn; exact ⟨hg, this⟩
  case gM => intro i n hn; have : n ≤ 0 := hn; exact ⟨hg, this⟩
  case thr => exact fun _ => hg
  case wti =>
    intro t
    show WTI c View.none (if _ then _ else _)
    split <;> trivial
  case accI => intro i _; rfl
  case accR => intro i _; exact Or.inl rfl
  case accO =>
    intro t k hk
    have hk' : held (if c.async = true ∧ t = worker then PC.cLoad else (PC.idle : PC α)) = some k := hk
    split at hk' <;> cases hk'
  case clean => exact ⟨rfl, rfl⟩

end FNLog.Weak
