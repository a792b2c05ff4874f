import Verif.Proof.Recover
import Verif.Proof.RingResp

/-! # One log statement on a sync channel whose queue is not empty -/

namespace FNLog.Ring

variable {α : Type}

/-- Steps of thread `t` alone lead from `s` to `s'`. -/
def Goes (c : Cfg α) (t : Nat) (s s' : St α) : Prop := ∃ n, run c s (List.replicate n (.run t)) = s'

theorem Goes.refl (c : Cfg α) (t : Nat) (s : St α) : Goes c t s s := ⟨0, rfl⟩

theorem Goes.trans {c : Cfg α} {t : Nat} {a b d : St α} (h : Goes c t a b) (h' : Goes c t b d) : Goes c t a d := by
  obtain ⟨n, rfl⟩ := h
  obtain ⟨m, rfl⟩ := h'
  refine ⟨n + m, ?_⟩
  rw [← List.replicate_append_replicate]
  simp only [run, List.foldl_append]

theorem Goes.step {c : Cfg α} {t : Nat} {a b d : St α} (h : stepT c a t = b) (h' : Goes c t b d) : Goes c t a d :=
  Goes.trans ⟨1, h⟩ h'

theorem go_go (s : St α) (t : Nat) (p q : PC α) : (s.go t p).go t q = s.go t q := by
  unfold St.go
  congr 1
  funext u
  simp only
  split <;> rfl

/-- Steps that change nothing but the program counter. -/
theorem step_hChk (c : Cfg α) (s : St α) (t i : Nat) (b : List α) (h : s.state = .running) :
    stepT c (s.go t (.hChk i b)) t = s.go t (.hLoad i b) := by
  simp only [stepT, go_pc, if_pos, go_state, h, go_go]
theorem step_hLoad (c : Cfg α) (s : St α) (t i : Nat) (b : List α) :
    stepT c (s.go t (.hLoad i b)) t = s.go t (.hRead i s.H b) := by
  simp only [stepT, go_pc, if_pos, go_H, go_go]
theorem step_hRead (c : Cfg α) (s : St α) (t i tk : Nat) (b : List α) (h : (tk + 1) % c.L ≠ s.R % c.L) :
    stepT c (s.go t (.hRead i tk b)) t = s.go t (.hCas i tk b) := by
  simp only [stepT, go_pc, if_pos, go_R, if_neg h, go_go]
theorem step_hCas (c : Cfg α) (s : St α) (t i : Nat) (b : List α) :
    stepT c (s.go t (.hCas i s.H b)) t =
      { s with H := s.H + 1, acquired := s.acquired ++ [(t, b ++ [c.nl])] }.go t (.hInc s.H b) := by
  simp only [stepT, go_pc, if_pos, go_H]
  exact go_go { s with H := s.H + 1, acquired := s.acquired ++ [(t, b ++ [c.nl])] } t _ _
theorem step_hInc (c : Cfg α) (s : St α) (t k : Nat) (b : List α) :
    stepT c (s.go t (.hInc k b)) t = { s with nHold := s.nHold + 1 }.go t (.hMark k b) := by
  simp only [stepT, go_pc, if_pos]
  exact go_go { s with nHold := s.nHold + 1 } t _ _
theorem step_hMark (c : Cfg α) (s : St α) (t k : Nat) (b : List α) :
    stepT c (s.go t (.hMark k b)) t = { s with mark := upd s.mark (k % c.L) .hold }.go t (.fInit k b) := by
  simp only [stepT, go_pc, if_pos]
  exact go_go { s with mark := upd s.mark (k % c.L) .hold } t _ _
theorem step_fInit (c : Cfg α) (s : St α) (t k : Nat) (b : List α) :
    stepT c (s.go t (.fInit k b)) t = { s with cell := upd s.cell (k % c.L) [] }.go t (.fill k b) := by
  simp only [stepT, go_pc, if_pos]
  exact go_go { s with cell := upd s.cell (k % c.L) [] } t _ _
theorem step_fill (c : Cfg α) (s : St α) (t k : Nat) (x : α) (b : List α) :
    stepT c (s.go t (.fill k (x :: b))) t =
      { s with cell := upd s.cell (k % c.L) (s.cell (k % c.L) ++ [x]) }.go t (.fill k b) := by
  simp only [stepT, go_pc, if_pos]
  exact go_go { s with cell := upd s.cell (k % c.L) (s.cell (k % c.L) ++ [x]) } t _ _
theorem step_filled (c : Cfg α) (s : St α) (t k : Nat) :
    stepT c (s.go t (.fill k [])) t = s.go t (.pChk k) := by
  simp only [stepT, go_pc, if_pos, go_go]
theorem step_pChk (c : Cfg α) (s : St α) (t k : Nat) (h : s.state = .running) :
    stepT c (s.go t (.pChk k)) t = s.go t (.pSeal k) := by
  simp only [stepT, go_pc, if_pos, go_state, h, go_go]
theorem step_pSeal (c : Cfg α) (s : St α) (t k : Nat) :
    stepT c (s.go t (.pSeal k)) t =
      { s with cell := upd s.cell (k % c.L) (s.cell (k % c.L) ++ [c.nl]) }.go t (.pMark k) := by
  simp only [stepT, go_pc, if_pos]
  exact go_go { s with cell := upd s.cell (k % c.L) (s.cell (k % c.L) ++ [c.nl]) } t _ _
theorem step_pMark (c : Cfg α) (s : St α) (t k : Nat) :
    stepT c (s.go t (.pMark k)) t = { s with mark := upd s.mark (k % c.L) .ready }.go t .wLoad := by
  simp only [stepT, go_pc, if_pos]
  exact go_go { s with mark := upd s.mark (k % c.L) .ready } t _ _
theorem step_wLoad (c : Cfg α) (s : St α) (t : Nat) : stepT c (s.go t .wLoad) t = s.go t (.wHold s.W) := by
  simp only [stepT, go_pc, if_pos, go_W, go_go]
theorem step_wHold (c : Cfg α) (s : St α) (t tk : Nat) (h : tk % c.L ≠ s.H % c.L) :
    stepT c (s.go t (.wHold tk)) t = s.go t (.wMark tk) := by
  simp only [stepT, go_pc, if_pos, go_H, if_neg h, go_go]
theorem step_wHold' (c : Cfg α) (s : St α) (t tk : Nat) (h : tk % c.L = s.H % c.L) :
    stepT c (s.go t (.wHold tk)) t = s.go t .wExit := by
  simp only [stepT, go_pc, if_pos, go_H, if_pos h, go_go]
theorem step_wMark (c : Cfg α) (s : St α) (t tk : Nat) (h : s.mark (tk % c.L) = .ready) :
    stepT c (s.go t (.wMark tk)) t = s.go t (.wCas tk) := by
  simp only [stepT, go_pc, if_pos, go_mark, h, ne_eq, not_true, if_false, go_go]
theorem step_wCas (c : Cfg α) (s : St α) (t : Nat) :
    stepT c (s.go t (.wCas s.W)) t = { s with W := s.W + 1 }.go t .wInc := by
  simp only [stepT, go_pc, if_pos, go_W]
  exact go_go { s with W := s.W + 1 } t _ _
theorem step_wInc (c : Cfg α) (s : St α) (t : Nat) :
    stepT c (s.go t .wInc) t = { s with nPush := s.nPush + 1 }.go t .wCond := by
  simp only [stepT, go_pc, if_pos]
  exact go_go { s with nPush := s.nPush + 1 } t _ _
theorem step_wCond (c : Cfg α) (s : St α) (t : Nat) (h : s.state = .running) :
    stepT c (s.go t .wCond) t = s.go t .wLoad := by
  simp only [stepT, go_pc, if_pos, go_state, h, go_go]
theorem step_wExit (c : Cfg α) (s : St α) (t : Nat) (hA : c.async = false) (h : s.state = .running) :
    stepT c (s.go t .wExit) t = s.go t .cLoad := by
  simp only [stepT, go_pc, if_pos, go_state, h, hA, and_self, go_go]
theorem step_cLoad (c : Cfg α) (s : St α) (t : Nat) : stepT c (s.go t .cLoad) t = s.go t (.cWrite s.P) := by
  simp only [stepT, go_pc, if_pos, go_P, go_go]
theorem step_cWrite (c : Cfg α) (s : St α) (t tk : Nat) (h : tk % c.L ≠ s.W % c.L) :
    stepT c (s.go t (.cWrite tk)) t = s.go t (.cCas tk) := by
  simp only [stepT, go_pc, if_pos, go_W, if_neg h, go_go]
theorem step_cWrite' (c : Cfg α) (s : St α) (t tk : Nat) (h : tk % c.L = s.W % c.L) :
    stepT c (s.go t (.cWrite tk)) t = s.go t .cEnd := by
  simp only [stepT, go_pc, if_pos, go_W, if_pos h, go_go]
theorem step_cCas (c : Cfg α) (s : St α) (t : Nat) :
    stepT c (s.go t (.cCas s.P)) t = { s with P := s.P + 1 }.go t (.cDisp s.P) := by
  simp only [stepT, go_pc, if_pos, go_P]
  exact go_go { s with P := s.P + 1 } t _ _
theorem step_cDisp (c : Cfg α) (s : St α) (t k : Nat) :
    stepT c (s.go t (.cDisp k)) t = { s with out := s.out ++ [(k, s.cell (k % c.L))] }.go t (.cClear k) := by
  simp only [stepT, go_pc, if_pos]
  exact go_go { s with out := s.out ++ [(k, s.cell (k % c.L))] } t _ _
theorem step_cClear (c : Cfg α) (s : St α) (t k : Nat) :
    stepT c (s.go t (.cClear k)) t = { s with mark := upd s.mark (k % c.L) .invalid }.go t (.cStat k) := by
  simp only [stepT, go_pc, if_pos]
  exact go_go { s with mark := upd s.mark (k % c.L) .invalid } t _ _
theorem step_cStat (c : Cfg α) (s : St α) (t k : Nat) :
    stepT c (s.go t (.cStat k)) t = { s with nProc := s.nProc + 1 }.go t (.cBytes k) := by
  simp only [stepT, go_pc, if_pos]
  exact go_go { s with nProc := s.nProc + 1 } t _ _
theorem step_cBytes (c : Cfg α) (s : St α) (t k : Nat) :
    stepT c (s.go t (.cBytes k)) t =
      { s with nBytes := s.nBytes + (s.cell (k % c.L)).length }.go t .rLoad := by
  simp only [stepT, go_pc, if_pos]
  exact go_go { s with nBytes := s.nBytes + (s.cell (k % c.L)).length } t _ _
theorem step_rLoad (c : Cfg α) (s : St α) (t : Nat) : stepT c (s.go t .rLoad) t = s.go t (.rProc s.R) := by
  simp only [stepT, go_pc, if_pos, go_R, go_go]
theorem step_rProc (c : Cfg α) (s : St α) (t tk : Nat) (h : tk % c.L ≠ s.P % c.L) :
    stepT c (s.go t (.rProc tk)) t = s.go t (.rMark tk) := by
  simp only [stepT, go_pc, if_pos, go_P, if_neg h, go_go]
theorem step_rProc' (c : Cfg α) (s : St α) (t tk : Nat) (h : tk % c.L = s.P % c.L) :
    stepT c (s.go t (.rProc tk)) t = s.go t .cLoad := by
  simp only [stepT, go_pc, if_pos, go_P, if_pos h, go_go]
theorem step_rMark (c : Cfg α) (s : St α) (t tk : Nat) (h : s.mark (tk % c.L) = .invalid) :
    stepT c (s.go t (.rMark tk)) t = s.go t (.rCas tk) := by
  simp only [stepT, go_pc, if_pos, go_mark, h, ne_eq, not_true, if_false, go_go]
theorem step_rCas (c : Cfg α) (s : St α) (t : Nat) :
    stepT c (s.go t (.rCas s.R)) t = { s with R := s.R + 1 }.go t .rLoad := by
  simp only [stepT, go_pc, if_pos, go_R]
  exact go_go { s with R := s.R + 1 } t _ _
theorem step_cEnd (c : Cfg α) (s : St α) (t : Nat) (h : s.state = .running) :
    stepT c (s.go t .cEnd) t = s.go t .cLoop := by
  simp only [stepT, go_pc, if_pos, go_state, h, reduceCtorEq, if_false, go_go]
theorem step_cLoop (c : Cfg α) (s : St α) (t : Nat) (hA : c.async = false) :
    stepT c (s.go t .cLoop) t = s.go t .idle := by
  simp only [stepT, go_pc, if_pos, hA, go_go]

theorem succ_mod_ne {L k : Nat} (hL : 1 < L) : k % L ≠ (k + 1) % L := by
  intro h
  have := mod_inj (a := k) (b := k + 1) h (by omega) (by omega)
  omega

/-- EnterProcChannel by one thread alone outputs what is in the queue and releases it. -/
theorem catch_up {c : Cfg α} (hL : 1 < c.L) (hA : c.async = false) (t : Nat) : ∀ (n : Nat) (s : St α),
    s.state = .running → s.P = s.R → s.W = s.P + n → n < c.L →
    ∃ s' : St α, Goes c t (s.go t .cLoad) (s'.go t .idle) ∧ s'.R = s.W ∧ s'.P = s.W ∧ s'.W = s.W ∧ s'.H = s.H ∧
      s'.cell = s.cell ∧ s'.acquired = s.acquired ∧ s'.state = .running ∧ s'.lgRunning = s.lgRunning ∧ s'.pc = s.pc ∧
      s'.calls = s.calls ∧
      s'.out = s.out ++ (List.range' s.R n).map (fun k => (k, s.cell (k % c.L))) := by
  intro n
  induction n with
  | zero =>
    intro s hr hP hW _
    refine ⟨s, ?_, by omega, by omega, rfl, rfl, rfl, rfl, hr, rfl, rfl, rfl, by simp⟩
    refine .step (step_cLoad c s t) (.step (step_cWrite' c s t _ (by rw [hW, Nat.add_zero])) ?_)
    exact .step (step_cEnd c s t hr) (.step (step_cLoop c s t hA) (.refl _ _ _))
  | succ n ih =>
    intro s hr hP hW hn
    have hne : s.P % c.L ≠ s.W % c.L := by
      intro h
      have := mod_inj h (by omega) (by omega)
      omega
    have g1 : Goes c t (s.go t .cLoad) ({ s with P := s.P + 1 }.go t (.cDisp s.P)) :=
      .step (step_cLoad c s t) (.step (step_cWrite c s t _ hne) (.step (step_cCas c s t) (.refl _ _ _)))
    have g2 : Goes c t (s.go t .cLoad)
        ({ s with P := s.P + 1, out := s.out ++ [(s.P, s.cell (s.P % c.L))] }.go t (.cClear s.P)) :=
      g1.trans (.step (step_cDisp c _ t s.P) (.refl _ _ _))
    have g3 : Goes c t (s.go t .cLoad)
        ({ s with P := s.P + 1, out := s.out ++ [(s.P, s.cell (s.P % c.L))],
                  mark := upd s.mark (s.P % c.L) .invalid }.go t (.cStat s.P)) :=
      g2.trans (.step (step_cClear c _ t s.P) (.refl _ _ _))
    have g4 : Goes c t (s.go t .cLoad)
        ({ s with P := s.P + 1, out := s.out ++ [(s.P, s.cell (s.P % c.L))],
                  mark := upd s.mark (s.P % c.L) .invalid, nProc := s.nProc + 1 }.go t (.cBytes s.P)) :=
      g3.trans (.step (step_cStat c _ t s.P) (.refl _ _ _))
    have g5 : Goes c t (s.go t .cLoad)
        ({ s with P := s.P + 1, out := s.out ++ [(s.P, s.cell (s.P % c.L))],
                  mark := upd s.mark (s.P % c.L) .invalid, nProc := s.nProc + 1,
                  nBytes := s.nBytes + (s.cell (s.P % c.L)).length }.go t .rLoad) :=
      g4.trans (.step (step_cBytes c _ t s.P) (.refl _ _ _))
    obtain ⟨s5, hs5⟩ : ∃ x : St α, x = { s with
                  P := s.P + 1, out := s.out ++ [(s.P, s.cell (s.P % c.L))],
                  mark := upd s.mark (s.P % c.L) .invalid, nProc := s.nProc + 1,
                  nBytes := s.nBytes + (s.cell (s.P % c.L)).length } := ⟨_, rfl⟩
    rw [← hs5] at g5
    have a1 : s5.R = s.R ∧ s5.P = s.P + 1 ∧ s5.W = s.W ∧ s5.H = s.H ∧ s5.cell = s.cell ∧ s5.acquired = s.acquired ∧
        s5.state = s.state ∧ s5.lgRunning = s.lgRunning ∧ s5.pc = s.pc ∧ s5.calls = s.calls ∧
        s5.out = s.out ++ [(s.P, s.cell (s.P % c.L))] ∧ s5.mark (s.R % c.L) = .invalid := by
      subst hs5
      refine ⟨rfl, rfl, rfl, rfl, rfl, rfl, rfl, rfl, rfl, rfl, rfl, ?_⟩
      rw [← hP]
      exact if_pos rfl
    clear hs5 g1 g2 g3 g4
    obtain ⟨b1, b2, b3, b4, b5, b6, b7, b8, b9, b10, b11, b12⟩ := a1
    have g6 := Goes.trans g5 (.step (step_rLoad c s5 t)
      (.step (step_rProc c s5 t _ (by rw [b1, b2, hP]; exact succ_mod_ne hL))
        (.step (step_rMark c s5 t _ (by rw [b1]; exact b12)) (.step (step_rCas c s5 t) (.refl _ _ _)))))
    obtain ⟨s6, hs6⟩ : ∃ x : St α, x = { s5 with R := s5.R + 1 } := ⟨_, rfl⟩
    rw [← hs6] at g6
    have d : s6.R = s.R + 1 ∧ s6.P = s.P + 1 ∧ s6.W = s.W ∧ s6.H = s.H ∧ s6.cell = s.cell ∧ s6.acquired = s.acquired ∧
        s6.state = s.state ∧ s6.lgRunning = s.lgRunning ∧ s6.pc = s.pc ∧ s6.calls = s.calls ∧
        s6.out = s.out ++ [(s.P, s.cell (s.P % c.L))] := by
      subst hs6
      exact ⟨congrArg (· + 1) b1, b2, b3, b4, b5, b6, b7, b8, b9, b10, b11⟩
    clear hs6
    obtain ⟨d1, d2, d3, d4, d5, d6, d7, d8, d9, d10, d11⟩ := d
    have g7 := Goes.trans g6 (.step (step_rLoad c s6 t) (.step (step_rProc' c s6 t _ (by rw [d1, d2, hP])) (.refl _ _ _)))
    obtain ⟨s', e, r⟩ := ih s6 (d7.trans hr) (by rw [d1, d2, hP]) (by rw [d2, d3, hW]; omega) (by omega)
    rw [d3, d4, d5, d6, d8, d9, d10, d11, d1] at r
    obtain ⟨r1, r2, r3, r4, r5, r6, r7, r8, r9, r10, r11⟩ := r
    refine ⟨s', g7.trans e, r1, r2, r3, r4, r5, r6, r7, r8, r9, r10, ?_⟩
    rw [r11, hP, List.range'_succ, List.map_cons, List.append_assoc, List.singleton_append]

/-- The text is written into the slot. -/
theorem fill_up (c : Cfg α) (t k : Nat) : ∀ (b : List α) (s : St α),
    Goes c t (s.go t (.fill k b))
      ({ s with cell := upd s.cell (k % c.L) (s.cell (k % c.L) ++ b) }.go t (.pChk k)) := by
  intro b
  induction b with
  | nil =>
    intro s
    refine .step (step_filled c s t k) ?_
    have : upd s.cell (k % c.L) (s.cell (k % c.L) ++ []) = s.cell := by
      funext i
      simp only [upd, List.append_nil]
      split
      · rename_i h; rw [h]
      · rfl
    rw [this]
    exact .refl _ _ _
  | cons x b ih =>
    intro s
    refine .step (step_fill c s t k x b) ?_
    have := ih { s with cell := upd s.cell (k % c.L) (s.cell (k % c.L) ++ [x]) }
    have e : upd (upd s.cell (k % c.L) (s.cell (k % c.L) ++ [x])) (k % c.L)
        (upd s.cell (k % c.L) (s.cell (k % c.L) ++ [x]) (k % c.L) ++ b) =
        upd s.cell (k % c.L) (s.cell (k % c.L) ++ x :: b) := by
      funext i
      simp only [upd, if_pos]
      split
      · rw [List.append_assoc, List.singleton_append]
      · rfl
    simp only [e] at this
    exact this

/-- HoldChannel and PushChannel by one thread alone, with room in the queue. -/
theorem push_one {c : Cfg α} (hL : 1 < c.L) (hA : c.async = false) (t : Nat) (b : List α) (s : St α)
    (hr : s.state = .running) (hW : s.W = s.H) (hfull : (s.H + 1) % c.L ≠ s.R % c.L) :
    ∃ s' : St α, Goes c t (s.go t (.hChk 0 b)) (s'.go t .cLoad) ∧ s'.R = s.R ∧ s'.P = s.P ∧ s'.W = s.W + 1 ∧ s'.H = s.H + 1 ∧
      s'.cell = upd s.cell (s.H % c.L) (b ++ [c.nl]) ∧ s'.acquired = s.acquired ++ [(t, b ++ [c.nl])] ∧
      s'.state = .running ∧ s'.lgRunning = s.lgRunning ∧ s'.pc = s.pc ∧ s'.calls = s.calls ∧ s'.out = s.out := by
  have g1 : Goes c t (s.go t (.hChk 0 b))
      ({ s with H := s.H + 1, acquired := s.acquired ++ [(t, b ++ [c.nl])] }.go t (.hInc s.H b)) :=
    .step (step_hChk c s t 0 b hr) (.step (step_hLoad c s t 0 b) (.step (step_hRead c s t 0 _ b hfull)
      (.step (step_hCas c s t 0 b) (.refl _ _ _))))
  have g2 : Goes c t (s.go t (.hChk 0 b))
      ({ s with H := s.H + 1, acquired := s.acquired ++ [(t, b ++ [c.nl])], nHold := s.nHold + 1 }.go t (.hMark s.H b)) :=
    g1.trans (.step (step_hInc c _ t s.H b) (.refl _ _ _))
  have g3 : Goes c t (s.go t (.hChk 0 b))
      ({ s with H := s.H + 1, acquired := s.acquired ++ [(t, b ++ [c.nl])], nHold := s.nHold + 1,
                mark := upd s.mark (s.H % c.L) .hold }.go t (.fInit s.H b)) :=
    g2.trans (.step (step_hMark c _ t s.H b) (.refl _ _ _))
  have g4 : Goes c t (s.go t (.hChk 0 b))
      ({ s with H := s.H + 1, acquired := s.acquired ++ [(t, b ++ [c.nl])], nHold := s.nHold + 1,
                mark := upd s.mark (s.H % c.L) .hold, cell := upd s.cell (s.H % c.L) [] }.go t (.fill s.H b)) :=
    g3.trans (.step (step_fInit c _ t s.H b) (.refl _ _ _))
  obtain ⟨s4, hs4⟩ : ∃ x : St α, x =
      { s with H := s.H + 1, acquired := s.acquired ++ [(t, b ++ [c.nl])], nHold := s.nHold + 1,
                mark := upd s.mark (s.H % c.L) .hold, cell := upd s.cell (s.H % c.L) [] } := ⟨_, rfl⟩
  rw [← hs4] at g4
  have a : s4.R = s.R ∧ s4.P = s.P ∧ s4.W = s.W ∧ s4.H = s.H + 1 ∧ s4.cell = upd s.cell (s.H % c.L) [] ∧
      s4.acquired = s.acquired ++ [(t, b ++ [c.nl])] ∧ s4.state = .running ∧ s4.lgRunning = s.lgRunning ∧ s4.pc = s.pc ∧
      s4.calls = s.calls ∧ s4.out = s.out := by
    subst hs4
    exact ⟨rfl, rfl, rfl, rfl, rfl, rfl, hr, rfl, rfl, rfl, rfl⟩
  clear hs4 g1 g2 g3
  obtain ⟨b1, b2, b3, b4, b5, b6, b7, b8, b9, b10, b11⟩ := a
  have g5 := Goes.trans g4 (fill_up c t s.H b s4)
  obtain ⟨s5, hs5⟩ : ∃ x : St α, x = { s4 with cell := upd s4.cell (s.H % c.L) (s4.cell (s.H % c.L) ++ b) } := ⟨_, rfl⟩
  rw [← hs5] at g5
  have a : s5.R = s.R ∧ s5.P = s.P ∧ s5.W = s.W ∧ s5.H = s.H + 1 ∧ s5.cell = upd s.cell (s.H % c.L) b ∧
      s5.acquired = s.acquired ++ [(t, b ++ [c.nl])] ∧ s5.state = .running ∧ s5.lgRunning = s.lgRunning ∧ s5.pc = s.pc ∧
      s5.calls = s.calls ∧ s5.out = s.out := by
    subst hs5
    refine ⟨b1, b2, b3, b4, ?_, b6, b7, b8, b9, b10, b11⟩
    show upd s4.cell (s.H % c.L) (s4.cell (s.H % c.L) ++ b) = _
    rw [b5]
    funext i
    simp only [upd, if_pos, List.nil_append]
    split <;> rfl
  clear hs5 g4 b1 b2 b3 b4 b5 b6 b7 b8 b9 b10 b11
  obtain ⟨b1, b2, b3, b4, b5, b6, b7, b8, b9, b10, b11⟩ := a
  have g6 : Goes c t (s.go t (.hChk 0 b))
      ({ s5 with cell := upd s5.cell (s.H % c.L) (s5.cell (s.H % c.L) ++ [c.nl]),
                 mark := upd s5.mark (s.H % c.L) .ready }.go t .wLoad) :=
    g5.trans (.step (step_pChk c s5 t s.H b7) (.step (step_pSeal c s5 t s.H) (.step (step_pMark c _ t s.H) (.refl _ _ _))))
  obtain ⟨s7, hs7⟩ : ∃ x : St α, x = { s5 with
      cell := upd s5.cell (s.H % c.L) (s5.cell (s.H % c.L) ++ [c.nl]),
      mark := upd s5.mark (s.H % c.L) .ready } := ⟨_, rfl⟩
  rw [← hs7] at g6
  have a : s7.R = s.R ∧ s7.P = s.P ∧ s7.W = s.W ∧ s7.H = s.H + 1 ∧ s7.cell = upd s.cell (s.H % c.L) (b ++ [c.nl]) ∧
      s7.acquired = s.acquired ++ [(t, b ++ [c.nl])] ∧ s7.state = .running ∧ s7.lgRunning = s.lgRunning ∧ s7.pc = s.pc ∧
      s7.calls = s.calls ∧ s7.out = s.out ∧ s7.mark (s.H % c.L) = .ready := by
    subst hs7
    refine ⟨b1, b2, b3, b4, ?_, b6, b7, b8, b9, b10, b11, if_pos rfl⟩
    show upd s5.cell (s.H % c.L) (s5.cell (s.H % c.L) ++ [c.nl]) = _
    rw [b5]
    funext i
    simp only [upd, if_pos]
    split <;> rfl
  clear hs7 g5 b1 b2 b3 b4 b5 b6 b7 b8 b9 b10 b11
  obtain ⟨b1, b2, b3, b4, b5, b6, b7, b8, b9, b10, b11, b12⟩ := a
  have g8 : Goes c t (s.go t (.hChk 0 b)) ({ s7 with W := s7.W + 1, nPush := s7.nPush + 1 }.go t .wCond) :=
    g6.trans (.step (step_wLoad c s7 t) (.step (step_wHold c s7 t _ (by rw [b3, b4, hW]; exact succ_mod_ne hL))
      (.step (step_wMark c s7 t _ (by rw [b3, hW]; exact b12)) (.step (step_wCas c s7 t)
        (.step (step_wInc c _ t) (.refl _ _ _))))))
  obtain ⟨s9, hs9⟩ : ∃ x : St α, x = { s7 with W := s7.W + 1, nPush := s7.nPush + 1 } := ⟨_, rfl⟩
  rw [← hs9] at g8
  have d : s9.R = s.R ∧ s9.P = s.P ∧ s9.W = s.W + 1 ∧ s9.H = s.H + 1 ∧ s9.cell = upd s.cell (s.H % c.L) (b ++ [c.nl]) ∧
      s9.acquired = s.acquired ++ [(t, b ++ [c.nl])] ∧ s9.state = .running ∧ s9.lgRunning = s.lgRunning ∧ s9.pc = s.pc ∧
      s9.calls = s.calls ∧ s9.out = s.out := by
    subst hs9
    exact ⟨b1, b2, congrArg (· + 1) b3, b4, b5, b6, b7, b8, b9, b10, b11⟩
  clear hs9
  obtain ⟨d1, d2, d3, d4, d5, d6, d7, d8, d9, d10, d11⟩ := d
  refine ⟨s9, g8.trans ?_, d1, d2, d3, d4, d5, d6, d7, d8, d9, d10, d11⟩
  exact .step (step_wCond c s9 t d7) (.step (step_wLoad c s9 t) (.step (step_wHold' c s9 t _ (by rw [d3, d4, hW]))
    (.step (step_wExit c s9 t hA d7) (.refl _ _ _))))

/-- One statement by one thread alone outputs what is in the queue, then itself, and leaves the queue empty. -/
theorem one_statement {c : Cfg α} (hL : 1 < c.L) (hA : c.async = false) (t : Nat) (b : List α) (s : St α)
    (hr : s.state = .running) (hl : s.lgRunning = true) (hp : s.pc t = .idle) (hPR : s.P = s.R) (hRW : s.R ≤ s.W)
    (hW : s.W = s.H) (hcap : s.H + 1 < s.R + c.L) :
    ∃ s' : St α, (∃ n, run c s (.call t b :: List.replicate n (.run t)) = s') ∧ s'.R = s.H + 1 ∧ s'.P = s.H + 1 ∧ s'.W = s.H + 1 ∧
      s'.H = s.H + 1 ∧ s'.acquired = s.acquired ++ [(t, b ++ [c.nl])] ∧ s'.state = .running ∧ s'.lgRunning = true ∧
      s'.pc = s.pc ∧
      s'.out.map Prod.snd = s.out.map Prod.snd ++ (List.range' s.R (s.H - s.R)).map (fun k => s.cell (k % c.L)) ++
        [b ++ [c.nl]] := by
  have hfull : (s.H + 1) % c.L ≠ s.R % c.L := by
    intro h
    have := mod_inj h.symm (by omega) (by omega)
    omega
  have hcall : step c s (.call t b) = { s with calls := s.calls ++ [(t, b)] }.go t (.hChk 0 b) := by
    simp only [step, hp]
    rw [if_pos ⟨hl, hr⟩]
  obtain ⟨s1, e1, a1, a2, a3, a4, a5, a6, a7, a8, a9, _, a11⟩ := push_one hL hA t b { s with calls := s.calls ++ [(t, b)] } hr hW hfull
  simp only at a1 a2 a3 a4 a5 a6 a8 a9 a11
  obtain ⟨s2, e2, b1, b2, b3, b4, b5, b6, b7, b8, b9, _, b11⟩ := catch_up hL hA t (s.H + 1 - s.R) s1 a7 (by rw [a2, a1, hPR])
    (by rw [a3, a2, hPR, hW]; omega) (by omega)
  obtain ⟨n, e⟩ := e1.trans e2
  have hpc : (s2.go t .idle).pc = s.pc := by
    funext u
    rw [go_pc, b9, a9]
    split
    · rename_i hu; rw [hu, hp]
    · rfl
  refine ⟨s2.go t .idle, ⟨n, ?_⟩, by show s2.R = _; rw [b1, a3, hW], by show s2.P = _; rw [b2, a3, hW],
    by show s2.W = _; rw [b3, a3, hW], by show s2.H = _; rw [b4, a4], by show s2.acquired = _; rw [b6, a6], b7,
    by show s2.lgRunning = _; rw [b8, a8, hl], hpc, ?_⟩
  · show run c (step c s (.call t b)) _ = _
    rw [hcall]
    exact e
  · show s2.out.map Prod.snd = _
    rw [b11, a11, a1, a5, List.map_append, List.map_map, show s.H + 1 - s.R = (s.H - s.R) + 1 by omega,
      List.range'_concat, List.map_append, ← List.append_assoc]
    congr 1
    · congr 1
      apply List.map_congr_left
      intro k hk
      rw [List.mem_range'] at hk
      obtain ⟨i, hi, rfl⟩ := hk
      simp only [Function.comp_apply, upd]
      rw [if_neg]
      intro h
      have := mod_inj h (by omega) (by omega)
      omega
    · simp only [List.map_cons, List.map_nil, Function.comp_apply]
      rw [show s.R + 1 * (s.H - s.R) = s.H by omega]
      simp only [upd, if_pos]

/-! ## A full queue nobody is working on -/

/-- Where a thread can be that waits for a slot. -/
def Waits (s : St α) : PC α → Prop
  | .idle => True
  | .hChk _ _ => True
  | .hLoad _ _ => True
  | .hRead _ tk _ => tk = s.H
  | .hOut _ => True
  | .hSleep _ => True
  | _ => False

/-- Nobody works on the queue, and it is full. -/
structure Jam (c : Cfg α) (s : St α) : Prop where
  sync : c.async = false
  running : s.state = .running
  full : (s.H + 1) % c.L = s.R % c.L
  waits : ∀ t, Waits s (s.pc t)

theorem Jam.go {c : Cfg α} {s : St α} (h : Jam c s) (t : Nat) {p : PC α} (hp : Waits s p) : Jam c (s.go t p) := by
  refine ⟨h.sync, h.running, h.full, fun u => ?_⟩
  rw [go_pc]
  have hs : ∀ q, Waits s q → Waits (s.go t p) q := fun q hq => hq
  split
  · exact hs _ hp
  · exact hs _ (h.waits u)

/-- Nothing changes it but a stop. -/
theorem Jam.step {c : Cfg α} {s : St α} (h : Jam c s) (e : Ev α) (hn : e.noStop) :
    Jam c (step c s e) ∧ (step c s e).acquired = s.acquired ∧ (step c s e).out = s.out ∧
      (step c s e).H = s.H ∧ (step c s e).R = s.R ∧ (step c s e).cell = s.cell ∧
      (∀ t, s.pc t ≠ .idle → (Ring.step c s e).pc t ≠ .idle) := by
  cases e with
  | stop => exact absurd hn id
  | closing => exact ⟨⟨h.sync, h.running, h.full, h.waits⟩, rfl, rfl, rfl, rfl, rfl, fun _ ht => ht⟩
  | started =>
    rw [show Ring.step c s .started = { s with lgRunning := true } from if_pos h.running]
    exact ⟨⟨h.sync, h.running, h.full, h.waits⟩, rfl, rfl, rfl, rfl, rfl, fun _ ht => ht⟩
  | call t b =>
    simp only [Ring.step]
    split
    · rename_i hp
      split
      · have h' : Jam c { s with calls := s.calls ++ [(t, b)] } := ⟨h.sync, h.running, h.full, h.waits⟩
        refine ⟨h'.go t trivial, rfl, rfl, rfl, rfl, rfl, fun u hu => ?_⟩
        rw [go_pc]
        split
        · simp
        · exact hu
      · exact ⟨h, rfl, rfl, rfl, rfl, rfl, fun _ ht => ht⟩
    · exact ⟨h, rfl, rfl, rfl, rfl, rfl, fun _ ht => ht⟩
  | run t =>
    have hw := h.waits t
    have key : ∀ (p : PC α), p ≠ .idle → Waits s p → stepT c s t = s.go t p →
        Jam c (Ring.step c s (.run t)) ∧ (Ring.step c s (.run t)).acquired = s.acquired ∧ (Ring.step c s (.run t)).out = s.out ∧
        (Ring.step c s (.run t)).H = s.H ∧ (Ring.step c s (.run t)).R = s.R ∧ (Ring.step c s (.run t)).cell = s.cell ∧
        (∀ u, s.pc u ≠ .idle → (Ring.step c s (.run t)).pc u ≠ .idle) := by
      intro p hp hq e
      simp only [Ring.step]
      rw [e]
      refine ⟨h.go t hq, rfl, rfl, rfl, rfl, rfl, fun u hu => ?_⟩
      rw [go_pc]
      split
      · exact hp
      · exact hu
    cases hp : s.pc t with
    | idle =>
      have e : stepT c s t = s := by simp only [stepT, hp]
      show Jam c (stepT c s t) ∧ _
      rw [show Ring.step c s (.run t) = s from e, e]
      exact ⟨h, rfl, rfl, rfl, rfl, rfl, fun _ ht => ht⟩
    | hChk i b => exact key (.hLoad i b) (by simp) trivial (by simp only [stepT, hp, if_pos h.running])
    | hLoad i b => exact key (.hRead i s.H b) (by simp) rfl (by simp only [stepT, hp])
    | hRead i tk b =>
      rw [hp] at hw
      have hw' : tk = s.H := hw
      subst hw'
      exact key (.hOut b) (by simp) trivial (by simp only [stepT, hp, if_pos h.full])
    | hOut b => exact key (.hSleep b) (by simp) trivial (by simp only [stepT, hp, if_pos h.running])
    | hSleep b =>
      have h' : Jam c { s with nWait := s.nWait + 1 } := ⟨h.sync, h.running, h.full, h.waits⟩
      have e : stepT c s t = { s with nWait := s.nWait + 1 }.go t (.hChk 0 b) := by simp only [stepT, hp]
      simp only [Ring.step]
      rw [e]
      refine ⟨h'.go t trivial, rfl, rfl, rfl, rfl, rfl, fun u hu => ?_⟩
      rw [go_pc]
      split
      · simp
      · exact hu
    | _ => rw [hp] at hw; exact absurd hw id

theorem Jam.run {c : Cfg α} : ∀ (es : List (Ev α)) {s : St α}, Jam c s → (∀ e ∈ es, e.noStop) →
    Jam c (Ring.run c s es) ∧ (Ring.run c s es).acquired = s.acquired ∧ (Ring.run c s es).out = s.out ∧
      (∀ t, s.pc t ≠ .idle → (Ring.run c s es).pc t ≠ .idle) := by
  intro es
  induction es with
  | nil => intro s h _; exact ⟨h, rfl, rfl, fun _ ht => ht⟩
  | cons e es ih =>
    intro s h hn
    obtain ⟨h1, h2, h3, _, _, _, h4⟩ := h.step e (hn e (List.mem_cons_self ..))
    obtain ⟨g1, g2, g3, g4⟩ := ih h1 fun e' he => hn e' (List.mem_cons_of_mem _ he)
    exact ⟨g1, g2.trans h2, g3.trans h3, fun t ht => g4 t (h4 t ht)⟩

end FNLog.Ring
