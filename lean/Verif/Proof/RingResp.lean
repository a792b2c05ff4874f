import Verif.Proof.RingOrd

/-! # Nothing is left behind: who is responsible for the next hand-over -/

namespace FNLog.Ring
open FNLog

variable {α : Type}

/-- Not a stop. -/
def Ev.noStop : Ev α → Prop
  | .stop => False
  | _ => True

/-- The consumer of a channel that was never stopped does not leave its loop. -/
def wkOk (s : St α) : PC α → Prop
  | .cLoop => s.state = .running
  | .cSet => s.state = .null
  | .cLoopW | .cLoopR _ | .cFin | .done => False
  | _ => True

/-- Facts of a channel that was never stopped. -/
structure NS (c : Cfg α) (s : St α) : Prop where
  st : s.state = .running ∨ s.state = .null
  act : ∀ t, s.pc t ≠ .idle → isCons (s.pc t) = false → s.state = .running
  wk : ∀ t, wkOk s (s.pc t)
  lost : s.lost = []
  sync : c.async = false → s.state = .running

theorem NS.keep {c : Cfg α} {s s' : St α} (h : NS c s) {t : Nat} {p : PC α}
    (hpc : s'.pc = fun u => if u = t then p else s.pc u) (hst : s'.state = s.state)
    (hl : s'.lost = s.lost) (ha : p ≠ .idle → isCons p = false → s.state = .running)
    (hw : wkOk s p) : NS c s' := by
  constructor
  · rw [hst]; exact h.st
  · intro u
    rw [hpc, hst]; simp only; split
    · exact ha
    · exact h.act u
  · intro u
    have key : ∀ q, wkOk s q → wkOk s' q := by
      intro q hq
      cases q <;> simp_all [wkOk]
    apply key
    rw [hpc]; simp only; split
    · exact hw
    · exact h.wk u
  · rw [hl]; exact h.lost
  · rw [hst]; exact h.sync

theorem NS.stepT {c : Cfg α} {s : St α} (hi : Inv c s) (h : NS c s) (t : Nat) : NS c (stepT c s t) := by
  have hact := h.act t
  have hwk := h.wk t
  unfold Ring.stepT
  split <;> rename_i hpc <;> rw [hpc] at hwk hact
  case h_35 =>
    -- cSet
    refine ⟨Or.inl rfl, fun u _ _ => rfl, ?_, h.lost, fun _ => rfl⟩
    intro u
    have hu := h.wk u
    simp only [go_pc]; split
    · exact rfl
    · rename_i hut
      have hne : s.pc u ≠ .cSet := by
        intro he
        cases hA : c.async with
        | true =>
          have h1 := hi.consTid hA u (by rw [he]; rfl)
          have h2 := hi.consTid hA t (by rw [hpc]; rfl)
          exact hut (h1.trans h2.symm)
        | false =>
          have := h.sync hA
          rw [hwk] at this; cases this
      revert hu hne; cases s.pc u <;> simp [wkOk]
  all_goals (try exact absurd hwk id)
  all_goals (try exact h)
  all_goals simp only [reduceCtorEq, ne_eq, not_false_eq_true, true_implies, isCons] at hact
  all_goals repeat' split
  all_goals first
    | exact h.keep rfl rfl rfl (fun _ _ => hact) trivial
    | exact h.keep rfl rfl rfl (fun he => absurd rfl he) trivial
    | exact h.keep rfl rfl rfl (fun _ he => by simp [isCons] at he) trivial
    | (refine h.keep rfl rfl rfl (fun _ he => by simp [isCons] at he) ?_
       simp only [wkOk]
       rcases h.st with h1 | h1
       · exact h1
       · contradiction)
    | exact h.keep rfl rfl rfl (fun _ he => by simp [isCons] at he) (by assumption)
    | (exfalso; simp_all [wkOk]; done)

theorem NS.step {c : Cfg α} {s : St α} (hi : Inv c s) (h : NS c s) (e : Ev α) (he : e.noStop) :
    NS c (step c s e) := by
  cases e with
  | run t => exact h.stepT hi t
  | call t b =>
    unfold Ring.step
    simp only
    split
    · split
      · rename_i hr
        exact h.keep (t := t) rfl rfl rfl (fun _ _ => hr.2) trivial
      · exact h
    · exact h
  | started =>
    unfold Ring.step; simp only; split
    · exact ⟨h.st, h.act, fun t => by have := h.wk t; revert this; cases s.pc t <;> simp [wkOk],
        h.lost, h.sync⟩
    · exact h
  | closing =>
    exact ⟨h.st, h.act, fun t => by
      have := h.wk t; revert this; simp only [Ring.step]; cases s.pc t <;> simp [wkOk],
        h.lost, h.sync⟩
  | stop => exact absurd he id

theorem NS.init (c : Cfg α) : NS c (init c) := by
  constructor
  · simp only [Ring.init]; split <;> simp
  · intro t h1 h2
    simp only [Ring.init] at h1 h2 ⊢
    by_cases hw : c.async = true ∧ t = worker
    · rw [if_pos hw] at h2; simp [isCons] at h2
    · rw [if_neg hw] at h1; exact absurd rfl h1
  · intro t
    simp only [Ring.init]
    by_cases hw : c.async = true ∧ t = worker
    · rw [if_pos hw]; trivial
    · rw [if_neg hw]; trivial
  · rfl
  · intro h; simp [Ring.init, h]

/-- Will look at the mark of position `W` again before leaving PushChannel. -/
def respW (s : St α) : PC α → Prop
  | .wLoad | .wInc | .wCond => True
  | .wHold tk | .wMark tk | .wCas tk => tk = s.W
  | _ => False

/-- Will look at `write_idx_` again before leaving EnterProcChannel. -/
def respP (s : St α) : PC α → Prop
  | .wLoad | .wInc | .wCond | .wHold _ | .wMark _ | .wCas _ | .wExit | .cLoad | .cDisp _ | .cClear _
  | .cStat _ | .cBytes _ | .rLoad | .rProc _ | .rMark _ | .rCas _ => True
  | .cWrite tk | .cCas tk => tk = s.P
  | _ => False

/-- Will look at the mark of position `R` again before leaving EnterProcChannel. -/
def respR (s : St α) : PC α → Prop
  | .cStat _ | .cBytes _ | .rLoad => True
  | .rProc tk | .rMark tk | .rCas tk => tk = s.R
  | _ => False

/-- A published log has a thread that will move `write_idx_`; in a sync channel the same for
`proc_idx_` and `read_idx_`. -/
structure Resp (c : Cfg α) (s : St α) : Prop where
  w : s.W < s.H → s.mark (s.W % c.L) = .ready → ∃ t, respW s (s.pc t)
  p : c.async = false → s.P < s.W → ∃ t, respP s (s.pc t)
  r : c.async = false → s.R < s.P → s.mark (s.R % c.L) = .invalid → ∃ t, respR s (s.pc t)

theorem Resp.go {c : Cfg α} {s s' : St α} (h : Resp c s) {t : Nat} {p : PC α}
    (hpc : s'.pc = fun u => if u = t then p else s.pc u)
    (hw : s'.W < s'.H → s'.mark (s'.W % c.L) = .ready → respW s' p ∨
      (s'.W = s.W ∧ s.W < s.H ∧ s.mark (s.W % c.L) = .ready ∧ (respW s (s.pc t) → respW s p)))
    (hp : c.async = false → s'.P < s'.W → respP s' p ∨
      (s'.P = s.P ∧ s.P < s.W ∧ (respP s (s.pc t) → respP s p)))
    (hr : c.async = false → s'.R < s'.P → s'.mark (s'.R % c.L) = .invalid → respR s' p ∨
      (s'.R = s.R ∧ s.R < s.P ∧ s.mark (s.R % c.L) = .invalid ∧ (respR s (s.pc t) → respR s p))) :
    Resp c s' := by
  have hpt : s'.pc t = p := by rw [hpc]; simp
  have hpo : ∀ u, u ≠ t → s'.pc u = s.pc u := by intro u hu; rw [hpc]; simp [hu]
  constructor
  · intro h1 h2
    rcases hw h1 h2 with h3 | ⟨e, h3, h4, h5⟩
    · exact ⟨t, by rw [hpt]; exact h3⟩
    · obtain ⟨u, hu⟩ := h.w h3 h4
      have key : ∀ q, respW s q → respW s' q := by intro q; cases q <;> simp [respW, e]
      by_cases hut : u = t
      · subst hut; exact ⟨u, by rw [hpt]; exact key _ (h5 hu)⟩
      · exact ⟨u, by rw [hpo u hut]; exact key _ hu⟩
  · intro hA h1
    rcases hp hA h1 with h3 | ⟨e, h3, h5⟩
    · exact ⟨t, by rw [hpt]; exact h3⟩
    · obtain ⟨u, hu⟩ := h.p hA h3
      have key : ∀ q, respP s q → respP s' q := by intro q; cases q <;> simp [respP, e]
      by_cases hut : u = t
      · subst hut; exact ⟨u, by rw [hpt]; exact key _ (h5 hu)⟩
      · exact ⟨u, by rw [hpo u hut]; exact key _ hu⟩
  · intro hA h1 h2
    rcases hr hA h1 h2 with h3 | ⟨e, h3, h4, h5⟩
    · exact ⟨t, by rw [hpt]; exact h3⟩
    · obtain ⟨u, hu⟩ := h.r hA h3 h4
      have key : ∀ q, respR s q → respR s' q := by intro q; cases q <;> simp [respR, e]
      by_cases hut : u = t
      · subst hut; exact ⟨u, by rw [hpt]; exact key _ (h5 hu)⟩
      · exact ⟨u, by rw [hpo u hut]; exact key _ hu⟩

theorem Resp.stepT {c : Cfg α} {s : St α} (hi : Inv c s) (hn : NS c s) (h : Resp c s) {t : Nat}
    (ht : timelyAt c s t) : Resp c (stepT c s t) := by
  have h1 := hi.leRP
  have h2 := hi.lePW
  have h3 := hi.leWH
  have h4 := hi.cap
  have hti := hi.ti t
  have hact := hn.act t
  have hsync := hn.sync
  have hold := hi.oldOk
  -- no wrapped index equals a smaller one in the window
  have hne : ∀ a b, a < b → b < a + c.L → a % c.L ≠ b % c.L := by
    intro a b h5 h6 h7
    have := mod_inj h7 (by omega) h6
    omega
  have hfree : s.mark (s.H % c.L) = .invalid := hi.mFree s.H (by omega) (by omega)
  have hWH : s.W < s.H → s.W % c.L ≠ s.H % c.L := fun h5 => hne _ _ h5 (by omega)
  have hPW : s.P < s.W → s.P % c.L ≠ s.W % c.L := fun h5 => hne _ _ h5 (by omega)
  have hRP : s.R < s.P → s.R % c.L ≠ s.P % c.L := fun h5 => hne _ _ h5 (by omega)
  have hmP : c.async = false → s.P < s.W → s.mark (s.P % c.L) = .ready := by
    intro hA h5
    refine hi.mPW s.P (by omega) h5 ?_
    rcases hold with h6 | h6
    · rw [hA] at h6; cases h6
    · omega
  -- marks in the held region do not disturb position `R` while `R < P`
  have hR : ∀ k m, s.W ≤ k → k < s.H → s.R < s.P →
      upd s.mark (k % c.L) m (s.R % c.L) = s.mark (s.R % c.L) := by
    intro k m h5 h6 h7
    apply upd_ne
    exact hne _ _ (by omega) (by omega)
  unfold timelyAt at ht
  unfold Ring.stepT
  split <;> rename_i hpc <;> rw [hpc] at hti hact ht <;>
    simp only [TI, Own, isCons, reduceCtorEq, ne_eq, not_false_eq_true, true_implies] at hti hact
  all_goals (try exact h)
  case h_25 tk =>
    split
    · rename_i he
      have e : tk = s.P := (ht he).symm
      have h5 := hti.2 e
      refine h.go (t := t) rfl ?_ ?_ ?_ <;>
      simp only [go_W, go_H, go_P, go_R, go_mark, respW, respP, respR, hpc] <;> grind
    · refine h.go (t := t) rfl ?_ ?_ ?_ <;>
      simp only [go_W, go_H, go_P, go_R, go_mark, respW, respP, respR, hpc] <;> grind
  all_goals repeat' split
  all_goals
    refine h.go (t := t) rfl ?_ ?_ ?_ <;>
    simp only [go_W, go_H, go_P, go_R, go_mark, respW, respP, respR, hpc] <;>
    first
    | (simp; done)
    | grind [upd]

theorem Resp.step {c : Cfg α} {s : St α} (hi : Inv c s) (hn : NS c s) (h : Resp c s) (e : Ev α)
    (ht : timelyEv c s e) : Resp c (step c s e) := by
  have same : ∀ s' : St α, s'.pc = s.pc → s'.W = s.W → s'.H = s.H → s'.P = s.P → s'.R = s.R →
      s'.mark = s.mark → Resp c s' := by
    intro s' e1 e2 e3 e4 e5 e6
    refine h.go (t := 0) (p := s.pc 0) ?_ ?_ ?_ ?_
    · rw [e1]; funext u; split
      · rename_i e; rw [e]
      · rfl
    · rw [e2, e3, e6]; intro h1 h2; exact Or.inr ⟨rfl, h1, h2, id⟩
    · rw [e4, e2]; intro _ h1; exact Or.inr ⟨rfl, h1, id⟩
    · rw [e5, e4, e6]; intro _ h1 h2; exact Or.inr ⟨rfl, h1, h2, id⟩
  cases e with
  | run t => exact h.stepT hi hn ht
  | call t b =>
    unfold Ring.step
    simp only
    split
    · rename_i hpc
      split
      · refine h.go (t := t) rfl ?_ ?_ ?_ <;>
        simp only [go_W, go_H, go_P, go_R, go_mark, respW, respP, respR, hpc] <;> grind
      · exact h
    · exact h
  | started => unfold Ring.step; simp only; split <;> exact same _ rfl rfl rfl rfl rfl rfl
  | closing => exact same _ rfl rfl rfl rfl rfl rfl
  | stop => unfold Ring.step; simp only; (repeat' split) <;> exact same _ rfl rfl rfl rfl rfl rfl

theorem Resp.init (c : Cfg α) : Resp c (init c) := by
  constructor
  · intro h; exact absurd h (by simp [Ring.init])
  · intro _ h; exact absurd h (by simp [Ring.init])
  · intro _ h; exact absurd h (by simp [Ring.init])

/-- Both together along a timely run without stop. -/
theorem resp_run {c : Cfg α} : ∀ {es : List (Ev α)} {s : St α}, Inv c s → NS c s → Resp c s →
    Timely c s es → (∀ e ∈ es, e.noStop) → NS c (run c s es) ∧ Resp c (run c s es) := by
  intro es
  induction es with
  | nil => intro s _ h1 h2 _ _; exact ⟨h1, h2⟩
  | cons e es ih =>
    intro s h h1 h2 ht hn
    exact ih (h.step ht.1) (h1.step h e (hn e (by simp))) (h2.step h h1 e ht.1) ht.2
      (fun e' he' => hn e' (by simp [he']))

/-- Everything acquired is published when no thread holds a slot or is about to publish. -/
theorem all_published' {c : Cfg α} {s : St α} (hi : Inv c s) (hn : NS c s) (h : Resp c s)
    (hnp : ∀ t, pown (s.pc t) = none) (hnr : ∀ t, ¬ respW s (s.pc t)) : s.W = s.H := by
  apply Classical.byContradiction
  intro hne
  have hlt : s.W < s.H := by have := hi.leWH; omega
  rcases hi.mWH s.W (Nat.le_refl _) hlt with h1 | ⟨t, h1⟩ | ⟨_, h1⟩
  · obtain ⟨t, ht⟩ := h.w hlt h1
    exact hnr t ht
  · rw [hnp t] at h1; cases h1
  · rw [hn.lost] at h1; cases h1

/-- When no thread is inside a log statement everything acquired is published. -/
theorem all_published {c : Cfg α} {s : St α} (hi : Inv c s) (hn : NS c s) (h : Resp c s)
    (hidle : ∀ t, s.pc t = .idle ∨ (c.async = true ∧ isCons (s.pc t) = true)) : s.W = s.H := by
  apply all_published' hi hn h
  · intro t
    rcases hidle t with h1 | ⟨_, h1⟩
    · rw [h1]; rfl
    · revert h1; cases s.pc t <;> simp [isCons, pown]
  · intro t ht
    rcases hidle t with h2 | ⟨_, h2⟩
    · rw [h2] at ht; exact ht
    · revert h2 ht; cases s.pc t <;> simp [isCons, respW]

/-- On a sync channel everything is moreover processed and released. -/
theorem all_processed {c : Cfg α} {s : St α} (hA : c.async = false) (hi : Inv c s) (hn : NS c s)
    (h : Resp c s) (hidle : ∀ t, s.pc t = .idle) : s.R = s.H ∧ s.P = s.H ∧ s.W = s.H := by
  have hW := all_published hi hn h (fun t => Or.inl (hidle t))
  have h1 := hi.leRP
  have h2 := hi.lePW
  have hP : s.P = s.W := by
    apply Classical.byContradiction
    intro hne
    obtain ⟨t, ht⟩ := h.p hA (by omega)
    rw [hidle t] at ht; exact ht
  have hR : s.R = s.P := by
    apply Classical.byContradiction
    intro hne
    rcases hi.mRP s.R (Nat.le_refl _) (by omega) with h3 | ⟨t, h3⟩
    · obtain ⟨t, ht⟩ := h.r hA (by omega) h3
      rw [hidle t] at ht; exact ht
    · rw [hidle t] at h3; cases h3
  omega

end FNLog.Ring
