import Verif.Props.Ring

/-! # A log statement that does not go on -/

namespace FNLog.Ring
open FNLog

variable {α : Type}

/-- Inside the loops of HoldChannel, without a slot. -/
def waiting : PC α → Bool
  | .hChk _ _ | .hLoad _ _ | .hRead _ _ _ | .hCas _ _ _ | .hOut _ | .hSleep _ => true
  | _ => false

theorem step_pc_stalled {c : Cfg α} {s : St α} {e : Ev α} {t : Nat} (hp : s.pc t ≠ .idle) (he : e ≠ .run t) :
    (step c s e).pc t = s.pc t := by
  cases e with
  | run u => exact stepT_pc_other c s (fun h => he (h ▸ rfl))
  | call u b =>
    by_cases hu : u = t
    · subst hu
      simp only [step]
      try split <;> first | rfl | (rename_i h; exact absurd h hp)
    · simp only [step]
      split
      · split
        · exact if_neg fun h => hu h.symm
        · rfl
      · rfl
  | started => simp only [step]; split <;> rfl
  | closing => rfl
  | stop => simp only [step]; repeat' split
            all_goals rfl

theorem run_pc_stalled {c : Cfg α} {t : Nat} : ∀ {es : List (Ev α)} {s : St α}, s.pc t ≠ .idle → (∀ e ∈ es, e ≠ .run t) →
    (run c s es).pc t = s.pc t := by
  intro es
  induction es with
  | nil => intro s _ _; rfl
  | cons e es ih =>
    intro s hp he
    have h := step_pc_stalled (c := c) hp (he e (by simp))
    show (run c (step c s e) es).pc t = _
    rw [ih (by rw [h]; exact hp) fun x hx => he x (by simp [hx]), h]

theorem stepT_acquired (c : Cfg α) (s : St α) (t : Nat) : s.acquired <+: (stepT c s t).acquired := by
  unfold stepT
  repeat' split
  all_goals first | exact List.prefix_rfl | exact List.prefix_append _ _

theorem step_acquired (c : Cfg α) (s : St α) (e : Ev α) : s.acquired <+: (step c s e).acquired := by
  cases e with
  | run t => exact stepT_acquired c s t
  | call t b => simp only [step]; repeat' split
                all_goals exact List.prefix_rfl
  | started => simp only [step]; split <;> exact List.prefix_rfl
  | closing => exact List.prefix_rfl
  | stop => simp only [step]; repeat' split
            all_goals exact List.prefix_rfl

theorem run_acquired (c : Cfg α) : ∀ (es : List (Ev α)) (s : St α), s.acquired <+: (run c s es).acquired
  | [], _ => List.prefix_rfl
  | e :: es, s => (step_acquired c s e).trans (run_acquired c es _)

/-- A waiting statement goes on waiting unless it gets a slot. -/
theorem stepT_waiting {c : Cfg α} {s : St α} {u : Nat} (hw : waiting (s.pc u) = true) (hst : s.state = .running)
    (ha : (stepT c s u).acquired = s.acquired) : waiting ((stepT c s u).pc u) = true := by
  revert hw ha
  unfold stepT
  split
  all_goals rename_i hpc
  all_goals rw [hpc]
  all_goals intro hw ha
  all_goals first | (cases hw; done) | skip
  all_goals repeat' split at ha
  all_goals repeat' split
  all_goals first
    | (simp only [St.go, if_true]; rfl)
    | (rename_i h; exact absurd hst h)
    | (exfalso; have := congrArg List.length ha; simp [St.go] at this; done)
    | contradiction

/-- The queue is full behind a statement that does not go on: the waiting statements wait for ever. -/
theorem stalled_run {c : Cfg α} {t k : Nat} {rest : List α} : ∀ {es : List (Ev α)} {s : St α}, Inv c s → NS c s →
    s.pc t = .fill k rest → k + c.L = s.acquired.length + 1 → (∀ e ∈ es, e ≠ .run t) → (∀ e ∈ es, e.noStop) → Timely c s es →
    (run c s es).acquired = s.acquired ∧
    ∀ u, waiting (s.pc u) = true → waiting ((run c s es).pc u) = true := by
  intro es
  induction es with
  | nil => intro s _ _ _ _ _ _ _; exact ⟨rfl, fun _ h => h⟩
  | cons e es ih =>
    intro s hi hn ht hk he hs htm
    have hi' := hi.step htm.1
    have hpc : (step c s e).pc t = .fill k rest := (step_pc_stalled (by rw [ht]; nofun) (he e (by simp))).trans ht
    have hown := hi'.ti t
    rw [hpc] at hown
    have h1 : (step c s e).W ≤ k := hown.1.1
    have h2 := hi'.leRP
    have h3 := hi'.lePW
    have h4 := hi'.cap
    have h5 := hi'.len
    have hpre := step_acquired c s e
    have hacq : (step c s e).acquired = s.acquired := (hpre.eq_of_length_le (by omega)).symm
    obtain ⟨g1, g2⟩ := ih hi' (hn.step hi e (hs e (by simp))) hpc (by rw [hacq]; exact hk) (fun x hx => he x (by simp [hx]))
      (fun x hx => hs x (by simp [hx])) htm.2
    refine ⟨g1.trans hacq, fun u hu => g2 u ?_⟩
    by_cases heu : e = .run u
    · subst heu
      refine stepT_waiting hu ?_ hacq
      refine hn.act u ?_ ?_
      · intro h; rw [h] at hu; cases hu
      · revert hu; cases s.pc u <;> simp [waiting, isCons]
    · rw [step_pc_stalled (fun h => by rw [h] at hu; cases hu) heu]
      exact hu

end FNLog.Ring
