import Verif.Proof.WritersStop
import Verif.Proof.Live

/-! # Several writer threads on one queue: after the stop all of them end -/

namespace FNLog.Ring
open FNLog

variable {α : Type}

/-- A line that was output and is the next to be released has a thread that will look at it again. -/
def RespR (c : Cfg α) (s : St α) : Prop := s.R < s.P → s.mark (s.R % c.L) = .invalid → ∃ t, respR s (s.pc t)

theorem RespR.go {c : Cfg α} {s s' : St α} (h : RespR c s) {t : Nat} {p : PC α}
    (hpc : s'.pc = fun u => if u = t then p else s.pc u)
    (hr : s'.R < s'.P → s'.mark (s'.R % c.L) = .invalid → respR s' p ∨
      (s'.R = s.R ∧ s.R < s.P ∧ s.mark (s.R % c.L) = .invalid ∧ (respR s (s.pc t) → respR s p))) :
    RespR c s' := by
  have hpt : s'.pc t = p := by rw [hpc]; simp
  have hpo : ∀ u, u ≠ t → s'.pc u = s.pc u := by intro u hu; rw [hpc]; simp [hu]
  intro h1 h2
  rcases hr h1 h2 with h3 | ⟨e, h3, h4, h5⟩
  · exact ⟨t, by rw [hpt]; exact h3⟩
  · obtain ⟨u, hu⟩ := h h3 h4
    have key : ∀ q, respR s q → respR s' q := by intro q; cases q <;> simp [respR, e]
    by_cases hut : u = t
    · subst hut
      exact ⟨u, by rw [hpt]; exact key _ (h5 hu)⟩
    · exact ⟨u, by rw [hpo u hut]; exact key _ hu⟩

theorem RespR.stepT {c : Cfg α} {s : St α} {t : Nat} (hi : InvM c s) (h : RespR c s) (ht : timelyAt c s t) :
    RespR c (stepT c s t) := by
  have h1 := hi.leRP
  have h2 := hi.lePW
  have h3 := hi.leWH
  have h4 : s.H < s.R + c.L := hi.cap
  have hti : TI c s t (s.pc t) := hi.ti t
  have hold : s.old ≤ s.R := by
    rcases hi.oldOk with h | h
    · cases h
    · exact h
  have hne : ∀ a b, a < b → b < a + c.L → a % c.L ≠ b % c.L := by
    intro a b h5 h6 h7
    have := mod_inj h7 (by omega) h6
    omega
  have hRP : s.R < s.P → s.R % c.L ≠ s.P % c.L := fun h5 => hne _ _ h5 (by omega)
  have hmP : s.P < s.W → s.mark (s.P % c.L) = .ready := fun h5 => hi.mPW s.P (Nat.le_refl _) h5 (by omega)
  have hR : ∀ k m, s.W ≤ k → k < s.H → s.R < s.P →
      upd s.mark (k % c.L) m (s.R % c.L) = s.mark (s.R % c.L) := by
    intro k m h5 h6 h7
    apply upd_ne
    exact hne _ _ (by omega) (by omega)
  unfold timelyAt at ht
  unfold Ring.stepT
  split <;> rename_i hpc <;> rw [hpc] at hti ht <;>
    simp only [TI, Own] at hti
  all_goals (try exact h)
  all_goals repeat' split
  all_goals
    refine h.go (t := t) rfl ?_ <;>
    simp only [go_P, go_R, go_mark, respR, hpc] <;>
    first
    | (simp; done)
    | grind [upd]

theorem RespR.step {c : Cfg α} {s : St α} (hi : InvM c s) (h : RespR c s) (e : MEv α) (ht : timelyMEv c s e) :
    RespR c (stepM c s e) := by
  have same : ∀ s' : St α, s'.pc = s.pc → s'.R = s.R → s'.P = s.P → s'.mark = s.mark → RespR c s' := by
    intro s' e1 e2 e3 e4
    refine h.go (t := 0) (p := s.pc 0) ?_ ?_
    · rw [e1]; funext u; split
      · rename_i e; rw [e]
      · rfl
    · rw [e2, e3, e4]; intro h1 h2; exact Or.inr ⟨rfl, h1, h2, id⟩
  cases e with
  | join t =>
    simp only [stepM]
    split
    · rename_i hpc
      split
      · refine h.go (t := t) rfl ?_
        simp only [go_R, go_P, go_mark, respR, hpc]; grind
      · exact h
    · exact h
  | ev e =>
    cases e with
    | run t => exact RespR.stepT hi h ht
    | call t b =>
      simp only [stepM]
      split
      · rename_i hpc
        split
        · refine h.go (t := t) rfl ?_
          simp only [go_R, go_P, go_mark, respR, hpc]; grind
        · exact h
      · exact h
    | started => simp only [stepM, Ring.step]; split <;> exact same _ rfl rfl rfl rfl
    | closing => exact same _ rfl rfl rfl rfl
    | stop => simp only [stepM, Ring.step]; (repeat' split) <;> exact same _ rfl rfl rfl rfl

theorem RespR.run {c : Cfg α} : ∀ {es : List (MEv α)} {s : St α}, InvM c s → RespR c s → TimelyM c s es → RespR c (runM c s es) := by
  intro es
  induction es with
  | nil => intro s _ h _; exact h
  | cons e es ih => intro s hi h ht; exact ih (InvM.step hi ht.1) (RespR.step hi h e ht.1) ht.2

theorem RespR.blank (c : Cfg α) : RespR c (blank c) := by
  intro h; exact absurd h (by simp [Ring.blank, Ring.init])

/-! ## After the stop -/

/-- The states after the events `σ`. -/
def execM (c : Cfg α) (s : St α) (σ : Nat → Ev α) : Nat → St α
  | 0 => s
  | n + 1 => stepM c (execM c s σ n) (.ev (σ n))

/-- What is known of an execution after the stop. -/
structure Quits (c : Cfg α) (n : Nat) (a : List (Nat × List α)) (s : St α) (σ : Nat → Ev α) : Prop where
  async : c.async = true
  timely : ∀ i, timelyEv c (execM c s σ i) (σ i)
  inv : InvM c s
  drain : DrainM n a s
  resp : RespR c s
  fair : ∀ t, isCons (s.pc t) = true → ∀ i, ∃ j, i ≤ j ∧ σ j = .run t

/-- Work that is left: lines to be taken and slots to be released. -/
def left (n : Nat) (s : St α) : Nat := (n - s.P) + (n - s.R)

theorem stepM_R_le (c : Cfg α) (s : St α) (e : MEv α) : s.R ≤ (stepM c s e).R := by
  cases e with
  | join t => simp only [stepM]; (repeat' split) <;> exact Nat.le_refl _
  | ev e =>
    cases e with
    | call t b => simp only [stepM]; (repeat' split) <;> exact Nat.le_refl _
    | run t =>
      simp only [stepM, step]
      unfold stepT
      cases s.pc t
      case fill k b => cases b <;> exact Nat.le_refl _
      all_goals
        simp only
        repeat' split
        all_goals simp
    | started => simp only [stepM, step]; (repeat' split) <;> exact Nat.le_refl _
    | closing => exact Nat.le_refl _
    | stop => simp only [stepM, step]; (repeat' split) <;> exact Nat.le_refl _

theorem runM_snoc (c : Cfg α) (s : St α) (es : List (MEv α)) (e : MEv α) : runM c s (es ++ [e]) = stepM c (runM c s es) e := by
  rw [runM_append]; rfl

theorem execM_eq (c : Cfg α) (σ : Nat → Ev α) (s : St α) (n : Nat) : execM c s σ n = runM c s (((List.range n).map σ).map .ev) := by
  induction n with
  | zero => rfl
  | succ n ih => rw [List.range_succ, List.map_append, List.map_append, List.map_cons, List.map_nil, List.map_cons, List.map_nil, runM_snoc, ← ih]; rfl

theorem execM_timely (c : Cfg α) (σ : Nat → Ev α) (s : St α) (n : Nat) (h : TimelyM c s (((List.range (n + 1)).map σ).map .ev)) :
    timelyEv c (execM c s σ n) (σ n) := by
  rw [List.range_succ, List.map_append, List.map_append] at h
  have := (TimelyM.append h).2
  rw [← execM_eq] at this
  exact this.1

theorem TimelyM.join {c : Cfg α} : ∀ {l l' : List (MEv α)} {s : St α}, TimelyM c s l → TimelyM c (runM c s l) l' → TimelyM c s (l ++ l') := by
  intro l
  induction l with
  | nil => intro l' s _ h; exact h
  | cons e l ih => intro l' s h h'; exact ⟨h.1, ih h.2 h'⟩

namespace Quits

variable {c : Cfg α} {n : Nat} {a : List (Nat × List α)} {s : St α} {σ : Nat → Ev α}

theorem all (h : Quits c n a s σ) (i : Nat) : InvM c (execM c s σ i) ∧ DrainM n a (execM c s σ i) ∧ RespR c (execM c s σ i) := by
  induction i with
  | zero => exact ⟨h.inv, h.drain, h.resp⟩
  | succ i ih => exact ⟨InvM.step ih.1 (h.timely i), ih.2.1.step h.async ih.1 (σ i) (h.timely i), RespR.step ih.1 ih.2.2 (.ev (σ i)) (h.timely i)⟩

theorem pc_other (h : Quits c n a s σ) {i t : Nat} (hr : σ i ≠ .run t) : (execM c s σ (i + 1)).pc t = (execM c s σ i).pc t := by
  have hst : (execM c s σ i).state ≠ .running := by rcases (h.all i).2.1.st with h | h <;> rw [h] <;> simp
  simp only [execM]
  cases he : σ i with
  | call u b => simp only [stepM, hst, if_false]; split <;> rfl
  | run u =>
    have hu : t ≠ u := fun e => hr (by rw [he, e])
    exact stepT_pc_ne c _ hu
  | started => simp only [stepM, step, hst, if_false]
  | closing => rfl
  | stop => simp only [stepM, step, hst, if_false]; split <;> simp [h.async] at *

theorem mono (h : Quits c n a s σ) (i : Nat) :
    left n (execM c s σ (i + 1)) < left n (execM c s σ i) ∨
    ((execM c s σ (i + 1)).P = (execM c s σ i).P ∧ (execM c s σ (i + 1)).R = (execM c s σ i).R) := by
  have h1 := stepM_P_le c (execM c s σ i) (.ev (σ i))
  have h2 := stepM_R_le c (execM c s σ i) (.ev (σ i))
  have h3 := (h.all (i + 1)).1.leRP
  have h4 := (h.all (i + 1)).1.lePW
  have h5 := (h.all (i + 1)).2.1.W
  simp only [execM] at *
  unfold left
  omega

theorem cons_stays (h : Quits c n a s σ) {t : Nat} (hc : isCons (s.pc t) = true) (i : Nat) :
    isCons ((execM c s σ i).pc t) = true := by
  induction i with
  | zero => exact hc
  | succ i ih =>
    by_cases hr : σ i = .run t
    · have hst : (execM c s σ i).state ≠ .running := by rcases (h.all i).2.1.st with h | h <;> rw [h] <;> simp
      simp only [execM, hr, stepM, step]
      unfold stepT
      cases hp : (execM c s σ i).pc t <;> rw [hp] at ih <;>
        first
        | (cases ih; done)
        | (simp only [h.async, Bool.true_eq_false, if_false, hst]
           repeat' split
           all_goals simp [hp]
           all_goals rfl)
    · rw [h.pc_other hr]; exact ih

/-- Nobody becomes a writer any more. -/
theorem cons_back (h : Quits c n a s σ) {t j : Nat} (hj : isCons ((execM c s σ j).pc t) = true) : isCons (s.pc t) = true := by
  apply Classical.byContradiction
  intro hn
  have hn : isCons (s.pc t) = false := by revert hn; cases isCons (s.pc t) <;> simp
  have hid : ∀ k, (execM c s σ k).pc t = .idle := by
    intro k
    induction k with
    | zero => exact h.drain.idle t hn
    | succ k ih =>
      by_cases hr : σ k = .run t
      · simp only [execM, hr, stepM, step]
        unfold stepT
        rw [ih]; exact ih
      · rw [h.pc_other hr]; exact ih
  rw [hid j] at hj; cases hj

/-- One mark is only cleared any more. -/
theorem mark_stays (h : Quits c n a s σ) {i j : Nat} (hm : (execM c s σ i).mark j = .invalid) : (execM c s σ (i + 1)).mark j = .invalid := by
  have hst : (execM c s σ i).state ≠ .running := by rcases (h.all i).2.1.st with h | h <;> rw [h] <;> simp
  simp only [execM]
  cases he : σ i with
  | call u b => simp only [stepM, hst, if_false]; split <;> exact hm
  | run u =>
    have hidle := (h.all i).2.1.idle u
    simp only [stepM, step]
    unfold stepT
    cases hp : (execM c s σ i).pc u <;> rw [hp] at hidle <;> simp only [isCons, reduceCtorEq, imp_false, not_true_eq_false] at hidle <;>
      simp only <;> (repeat' split) <;> (try exact hm)
    simp only [go_mark, upd]
    split
    · rfl
    · exact hm
  | started => simp only [stepM, step, hst, if_false]; exact hm
  | closing => exact hm
  | stop => simp only [stepM, step, hst, if_false]; split <;> exact hm

/-- Steps of the responsible thread until it releases the slot. -/
def rankR : PC α → Nat
  | .cStat _ => 6
  | .cBytes _ => 5
  | .rLoad => 4
  | .rProc _ => 3
  | .rMark _ => 2
  | .rCas _ => 1
  | _ => 0

theorem release (h : Quits c n a s σ) {i t : Nat} (h1 : (execM c s σ i).R < (execM c s σ i).P)
    (h2 : (execM c s σ i).mark ((execM c s σ i).R % c.L) = .invalid) (ht : respR (execM c s σ i) ((execM c s σ i).pc t)) :
    ∃ j, i ≤ j ∧ left n (execM c s σ j) < left n (execM c s σ i) := by
  refine fair_rank (σ := σ) (t := t) (I := fun j => respR (execM c s σ j) ((execM c s σ j).pc t) ∧ (execM c s σ j).P = (execM c s σ i).P ∧
      (execM c s σ j).R = (execM c s σ i).R ∧ (execM c s σ j).mark ((execM c s σ i).R % c.L) = .invalid)
    (r := fun j => rankR ((execM c s σ j).pc t)) ?_ ?_ ?_ i ⟨ht, rfl, rfl, h2⟩
  · rintro j ⟨hj, -⟩
    have : isCons ((execM c s σ j).pc t) = true := by revert hj; cases (execM c s σ j).pc t <;> simp [respR, isCons]
    have := h.cons_back this
    exact h.fair t this j
  · rintro j ⟨g1, g2, g3, g4⟩ hr
    rcases h.mono j with hm | ⟨m1, m2⟩
    · left; unfold left at *; omega
    · right
      have e := h.pc_other hr
      refine ⟨⟨?_, m1.trans g2, m2.trans g3, h.mark_stays g4⟩, by rw [e]; exact Nat.le_refl _⟩
      rw [e]
      revert g1; cases (execM c s σ j).pc t <;> simp [respR, m2]
  · rintro j ⟨g1, g2, g3, g4⟩ hr
    rcases h.mono j with hm | ⟨m1, m2⟩
    · left; unfold left at *; omega
    · right
      have hm' := h.mark_stays g4
      have k1 := (h.all j).1.lePW
      have k2 := (h.all j).1.leWH
      have k3 : (execM c s σ j).H < (execM c s σ j).R + c.L := (h.all j).1.cap
      have hne : (execM c s σ j).R % c.L ≠ (execM c s σ j).P % c.L := by
        intro e
        have := mod_inj e (by omega) (by omega)
        omega
      refine ⟨⟨?_, m1.trans g2, m2.trans g3, hm'⟩, ?_⟩ <;> revert g1 m2 m1 <;> rw [← g3] at g4 <;>
        simp only [execM, hr, stepM, step] <;> unfold stepT <;>
        cases hp : (execM c s σ j).pc t <;> simp only [respR, false_implies, true_implies] <;> (try intro g1; try subst g1) <;>
        (try simp only [g4, hne, ne_eq, not_true_eq_false, if_false, if_true]) <;> simp [rankR] <;> (try omega)

/-- The thread that has taken the line clears its mark. -/
theorem clear (h : Quits c n a s σ) {i t : Nat} (h1 : (execM c s σ i).R < (execM c s σ i).P)
    (ht : cown ((execM c s σ i).pc t) = some (execM c s σ i).R) :
    ∃ j, i ≤ j ∧ (left n (execM c s σ j) < left n (execM c s σ i) ∨ ((execM c s σ j).P = (execM c s σ i).P ∧
      (execM c s σ j).R = (execM c s σ i).R ∧ (execM c s σ j).mark ((execM c s σ i).R % c.L) = .invalid)) := by
  refine fair_rank (σ := σ) (t := t) (I := fun j => cown ((execM c s σ j).pc t) = some (execM c s σ i).R ∧ (execM c s σ j).P = (execM c s σ i).P ∧
      (execM c s σ j).R = (execM c s σ i).R)
    (r := fun j => match (execM c s σ j).pc t with | .cDisp _ => 1 | _ => 0) ?_ ?_ ?_ i ⟨ht, rfl, rfl⟩
  · rintro j ⟨hj, -⟩
    have : isCons ((execM c s σ j).pc t) = true := by revert hj; cases (execM c s σ j).pc t <;> simp [cown, isCons]
    exact h.fair t (h.cons_back this) j
  · rintro j ⟨g1, g2, g3⟩ hr
    rcases h.mono j with hm | ⟨m1, m2⟩
    · left; left; unfold left at *; omega
    · right
      have e := h.pc_other hr
      exact ⟨⟨by rw [e]; exact g1, m1.trans g2, m2.trans g3⟩, by rw [e]; exact Nat.le_refl _⟩
  · rintro j ⟨g1, g2, g3⟩ hr
    rcases h.mono j with hm | ⟨m1, m2⟩
    · left; left; unfold left at *; omega
    · rw [g2] at m1
      rw [g3] at m2
      rw [m1, m2]
      simp only [execM, hr, stepM, step]
      unfold stepT
      cases hp : (execM c s σ j).pc t <;> rw [hp] at g1 <;> simp only [cown, reduceCtorEq, Option.some.injEq] at g1
      · right; subst g1; simp [cown]
      · left; right; subst g1; simp [upd]

/-- Steps of a writer until it takes the next line, all lines taken being released. -/
def rankT (p : Nat) : PC α → Nat
  | .cCas tk => if tk = p then 0 else 7
  | .cWrite tk => if tk = p then 1 else 8
  | .cLoad => 2
  | .cLoopR _ => 3
  | .cLoopW => 4
  | .cLoop => 5
  | .cEnd => 6
  | .rProc tk => if tk = p then 3 else 7
  | .rLoad => 4
  | .rCas _ => 5
  | .rMark _ => 6
  | .cBytes _ => 5
  | .cStat _ => 6
  | _ => 0

/-- Steps of a writer until it ends, all lines being released. -/
def rankF (p : Nat) : PC α → Nat
  | .cFin => 0
  | .cLoopR _ => 1
  | .cLoopW => 2
  | .cLoop => 3
  | .cEnd => 4
  | .cCas _ => 5
  | .cWrite _ => 6
  | .cLoad => 7
  | .rProc tk => if tk = p then 8 else 12
  | .rLoad => 9
  | .rCas _ => 10
  | .rMark _ => 11
  | .cBytes _ => 10
  | .cStat _ => 11
  | _ => 0

theorem take (h : Quits c n a s σ) {i t : Nat} (hc : isCons (s.pc t) = true) (h1 : (execM c s σ i).R = (execM c s σ i).P)
    (h2 : (execM c s σ i).P < n) : ∃ j, i ≤ j ∧ left n (execM c s σ j) < left n (execM c s σ i) := by
  refine fair_rank (σ := σ) (t := t) (I := fun j => (execM c s σ j).P = (execM c s σ i).P ∧ (execM c s σ j).R = (execM c s σ i).P)
    (r := fun j => rankT (execM c s σ i).P ((execM c s σ j).pc t)) (fun j _ => h.fair t hc j) ?_ ?_ i ⟨rfl, h1⟩
  · rintro j ⟨g2, g3⟩ hr
    rcases h.mono j with hm | ⟨m1, m2⟩
    · left; unfold left at *; omega
    · right
      have e := h.pc_other hr
      exact ⟨⟨m1.trans g2, m2.trans g3⟩, by rw [e]; exact Nat.le_refl _⟩
  · rintro j ⟨g2, g3⟩ hr
    rcases h.mono j with hm | ⟨m1, m2⟩
    · left; unfold left at *; omega
    · right
      refine ⟨⟨m1.trans g2, m2.trans g3⟩, ?_⟩
      obtain ⟨hi, hd, -⟩ := h.all j
      have hst : (execM c s σ j).state ≠ .running ∧ (execM c s σ j).state ≠ .null := by rcases hd.st with h | h <;> rw [h] <;> simp
      have k1 := hd.W
      have k2 := hd.H
      have k3 : (execM c s σ j).H < (execM c s σ j).R + c.L := hi.cap
      have hne : (execM c s σ i).P % c.L ≠ n % c.L := by
        intro e
        have := mod_inj e (by omega) (by omega)
        omega
      have hcj := h.cons_stays hc j
      have hpw := hd.pcw t
      have hti : TI c (execM c s σ j) t ((execM c s σ j).pc t) := hi.ti t
      have htm := h.timely j
      rw [hr] at htm
      simp only [timelyEv] at htm
      unfold timelyAt at htm
      revert m1
      simp only [execM, hr, stepM, step]
      unfold stepT
      cases hp : (execM c s σ j).pc t <;> rw [hp] at hcj hpw hti htm <;> simp only [isCons, reduceCtorEq] at hcj <;>
        simp only [TI] at hti <;> simp only [h.async, Bool.true_eq_false, if_false, hst, g2, g3, k1] at hti hpw htm ⊢ <;>
        (repeat' split) <;> simp [rankT] <;> grind

theorem advance (h : Quits c n a s σ) {t : Nat} (hc : isCons (s.pc t) = true) {i : Nat} (h1 : (execM c s σ i).R < n) :
    ∃ j, i ≤ j ∧ left n (execM c s σ j) < left n (execM c s σ i) := by
  obtain ⟨hi, hd, hr⟩ := h.all i
  have h2 := hi.leRP
  by_cases he : (execM c s σ i).R = (execM c s σ i).P
  · exact h.take hc he (by omega)
  · have hlt : (execM c s σ i).R < (execM c s σ i).P := by omega
    have inv : ∀ i', i ≤ i' → (execM c s σ i').P = (execM c s σ i).P → (execM c s σ i').R = (execM c s σ i).R →
        (execM c s σ i').mark ((execM c s σ i).R % c.L) = .invalid → ∃ j, i ≤ j ∧ left n (execM c s σ j) < left n (execM c s σ i) := by
      intro i' hle e1 e2 e3
      obtain ⟨u, hu⟩ := (h.all i').2.2 (by omega) (by rw [e2]; exact e3)
      obtain ⟨j, hj1, hj2⟩ := h.release (t := u) (by omega) (by rw [e2]; exact e3) hu
      refine ⟨j, by omega, ?_⟩
      have : left n (execM c s σ i') = left n (execM c s σ i) := by unfold left; rw [e1, e2]
      omega
    rcases hi.mRP _ (Nat.le_refl _) hlt with hm | ⟨u, hu⟩
    · exact inv i (Nat.le_refl _) rfl rfl hm
    · obtain ⟨j, hj, hj1 | ⟨e1, e2, e3⟩⟩ := h.clear hlt hu
      · exact ⟨j, hj, hj1⟩
      · exact inv j hj e1 e2 e3

theorem released (h : Quits c n a s σ) {t : Nat} (hc : isCons (s.pc t) = true) : ∀ i, ∃ j, i ≤ j ∧ (execM c s σ j).R = n := by
  have key : ∀ k i, left n (execM c s σ i) ≤ k → ∃ j, i ≤ j ∧ (execM c s σ j).R = n := by
    intro k
    induction k with
    | zero =>
      intro i hi
      refine ⟨i, Nat.le_refl _, ?_⟩
      have h1 := (h.all i).1.leRP
      have h2 := (h.all i).1.lePW
      have h3 := (h.all i).2.1.W
      unfold left at hi
      omega
    | succ k ih =>
      intro i hi
      by_cases he : (execM c s σ i).R = n
      · exact ⟨i, Nat.le_refl _, he⟩
      · have h1 := (h.all i).1.leRP
        have h2 := (h.all i).1.lePW
        have h3 := (h.all i).2.1.W
        obtain ⟨j, hj1, hj2⟩ := h.advance hc (i := i) (by omega)
        obtain ⟨j', hj3, hj4⟩ := ih j (by omega)
        exact ⟨j', by omega, hj4⟩
  exact fun i => key _ i (Nat.le_refl _)

/-- Every writer ends. -/
theorem ends (h : Quits c n a s σ) {t : Nat} (hc : isCons (s.pc t) = true) : ∃ j, (execM c s σ j).pc t = .done := by
  obtain ⟨i, -, hR⟩ := h.released hc 0
  obtain ⟨j, -, hj⟩ : ∃ j, i ≤ j ∧ (execM c s σ j).pc t = .done := by
    refine fair_rank (σ := σ) (t := t) (I := fun j => (execM c s σ j).R = n) (G := fun j => (execM c s σ j).pc t = .done)
      (r := fun j => rankF n ((execM c s σ j).pc t)) (fun j _ => h.fair t hc j) ?_ ?_ i hR
    · intro j g hr
      right
      have h0 := stepM_R_le c (execM c s σ j) (.ev (σ j))
      have h1 := (h.all (j + 1)).1.leRP
      have h2 := (h.all (j + 1)).1.lePW
      have h3 := (h.all (j + 1)).2.1.W
      refine ⟨?_, by rw [h.pc_other hr]; exact Nat.le_refl _⟩
      simp only [execM] at *
      omega
    · intro j g hr
      obtain ⟨hi, hd, -⟩ := h.all j
      have h0 := stepM_R_le c (execM c s σ j) (.ev (σ j))
      have h1 := (h.all (j + 1)).1.leRP
      have h2 := (h.all (j + 1)).1.lePW
      have h3 := (h.all (j + 1)).2.1.W
      have hR' : (execM c s σ (j + 1)).R = n := by
        simp only [execM] at *
        omega
      have hst : (execM c s σ j).state ≠ .running ∧ (execM c s σ j).state ≠ .null := by rcases hd.st with h | h <;> rw [h] <;> simp
      have k1 := hd.W
      have k2 := hi.leRP
      have k3 := hi.lePW
      have kP : (execM c s σ j).P = n := by omega
      have hcj := h.cons_stays hc j
      have hpw := hd.pcw t
      have hti : TI c (execM c s σ j) t ((execM c s σ j).pc t) := hi.ti t
      have htm := h.timely j
      rw [hr] at htm
      simp only [timelyEv] at htm
      unfold timelyAt at htm
      rw [show ((execM c s σ (j + 1)).R = n) = True from eq_true hR']
      simp only [execM, hr, stepM, step]
      unfold stepT
      cases hp : (execM c s σ j).pc t <;> rw [hp] at hcj hpw hti htm <;> simp only [isCons, reduceCtorEq] at hcj <;>
        simp only [TI] at hti <;> simp only [h.async, Bool.true_eq_false, if_false, hst, g, kP, k1] at hti hpw htm ⊢ <;>
        (repeat' split) <;> simp [rankF, hp] <;> grind
  exact ⟨j, hj⟩

theorem done_stays (h : Quits c n a s σ) {t i j : Nat} (hij : i ≤ j) (hd : (execM c s σ i).pc t = .done) : (execM c s σ j).pc t = .done := by
  obtain ⟨d, rfl⟩ := Nat.le.dest hij
  clear hij
  induction d with
  | zero => exact hd
  | succ d ih =>
    show (execM c s σ (i + d + 1)).pc t = _
    by_cases hr : σ (i + d) = .run t
    · simp only [execM, hr, stepM, step]
      unfold stepT
      rw [ih]; exact ih
    · rw [h.pc_other hr]; exact ih

end Quits

end FNLog.Ring
