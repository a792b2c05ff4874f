import Verif.Proof.WeakOrd

/-! # Schedules in which every load returns the newest value -/

namespace FNLog.Weak
open FNLog FNLog.Ring

variable {α : Type}

/-- Everything but `channel_state_` and `logger_state_`. -/
def strip (s : St α) : St α := { s with state := .null, lgRunning := false }

/-- What a test of `channel_state_` gives at a program counter. -/
def answer (s : St α) (p : PC α) : Bool :=
  match p with
  | .cEnd => decide (s.state = .null)
  | _ => decide (s.state = .running)

/-- The loads of thread `t` return the newest values. -/
structure Newest (c : Cfg α) (x : WSt α) (t n : Nat) : Prop where
  h : choose (x.view t).h x.s.H n = x.s.H
  w : choose (x.view t).w x.s.W n = x.s.W
  p : choose (x.view t).p x.s.P n = x.s.P
  r : choose (x.view t).r x.s.R n = x.s.R
  m : ∀ k, choose ((x.view t).m (k % c.L)) (x.mlen (k % c.L)) n = x.mlen (k % c.L)

theorem strip_eq {s s' : St α} (h : strip s = strip s') :
    s = { s' with state := s.state, lgRunning := s.lgRunning } := by
  cases s; cases s'
  simp only [strip, St.mk.injEq, true_and] at h ⊢
  simp_all

theorem strip_go (s : St α) (t : Nat) (p : PC α) : strip (s.go t p) = (strip s).go t p := rfl

theorem newest_stepT {c : Cfg α} {x : WSt α} {s : St α} (hi : WInv c x) (hs : strip x.s = strip s) {t n : Nat}
    (hn : Newest c x t n) :
    strip (Weak.stepT c x t n (answer s (s.pc t))).s = strip (Ring.stepT c s t) := by
  have hval : ∀ i, x.vals i (x.mlen i) = x.s.mark i := fun i => by
    rw [hi.val i _ (Nat.le_refl _), hi.cur]
  have e := strip_eq hs
  obtain ⟨σ, hσ⟩ : ∃ σ, σ = x.s.state := ⟨_, rfl⟩
  obtain ⟨l, hl⟩ : ∃ l, l = x.s.lgRunning := ⟨_, rfl⟩
  rw [← hσ, ← hl] at e
  unfold Weak.stepT
  simp only
  rw [hn.h, hn.w, hn.p, hn.r]
  simp only [hn.m, hval]
  clear hval hn hi hs hσ hl
  rw [e]
  unfold Ring.stepT
  cases hpc : s.pc t <;> simp only [answer, WSt.put]
  case fill k rest => cases rest <;> rfl
  all_goals try rfl
  all_goals try simp only [decide_eq_true_eq, apply_ite strip]
  all_goals try rfl

theorem choose_big {lo hi n : Nat} (h1 : lo ≤ hi) (h2 : hi ≤ n) : choose lo hi n = hi := by
  unfold choose; omega

theorem bounded_below (f : Nat → Nat) : ∀ L, ∃ N, ∀ i, i < L → f i ≤ N := by
  intro L
  induction L with
  | zero => exact ⟨0, fun i hi => absurd hi (Nat.not_lt_zero _)⟩
  | succ L ih =>
    obtain ⟨N, hN⟩ := ih
    refine ⟨N + f L, fun i hi => ?_⟩
    rcases Nat.lt_succ_iff_lt_or_eq.1 hi with h | h
    · have := hN i h; omega
    · subst h; omega

theorem Newest.exists {c : Cfg α} {x : WSt α} (hi : WInv c x) (t : Nat) : ∃ n, Newest c x t n := by
  have hL : 0 < c.L := by
    have := hi.inv.cap; have := hi.inv.leRP; have := hi.inv.lePW; have := hi.inv.leWH; omega
  obtain ⟨N, hN⟩ := bounded_below x.mlen c.L
  have g := hi.thr t
  exact ⟨x.s.H + x.s.W + x.s.P + x.s.R + N, choose_big g.bh (by omega), choose_big g.bw (by omega),
    choose_big g.bp (by omega), choose_big g.br (by omega), fun k => choose_big (g.bm _)
      (by have := hN (k % c.L) (Nat.mod_lt _ hL); omega)⟩

theorem strip_inj {s s' : St α} (h : strip s = strip s') : s.H = s'.H ∧ s.W = s'.W ∧ s.P = s'.P ∧
    s.R = s'.R ∧ s.pc = s'.pc ∧ s.calls = s'.calls ∧ s.acquired = s'.acquired ∧ s.out = s'.out := by
  rw [strip_eq h]
  exact ⟨rfl, rfl, rfl, rfl, rfl, rfl, rfl, rfl⟩

theorem timelyAt_strip {c : Cfg α} {s s' : St α} (h : strip s = strip s') (t : Nat) :
    timelyAt c s t ↔ timelyAt c s' t := by
  rw [strip_eq h]; rfl

/-- Every schedule of the sequentially consistent model is a schedule of the weak model. -/
theorem sc_included {c : Cfg α} : ∀ (es : List (Ev α)) (x : WSt α) (s : St α), WInv c x →
    strip x.s = strip s → Ring.Timely c s es →
    ∃ ws, Timely c x ws ∧ strip (Weak.run c x ws).s = strip (Ring.run c s es) := by
  intro es
  induction es with
  | nil => intro x s _ h _; exact ⟨[], trivial, h⟩
  | cons e es ih =>
    intro x s hi h ht
    have silent : strip (Ring.step c s e) = strip s →
        ∃ ws, Timely c x ws ∧ strip (Weak.run c x ws).s = strip (Ring.run c s (e :: es)) :=
      fun h2 => ih x (Ring.step c s e) hi (h.trans h2.symm) ht.2
    cases e with
    | run t =>
      obtain ⟨n, hn⟩ := Newest.exists hi t
      have h1 := newest_stepT hi h hn
      have h2 : timelyAt c x.s t := (timelyAt_strip h t).2 ht.1
      obtain ⟨ws, hw1, hw2⟩ := ih (Weak.step c x (.run t n (answer s (s.pc t)))) (Ring.step c s (.run t))
        (hi.step _ (fun t' n' b' he => by cases he; exact h2)) h1 ht.2
      exact ⟨.run t n (answer s (s.pc t)) :: ws, ⟨h2, hw1⟩, hw2⟩
    | call t body =>
      by_cases hadm : s.pc t = .idle ∧ s.lgRunning = true ∧ s.state = .running
      · have hpc : x.s.pc t = .idle := by rw [strip_eq h]; exact hadm.1
        have h1 : strip (Weak.step c x (.call t body)).s = strip (Ring.step c s (.call t body)) := by
          have e1 : Ring.step c s (.call t body) =
              { s with calls := s.calls ++ [(t, body)] }.go t (.hChk 0 body) := by
            simp only [Ring.step, hadm.1, hadm.2]; simp
          have e2 : (Weak.step c x (.call t body)).s =
              { x.s with calls := x.s.calls ++ [(t, body)] }.go t (.hChk 0 body) := by
            simp only [Weak.step, hpc, WSt.put]
          rw [e1, e2, strip_eq h]; rfl
        obtain ⟨ws, hw1, hw2⟩ := ih (Weak.step c x (.call t body)) (Ring.step c s (.call t body))
          (hi.step _ (fun t' n' b' he => by cases he)) h1 ht.2
        exact ⟨.call t body :: ws, hw1, hw2⟩
      · refine silent ?_
        have : Ring.step c s (.call t body) = s := by
          simp only [Ring.step]
          split
          · rename_i hpc
            rw [if_neg (fun h3 => hadm ⟨hpc, h3⟩)]
          · rfl
        rw [this]
    | started => exact silent (by simp only [Ring.step]; split <;> rfl)
    | closing => exact silent rfl
    | stop => exact silent (by simp only [Ring.step]; (repeat' split) <;> rfl)

end FNLog.Weak
