import Verif.Proof.WeakSc

/-! # A single thread sees its own writes -/

namespace FNLog.Weak
open FNLog FNLog.Ring

variable {α : Type}

/-- Everything is as thread `t0` left it. -/
structure Own1 (x : WSt α) (t0 : Nat) : Prop where
  h : x.s.H ≤ (x.view t0).h
  w : x.s.W ≤ (x.view t0).w
  p : x.s.P ≤ (x.view t0).p
  r : x.s.R ≤ (x.view t0).r
  m : ∀ i, x.mlen i ≤ (x.view t0).m i

theorem Own1.put {x : WSt α} {t0 : Nat} (h : Own1 x t0) {s' : St α} (hH : s'.H = x.s.H) (hW : s'.W = x.s.W)
    (hP : s'.P = x.s.P) (hR : s'.R = x.s.R) : Own1 (x.put s') t0 :=
  ⟨hH ▸ h.h, hW ▸ h.w, hP ▸ h.p, hR ▸ h.r, h.m⟩

theorem Own1.see {x : WSt α} {t0 : Nat} (h : Own1 x t0) (u : View) : Own1 (x.see t0 u) t0 := by
  have e : (x.see t0 u).view t0 = (x.view t0).join u := by simp [WSt.see, upd]
  refine ⟨?_, ?_, ?_, ?_, ?_⟩ <;> rw [e]
  · exact Nat.le_trans h.h (Nat.le_max_left _ _)
  · exact Nat.le_trans h.w (Nat.le_max_left _ _)
  · exact Nat.le_trans h.p (Nat.le_max_left _ _)
  · exact Nat.le_trans h.r (Nat.le_max_left _ _)
  · intro i; exact Nat.le_trans (h.m i) (Nat.le_max_left _ _)

theorem Own1.store {x : WSt α} {t0 : Nat} (h : Own1 x t0) (i : Nat) (m : Mark) : Own1 (x.store t0 i m) t0 := by
  refine ⟨?_, ?_, ?_, ?_, ?_⟩ <;> simp only [WSt.store, upd, if_true]
  · exact h.h
  · exact h.w
  · exact h.p
  · exact h.r
  · intro j
    by_cases hj : j = i
    · simp [hj]
    · simp [hj, h.m j]

theorem Own1.touch {x : WSt α} {t0 : Nat} (h : Own1 x t0) (i : Nat) : Own1 (x.touch t0 i) t0 := by
  refine ⟨?_, ?_, ?_, ?_, ?_⟩ <;> simp only [WSt.touch, upd, if_true]
  · exact h.h
  · exact h.w
  · exact h.p
  · exact h.r
  · exact h.m

theorem Own1.stepT {c : Cfg α} {x : WSt α} {t0 : Nat} (h : Own1 x t0) (n : Nat) (b : Bool) :
    Own1 (Weak.stepT c x t0 n b) t0 := by
  have hj : ∀ a b : Nat, a ≤ max a b := fun a b => Nat.le_max_left _ _
  unfold Weak.stepT Ring.stepT
  simp only
  cases hpc : x.s.pc t0 <;> (try simp only)
  case fill k rest =>
    cases rest with
    | nil => exact h.put rfl rfl rfl rfl
    | cons a rest => exact (h.touch _).put rfl rfl rfl rfl
  case hCas i tk body =>
    split
    · refine ⟨?_, ?_, ?_, ?_, ?_⟩ <;> simp only [WSt.put, WSt.swapH, upd, if_true, View.join, go_H, go_W, go_P, go_R]
      · exact Nat.le_refl _
      · exact Nat.le_trans h.w (hj _ _)
      · exact Nat.le_trans h.p (hj _ _)
      · exact Nat.le_trans h.r (hj _ _)
      · intro j; exact Nat.le_trans (h.m j) (hj _ _)
    · split <;> exact (h.see _).put rfl rfl rfl rfl
  case wCas tk =>
    split
    · refine ⟨?_, ?_, ?_, ?_, ?_⟩ <;> simp only [WSt.put, WSt.swapW, upd, if_true, View.join, go_H, go_W, go_P, go_R]
      · exact Nat.le_trans h.h (hj _ _)
      · exact Nat.le_refl _
      · exact Nat.le_trans h.p (hj _ _)
      · exact Nat.le_trans h.r (hj _ _)
      · intro j; exact Nat.le_trans (h.m j) (hj _ _)
    · exact (h.see _).put rfl rfl rfl rfl
  case cCas tk =>
    split
    · refine ⟨?_, ?_, ?_, ?_, ?_⟩ <;> simp only [WSt.put, WSt.swapP, upd, if_true, View.join, go_H, go_W, go_P, go_R]
      · exact Nat.le_trans h.h (hj _ _)
      · exact Nat.le_trans h.w (hj _ _)
      · exact Nat.le_refl _
      · exact Nat.le_trans h.r (hj _ _)
      · intro j; exact Nat.le_trans (h.m j) (hj _ _)
    · exact (h.see _).put rfl rfl rfl rfl
  case rCas tk =>
    split
    · refine ⟨?_, ?_, ?_, ?_, ?_⟩ <;> simp only [WSt.put, WSt.swapR, upd, if_true, View.join, go_H, go_W, go_P, go_R]
      · exact Nat.le_trans h.h (hj _ _)
      · exact Nat.le_trans h.w (hj _ _)
      · exact Nat.le_trans h.p (hj _ _)
      · exact Nat.le_refl _
      · intro j; exact Nat.le_trans (h.m j) (hj _ _)
    · exact (h.see _).put rfl rfl rfl rfl
  all_goals (repeat' split)
  all_goals first
    | exact h.put rfl rfl rfl rfl
    | exact (h.see _).put rfl rfl rfl rfl
    | exact (h.store _ _).put rfl rfl rfl rfl
    | exact (h.touch _).put rfl rfl rfl rfl

theorem Own1.newest {c : Cfg α} {x : WSt α} {t0 : Nat} (hi : WInv c x) (h : Own1 x t0) (n : Nat) :
    Newest c x t0 n := by
  have g := hi.thr t0
  have e1 : (x.view t0).h = x.s.H := Nat.le_antisymm g.bh h.h
  have e2 : (x.view t0).w = x.s.W := Nat.le_antisymm g.bw h.w
  have e3 : (x.view t0).p = x.s.P := Nat.le_antisymm g.bp h.p
  have e4 : (x.view t0).r = x.s.R := Nat.le_antisymm g.br h.r
  have e5 : ∀ i, (x.view t0).m i = x.mlen i := fun i => Nat.le_antisymm (g.bm i) (h.m i)
  exact ⟨by rw [e1, choose_self], by rw [e2, choose_self], by rw [e3, choose_self],
    by rw [e4, choose_self], fun k => by rw [e5, choose_self]⟩

/-- Events of thread `t0` only. -/
def WEv.by (t0 : Nat) : WEv α → Prop
  | .call t _ => t = t0
  | .run t _ _ => t = t0

/-- The event of the sequentially consistent model. -/
def WEv.sc : WEv α → Ev α
  | .call t body => .call t body
  | .run t _ _ => .run t

/-- Nobody else writes `channel_state_`, so that its tests see what the thread itself knows. -/
def Honest (c : Cfg α) : WSt α → List (WEv α) → Prop
  | _, [] => True
  | x, .call t body :: es => Honest c (step c x (.call t body)) es
  | x, .run t n b :: es => b = answer x.s (x.s.pc t) ∧ Honest c (step c x (.run t n b)) es

instance Honest.dec (c : Cfg α) : (x : WSt α) → (es : List (WEv α)) → Decidable (Honest c x es)
  | _, [] => inferInstanceAs (Decidable True)
  | x, .call t body :: es => Honest.dec c (step c x (.call t body)) es
  | x, .run t n b :: es =>
    haveI := Honest.dec c (step c x (.run t n b)) es
    inferInstanceAs (Decidable (b = answer x.s (x.s.pc t) ∧ Honest c (step c x (.run t n b)) es))

/-- A running sync channel stays running. -/
theorem state_running {c : Cfg α} {s : St α} (hA : c.async = false) (h : s.state = .running)
    (hp : ∀ u, s.pc u ≠ .cLoopW ∧ (∀ w, s.pc u ≠ .cLoopR w) ∧ s.pc u ≠ .cFin) (t : Nat) :
    (Ring.stepT c s t).state = .running ∧ ∀ u, (Ring.stepT c s t).pc u ≠ .cLoopW ∧
      (∀ w, (Ring.stepT c s t).pc u ≠ .cLoopR w) ∧ (Ring.stepT c s t).pc u ≠ .cFin := by
  have hpt := hp t
  unfold Ring.stepT
  cases hpc : s.pc t <;> simp only [hA, if_true, true_and] <;>
    (try (exact absurd hpc hpt.1)) <;> (try (exact absurd hpc (hpt.2.1 _))) <;>
    (try (exact absurd hpc hpt.2.2))
  case fill k rest =>
    cases rest <;> refine ⟨h, fun u => ?_⟩ <;> simp only [go_pc] <;> split <;>
      first | exact hp u | simp
  all_goals (repeat' split)
  all_goals first
    | exact ⟨h, hp⟩
    | exact ⟨h, fun u => by simp only [go_pc]; split <;> first | exact hp u | simp⟩
    | exact ⟨rfl, fun u => by simp only [go_pc]; split <;> first | exact hp u | simp⟩

theorem alone_same {c : Cfg α} {t0 : Nat} (hA : c.async = false) : ∀ (es : List (WEv α)) (x : WSt α) (s : St α),
    WInv c x → Own1 x t0 → x.s = { s with lgRunning := x.s.lgRunning } → s.lgRunning = true →
    s.state = .running →
    (∀ u, s.pc u ≠ .cLoopW ∧ (∀ w, s.pc u ≠ .cLoopR w) ∧ s.pc u ≠ .cFin) →
    Timely c x es → (∀ e ∈ es, e.by t0) → Honest c x es →
    Ring.Timely c s (es.map WEv.sc) ∧
    strip (Weak.run c x es).s = strip (Ring.run c s (es.map WEv.sc)) := by
  intro es
  induction es with
  | nil =>
    intro x s _ _ h _ _ _ _ _ _
    exact ⟨trivial, by show strip x.s = strip s; rw [h]; rfl⟩
  | cons e es ih =>
    intro x s hi ho h hlg hst hpcs ht hby hon
    have hstrip : strip x.s = strip s := by rw [h]; rfl
    have hby' := fun e' he' => hby e' (List.mem_cons_of_mem _ he')
    cases e with
    | run t n b =>
      have he : t = t0 := hby _ (List.mem_cons_self ..)
      subst he
      obtain ⟨hb, hon⟩ := hon
      obtain ⟨ht1, ht2⟩ := ht
      have hb2 : b = answer s (s.pc t) := by rw [hb, h]; rfl
      have hn := ho.newest hi n
      have h1 := newest_stepT hi hstrip hn
      rw [← hb2] at h1
      obtain ⟨hr1, hr2⟩ := state_running hA hst hpcs t
      have hlg' : (Ring.stepT c s t).lgRunning = true := by
        have : (Ring.stepT c s t).lgRunning = s.lgRunning := by
          unfold Ring.stepT; split <;> (repeat' split) <;> rfl
        rw [this, hlg]
      have hst' : (Weak.stepT c x t n b).s.state = .running := by
        rcases base_cases c x t n b with h2 | ⟨p, h2 | ⟨k, h2⟩, _⟩
        · rw [h2]
          have hxs : x.s.state = .running := by rw [h]; exact hst
          have hxp : ∀ u, x.s.pc u ≠ .cLoopW ∧ (∀ w, x.s.pc u ≠ .cLoopR w) ∧ x.s.pc u ≠ .cFin := by
            rw [h]; exact hpcs
          exact (state_running hA hxs hxp t).1
        · rw [h2]; show x.s.state = _; rw [h]; exact hst
        · rw [h2]; show x.s.state = _; rw [h]; exact hst
      have hnew : (Weak.stepT c x t n b).s =
          { Ring.stepT c s t with lgRunning := (Weak.stepT c x t n b).s.lgRunning } := by
        have := strip_eq h1
        rw [hst', ← hr1] at this
        exact this
      obtain ⟨r1, r2⟩ := ih (Weak.stepT c x t n b) (Ring.stepT c s t)
        (hi.stepT ht1) (ho.stepT n b) hnew hlg' hr1 hr2 ht2 hby' hon
      exact ⟨⟨(timelyAt_strip hstrip t).1 ht1, r1⟩, r2⟩
    | call t body =>
      by_cases hpc : s.pc t = .idle
      · have hxpc : x.s.pc t = .idle := by rw [h]; exact hpc
        have e1 : Ring.step c s (.call t body) =
            { s with calls := s.calls ++ [(t, body)] }.go t (.hChk 0 body) := by
          simp only [Ring.step, hpc, hlg, hst]; simp
        have e2 : Weak.step c x (.call t body) =
            x.put ({ x.s with calls := x.s.calls ++ [(t, body)] }.go t (.hChk 0 body)) := by
          simp only [Weak.step, hxpc]
        have hnew : (Weak.step c x (.call t body)).s = { Ring.step c s (.call t body) with
            lgRunning := (Weak.step c x (.call t body)).s.lgRunning } := by
          rw [e1, e2]; simp only [WSt.put]; rw [h]; rfl
        obtain ⟨r1, r2⟩ := ih (Weak.step c x (.call t body)) (Ring.step c s (.call t body))
          (hi.step _ (fun t' n' b' he => by cases he)) (by rw [e2]; exact ho.put rfl rfl rfl rfl) hnew
          (by rw [e1]; exact hlg) (by rw [e1]; exact hst)
          (by rw [e1]; intro u; simp only [go_pc]; split
              · simp
              · exact hpcs u) ht hby' hon
        exact ⟨⟨trivial, r1⟩, r2⟩
      · have hxpc : x.s.pc t ≠ .idle := by rw [h]; exact hpc
        have e1 : Ring.step c s (.call t body) = s := by
          simp only [Ring.step]
        have e2 : Weak.step c x (.call t body) = x := by
          simp only [Weak.step]
        have ht' : Timely c (Weak.step c x (.call t body)) es := ht
        have hon' : Honest c (Weak.step c x (.call t body)) es := hon
        rw [e2] at ht' hon'
        obtain ⟨r1, r2⟩ := ih x s hi ho h hlg hst hpcs ht' hby' hon'
        refine ⟨⟨trivial, ?_⟩, ?_⟩
        · show Ring.Timely c (Ring.step c s (.call t body)) _
          rw [e1]; exact r1
        · show strip (Weak.run c (Weak.step c x (.call t body)) es).s =
            strip (Ring.run c (Ring.step c s (.call t body)) (es.map WEv.sc))
          rw [e1, e2]; exact r2

end FNLog.Weak
