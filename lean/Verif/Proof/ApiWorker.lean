import Verif.Proof.ApiLog

/-! # Lemmas for C112: the threads of the channels, whatever the states of the channels are -/

namespace FNLog.Api
open FNLog.Ring (upd upd_same upd_ne)
open FNLog.Spec

def NoWorker (s : St) : Prop := ∀ j, s.worker j = .none

/-- Outside of the critical sections. -/
def WOut (s : St) : Prop := (s.state = .uninit ∧ NoWorker s) ∨ s.state = .running

/-- What a thread that has the lock knows. -/
def WHere (s : St) : Pc → Prop
  | .stSize _ | .inLoad _ _ | .stMark _ => s.state = .uninit ∧ NoWorker s
  | .spMark => s.state = .running
  | .stChan _ i => s.state = .initing ∧ ∀ j, i ≤ j → s.worker j = .none
  | .stPoll _ i _ | .stNull _ i | .stRun _ i => s.state = .initing ∧ ∀ j, i < j → s.worker j = .none
  | .stDone _ => s.state = .initing
  | .stFail _ => s.state = .initing ∧ NoWorker s
  | .spDone => s.state = .closing ∧ NoWorker s
  | .scChan u i | .scState u i | .scMark u i | .scJoin u i => s.state = u.state ∧ ∀ j, j < i → s.worker j = .none
  | .scNull u i => s.state = u.state ∧ ∀ j, j ≤ i → s.worker j = .none
  | _ => WOut s

structure WInv (s : St) : Prop where
  lock : LockInv s
  base : ∀ j, s.worker j ≠ .none → j < s.size ∧ s.async j = true
  here : ∀ t, 0 < (s.pc t).depth → WHere s (s.pc t)
  outside : (∀ t, (s.pc t).depth = 0) → WOut s

theorem wHere_out {s : St} {p : Pc} (h : p.depth = 0) : WHere s p ↔ WOut s := by
  cases p <;> first | exact Iff.rfl | skip
  all_goals first | (cases h; done) | skip
  all_goals first | (rename_i u i; cases u <;> cases h; done) | skip

theorem WHere.frame {s s' : St} {p : Pc} (h : WHere s p) (h1 : s'.state = s.state) (h2 : ∀ j, s.worker j = .none → s'.worker j = .none) :
    WHere s' p := by
  have ho : WOut s → WOut s' := by
    rintro (k | k)
    · exact Or.inl ⟨h1.trans k.1, fun j => h2 j (k.2 j)⟩
    · exact Or.inr (h1.trans k)
  cases p
  all_goals first
    | exact ho h
    | exact h1.trans h
    | exact ⟨h1.trans h.1, fun j => h2 j (h.2 j)⟩
    | exact ⟨h1.trans h.1, fun j hj => h2 j (h.2 j hj)⟩

theorem WInv.workI {s : St} (h : WInv s) (i : Nat) (e : Env) : WInv (workI s i e) := by
  have f := work_frame s i e
  refine ⟨h.lock.workI i e, fun j hj => ?_, fun t ht => ?_, fun ht => ?_⟩
  · have := h.base j fun k => hj (none_work k i e)
    rw [f.2.1, f.2.2.1]
    exact this
  · rw [f.2.2.2.2.1] at ht ⊢
    exact (h.here t ht).frame f.1 fun j hj => none_work hj i e
  · rw [f.2.2.2.2.1] at ht
    rcases h.outside ht with k | k
    · exact Or.inl ⟨f.1.trans k.1, fun j => none_work (k.2 j) i e⟩
    · exact Or.inr (f.1.trans k)

theorem wHere_startRet {s : St} {o : Bool} (ok : Bool) (h : WOut s) : WHere s (startRet o ok) := by cases o <;> exact h
theorem wHere_initRet {s : St} {o ok : Bool} (h : WOut s) : WHere s (initRet o ok) := by cases o <;> cases ok <;> exact h

theorem WHere.run {s : St} {t : Nat} (h : WHere s (s.pc t)) (hb : ∀ j, s.worker j ≠ .none → j < s.size ∧ s.async j = true) (e : Env) :
    WHere (runT s t e) ((runT s t e).pc t) ∧ ∀ j, (runT s t e).worker j ≠ .none → j < (runT s t e).size ∧ (runT s t e).async j = true := by
  have g : ∀ (s' : St) (p : Pc), WHere s' p → (∀ j, s'.worker j ≠ .none → j < s'.size ∧ s'.async j = true) →
      WHere (s'.goto t p) ((s'.goto t p).pc t) ∧
        ∀ j, (s'.goto t p).worker j ≠ .none → j < (s'.goto t p).size ∧ (s'.goto t p).async j = true := by
    intro s' p h1 h2
    rw [goto_pc]
    exact ⟨h1.frame rfl fun _ hj => hj, h2⟩
  have hl : ∀ p, WHere s p → WHere (locked s t p) ((locked s t p).pc t) ∧
      ∀ j, (locked s t p).worker j ≠ .none → j < (locked s t p).size ∧ (locked s t p).async j = true := by
    intro p hp
    unfold locked
    split
    · exact g _ _ (hp.frame rfl fun _ hj => hj) hb
    · exact ⟨h, hb⟩
  unfold runT
  cases hp : s.pc t <;> rw [hp] at h <;> dsimp only
  case idle => rw [hp]; exact ⟨h, hb⟩
  case hot x =>
    have h2 := hotStep_pc s (.api t) e x
    refine g _ _ ?_ ?_
    · have ho : WOut (hotStep s (.api t) e x).2 := by
        rcases h with k | k
        · exact Or.inl ⟨h2.2.2.2.1.trans k.1, fun j => by rw [h2.2.1]; exact k.2 j⟩
        · exact Or.inr (h2.2.2.2.1.trans k)
      split <;> exact ho
    · rw [h2.2.1, h2.2.2.2.2.1, h2.2.2.2.2.2.1]
      exact hb
  case stState o =>
    refine g _ _ ?_ hb
    split
    · exact h
    · exact wHere_startRet _ h
  case stShm o =>
    refine g _ _ ?_ hb
    split
    · exact h
    · exact wHere_startRet _ h
  case stLock o => exact hl _ h
  case stState2 o =>
    refine g _ _ ?_ hb
    split
    · rename_i hx
      rcases h with k | k
      · exact k
      · rw [hx] at k; cases k
    · exact h
  case stSize o =>
    refine g _ _ ?_ hb
    split
    · exact h
    · exact Or.inl h
  case stMark o => exact g _ _ ⟨rfl, fun j _ => h.2 j⟩ hb
  case stChan o i =>
    split
    · rename_i hi
      split
      · rename_i ha
        refine g _ _ ⟨h.1, fun j hj => ?_⟩ fun j hj => ?_
        · show upd s.worker i _ j = _
          rw [upd_ne _ _ (by omega)]
          exact h.2 j (by omega)
        · by_cases hji : j = i
          · subst hji; exact ⟨hi, ha⟩
          · exact hb j fun hn => hj ((upd_ne _ _ hji).trans hn)
      · exact g _ _ ⟨h.1, fun j hj => h.2 j (by omega)⟩ hb
    · exact g _ _ h.1 hb
  case stPoll o i n =>
    refine g _ _ ?_ hb
    split <;> exact h
  case stNull o i =>
    refine g _ _ ?_ hb
    split
    · exact ⟨h.1, fun j hj => absurd hj (Nat.not_lt_zero _)⟩
    · exact h
  case stRun o i =>
    refine g _ _ ?_ hb
    split
    · exact ⟨h.1, fun j hj => h.2 j hj⟩
    · exact ⟨h.1, fun j hj => absurd hj (Nat.not_lt_zero _)⟩
  case stDone o => exact g _ _ (Or.inr rfl) hb
  case stFail o => exact g _ _ (Or.inl ⟨rfl, h.2⟩) hb
  case stUnlock o ok => exact g _ _ (wHere_startRet _ h) hb
  case spSize =>
    refine g _ _ ?_ hb
    split <;> exact h
  case spState =>
    refine g _ _ ?_ hb
    split <;> exact h
  case spLock => exact hl _ h
  case spState2 =>
    refine g _ _ ?_ hb
    split
    · rename_i hx; exact hx
    · exact h
  case spMark => exact g _ _ ⟨rfl, fun j hj => absurd hj (Nat.not_lt_zero _)⟩ hb
  case spDone => exact g _ _ (Or.inl ⟨rfl, h.2⟩) hb
  case spUnlock ok => exact g _ _ h hb
  case scChan u i =>
    split
    · split
      · refine g _ _ ?_ hb
        split
        · rename_i hw
          refine ⟨h.1, fun j hj => ?_⟩
          by_cases hji : j = i
          · subst hji; exact hw
          · exact h.2 j (by omega)
        · exact h
      · rename_i ha
        refine g _ _ ⟨h.1, fun j hj => ?_⟩ hb
        by_cases hji : j = i
        · subst hji
          exact Classical.byContradiction fun hw => ha (hb j hw).2
        · exact h.2 j (by omega)
    · rename_i hi
      have hn : NoWorker s := fun j => Classical.byContradiction fun hw => hw (h.2 j (by have := (hb j hw).1; omega))
      refine g _ _ ?_ hb
      cases u <;> exact ⟨h.1, hn⟩
  case scState u i =>
    refine g _ _ ?_ hb
    split <;> exact h
  case scMark u i => exact g _ _ h hb
  case scJoin u i =>
    split
    · refine g _ _ ⟨h.1, fun j hj => ?_⟩ fun j hj => ?_
      · show upd s.worker i _ j = _
        by_cases hji : j = i
        · subst hji; exact upd_same _ _ _
        · rw [upd_ne _ _ hji]; exact h.2 j (by omega)
      · by_cases hji : j = i
        · subst hji; exact absurd (upd_same _ _ _) hj
        · exact hb j fun hn => hj ((upd_ne _ _ hji).trans hn)
    · rw [hp]; exact ⟨h, hb⟩
  case scNull u i => exact g _ _ ⟨h.1, fun j hj => h.2 j (by omega)⟩ hb
  case inState o x =>
    cases x with
    | none => exact g _ _ (wHere_initRet h) hb
    | some x =>
      refine g _ _ ?_ hb
      split
      · exact h
      · exact wHere_initRet h
  case inLock o x => exact hl _ h
  case inState2 o x =>
    refine g _ _ ?_ hb
    split
    · rename_i hx
      rcases h with k | k
      · exact k
      · rw [hx] at k; cases k
    · exact h
  case inLoad o x =>
    split
    · exact g _ _ (Or.inl h) fun j hj => absurd (h.2 j) hj
    · exact g _ _ (Or.inl h) hb
  case inUnlock o ok => exact g _ _ (wHere_initRet h) hb
  case whState p x =>
    refine g _ _ ?_ hb
    split <;> exact h
  case whLock p x =>
    refine hl _ ?_
    split <;> exact h
  case whState2 x =>
    refine g _ _ ?_ hb
    split <;> exact h
  case whUnlock ok => exact g _ _ h hb

theorem WInv.runT {s : St} (h : WInv s) (t : Nat) (e : Env) : WInv (runT s t e) := by
  by_cases hu : ∃ u, u ≠ t ∧ 0 < (s.pc u).depth
  · obtain ⟨u, hne, hu⟩ := hu
    obtain ⟨p, n, hd, he⟩ := quiet h.lock hne hu e
    have hl : LockInv (Api.runT s t e) := by
      refine h.lock.runT t e (fun o i hp _ _ => ?_)
      have := holds_one (l := s.lock) (v := .api u) (w := .api t) (by rw [h.lock]; exact hu) (fun e => hne (Who.api.inj e))
      rw [h.lock] at this
      have : (s.pc t).depth = 0 := this
      rw [hp] at this
      cases this
    rw [he] at hl ⊢
    refine ⟨hl, h.base, fun v hv => ?_, fun hv => ?_⟩
    · by_cases hvt : v = t
      · subst hvt
        exfalso
        dsimp only at hv
        rw [upd_same, hd] at hv
        omega
      · dsimp only at hv ⊢
        rw [upd_ne _ _ hvt] at hv ⊢
        exact (h.here v hv).frame rfl fun _ hj => hj
    · exfalso
      have := hv u
      dsimp only at this
      rw [upd_ne _ _ hne] at this
      omega
  · have hz : ∀ u, u ≠ t → (s.pc u).depth = 0 := fun u hne => Nat.eq_zero_of_not_pos (fun k => hu ⟨u, hne, k⟩)
    have hk : WHere s (s.pc t) := by
      by_cases hd : 0 < (s.pc t).depth
      · exact h.here t hd
      · refine (wHere_out (by omega)).2 (h.outside (fun v => ?_))
        by_cases hv : v = t
        · subst hv; omega
        · exact hz v hv
    obtain ⟨k1, k2⟩ := hk.run h.base e
    refine ⟨h.lock.runT t e (fun o i hp _ _ => ?_), k2, fun v hv => ?_, fun hv => ?_⟩
    · rw [hp] at hk
      exact hk.2 i (Nat.le_refl _)
    · by_cases hvt : v = t
      · subst hvt; exact k1
      · rw [run_pc_other _ _ hvt] at hv
        have := hz v hvt
        omega
    · exact (wHere_out (hv t)).1 k1

theorem WInv.call {s : St} (h : WInv s) (t : Nat) (c : Call) : WInv (Api.step s (.call t c)) := by
  simp only [Api.step]
  split
  · rename_i hp
    have hl : LockInv (s.goto t c.pc) := h.lock.plain rfl rfl (fun _ => rfl) (by rw [hp, call_depth]; rfl)
    have hd : ∀ v, ((s.goto t c.pc).pc v).depth = (s.pc v).depth := by
      intro v
      by_cases hv : v = t
      · subst hv; rw [goto_pc, hp, call_depth]; rfl
      · rw [goto_pc_ne _ _ hv]
    refine ⟨hl, h.base, fun v hv => ?_, fun hv => ?_⟩
    · by_cases hvt : v = t
      · subst hvt
        rw [goto_pc, call_depth] at hv
        omega
      · rw [goto_pc_ne _ _ hvt] at hv ⊢
        exact (h.here v hv).frame rfl fun _ hj => hj
    · exact h.outside (fun v => (hd v).symm.trans (hv v))
  · exact h

theorem WInv.init : WInv {} := by
  refine ⟨fun w => ?_, fun j hj => absurd rfl hj, fun t ht => absurd ht (Nat.not_lt_zero _), fun _ => .inl ⟨rfl, fun _ => rfl⟩⟩
  cases w <;> rfl

/-- Statements and the destructor change nothing the invariant is about. -/
theorem WInv.frame {s s' : St} (h : WInv s) (h1 : s'.state = s.state) (h2 : s'.worker = s.worker) (h3 : s'.pc = s.pc)
    (h4 : s'.lock = s.lock) (h5 : s'.size = s.size) (h6 : s'.async = s.async) : WInv s' := by
  have hn : ∀ j, s.worker j = .none → s'.worker j = .none := fun j hj => by rw [h2]; exact hj
  refine ⟨fun w => ?_, fun j hj => ?_, fun t ht => ?_, fun ht => ?_⟩
  · rw [h4, h.lock]
    cases w <;> simp only [St.depth, h2, h3]
  · rw [h5, h6]; exact h.base j (by rw [← h2]; exact hj)
  · rw [h3] at ht ⊢; exact (h.here t ht).frame h1 hn
  · rw [h3] at ht
    rcases h.outside ht with k | k
    · exact Or.inl ⟨h1.trans k.1, fun j => hn j (k.2 j)⟩
    · exact Or.inr (h1.trans k)

theorem WInv.lstep {s : LSt} (h : WInv s.api) (e : LEv) : WInv (lstep s e).api := by
  cases e with
  | api e =>
    cases e with
    | call t c =>
      simp only [Api.lstep]
      split
      · exact h.call t c
      · exact h
    | work i e => exact h.workI i e
    | run t e => exact h.runT t e
  | say t i =>
    simp only [Api.lstep]
    split <;> exact h
  | go t e =>
    show WInv (logT s t e).api
    unfold logT
    cases s.log t <;> dsimp only
    case run i => exact h.frame rfl rfl rfl rfl rfl rfl
    case tail i => exact h.call t .hot
    all_goals exact h
  | destroy t =>
    simp only [Api.lstep]
    split <;> exact h
  | dtor =>
    simp only [Api.lstep, dtorStep]
    split
    · exact h
    · exact h
    · split
      · exact h
      · exact h.call _ .stop
    · split <;> exact h
    · exact h.frame rfl rfl rfl rfl rfl rfl

theorem wInv (es : List LEv) : WInv (lrun {} es).api := by
  have key : ∀ (es : List LEv) (s : LSt), WInv s.api → WInv (lrun s es).api := by
    intro es
    induction es with
    | nil => intro s h; exact h
    | cons e es ih => intro s h; exact ih _ (h.lstep e)
  exact key es {} WInv.init

end FNLog.Api
