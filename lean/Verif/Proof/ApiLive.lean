import Verif.Proof.Api

/-! # Lemmas for C104: when `StopLogger` returns -/

namespace FNLog.Api
open FNLog.Ring (upd upd_same upd_ne)
open FNLog.Spec

/-! ## A thread that waits for the lock of the one that waits for it -/

/-- `StopLogger` on its way to the end of the thread of channel `i`. -/
def Before (i : Nat) : Pc → Prop
  | .scChan .stop k | .scState .stop k | .scMark .stop k | .scJoin .stop k => k ≤ i
  | .scNull .stop k => k < i
  | _ => False

structure Doomed (s : St) (t i : Nat) : Prop where
  inv : Inv s
  pc : Before i (s.pc t)
  size : i < s.size
  async : s.async i = true
  worker : s.worker i = .hot .lock

theorem Before.depth {i : Nat} {p : Pc} (h : Before i p) : p.depth = 1 := by
  cases p <;> first | (cases h; done) | rfl | skip
  all_goals
    rename_i u k
    cases u
    · rfl
    · cases h

theorem Doomed.own {s : St} {t i : Nat} (h : Doomed s t i) (e : Env) :
    Before i ((runT s t e).pc t) ∧ i < (runT s t e).size ∧ (runT s t e).async i = true ∧ (runT s t e).worker i = .hot .lock := by
  obtain ⟨_, hb, hs, ha, hw⟩ := h
  cases hp : s.pc t <;> rw [hp] at hb <;> first | (cases hb; done) | skip
  all_goals
    rename_i u k
    cases u with
    | start o => cases hb
    | stop => ?_
  · have hk : k ≤ i := hb
    simp only [runT, hp]
    rw [if_pos (by omega)]
    split
    · simp only [goto_pc]
      refine ⟨?_, hs, ha, hw⟩
      split
      · rename_i hn
        show k < i
        have : k ≠ i := by rintro rfl; rw [hw] at hn; cases hn
        omega
      · exact hk
    · rename_i hn
      simp only [goto_pc]
      refine ⟨?_, hs, ha, hw⟩
      show k + 1 ≤ i
      have : k ≠ i := by rintro rfl; exact hn ha
      omega
  · simp only [runT, hp, goto_pc]
    refine ⟨?_, hs, ha, hw⟩
    split <;> exact hb
  · simp only [runT, hp, goto_pc]
    exact ⟨hb, hs, ha, hw⟩
  · have hk : k ≤ i := hb
    simp only [runT, hp]
    split
    · rename_i he
      have : k ≠ i := by rintro rfl; rw [hw] at he; cases he
      simp only [goto_pc]
      refine ⟨?_, hs, ha, ?_⟩
      · show k < i
        omega
      · exact (upd_ne _ _ (Ne.symm this)).trans hw
    · rw [hp]
      exact ⟨hb, hs, ha, hw⟩
  · simp only [runT, hp, goto_pc]
    exact ⟨hb, hs, ha, hw⟩

theorem Doomed.step {s : St} {t i : Nat} (h : Doomed s t i) (e : Ev) : Doomed (step s e) t i := by
  have hd := h.pc.depth
  have hl : 0 < holds s.lock (.api t) := by rw [h.inv.lock]; show 0 < (s.pc t).depth; omega
  have hi := h.inv.step e
  cases e with
  | call u c =>
    unfold Api.step at hi ⊢
    dsimp only at hi ⊢
    split at hi <;> rename_i hp
    · have hu : t ≠ u := by
        rintro rfl
        rw [hp] at hd; cases hd
      exact ⟨hi, by rw [goto_pc_ne _ _ hu]; exact h.pc, h.size, h.async, h.worker⟩
    · exact h
  | work k e =>
    obtain ⟨f1, f2, f3, f4, f5, f6, f7⟩ := work_frame s k e
    refine ⟨hi, ?_, ?_, ?_, ?_⟩
    · show Before i ((workI s k e).pc t)
      rw [f5]; exact h.pc
    · show i < (workI s k e).size
      rw [f2]; exact h.size
    · show (workI s k e).async i = true
      rw [f3]; exact h.async
    · show (workI s k e).worker i = _
      by_cases hk : i = k
      · subst hk
        unfold workI
        rw [h.worker]
        simp only [hotStep, take_held hl (show Who.api t ≠ Who.worker i from fun e => Who.noConfusion e)]
        exact upd_same _ _ _
      · rw [(f7 i hk).2]; exact h.worker
  | run u e =>
    by_cases hu : t = u
    · subst hu
      obtain ⟨k1, k2, k3, k4⟩ := h.own e
      exact ⟨hi, k1, k2, k3, k4⟩
    · obtain ⟨p, n, hp, he⟩ := quiet h.inv.lock hu (show 0 < (s.pc t).depth by omega) e
      show Doomed (runT s u e) t i
      have hi : Inv (runT s u e) := hi
      rw [he] at hi ⊢
      exact ⟨hi, by dsimp only; rw [upd_ne _ _ hu]; exact h.pc, h.size, h.async, h.worker⟩

/-- The logger is being closed. -/
theorem Doomed.closing {s : St} {t i : Nat} (h : Doomed s t i) : s.state = .closing ∧ s.pc t ≠ .idle := by
  have hd := h.pc.depth
  have hh := h.inv.here t (by omega)
  have hb := h.pc
  cases hp : s.pc t <;> rw [hp] at hb hh <;> first | (cases hb; done) | skip
  all_goals
    rename_i u k
    cases u
    · exact ⟨hh.1, nofun⟩
    · cases hb

theorem Doomed.run {s : St} {t i : Nat} (h : Doomed s t i) (es : List Ev) : Doomed (run s es) t i := by
  induction es generalizing s with
  | nil => exact h
  | cons e es ih => exact ih (h.step e)

/-! ## Otherwise -/

theorem apiAt_succ (σ : Nat → Ev) (n : Nat) : apiAt σ (n + 1) = step (apiAt σ n) (σ n) := by
  unfold apiAt run
  rw [List.range_succ, List.map_append, List.foldl_append]
  rfl

theorem apiAt_inv (σ : Nat → Ev) (n : Nat) : Inv (apiAt σ n) := inv _

/-- One event that has to happen, and then does it. -/
theorem ensures {P Q : Nat → Prop} {H : Nat → Prop} (fair : ∀ n, P n → ∃ m, n ≤ m ∧ H m)
    (stay : ∀ n, P n → ¬ H n → P (n + 1)) (go : ∀ n, P n → H n → Q (n + 1)) {n : Nat} (h : P n) : ∃ m, n < m ∧ Q m := by
  obtain ⟨m, hm, hH⟩ := fair n h
  have : ∀ d n, P n → n + d = m → ∃ m, n < m ∧ Q m := by
    intro d
    induction d with
    | zero =>
      intro n hn e
      rw [Nat.add_zero] at e
      subst e
      exact ⟨n + 1, Nat.lt_succ_self _, go n hn hH⟩
    | succ d ih =>
      intro n hn e
      by_cases hh : H n
      · exact ⟨n + 1, Nat.lt_succ_self _, go n hn hh⟩
      · obtain ⟨k, hk, hq⟩ := ih (n + 1) (stay n hn hh) (by omega)
        exact ⟨k, by omega, hq⟩
  exact this (m - n) n h (by omega)

/-- `StopLogger` has changed the state, and no thread of a channel waits for the lock. -/
structure Closing (s : St) (t : Nat) : Prop where
  inv : Inv s
  state : s.state = .closing
  pc : (s.pc t).depth = 1
  free : ∀ i, s.worker i ≠ .hot .lock

theorem Closing.holds {s : St} {t : Nat} (h : Closing s t) : 0 < holds s.lock (.api t) := by
  rw [h.inv.lock]; show 0 < (s.pc t).depth; rw [h.pc]; exact Nat.one_pos

/-- A thread of a channel has not got the lock. -/
theorem Closing.worker {s : St} {t : Nat} (h : Closing s t) (i : Nat) : (s.worker i).depth = 0 := by
  have := holds_one h.holds (w := .worker i) (fun e => Who.noConfusion e)
  rw [h.inv.lock] at this
  exact this

theorem Closing.work {s : St} {t : Nat} (h : Closing s t) (i : Nat) (e : Env) : Closing (workI s i e) t := by
  obtain ⟨f1, f2, f3, f4, f5, f6, f7⟩ := work_frame s i e
  refine ⟨h.inv.workI i e, f1.trans h.state, by rw [f5]; exact h.pc, fun j => ?_⟩
  by_cases hj : j = i
  · subst hj
    rcases work_own s j e with q | q | q | ⟨x, q⟩ | q | q | q
    · rw [q.2.2]; nofun
    · rw [q.2.2]; split <;> nofun
    · rw [q.2.2]; nofun
    · rw [q.2.2]
      have h0 := h.worker j
      have h1 := h.free j
      rw [q.1] at h0 h1
      cases x <;> first | (cases h0; done) | (exact absurd rfl h1) | skip
      · simp only [hotStep]
        split
        · nofun
        · split <;> nofun
      · simp only [hotStep, h.state]
        nofun
      · simp only [hotStep]
        nofun
    · rw [q.2.2]; split <;> nofun
    · rw [q.2.2]; nofun
    · rw [q.2.2]; nofun
  · rw [(f7 j hj).2]; exact h.free j

/-- Steps of others. -/
theorem Closing.step {s : St} {t : Nat} (h : Closing s t) {e : Ev} (he : ∀ x, e ≠ .run t x) :
    Closing (step s e) t ∧ (step s e).pc t = s.pc t ∧ (step s e).size = s.size ∧
    ((∀ i x, e ≠ .work i x) → (step s e).worker = s.worker ∧ (step s e).chan = s.chan) := by
  have hi := h.inv.step e
  cases e with
  | work i x => exact ⟨h.work i x, by show (workI s i x).pc t = _; rw [(work_frame s i x).2.2.2.2.1], (work_frame s i x).2.1,
      fun k => absurd rfl (k i x)⟩
  | call u c =>
    unfold Api.step at hi ⊢
    dsimp only at hi ⊢
    split at hi <;> rename_i hp
    · have hu : t ≠ u := by
        rintro rfl
        have := h.pc
        rw [hp] at this; cases this
      exact ⟨⟨hi, h.state, by rw [goto_pc_ne _ _ hu]; exact h.pc, h.free⟩, goto_pc_ne _ _ hu, rfl, fun _ => ⟨rfl, rfl⟩⟩
    · exact ⟨h, rfl, rfl, fun _ => ⟨rfl, rfl⟩⟩
  | run u x =>
    have hu : t ≠ u := by
      rintro rfl
      exact he x rfl
    obtain ⟨p, n, hp, hq⟩ := quiet h.inv.lock hu (show 0 < (s.pc t).depth by rw [h.pc]; exact Nat.one_pos) x
    have hi : Inv (runT s u x) := hi
    show Closing (runT s u x) t ∧ (runT s u x).pc t = s.pc t ∧ (runT s u x).size = s.size ∧
      (_ → (runT s u x).worker = s.worker ∧ (runT s u x).chan = s.chan)
    rw [hq] at hi ⊢
    exact ⟨⟨hi, h.state, by dsimp only; rw [upd_ne _ _ hu]; exact h.pc, h.free⟩, upd_ne _ _ hu, rfl, fun _ => ⟨rfl, rfl⟩⟩

/-- How far the thread of a channel that was told to end is from its end. -/
def wrank : Worker → Nat
  | .queue => 6
  | .hot .enter => 5
  | .hot _ => 4
  | .check => 3
  | .leave => 2
  | _ => 0

/-- How far `StopLogger` is from its end. -/
def prank (n : Nat) : Pc → Nat
  | .scChan _ k => 5 * (n - k) + 5
  | .scState _ k => 5 * (n - k) + 4
  | .scMark _ k => 5 * (n - k) + 3
  | .scJoin _ k => 5 * (n - k) + 2
  | .scNull _ k => 5 * (n - k) + 1
  | _ => 0

/-- Inside of `StopChannels`, called by `StopLogger`. -/
def InStop : Pc → Prop
  | .scChan .stop _ | .scState .stop _ | .scMark .stop _ | .scJoin .stop _ | .scNull .stop _ => True
  | _ => False

theorem InStop.depth {p : Pc} (h : InStop p) : p.depth = 1 := by
  cases p <;> first | (cases h; done) | skip
  all_goals
    rename_i u k
    cases u
    · rfl
    · cases h

/-- An own step that is not a wait. -/
theorem Closing.own {s : St} {t : Nat} (h : Closing s t) (hp : InStop (s.pc t))
    (hj : ∀ u k, s.pc t = .scJoin u k → s.worker k = .ended) (e : Env) :
    (runT s t e).pc t = .spDone ∨
    (Closing (runT s t e) t ∧ InStop ((runT s t e).pc t) ∧ (runT s t e).size = s.size ∧
      prank s.size ((runT s t e).pc t) < prank s.size (s.pc t)) := by
  have hh := h.inv.here t (by rw [h.pc]; exact Nat.one_pos)
  have hi := h.inv.runT t e
  have fin : ∀ s' : St, Inv s' → s'.state = s.state → InStop (s'.pc t) → (∀ i, s'.worker i ≠ .hot .lock) →
      Closing s' t := fun s' h1 h2 h3 h4 => ⟨h1, h2.trans h.state, h3.depth, h4⟩
  cases hpc : s.pc t <;> rw [hpc] at hp hh <;> first | (cases hp; done) | skip
  all_goals
    rename_i u k
    cases u with
    | start o => cases hp
    | stop => ?_
  all_goals simp only [runT, hpc] at hi ⊢
  · by_cases hk : k < s.size
    · rw [if_pos hk] at hi ⊢
      by_cases ha : s.async k = true
      · rw [if_pos ha] at hi ⊢
        rw [goto_pc]
        refine .inr ⟨fin _ hi rfl ?_ h.free, ?_, rfl, ?_⟩
        · rw [goto_pc]; split <;> trivial
        · split <;> trivial
        · split <;> (simp only [prank]; omega)
      · rw [if_neg ha] at hi ⊢
        rw [goto_pc]
        refine .inr ⟨fin _ hi rfl ?_ h.free, trivial, rfl, ?_⟩
        · rw [goto_pc]; trivial
        · simp only [prank]; omega
    · rw [if_neg hk, goto_pc]
      exact .inl rfl
  · rw [goto_pc]
    refine .inr ⟨fin _ hi rfl ?_ h.free, ?_, rfl, ?_⟩
    · rw [goto_pc]; split <;> trivial
    · split <;> trivial
    · split <;> (simp only [prank]; omega)
  · rw [goto_pc]
    refine .inr ⟨fin _ hi rfl ?_ h.free, trivial, rfl, ?_⟩
    · rw [goto_pc]; trivial
    · simp only [prank]; omega
  · rw [if_pos (hj _ _ hpc)] at hi ⊢
    rw [goto_pc]
    refine .inr ⟨fin _ hi rfl ?_ (fun i => ?_), trivial, rfl, ?_⟩
    · rw [goto_pc]; trivial
    · show upd s.worker k .none i ≠ _
      by_cases hik : i = k
      · subst hik; rw [upd_same]; nofun
      · rw [upd_ne _ _ hik]; exact h.free i
    · simp only [prank]; omega
  · have hk : k < s.size := hh.2.1
    rw [goto_pc]
    refine .inr ⟨fin _ hi rfl ?_ h.free, trivial, rfl, ?_⟩
    · rw [goto_pc]; trivial
    · simp only [prank]; omega

/-- The thread of a channel that was told to end comes closer to its end. -/
theorem Closing.ending {s : St} {t k : Nat} (h : Closing s t) (he : Ending s k) (hn : s.worker k ≠ .ended) (x : Env)
    (hx : x.more = false) : wrank ((workI s k x).worker k) < wrank (s.worker k) := by
  have hc : s.chan k = .waitingFinish := by
    rcases he with q | q
    · exact q.1
    · exact absurd q.2 hn
  have hw : (s.worker k).Body ∨ s.worker k = .leave := by
    rcases he with q | q
    · exact q.2
    · exact absurd q.2 hn
  rcases work_own s k x with q | q | q | ⟨y, q⟩ | q | q | q
  · rw [q.1] at hw; rcases hw with hw | hw <;> cases hw
  · rw [q.2.2, q.1, hc]; decide
  · rw [q.1] at hw; rcases hw with hw | hw <;> cases hw
  · have h0 := h.worker k
    have h1 := h.free k
    rw [q.1] at h0 h1
    rw [q.2.2, q.1]
    cases y <;> first | (cases h0; done) | (exact absurd rfl h1) | skip
    · simp only [hotStep]
      split
      · decide
      · split <;> decide
    · simp only [hotStep, h.state]
      exact (show (3 : Nat) < 4 by decide)
    · simp only [hotStep]
      decide
  · rw [q.2.2, q.1, hc, hx]; decide
  · rw [q.2.2, q.1]; decide
  · exact absurd q.1 hn

section
variable {σ : Nat → Ev} {t K : Nat}

theorem step_pc {s : St} {e : Ev} (h : s.pc t ≠ .idle) (he : ∀ x, e ≠ .run t x) : (step s e).pc t = s.pc t := by
  cases e with
  | call u c =>
    unfold step
    dsimp only
    split
    · rename_i hp
      by_cases hu : t = u
      · subst hu; exact absurd hp h
      · exact goto_pc_ne _ _ hu
    · rfl
  | run u x =>
    refine run_pc_other _ _ ?_
    rintro rfl
    exact he x rfl
  | work i x => exact congrFun (work_frame s i x).2.2.2.2.1 t

/-- A thread that does not wait makes its step. -/
theorem own_leads (hf : ApiFair σ) {p : Pc} (hp : p ≠ .idle) {n : Nat} (h : (apiAt σ n).pc t = p) :
    ∃ m e, n ≤ m ∧ (apiAt σ m).pc t = p ∧ σ m = .run t e := by
  obtain ⟨m, hm, h1, h2⟩ := ensures (P := fun n => (apiAt σ n).pc t = p)
    (Q := fun m => ∃ j e, j + 1 = m ∧ (apiAt σ j).pc t = p ∧ σ j = .run t e) (H := fun n => ∃ e, σ n = .run t e)
    (fun n hn => by
      obtain ⟨m, e, h1, h2⟩ := hf.call t n (by rw [hn]; exact hp)
      exact ⟨m, h1, e, h2⟩)
    (fun n hn hh => by
      rw [apiAt_succ, step_pc (by rw [hn]; exact hp) (fun x hx => hh ⟨x, hx⟩)]; exact hn)
    (fun n hn ⟨e, he⟩ => ⟨n, e, rfl, hn, he⟩) h
  obtain ⟨e, h3, h4, h5⟩ := h2
  exact ⟨h1, e, by omega, h4, h5⟩

theorem finish_leads (hf : ApiFair σ) {n : Nat} (h : (apiAt σ n).pc t = .spDone) : ∃ m, n < m ∧ (apiAt σ m).pc t = .idle := by
  obtain ⟨m, e, h1, h2, h3⟩ := own_leads hf (by nofun) h
  have h4 : (apiAt σ (m + 1)).pc t = .spUnlock true := by
    rw [apiAt_succ, h3]
    simp only [step, runT, h2, goto_pc]
  obtain ⟨m', e', h1', h2', h3'⟩ := own_leads hf (by nofun) h4
  refine ⟨m' + 1, by omega, ?_⟩
  rw [apiAt_succ, h3']
  simp only [step, runT, h2', goto_pc]

/-- At `join`: the thread ends. -/
theorem join_leads (hf : ApiFair σ) (hK : ∀ m i e, K ≤ m → σ m = .work i e → e.more = false) {k : Nat} :
    ∀ r n, K ≤ n → Closing (apiAt σ n) t → (apiAt σ n).pc t = .scJoin .stop k → wrank ((apiAt σ n).worker k) ≤ r →
      ∃ m, n ≤ m ∧ Closing (apiAt σ m) t ∧ (apiAt σ m).pc t = .scJoin .stop k ∧ (apiAt σ m).size = (apiAt σ n).size ∧
        (apiAt σ m).worker k = .ended := by
  have end0 : ∀ n, Closing (apiAt σ n) t → (apiAt σ n).pc t = .scJoin .stop k → Ending (apiAt σ n) k := by
    intro n hc hp
    have := hc.inv.here t (by rw [hc.pc]; exact Nat.one_pos)
    rw [hp] at this
    rcases this.2.2.2.1 with q | q
    · exact q
    · exact absurd rfl q.1
  intro r
  induction r with
  | zero =>
    intro n hn hc hp hr
    refine ⟨n, Nat.le_refl _, hc, hp, rfl, ?_⟩
    rcases end0 n hc hp with q | q
    · rcases q.2 with q | q
      · cases hw : (apiAt σ n).worker k <;> rw [hw] at q hr <;> first | (cases q; done) | skip
        · exact absurd hr (by decide)
        · rename_i y
          cases y <;> exact absurd hr (by decide)
        · exact absurd hr (by decide)
      · rw [q] at hr
        exact absurd hr (by decide)
    · exact q.2
  | succ r ih =>
    intro n hn hc hp hr
    by_cases he : (apiAt σ n).worker k = .ended
    · exact ⟨n, Nat.le_refl _, hc, hp, rfl, he⟩
    obtain ⟨m, hm, hq1, hq2, hq3, hq4, hq5⟩ := ensures
      (P := fun m => K ≤ m ∧ Closing (apiAt σ m) t ∧ (apiAt σ m).pc t = .scJoin .stop k ∧
        (apiAt σ m).size = (apiAt σ n).size ∧ (apiAt σ m).worker k = (apiAt σ n).worker k)
      (Q := fun m => K ≤ m ∧ Closing (apiAt σ m) t ∧ (apiAt σ m).pc t = .scJoin .stop k ∧
        (apiAt σ m).size = (apiAt σ n).size ∧ wrank ((apiAt σ m).worker k) ≤ r)
      (H := fun m => ∃ e, σ m = .work k e)
      (fun m ⟨_, hc', hp', _, hw'⟩ => by
        have hnn : (apiAt σ m).worker k ≠ .none := by
          intro h0
          rcases end0 m hc' hp' with q | q
          · rw [h0] at q
            rcases q.2 with q | q <;> cases q
          · rw [h0] at q; cases q.2
        obtain ⟨j, e, h1, h2⟩ := hf.work k m hnn (by rw [hw']; exact he)
        exact ⟨j, h1, e, h2⟩)
      (fun m ⟨hk, hc', hp', hs', hw'⟩ hh => by
        by_cases hr : ∃ x, σ m = .run t x
        · obtain ⟨x, hx⟩ := hr
          have : apiAt σ (m + 1) = apiAt σ m := by
            rw [apiAt_succ, hx]
            simp only [step, runT, hp']
            rw [if_neg (by rw [hw']; exact he)]
          rw [this]
          exact ⟨by omega, hc', hp', hs', hw'⟩
        · have := hc'.step (e := σ m) (fun x hx => hr ⟨x, hx⟩)
          rw [← apiAt_succ] at this
          refine ⟨by omega, this.1, this.2.1.trans hp', this.2.2.1.trans hs', ?_⟩
          by_cases hwk : ∃ i x, σ m = .work i x
          · obtain ⟨i, x, hx⟩ := hwk
            have hik : k ≠ i := by rintro rfl; exact hh ⟨x, hx⟩
            rw [apiAt_succ, hx]
            exact (((work_frame _ i x).2.2.2.2.2.2 k hik).2).trans hw'
          · rw [(this.2.2.2 (fun i x hx => hwk ⟨i, x, hx⟩)).1]
            exact hw')
      (fun m ⟨hk, hc', hp', hs', hw'⟩ ⟨e, hx⟩ => by
        have := hc'.step (e := σ m) (fun x hx' => by rw [hx] at hx'; cases hx')
        rw [← apiAt_succ] at this
        refine ⟨by omega, this.1, this.2.1.trans hp', this.2.2.1.trans hs', ?_⟩
        have hd := hc'.ending (end0 m hc' hp') (by rw [hw']; exact he) e (hK m k e hk hx)
        rw [apiAt_succ, hx]
        show wrank ((workI (apiAt σ m) k e).worker k) ≤ r
        rw [hw'] at hd
        omega)
      ⟨hn, hc, hp, rfl, rfl⟩
    obtain ⟨j, h1, h2, h3, h4, h5⟩ := ih m hq1 hq2 hq3 hq5
    exact ⟨j, by omega, h2, h3, h4.trans hq4, h5⟩

theorem stop_leads (hf : ApiFair σ) (hK : ∀ m i e, K ≤ m → σ m = .work i e → e.more = false) :
    ∀ r n, K ≤ n → Closing (apiAt σ n) t → InStop ((apiAt σ n).pc t) → prank (apiAt σ n).size ((apiAt σ n).pc t) ≤ r →
      ∃ m, n < m ∧ (apiAt σ m).pc t = .idle := by
  intro r
  induction r with
  | zero =>
    intro n hn hc hp hr
    cases hpc : (apiAt σ n).pc t <;> rw [hpc] at hp hr <;> first | (cases hp; done) | skip
    all_goals (simp only [prank] at hr; omega)
  | succ r ih =>
    intro n hn hc hp hr
    -- the first time at which the own step is no wait
    have ready : ∃ m, n ≤ m ∧ Closing (apiAt σ m) t ∧ (apiAt σ m).pc t = (apiAt σ n).pc t ∧
        (apiAt σ m).size = (apiAt σ n).size ∧ ∀ u k, (apiAt σ m).pc t = .scJoin u k → (apiAt σ m).worker k = .ended := by
      by_cases hj : ∃ k, (apiAt σ n).pc t = .scJoin .stop k
      · obtain ⟨k, hk⟩ := hj
        obtain ⟨m, h1, h2, h3, h4, h5⟩ := join_leads hf hK _ n hn hc hk (Nat.le_refl _)
        refine ⟨m, h1, h2, h3.trans hk.symm, h4, fun u k' hk' => ?_⟩
        rw [h3] at hk'
        cases hk'
        exact h5
      · refine ⟨n, Nat.le_refl _, hc, rfl, rfl, fun u k hk => ?_⟩
        rw [hk] at hp
        cases u
        · exact absurd ⟨k, hk⟩ hj
        · cases hp
    obtain ⟨m, h1, h2, h3, h4, h5⟩ := ready
    obtain ⟨j, hj, hq⟩ := ensures
      (P := fun m => K ≤ m ∧ Closing (apiAt σ m) t ∧ (apiAt σ m).pc t = (apiAt σ n).pc t ∧ (apiAt σ m).size = (apiAt σ n).size ∧
        ∀ u k, (apiAt σ m).pc t = .scJoin u k → (apiAt σ m).worker k = .ended)
      (Q := fun m => K ≤ m ∧ ((apiAt σ m).pc t = .spDone ∨ (Closing (apiAt σ m) t ∧ InStop ((apiAt σ m).pc t) ∧
        prank (apiAt σ m).size ((apiAt σ m).pc t) ≤ r)))
      (H := fun m => ∃ e, σ m = .run t e)
      (fun m ⟨_, hc', hp', _⟩ => by
        obtain ⟨i, e, h1, h2⟩ := hf.call t m (by intro h0; have := hc'.pc; rw [h0] at this; cases this)
        exact ⟨i, h1, e, h2⟩)
      (fun m ⟨hk, hc', hp', hs', hw'⟩ hh => by
        have := hc'.step (e := σ m) (fun x hx => hh ⟨x, hx⟩)
        rw [← apiAt_succ] at this
        refine ⟨by omega, this.1, this.2.1.trans hp', this.2.2.1.trans hs', fun u k hk' => ?_⟩
        have h0 := hw' u k (this.2.1.symm.trans hk')
        by_cases hwk : ∃ i x, σ m = .work i x
        · obtain ⟨i, x, hx⟩ := hwk
          rw [apiAt_succ, hx]
          by_cases hik : k = i
          · subst hik
            rcases work_own (apiAt σ m) k x with q | q | q | ⟨y, q⟩ | q | q | q
            all_goals first | exact q.2.2 | (rw [h0] at q; cases q.1)
          · exact (((work_frame _ i x).2.2.2.2.2.2 k hik).2).trans h0
        · rw [(this.2.2.2 (fun i x hx => hwk ⟨i, x, hx⟩)).1]
          exact h0)
      (fun m ⟨hk, hc', hp', hs', hw'⟩ ⟨e, hx⟩ => by
        refine ⟨by omega, ?_⟩
        rw [apiAt_succ, hx]
        rcases hc'.own (by rw [hp']; exact hp) hw' e with q | ⟨q1, q2, q3, q4⟩
        · exact .inl q
        · refine .inr ⟨q1, q2, ?_⟩
          show prank (runT (apiAt σ m) t e).size _ ≤ r
          rw [q3]
          rw [hs', hp'] at q4
          rw [hs']
          exact Nat.le_of_lt_succ (Nat.lt_of_lt_of_le q4 hr))
      ⟨by omega, h2, h3, h4, h5⟩
    rcases hq with ⟨hq0, hq | ⟨hq1, hq2, hq3⟩⟩
    · obtain ⟨i, hi, hi'⟩ := finish_leads hf hq
      exact ⟨i, by omega, hi'⟩
    · obtain ⟨i, hi, hi'⟩ := ih j hq0 hq1 hq2 hq3
      exact ⟨i, by omega, hi'⟩

/-- Until then `StopLogger` stays inside of `StopChannels`. -/
theorem stop_stays {n : Nat} (hc : Closing (apiAt σ n) t) (hp : InStop ((apiAt σ n).pc t)) (d : Nat) :
    (∃ j, n ≤ j ∧ (apiAt σ j).pc t = .spDone) ∨ (Closing (apiAt σ (n + d)) t ∧ InStop ((apiAt σ (n + d)).pc t)) := by
  induction d with
  | zero => exact .inr ⟨hc, hp⟩
  | succ d ih =>
    rcases ih with ih | ⟨h1, h2⟩
    · exact .inl ih
    rw [← Nat.add_assoc, apiAt_succ]
    by_cases hr : ∃ x, σ (n + d) = .run t x
    · obtain ⟨x, hx⟩ := hr
      rw [hx]
      by_cases hj : ∀ u k, (apiAt σ (n + d)).pc t = .scJoin u k → (apiAt σ (n + d)).worker k = .ended
      · rcases h1.own h2 hj x with q | ⟨q1, q2, _⟩
        · refine .inl ⟨n + d + 1, by omega, ?_⟩
          rw [apiAt_succ, hx]
          exact q
        · exact .inr ⟨q1, q2⟩
      · have : runT (apiAt σ (n + d)) t x = apiAt σ (n + d) := by
          obtain ⟨u, hj⟩ := Classical.not_forall.1 hj
          obtain ⟨k, hj⟩ := Classical.not_forall.1 hj
          have h3 : (apiAt σ (n + d)).pc t = .scJoin u k := Classical.byContradiction (fun q => hj (fun q' => absurd q' q))
          have h4 : (apiAt σ (n + d)).worker k ≠ .ended := fun q => hj (fun _ => q)
          simp only [runT, h3]
          rw [if_neg h4]
        show _ ∨ (Closing (runT (apiAt σ (n + d)) t x) t ∧ InStop ((runT (apiAt σ (n + d)) t x).pc t))
        rw [this]
        exact .inr ⟨h1, h2⟩
    · have := h1.step (e := σ (n + d)) (fun x hx => hr ⟨x, hx⟩)
      exact .inr ⟨this.1, by rw [this.2.1]; exact h2⟩

/-- If a thread of a channel waits for the lock `StopLogger` waits for ever. -/
theorem doomed_mark {s : St} (hi : Inv s) {i : Nat} (e : Env) (hp : s.pc t = .spMark) (hw : s.worker i = .hot .lock) :
    Doomed (runT s t e) t i := by
  have hh := hi.here t (by rw [hp]; exact Nat.one_pos)
  rw [hp] at hh
  have hn : s.worker i ≠ .none := by rw [hw]; nofun
  have hu : UpAt s i := by
    rcases hh.1 with q | q
    · rw [hh.2] at q; cases q.1
    · exact q.2 i
  have : i < s.size ∧ s.async i = true := by
    rcases hu with q | q | q
    · exact ⟨q.1, q.2.1⟩
    · exact absurd q.2.2.2 hn
    · exact absurd q.2.2 hn
  have hi' := hi.runT t e
  simp only [runT, hp] at hi' ⊢
  exact ⟨hi', by rw [goto_pc]; exact Nat.zero_le _, this.1, this.2, hw⟩

/-- `StopLogger` returns unless a thread of a channel waits for its lock. -/
theorem stop_returns (hf : ApiFair σ) (hd : Drained σ) {n : Nat} {e : Env} (hp : (apiAt σ n).pc t = .spMark)
    (he : σ n = .run t e) (hw : ∀ i, (apiAt σ n).worker i ≠ .hot .lock) : ∃ m, n < m ∧ (apiAt σ m).pc t = .idle := by
  obtain ⟨K, hK⟩ := hd
  have hi := apiAt_inv σ (n + 1)
  have hs : apiAt σ (n + 1) = ({ apiAt σ n with state := .closing }.goto t (.scChan .stop 0)) := by
    rw [apiAt_succ, he]
    simp only [step, runT, hp]
  have hc : Closing (apiAt σ (n + 1)) t := by
    refine ⟨hi, ?_, ?_, ?_⟩ <;> rw [hs]
    · rfl
    · rw [goto_pc]; rfl
    · exact hw
  have hq : InStop ((apiAt σ (n + 1)).pc t) := by rw [hs, goto_pc]; trivial
  rcases stop_stays hc hq K with ⟨j, hj, h1⟩ | ⟨h1, h2⟩
  · obtain ⟨m, hm, h2⟩ := finish_leads hf h1
    exact ⟨m, by omega, h2⟩
  · obtain ⟨m, hm, h3⟩ := stop_leads hf hK _ (n + 1 + K) (by omega) h1 h2 (Nat.le_refl _)
    exact ⟨m, by omega, h3⟩

end

end FNLog.Api
