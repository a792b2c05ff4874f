import Verif.Model.Recover
import Verif.Spec.Recover
import Verif.Proof.RingStop

/-! # Crash recovery: the recovered ring satisfies the ring invariants -/

namespace FNLog.Ring
open FNLog

variable {α : Type}

theorem recMarks_in (L : Nat) : ∀ (n k : Nat) (m : Nat → Mark) (j : Nat), n ≤ L → k ≤ j → j < k + n →
    recMarks L n k m (j % L) = .ready := by
  intro n
  induction n with
  | zero => intro k m j _ h1 h2; omega
  | succ n ih =>
    intro k m j hn h1 h2
    simp only [recMarks]
    by_cases hj : j = k
    · subst hj
      have : ∀ (n k : Nat) (m : Nat → Mark), m (j % L) = .ready → recMarks L n k m (j % L) = .ready := by
        intro n
        induction n with
        | zero => intro k m h; exact h
        | succ n ih =>
          intro k m h
          simp only [recMarks]
          apply ih
          unfold upd; split <;> simp_all
      exact this _ _ _ (upd_same _ _ _)
    · exact ih (k + 1) _ j (by omega) (by omega) (by omega)

theorem recMarks_out (L : Nat) : ∀ (n k : Nat) (m : Nat → Mark) (j : Nat), k + n ≤ j → j < k + L →
    recMarks L n k m (j % L) = m (j % L) := by
  intro n
  induction n with
  | zero => intro k m j _ _; rfl
  | succ n ih =>
    intro k m j h1 h2
    simp only [recMarks]
    rw [ih (k + 1) _ j (by omega) (by omega)]
    apply upd_ne
    intro he
    have := mod_inj he.symm (by omega) h2
    omega

theorem recCells_out (L : Nat) (f : List α → List α) : ∀ (n k : Nat) (m : Nat → List α) (j : Nat),
    k + n ≤ j → j < k + L → recCells L f n k m (j % L) = m (j % L) := by
  intro n
  induction n with
  | zero => intro k m j _ _; rfl
  | succ n ih =>
    intro k m j h1 h2
    simp only [recCells]
    rw [ih (k + 1) _ j (by omega) (by omega)]
    apply upd_ne
    intro he
    have := mod_inj he.symm (by omega) h2
    omega

theorem recCells_in (L : Nat) (f : List α → List α) : ∀ (n k : Nat) (m : Nat → List α) (j : Nat),
    n ≤ L → k ≤ j → j < k + n → recCells L f n k m (j % L) = f (m (j % L)) := by
  intro n
  induction n with
  | zero => intro k m j _ h1 h2; omega
  | succ n ih =>
    intro k m j hn h1 h2
    simp only [recCells]
    by_cases hj : j = k
    · subst hj
      rw [show recCells L f n (j + 1) (upd m (j % L) (f (m (j % L)))) (j % L) =
        recCells L f n (j + 1) (upd m (j % L) (f (m (j % L)))) ((j + L) % L) by rw [Nat.add_mod_right]]
      rw [recCells_out L f n (j + 1) _ (j + L) (by omega) (by omega), Nat.add_mod_right, upd_same]
    · rw [ih (k + 1) _ j (by omega) (by omega) (by omega), upd_ne]
      intro he
      have := mod_inj he.symm (by omega) (by omega)
      omega

/-- Positions below `W` and above `R` are one lap below positions the loop does not reach. -/
theorem recMarks_below {L n k : Nat} (m : Nat → Mark) {j : Nat} (h1 : j < k) (h2 : k + n ≤ j + L) :
    recMarks L n k m (j % L) = m (j % L) := by
  have := recMarks_out L n k m (j + L) (by omega) (by omega)
  rwa [Nat.add_mod_right] at this

theorem recCells_below {L n k : Nat} (f : List α → List α) (m : Nat → List α) {j : Nat} (h1 : j < k)
    (h2 : k + n ≤ j + L) : recCells L f n k m (j % L) = m (j % L) := by
  have := recCells_out L f n k m (j + L) (by omega) (by omega)
  rwa [Nat.add_mod_right] at this

theorem recover_acquired (c : Cfg α) (f : List α → List α) (s : St α) (k : Nat) :
    (recover c f s).acquired[k]? =
      (s.acquired[k]?).map (fun e => if k < s.W then e else (e.1, f (s.cell (k % c.L)))) := by
  simp only [recover, List.getElem?_mapIdx]

/-- The recovered state satisfies the invariant: always for an async channel; for a sync channel if no
log was completely output but not yet released at the crash. -/
theorem Inv.recover {c : Cfg α} {s : St α} (f : List α → List α) (hi : Inv c s)
    (hs : c.async = true ∨ (∀ k, s.R ≤ k → k < s.P → s.mark (k % c.L) = .ready)) :
    Inv c (Ring.recover c f s) := by
  have h1 := hi.leRP
  have h2 := hi.lePW
  have h3 := hi.leWH
  have h4 := hi.cap
  have hpc : ∀ t, (Ring.recover c f s).pc t = .cLoad ∧ c.async = true ∧ t = worker ∨
      (Ring.recover c f s).pc t = .idle := by
    intro t
    simp only [Ring.recover]
    by_cases h : c.async = true ∧ t = worker
    · rw [if_pos h]; exact Or.inl ⟨rfl, h⟩
    · rw [if_neg h]; exact Or.inr rfl
  have hold : c.async = false → s.old ≤ s.R := by
    intro hA
    rcases hi.oldOk with h | h
    · rw [hA] at h; cases h
    · exact h
  constructor
  case leRP => exact Nat.le_refl _
  case lePW => show s.R ≤ s.H; omega
  case leWH => exact Nat.le_refl _
  case cap => exact h4
  case len => show (s.acquired.mapIdx _).length = s.H; rw [List.length_mapIdx]; exact hi.len
  case baseR => exact Nat.le_refl _
  case oldOk =>
    by_cases hA : c.async = true
    · exact Or.inl hA
    · right; simp only [Ring.recover, hA]; exact Nat.le_refl _
  case mPW =>
    intro k hk1 hk2 hk3
    simp only [Ring.recover] at hk1 hk2 hk3 ⊢
    by_cases hkW : k < s.W
    · rw [recMarks_below _ hkW (by omega)]
      by_cases hA : c.async = true
      · rw [if_pos hA] at hk3
        exact hi.mPW k (by omega) hkW (by omega)
      · rw [if_neg hA] at hk3
        have ho := hold (by simpa using hA)
        by_cases hkP : k < s.P
        · rcases hs with h | h
          · exact absurd h hA
          · exact h k hk1 hkP
        · exact hi.mPW k (by omega) hkW (by omega)
    · exact recMarks_in c.L _ _ _ k (by omega) (by omega) (by omega)
  case mFree =>
    intro k hk1 hk2
    simp only [Ring.recover] at hk1 hk2 ⊢
    rw [recMarks_out _ _ _ _ k (by omega) (by omega)]
    exact hi.mFree k hk1 hk2
  case mRP => intro k hk1 hk2; simp only [Ring.recover] at hk1 hk2; omega
  case mWH => intro k hk1 hk2; simp only [Ring.recover] at hk1 hk2; omega
  case sealedW =>
    intro k hk1 hk2
    rw [recover_acquired]
    simp only [Ring.recover] at hk1 hk2 ⊢
    by_cases hkW : k < s.W
    · rw [recCells_below f _ hkW (by omega)]
      simp only [hkW, if_true, Option.map_id']
      exact hi.sealedW k hk1 hkW
    · rw [recCells_in c.L f _ _ _ k (by omega) (by omega) (by omega)]
      simp only [hkW, if_false, Option.map_map]
      have hlen := hi.len
      rw [List.getElem?_eq_getElem (by omega)]
      rfl
  case sealedH => intro k hk1 hk2; simp only [Ring.recover] at hk1 hk2; omega
  case ti =>
    intro t
    rcases hpc t with h | h
    · rw [h.1]; trivial
    · rw [h]; trivial
  case uniqC =>
    intro t u k h
    rcases hpc t with h1 | h1
    · rw [h1.1] at h; cases h
    · rw [h1] at h; cases h
  case consTid =>
    intro _ t h
    rcases hpc t with h1 | h1
    · exact h1.2.2
    · rw [h1] at h; cases h
  case outND => exact List.nodup_nil
  case outMem =>
    intro k
    simp only [Ring.recover, List.map_nil, List.not_mem_nil, false_iff]
    omega
  case outVal => intro e h; cases h
  case lostR => intro k h; cases h

theorem Ord.recover {c : Cfg α} (f : List α → List α) (s : St α) (hA : c.async = true) :
    Ord c (Ring.recover c f s) := by
  constructor
  · simp [Ring.recover, hA, OrdPC]
  · simp [Ring.recover, hA, outN]

theorem NS.recover {c : Cfg α} (f : List α → List α) (s : St α) : NS c (Ring.recover c f s) := by
  constructor
  · simp only [Ring.recover]; split <;> simp
  · intro t h1 h2
    simp only [Ring.recover] at h1 h2 ⊢
    by_cases hw : c.async = true ∧ t = worker
    · rw [if_pos hw] at h2; simp [isCons] at h2
    · rw [if_neg hw] at h1; exact absurd rfl h1
  · intro t
    simp only [Ring.recover]
    by_cases hw : c.async = true ∧ t = worker
    · rw [if_pos hw]; trivial
    · rw [if_neg hw]; trivial
  · rfl
  · intro h; simp [Ring.recover, h]

theorem Resp.recover {c : Cfg α} (f : List α → List α) (s : St α) (hA : c.async = true) :
    Resp c (Ring.recover c f s) := by
  constructor
  · intro h; exact absurd h (Nat.lt_irrefl _)
  · intro h; rw [hA] at h; cases h
  · intro h; rw [hA] at h; cases h

end FNLog.Ring
