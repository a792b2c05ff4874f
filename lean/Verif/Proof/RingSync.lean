import Verif.Proof.RingCount

/-! # Exact program order without a stop, and the single-threaded sync channel -/

namespace FNLog.Ring
open FNLog

variable {α : Type}

/-- No statement is dropped: acquired lines and the waiting statement are exactly the calls. -/
def ProgEq (c : Cfg α) (s : St α) : Prop :=
  ∀ t, ofThread t s.acquired ++ ((pending (s.pc t)).toList.map (· ++ [c.nl])) =
    (ofThread t s.calls).map (· ++ [c.nl])

theorem progEq_go {c : Cfg α} {s s' : St α} (h : ProgEq c s) {t : Nat} {p : PC α}
    (hpc : s'.pc = fun u => if u = t then p else s.pc u)
    (ha : s'.acquired = s.acquired) (hc : s'.calls = s.calls)
    (hp : pending p = pending (s.pc t)) : ProgEq c s' := by
  intro u
  rw [ha, hc, hpc]
  simp only
  split
  · rename_i e
    subst e
    rw [hp]; exact h u
  · exact h u

theorem ProgEq.stepT {c : Cfg α} {s : St α} (hn : NS c s) (h : ProgEq c s) (t : Nat) :
    ProgEq c (stepT c s t) := by
  have hact := hn.act t
  unfold Ring.stepT
  split <;> rename_i hpc
  case h_5 i tk b =>
    split
    · intro u
      simp only [go_acquired, go_calls, go_pc]
      by_cases hu : u = t
      · subst hu
        have := h u
        rw [hpc] at this
        simpa [pending, ofThread_append, ofThread] using this
      · have := h u
        have hne : ¬ (t = u) := fun e => hu e.symm
        simpa [hu, hne, ofThread_append, ofThread] using this
    · split <;> exact progEq_go h (t := t) rfl rfl rfl (by simp [pending, hpc])
  case h_6 b =>
    rw [hpc] at hact
    simp only [hact (by simp) rfl, if_true]
    exact progEq_go h (t := t) rfl rfl rfl (by simp [pending, hpc])
  all_goals repeat' split
  all_goals first
    | exact h
    | exact progEq_go h (t := t) rfl rfl rfl (by simp [pending, hpc])

theorem ProgEq.step {c : Cfg α} {s : St α} (hn : NS c s) (h : ProgEq c s) (e : Ev α) :
    ProgEq c (step c s e) := by
  cases e with
  | run t => exact h.stepT hn t
  | call t b =>
    unfold Ring.step
    simp only
    split
    · rename_i hpc
      split
      · intro u
        simp only [go_acquired, go_calls, go_pc]
        have := h u
        by_cases hu : u = t
        · subst hu
          rw [hpc] at this
          simp only [pending, Option.toList_none, List.map_nil, List.append_nil] at this
          simp only [if_true, pending, Option.toList_some, List.map_cons, List.map_nil,
            ofThread_append, List.map_append, this]
          simp [ofThread]
        · have hne : ¬ (t = u) := fun e => hu e.symm
          simpa [hu, hne, ofThread_append, ofThread] using this
      · exact h
    · exact h
  | started => unfold Ring.step; simp only; split <;> exact h
  | closing => exact h
  | stop => unfold Ring.step; simp only; (repeat' split) <;> exact h

theorem ProgEq.init (c : Cfg α) : ProgEq c (init c) := by
  intro t
  simp only [Ring.init, ofThread]
  split <;> simp [pending]

/-! ## One logging thread on a sync channel -/

/-- Where the single thread keeps `read` and `proc`. -/
def SyncPC (c : Cfg α) (s : St α) (p : PC α) : Prop :=
  if isCons p = true then OrdPC c s p else s.R = s.P

structure SyncOrd (c : Cfg α) (t0 : Nat) (s : St α) : Prop where
  pct : SyncPC c s (s.pc t0)
  out : s.out.map Prod.fst = List.range' s.base
    ((match s.pc t0 with | .cDisp _ => s.P - 1 | _ => s.P) - s.base)

theorem SyncOrd.stepT {c : Cfg α} {t0 : Nat} {s : St α} (hA : c.async = false) (hi : Inv c s)
    (h : SyncOrd c t0 s) : SyncOrd c t0 (stepT c s t0) := by
  have h1 := hi.leRP
  have h2 := hi.lePW
  have h3 := hi.leWH
  have h4 := hi.cap
  have hb := hi.baseR
  have hp := h.pct
  have ho := h.out
  have hPW : s.P < s.W → s.P % c.L ≠ s.W % c.L := fun h5 h6 => by
    have := mod_inj h6 (by omega) (by omega); omega
  have hRP : s.R < s.P → s.R % c.L ≠ s.P % c.L := fun h5 h6 => by
    have := mod_inj h6 (by omega) (by omega); omega
  unfold Ring.stepT
  split <;> rename_i hpc <;> rw [hpc] at hp ho <;>
    simp only [SyncPC, isCons, OrdPC, if_true, if_false, Bool.false_eq_true] at hp ho
  case h_1 => exact h
  case h_40 => exact h
  case h_26 k =>
    refine ⟨by simp only [SyncPC, go_pc, if_true, isCons, OrdPC, go_P, go_R]; exact hp, ?_⟩
    simp only [go_out, go_base, List.map_append, List.map_cons, List.map_nil, go_pc, if_true, go_P]
    rw [ho]
    have e1 : s.P - s.base = (s.P - 1 - s.base) + 1 := by omega
    rw [e1, List.range'_1_concat]
    congr 2
    omega
  all_goals (try simp only [hA, if_true])
  all_goals repeat' split
  all_goals
    refine ⟨?_, ?_⟩ <;>
    simp only [SyncPC, go_pc, if_true, isCons, OrdPC, go_P, go_R, go_mark, go_out, go_base,
      Bool.false_eq_true, if_false] <;>
    first
    | done
    | exact ho
    | exact hp
    | grind [upd]

theorem SyncOrd.step {c : Cfg α} {t0 : Nat} {s : St α} (hA : c.async = false) (hi : Inv c s)
    (hs : Solo c t0 s) (h : SyncOrd c t0 s) (e : Ev α)
    (he : match e with | .call t _ => t = t0 | _ => True) : SyncOrd c t0 (step c s e) := by
  have same : ∀ s' : St α, s'.pc t0 = s.pc t0 → s'.P = s.P → s'.R = s.R → s'.mark = s.mark →
      s'.out = s.out → s'.base = s.base → SyncOrd c t0 s' := by
    intro s' e1 e2 e3 e4 e5 e6
    refine ⟨?_, by rw [e1, e2, e5, e6]; exact h.out⟩
    rw [e1]
    have := h.pct
    unfold SyncPC at this ⊢
    split
    · rename_i hc
      rw [if_pos hc] at this
      revert this
      cases s.pc t0 <;> simp only [OrdPC, e2, e3, e4] <;> exact id
    · rename_i hc
      rw [if_neg hc] at this
      rw [e2, e3]; exact this
  cases e with
  | run t =>
    by_cases ht : t = t0
    · subst ht; exact h.stepT hA hi
    · have hidle := hs.1 t ht (fun h => by rw [hA] at h; cases h)
      have : Ring.step c s (.run t) = s := by
        simp only [Ring.step]; unfold Ring.stepT; rw [hidle]
      rw [this]; exact h
  | call t b =>
    simp only at he
    subst he
    unfold Ring.step; simp only; split
    · rename_i hpc
      split
      · have hp := h.pct
        have ho := h.out
        rw [hpc] at hp ho
        refine ⟨by simpa [SyncPC, isCons] using hp, by simpa using ho⟩
      · exact h
    · exact h
  | started => unfold Ring.step; simp only; split <;> exact same _ rfl rfl rfl rfl rfl rfl
  | closing => exact same _ rfl rfl rfl rfl rfl rfl
  | stop => unfold Ring.step; simp only; (repeat' split) <;> exact same _ rfl rfl rfl rfl rfl rfl

theorem SyncOrd.init (c : Cfg α) (hA : c.async = false) (t0 : Nat) : SyncOrd c t0 (init c) := by
  constructor
  · simp [Ring.init, hA, SyncPC, isCons]
  · simp [Ring.init, hA]

end FNLog.Ring
