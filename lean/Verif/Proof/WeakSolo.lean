import Verif.Proof.WeakOrd
import Verif.Proof.RingSync

/-! # One logging thread in the weak model -/

namespace FNLog.Weak
open FNLog FNLog.Ring

variable {α : Type}

/-- Only `t0` logs, and it finds the channel running. -/
def WEv.solo (t0 : Nat) : WEv α → Prop
  | .call t _ => t = t0
  | .run t _ b => t = t0 → b = true

/-- Nothing, or the record the thread has just marked, is not published. -/
def Rest (c : Cfg α) (s : St α) (v : View) : Prop :=
  s.W = s.H ∨ (s.H = s.W + 1 ∧ 3 * (s.W / c.L) + 2 ≤ v.m (s.W % c.L))

def SoloPC (c : Cfg α) (s : St α) (v : View) : PC α → Prop
  | .idle | .hChk _ _ | .hLoad _ _ | .hOut _ | .hSleep _ | .wInc | .wExit => s.W = s.H
  | .hRead _ tk _ | .hCas _ tk _ => s.W = s.H ∧ tk = s.H
  | .hInc k _ | .hMark k _ | .fInit k _ | .fill k _ | .pChk k | .pSeal k | .pMark k => k = s.W ∧ s.H = s.W + 1
  | .wLoad | .wCond => Rest c s v
  | .wHold tk => tk = s.W ∧ Rest c s v
  | .wMark tk | .wCas tk => tk = s.W ∧ s.H = s.W + 1 ∧ 3 * (s.W / c.L) + 2 ≤ v.m (s.W % c.L)
  | _ => False

/-- The thread knows everything about the indices that it alone changes. -/
structure Solo (c : Cfg α) (t0 : Nat) (x : WSt α) : Prop where
  others : ∀ u, u ≠ t0 → u ≠ worker → x.s.pc u = .idle
  vh : (x.view t0).h = x.s.H
  vw : (x.view t0).w = x.s.W
  pct : SoloPC c x.s (x.view t0) (x.s.pc t0)
  eq : ProgEq c x.s

theorem soloPC_go {c : Cfg α} {s : St α} {v : View} (t : Nat) (p q : PC α) :
    SoloPC c (s.go t q) v p ↔ SoloPC c s v p := by
  cases p <;> simp [SoloPC, Rest]

theorem SoloPC.mono {c : Cfg α} {s s' : St α} {v v' : View} {p : PC α} (h : SoloPC c s v p)
    (hH : s'.H = s.H) (hW : s'.W = s.W) (hv : ∀ i, v.m i ≤ v'.m i) : SoloPC c s' v' p := by
  cases p <;> simp only [SoloPC, Rest, hH, hW] at h ⊢ <;> (try exact h)
  case wLoad => exact h.imp id (fun h => ⟨h.1, Nat.le_trans h.2 (hv _)⟩)
  case wCond => exact h.imp id (fun h => ⟨h.1, Nat.le_trans h.2 (hv _)⟩)
  case wHold => exact ⟨h.1, h.2.imp id (fun h => ⟨h.1, Nat.le_trans h.2 (hv _)⟩)⟩
  case wMark => exact ⟨h.1, h.2.1, Nat.le_trans h.2.2 (hv _)⟩
  case wCas => exact ⟨h.1, h.2.1, Nat.le_trans h.2.2 (hv _)⟩

theorem Solo.load {c : Cfg α} {t0 : Nat} {x : WSt α} (ho : Solo c t0 x) {u : View} {p : PC α}
    (hi' : WInv c ((x.see t0 u).put (x.s.go t0 p)))
    (h1 : SoloPC c x.s (x.view t0) p) (h2 : pending p = pending (x.s.pc t0)) :
    Solo c t0 ((x.see t0 u).put (x.s.go t0 p)) := by
  have e : ((x.see t0 u).put (x.s.go t0 p)).view t0 = (x.view t0).join u := by
    simp [WSt.see, WSt.put, upd]
  have g := hi'.thr t0
  have gh := g.bh
  have gw := g.bw
  rw [e] at gh gw
  refine ⟨?_, ?_, ?_, ?_, ?_⟩
  · intro w hw hw'
    simpa [WSt.put, hw] using ho.others w hw hw'
  · rw [e]
    exact Nat.le_antisymm gh (Nat.le_trans (Nat.le_of_eq ho.vh.symm) (Nat.le_max_left _ _))
  · rw [e]
    exact Nat.le_antisymm gw (Nat.le_trans (Nat.le_of_eq ho.vw.symm) (Nat.le_max_left _ _))
  · rw [e]
    show SoloPC c (x.s.go t0 p) _ ((x.s.go t0 p).pc t0)
    rw [soloPC_go, go_pc, if_pos rfl]
    exact h1.mono rfl rfl (fun i => Nat.le_max_left _ _)
  · exact progEq_go ho.eq (t := t0) rfl rfl rfl h2

theorem Solo.plain {c : Cfg α} {t0 : Nat} {x x' : WSt α} (ho : Solo c t0 x) {p : PC α}
    (hpc : x'.s.pc = fun u => if u = t0 then p else x.s.pc u)
    (hH : x'.s.H = x.s.H) (hW : x'.s.W = x.s.W) (ha : x'.s.acquired = x.s.acquired)
    (hc : x'.s.calls = x.s.calls)
    (hvh : (x'.view t0).h = (x.view t0).h) (hvw : (x'.view t0).w = (x.view t0).w)
    (h1 : SoloPC c x.s (x'.view t0) p) (h2 : pending p = pending (x.s.pc t0)) : Solo c t0 x' := by
  refine ⟨?_, by rw [hvh, hH, ho.vh], by rw [hvw, hW, ho.vw], ?_, progEq_go ho.eq hpc ha hc h2⟩
  · intro w hw hw'
    rw [hpc]; simpa [hw] using ho.others w hw hw'
  · rw [hpc]; simp only [if_true]
    exact h1.mono hH hW (fun _ => Nat.le_refl _)

theorem Solo.stepSelf {c : Cfg α} {t0 : Nat} {x : WSt α} (hA : c.async = true) (hi : WInv c x)
    (ho : Solo c t0 x) {n : Nat} (hi' : WInv c (Weak.stepT c x t0 n true)) :
    Solo c t0 (Weak.stepT c x t0 n true) := by
  have hp := ho.pct
  have hvh := ho.vh
  have hvw := ho.vw
  have hhc := choose_self x.s.H n
  have hwc := choose_self x.s.W n
  have hcap := hi.inv.cap
  have hleRP := hi.inv.leRP
  have hlePW := hi.inv.lePW
  have hleWH := hi.inv.leWH
  unfold Weak.stepT at hi' ⊢
  simp only at hi' ⊢
  rw [hvh, hvw, hhc, hwc] at hi' ⊢
  cases hpc : x.s.pc t0 <;> rw [hpc] at hp <;> simp only [SoloPC] at hp <;>
    (try contradiction) <;> (try simp only [hpc, if_true] at hi' ⊢)
  case idle =>
    simpa [Ring.stepT, hpc, WSt.put] using ho
  case hChk i body =>
    exact ho.plain rfl rfl rfl rfl rfl rfl rfl hp (by simp [pending, hpc])
  case hLoad i body =>
    exact ho.load hi' ⟨hp, rfl⟩ (by simp [pending, hpc])
  case hRead i tk body =>
    split at hi' <;> rename_i he
    · rw [if_pos he]; exact ho.load hi' hp.1 (by simp [pending, hpc])
    · rw [if_neg he]; exact ho.load hi' hp (by simp [pending, hpc])
  case hCas i tk body =>
    obtain ⟨h1, rfl⟩ := hp
    rw [if_pos rfl] at hi' ⊢
    have e : Ring.stepT c x.s t0 =
        { x.s with H := x.s.H + 1, acquired := x.s.acquired ++ [(t0, body ++ [c.nl])] }.go t0
          (.hInc x.s.H body) := by
      unfold Ring.stepT; rw [hpc]; simp only [if_true]
    rw [e] at hi' ⊢
    refine ⟨?_, ?_, ?_, ?_, ?_⟩
    · intro w hw hw'
      simpa [WSt.put, hw] using ho.others w hw hw'
    · simp [WSt.put, WSt.swapH, upd]
    · have g := (hi'.thr t0).bw
      refine Nat.le_antisymm g ?_
      simp only [WSt.put, WSt.swapH, upd, if_true, go_W, View.join]
      rw [hvw]; exact Nat.le_max_left _ _
    · simp [WSt.put, SoloPC, h1]
    · intro u
      simp only [WSt.put, go_acquired, go_calls, go_pc]
      have := ho.eq u
      by_cases hu : u = t0
      · subst hu
        rw [hpc] at this
        simpa [pending, ofThread_append, ofThread] using this
      · have hne : ¬ (t0 = u) := fun e => hu e.symm
        simpa [hu, hne, ofThread_append, ofThread] using this
  case hOut body =>
    exact ho.plain rfl rfl rfl rfl rfl rfl rfl hp (by simp [pending, hpc])
  case hSleep body =>
    exact ho.plain (p := .hChk 0 body) (by simp [WSt.put, Ring.stepT, hpc, St.go])
      (by simp [WSt.put, Ring.stepT, hpc]) (by simp [WSt.put, Ring.stepT, hpc])
      (by simp [WSt.put, Ring.stepT, hpc]) (by simp [WSt.put, Ring.stepT, hpc])
      rfl rfl hp (by simp [pending, hpc])
  case hInc k body =>
    exact ho.plain (p := .hMark k body) (by simp [WSt.put, Ring.stepT, hpc, St.go])
      (by simp [WSt.put, Ring.stepT, hpc]) (by simp [WSt.put, Ring.stepT, hpc])
      (by simp [WSt.put, Ring.stepT, hpc]) (by simp [WSt.put, Ring.stepT, hpc])
      rfl rfl hp (by simp [pending, hpc])
  case hMark k body =>
    exact ho.plain (p := .fInit k body) (by simp [WSt.put, Ring.stepT, hpc, St.go])
      (by simp [WSt.put, Ring.stepT, hpc]) (by simp [WSt.put, Ring.stepT, hpc])
      (by simp [WSt.put, Ring.stepT, hpc]) (by simp [WSt.put, Ring.stepT, hpc])
      (by simp [WSt.put, WSt.store, upd]) (by simp [WSt.put, WSt.store, upd]) hp (by simp [pending, hpc])
  case fInit k body =>
    exact ho.plain (p := .fill k body) (by simp [WSt.put, Ring.stepT, hpc, St.go])
      (by simp [WSt.put, Ring.stepT, hpc]) (by simp [WSt.put, Ring.stepT, hpc])
      (by simp [WSt.put, Ring.stepT, hpc]) (by simp [WSt.put, Ring.stepT, hpc])
      (by simp [WSt.put, WSt.touch, upd]) (by simp [WSt.put, WSt.touch, upd]) hp (by simp [pending, hpc])
  case fill k rest =>
    cases rest with
    | nil =>
      exact ho.plain (p := .pChk k) (by simp [WSt.put, Ring.stepT, hpc, St.go])
        (by simp [WSt.put, Ring.stepT, hpc]) (by simp [WSt.put, Ring.stepT, hpc])
        (by simp [WSt.put, Ring.stepT, hpc]) (by simp [WSt.put, Ring.stepT, hpc])
        rfl rfl hp (by simp [pending, hpc])
    | cons a rest =>
      exact ho.plain (p := .fill k rest) (by simp [WSt.put, Ring.stepT, hpc, St.go])
        (by simp [WSt.put, Ring.stepT, hpc]) (by simp [WSt.put, Ring.stepT, hpc])
        (by simp [WSt.put, Ring.stepT, hpc]) (by simp [WSt.put, Ring.stepT, hpc])
        (by simp [WSt.put, WSt.touch, upd]) (by simp [WSt.put, WSt.touch, upd]) hp (by simp [pending, hpc])
  case pChk k =>
    exact ho.plain rfl rfl rfl rfl rfl rfl rfl hp (by simp [pending, hpc])
  case pSeal k =>
    exact ho.plain (p := .pMark k) (by simp [WSt.put, Ring.stepT, hpc, St.go])
      (by simp [WSt.put, Ring.stepT, hpc]) (by simp [WSt.put, Ring.stepT, hpc])
      (by simp [WSt.put, Ring.stepT, hpc]) (by simp [WSt.put, Ring.stepT, hpc])
      (by simp [WSt.put, WSt.touch, upd]) (by simp [WSt.put, WSt.touch, upd]) hp (by simp [pending, hpc])
  case pMark k =>
    obtain ⟨rfl, h1⟩ := hp
    refine ho.plain (p := .wLoad) (by simp [WSt.put, Ring.stepT, hpc, St.go])
      (by simp [WSt.put, Ring.stepT, hpc]) (by simp [WSt.put, Ring.stepT, hpc])
      (by simp [WSt.put, Ring.stepT, hpc]) (by simp [WSt.put, Ring.stepT, hpc])
      (by simp [WSt.put, WSt.store, upd]) (by simp [WSt.put, WSt.store, upd]) (Or.inr ⟨h1, ?_⟩)
      (by simp [pending, hpc])
    have hw := hi.wti t0
    rw [hpc] at hw
    have hb := (hi.thr t0).bm (x.s.W % c.L)
    simp only [WTI] at hw
    simp only [WSt.put, WSt.store, upd, if_true]
    omega
  case wLoad =>
    exact ho.load hi' ⟨rfl, hp⟩ (by simp [pending, hpc])
  case wHold tk =>
    obtain ⟨rfl, h1⟩ := hp
    split at hi' <;> rename_i he
    · rw [if_pos he]
      refine ho.load hi' ?_ (by simp [pending, hpc])
      exact mod_inj he hleWH (by omega)
    · rw [if_neg he]
      refine ho.load hi' (p := .wMark x.s.W) ?_ (by simp [pending, hpc])
      rcases h1 with h1 | h1
      · rw [h1] at he; exact absurd rfl he
      · exact ⟨rfl, h1⟩
  case wMark tk =>
    obtain ⟨rfl, h1, h2⟩ := hp
    have hl := (hi.lenWH x.s.W (Nat.le_refl _) (by omega)).2
    have hb := (hi.thr t0).bm (x.s.W % c.L)
    have e1 : (x.view t0).m (x.s.W % c.L) = x.mlen (x.s.W % c.L) := by omega
    have e2 : x.mlen (x.s.W % c.L) = 3 * (x.s.W / c.L) + 2 := by omega
    have e3 : x.vals (x.s.W % c.L) (x.mlen (x.s.W % c.L)) = .ready := by
      rw [hi.val _ _ (Nat.le_refl _), e2, markOf_ready]; omega
    rw [e1, choose_self, e3] at hi' ⊢
    simp only [ne_eq, not_true_eq_false, if_false] at hi' ⊢
    exact ho.load hi' (p := .wCas x.s.W) ⟨rfl, h1, h2⟩ (by simp [pending, hpc])
  case wCas tk =>
    obtain ⟨rfl, h1, h2⟩ := hp
    rw [if_pos rfl] at hi' ⊢
    have e : Ring.stepT c x.s t0 = { x.s with W := x.s.W + 1 }.go t0 .wInc := by
      unfold Ring.stepT; rw [hpc]; simp only [if_true]
    rw [e] at hi' ⊢
    refine ⟨?_, ?_, ?_, ?_, ?_⟩
    · intro w hw hw'
      simpa [WSt.put, hw] using ho.others w hw hw'
    · have g := (hi'.thr t0).bh
      refine Nat.le_antisymm g ?_
      simp only [WSt.put, WSt.swapW, upd, if_true, go_H, View.join]
      rw [hvh]; exact Nat.le_max_left _ _
    · simp [WSt.put, WSt.swapW, upd]
    · simp [WSt.put, SoloPC, h1]
    · exact progEq_go ho.eq (t := t0) rfl rfl rfl (by simp [pending, hpc])
  case wInc =>
    exact ho.plain (p := .wCond) (by simp [WSt.put, Ring.stepT, hpc, St.go])
      (by simp [WSt.put, Ring.stepT, hpc]) (by simp [WSt.put, Ring.stepT, hpc])
      (by simp [WSt.put, Ring.stepT, hpc]) (by simp [WSt.put, Ring.stepT, hpc])
      rfl rfl (Or.inl hp) (by simp [pending, hpc])
  case wCond =>
    exact ho.plain rfl rfl rfl rfl rfl rfl rfl hp (by simp [pending, hpc])
  case wExit =>
    rw [if_neg (by simp [hA])] at hi' ⊢
    exact ho.plain rfl rfl rfl rfl rfl rfl rfl hp (by simp [pending, hpc])

/-- The worker changes neither `hold_idx_` nor `write_idx_`. -/
theorem worker_frame {c : Cfg α} {x : WSt α} (hA : c.async = true) (ho : WOrd c x) (n : Nat) (b : Bool) :
    ∃ p, (Weak.stepT c x worker n b).s.pc = (fun u => if u = worker then p else x.s.pc u) ∧
      (Weak.stepT c x worker n b).s.H = x.s.H ∧ (Weak.stepT c x worker n b).s.W = x.s.W ∧
      (Weak.stepT c x worker n b).s.acquired = x.s.acquired ∧
      (Weak.stepT c x worker n b).s.calls = x.s.calls ∧ pending p = none := by
  have hpcw := ho.ord.pcw
  unfold Weak.stepT Ring.stepT
  simp only
  cases hpc : x.s.pc worker <;> rw [hpc] at hpcw <;> simp only [OrdPC] at hpcw <;> (try contradiction) <;>
    (try simp only [hA, Bool.true_eq_false, if_false]) <;> (repeat' split) <;>
    first
      | exact ⟨_, rfl, rfl, rfl, rfl, rfl, rfl⟩
      | (refine ⟨_, ?_, rfl, rfl, rfl, rfl, (rfl : pending (.done : PC α) = none)⟩
         funext u; simp only [WSt.put]; split <;> simp_all)

theorem Solo.step {c : Cfg α} {t0 : Nat} {x : WSt α} (hA : c.async = true) (ht0 : t0 ≠ worker)
    (hi : WInv c x) (hw : WOrd c x) (ho : Solo c t0 x) (e : WEv α) (he : e.solo t0)
    (hi' : WInv c (Weak.step c x e)) : Solo c t0 (Weak.step c x e) := by
  cases e with
  | run t n b =>
    by_cases ht : t = t0
    · subst ht
      have : b = true := he rfl
      subst this
      exact ho.stepSelf hA hi hi'
    · by_cases htw : t = worker
      · subst htw
        obtain ⟨p, hp1, hp2, hp3, hp4, hp5, hp6⟩ := worker_frame hA hw n b
        have hv := view_other c x worker n b ht0
        show Solo c t0 (Weak.stepT c x worker n b)
        refine ⟨?_, ?_, ?_, ?_, ?_⟩
        · intro u hu hu'
          rw [hp1]; simpa [hu'] using ho.others u hu hu'
        · rw [hv, hp2]; exact ho.vh
        · rw [hv, hp3]; exact ho.vw
        · rw [hv, hp1]; simp only [ht0, if_false]
          exact ho.pct.mono hp2 hp3 (fun _ => Nat.le_refl _)
        · refine progEq_go ho.eq (t := worker) hp1 hp4 hp5 (hp6.trans ?_)
          have hpcw := hw.ord.pcw
          cases hpc : x.s.pc worker <;> rw [hpc] at hpcw <;> simp only [OrdPC] at hpcw <;>
            first | contradiction | rfl
      · have hpc := ho.others t ht htw
        have : Weak.step c x (.run t n b) = x := by
          simp [Weak.step, Weak.stepT, hpc, Ring.stepT, WSt.put]
        rw [this]; exact ho
  | call t body =>
    have ht : t = t0 := he
    subst ht
    unfold Weak.step
    simp only
    split
    · rename_i hpc
      have hp := ho.pct
      rw [hpc] at hp
      refine ⟨?_, ho.vh, ho.vw, ?_, ?_⟩
      · intro u hu hu'
        simpa [WSt.put, hu] using ho.others u hu hu'
      · simpa [WSt.put, SoloPC] using hp
      · intro u
        simp only [WSt.put, go_acquired, go_calls, go_pc]
        have := ho.eq u
        by_cases hu : u = t
        · subst hu
          rw [hpc] at this
          simp only [pending, Option.toList_none, List.map_nil, List.append_nil] at this
          simp only [if_true, pending, Option.toList_some, List.map_cons, List.map_nil,
            ofThread_append, List.map_append, this]
          simp [ofThread]
        · have hne : ¬ (t = u) := fun e => hu e.symm
          simpa [hu, hne, ofThread_append, ofThread] using this
    · exact ho

theorem Solo.run {c : Cfg α} {t0 : Nat} (hA : c.async = true) (ht0 : t0 ≠ worker) :
    ∀ {es : List (WEv α)} {x : WSt α}, WInv c x → WOrd c x → Solo c t0 x → Timely c x es →
    (∀ e ∈ es, e.solo t0) → Solo c t0 (Weak.run c x es) := by
  intro es
  induction es with
  | nil => intro x _ _ h _ _; exact h
  | cons e es ih =>
    intro x hi hw h ht he
    have h1 : WInv c (Weak.step c x e) := by
      cases e with
      | run t n b => exact hi.step _ (fun t' n' b' he => by cases he; exact ht.1)
      | call t body => exact hi.step _ (fun t' n' b' he => by cases he)
    refine ih h1 (hw.step hA hi e h1) (h.step hA ht0 hi hw e (he e (by simp)) h1) ?_
      (fun e' he' => he e' (by simp [he']))
    cases e with
    | run t n b => exact ht.2
    | call t body => exact ht

theorem Solo.init {c : Cfg α} {t0 : Nat} (ht0 : t0 ≠ worker) : Solo c t0 (Weak.init c) := by
  refine ⟨?_, rfl, rfl, ?_, ProgEq.init c⟩
  · intro u _ hu; simp [Weak.init, Ring.init, hu]
  · simp [Weak.init, Ring.init, ht0, SoloPC]

/-- The thread an event belongs to. -/
def WEv.tid : WEv α → Nat
  | .call t _ => t
  | .run t _ _ => t

theorem pc_untouched (c : Cfg α) : ∀ (es : List (WEv α)) (x : WSt α) (t : Nat), (∀ e ∈ es, e.tid ≠ t) →
    (Weak.run c x es).s.pc t = x.s.pc t := by
  intro es
  induction es with
  | nil => intro x t _; rfl
  | cons e es ih =>
    intro x t h
    refine (ih (Weak.step c x e) t (fun e' he' => h e' (List.mem_cons_of_mem _ he'))).trans ?_
    have hne : e.tid ≠ t := h e (List.mem_cons_self ..)
    cases e with
    | call u body =>
      have hne : t ≠ u := Ne.symm hne
      simp only [Weak.step]; split <;> simp [WSt.put, hne]
    | run u n b =>
      have hne : t ≠ u := Ne.symm hne
      show (Weak.stepT c x u n b).s.pc t = x.s.pc t
      rcases base_cases c x u n b with h1 | ⟨p, h1 | ⟨k, h1⟩, _⟩
      · rw [h1]; unfold Ring.stepT; split <;> (repeat' split) <;> simp [hne]
      · rw [h1]; simp [hne]
      · rw [h1]; simp [hne]

end FNLog.Weak
