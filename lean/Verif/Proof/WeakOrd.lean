import Verif.Proof.WeakRun
import Verif.Proof.RingOrd

/-! # Order of output and program order in the weak model -/

namespace FNLog.Weak
open FNLog FNLog.Ring

variable {α : Type}

theorem view_other (c : Cfg α) (x : WSt α) (t n : Nat) (b : Bool) {u : Nat} (hu : u ≠ t) :
    (stepT c x t n b).view u = x.view u := by
  unfold stepT
  simp only
  split <;> (repeat' split) <;> simp [WSt.put, WSt.see, WSt.swapH, WSt.swapW, WSt.swapP, WSt.swapR, WSt.store,
    WSt.touch, upd, hu]

/-- Newest values and program counters change as in a step of `Ring`, or only the program counter of the
thread changes (and the list of lost records). -/
theorem base_cases (c : Cfg α) (x : WSt α) (t n : Nat) (b : Bool) :
    (stepT c x t n b).s = Ring.stepT c x.s t ∨
    ∃ p, ((stepT c x t n b).s = x.s.go t p ∨ ∃ k, (stepT c x t n b).s = { x.s with lost := k :: x.s.lost }.go t p) ∧
      (pending p = pending (x.s.pc t) ∨ pending p = none) ∧ (∀ k, p ≠ .cDisp k) ∧
      (∀ k, x.s.pc t ≠ .cDisp k) := by
  unfold stepT
  simp only
  split <;> rename_i hpc <;> simp only [WSt.put, true_or]
  all_goals (repeat' split)
  all_goals first
    | exact Or.inr ⟨_, Or.inl rfl, by simp [pending, hpc], by simp, by simp [hpc]⟩
    | exact Or.inr ⟨_, Or.inr ⟨_, rfl⟩, by simp [pending, hpc], by simp, by simp [hpc]⟩
    | exact Or.inl rfl

theorem ProgOrd.weak {c : Cfg α} {x : WSt α} (h : ProgOrd c x.s) (e : WEv α) :
    ProgOrd c (step c x e).s := by
  cases e with
  | run t n b =>
    show ProgOrd c (stepT c x t n b).s
    rcases base_cases c x t n b with h1 | ⟨p, h1 | ⟨k, h1⟩, h2, _, _⟩
    · rw [h1]; exact h.stepT t
    · rw [h1]; exact progOrd_go h (t := t) rfl rfl rfl h2
    · rw [h1]; exact progOrd_go h (t := t) rfl rfl rfl h2
  | call t body =>
    unfold step
    simp only
    split
    · rename_i hpc
      intro u
      simp only [WSt.put, go_acquired, go_calls, go_pc]
      have := h u
      by_cases hu : u = t
      · subst hu
        rw [hpc] at this
        simp only [pending, Option.toList_none, List.map_nil, List.append_nil] at this
        simp only [if_true, pending, Option.toList_some, List.map_cons, List.map_nil,
          ofThread_append, List.map_append]
        exact this.append (by simp [ofThread])
      · have hne : ¬ (t = u) := fun e => hu e.symm
        simpa [hu, hne, ofThread_append, ofThread] using this
    · exact h

theorem progOrd_run {c : Cfg α} : ∀ {es : List (WEv α)} {x : WSt α}, ProgOrd c x.s →
    ProgOrd c (run c x es).s := by
  intro es
  induction es with
  | nil => intro s h; exact h
  | cons e es ih => intro s h; exact ih (ProgOrd.weak h e)

theorem base_weak (c : Cfg α) (x : WSt α) (e : WEv α) : (step c x e).s.base = x.s.base := by
  cases e with
  | run t n b =>
    show (stepT c x t n b).s.base = _
    rcases base_cases c x t n b with h1 | ⟨p, h1 | ⟨k, h1⟩, _⟩
    · rw [h1]
      have := base_run c [Ev.run t] x.s
      exact this
    · rw [h1]; rfl
    · rw [h1]; rfl
  | call t body => unfold step; simp only; split <;> rfl

theorem base_wrun (c : Cfg α) : ∀ (es : List (WEv α)) (x : WSt α), (run c x es).s.base = x.s.base := by
  intro es
  induction es with
  | nil => intro x; rfl
  | cons e es ih => intro x; exact (ih _).trans (base_weak c x e)

/-- What a step of a thread outside EnterProcChannel leaves alone. -/
theorem frame_weak {c : Cfg α} {x : WSt α} (h : Inv c x.s) {t n : Nat} {b : Bool}
    (hnc : isCons (x.s.pc t) = false) : Frame c x.s (stepT c x t n b).s t := by
  rcases base_cases c x t n b with h1 | ⟨p, h1 | ⟨k, h1⟩, _⟩
  · rw [h1]; exact frame_stepT h hnc
  · rw [h1]; exact ⟨rfl, rfl, rfl, rfl, fun u hu => by simp [hu], fun _ _ _ => rfl⟩
  · rw [h1]; exact ⟨rfl, rfl, rfl, rfl, fun u hu => by simp [hu], fun _ _ _ => rfl⟩

/-- Between clearing a mark and the next round of the loop. -/
def afterClear : PC α → Bool
  | .cStat _ | .cBytes _ | .rLoad | .rProc _ | .rMark _ | .rCas _ => true
  | _ => false

/-- The single consumer of an async channel knows everything about the indices that it alone changes. -/
structure WOrd (c : Cfg α) (x : WSt α) : Prop where
  ord : Ord c x.s
  vp : (x.view worker).p = x.s.P
  vr : (x.view worker).r = x.s.R
  vm : afterClear (x.s.pc worker) = true → x.s.R < x.s.P →
    3 * (x.s.R / c.L) + 3 ≤ (x.view worker).m (x.s.R % c.L)

theorem choose_self (n k : Nat) : choose n n k = n := by unfold choose; omega

theorem WOrd.of_ord {c : Cfg α} {x' : WSt α} (hi' : WInv c x')
    (hord : Ord c x'.s) (hp : x'.s.P ≤ (x'.view worker).p) (hr : x'.s.R ≤ (x'.view worker).r)
    (hvm : afterClear (x'.s.pc worker) = true → x'.s.R < x'.s.P →
      3 * (x'.s.R / c.L) + 3 ≤ (x'.view worker).m (x'.s.R % c.L)) : WOrd c x' :=
  ⟨hord, by have := (hi'.thr worker).bp; omega, by have := (hi'.thr worker).br; omega, hvm⟩

theorem ordPC_go {c : Cfg α} {s : St α} (t : Nat) (p q : PC α) : OrdPC c (s.go t q) p ↔ OrdPC c s p := by
  cases p <;> simp [OrdPC]

theorem ord_go {c : Cfg α} {s : St α} (ho : Ord c s) {p : PC α} (h1 : OrdPC c s p)
    (h2 : ∀ k, p ≠ .cDisp k) (h3 : ∀ k, s.pc worker ≠ .cDisp k) : Ord c (s.go worker p) := by
  refine ⟨?_, ?_⟩
  · rw [ordPC_go, go_pc, if_pos rfl]; exact h1
  · have e1 : outN (s.go worker p) = s.P := by
      unfold outN
      rw [go_pc, if_pos rfl]
      cases p <;> first | rfl | exact absurd rfl (h2 _)
    have e2 : outN s = s.P := by
      unfold outN
      cases hpc : s.pc worker <;> first | rfl | exact absurd hpc (h3 _)
    have := ho.out
    rw [e2] at this
    rw [e1]; exact this

/-- A load by the worker, or a test of the state. -/
theorem WOrd.load {c : Cfg α} {x : WSt α} (ho : WOrd c x) {u : View} {p : PC α}
    (hi' : WInv c ((x.see worker u).put (x.s.go worker p)))
    (h1 : OrdPC c x.s p) (h2 : ∀ k, p ≠ .cDisp k) (h3 : ∀ k, x.s.pc worker ≠ .cDisp k)
    (h4 : afterClear p = true → afterClear (x.s.pc worker) = true) :
    WOrd c ((x.see worker u).put (x.s.go worker p)) := by
  have e : ((x.see worker u).put (x.s.go worker p)).view worker = (x.view worker).join u := by
    simp [WSt.see, WSt.put, upd]
  refine .of_ord hi' (ord_go ho.ord h1 h2 h3) ?_ ?_ ?_
  · rw [e]; exact Nat.le_trans (Nat.le_of_eq ho.vp.symm) (Nat.le_max_left _ _)
  · rw [e]; exact Nat.le_trans (Nat.le_of_eq ho.vr.symm) (Nat.le_max_left _ _)
  · intro ha hlt
    rw [e]
    refine Nat.le_trans (ho.vm (h4 ?_) hlt) (Nat.le_max_left _ _)
    simpa [WSt.put] using ha

/-- A step that tells the worker nothing. -/
theorem WOrd.plain {c : Cfg α} {x : WSt α} (ho : WOrd c x) {s' : St α}
    (hi' : WInv c (x.put s')) (h1 : Ord c s') (hP : s'.P = x.s.P) (hR : s'.R = x.s.R)
    (h4 : afterClear (s'.pc worker) = true → afterClear (x.s.pc worker) = true) :
    WOrd c (x.put s') := by
  refine .of_ord hi' h1 ?_ ?_ ?_
  · show s'.P ≤ (x.view worker).p; rw [hP, ho.vp]; exact Nat.le_refl _
  · show s'.R ≤ (x.view worker).r; rw [hR, ho.vr]; exact Nat.le_refl _
  · intro ha hlt
    show 3 * (s'.R / c.L) + 3 ≤ (x.view worker).m (s'.R % c.L)
    have hlt : s'.R < s'.P := hlt
    rw [hR, hP] at hlt
    rw [hR]; exact ho.vm (h4 ha) hlt

theorem WOrd.workerStep {c : Cfg α} {x : WSt α} (hA : c.async = true) (hi : WInv c x) (ho : WOrd c x)
    {n : Nat} {b : Bool} (hi' : WInv c (Weak.stepT c x worker n b)) :
    WOrd c (Weak.stepT c x worker n b) := by
  have hpcw := ho.ord.pcw
  have hw := Ord.worker hA hi.inv ho.ord
  have hvp := ho.vp
  have hvr := ho.vr
  have hvm := ho.vm
  have hle := hi.inv.leRP
  have hvpc := choose_self x.s.P n
  have hvrc := choose_self x.s.R n
  have hL : 0 < c.L := by
    have := hi.inv.cap; have := hi.inv.leRP; have := hi.inv.lePW; have := hi.inv.leWH; omega
  have hcap := hi.inv.cap
  have hlePW := hi.inv.lePW
  have hleWH := hi.inv.leWH
  unfold Weak.stepT at hi' ⊢
  simp only at hi' ⊢
  rw [hvp, hvr, hvpc, hvrc] at hi' ⊢
  cases hpc : x.s.pc worker <;> rw [hpc] at hpcw hvm <;> simp only [OrdPC] at hpcw <;>
    (try contradiction) <;> (try simp only [hpc] at hi' ⊢)
  case cLoad =>
    exact ho.load hi' ⟨hpcw, rfl⟩ (by simp) (by simp [hpc]) (by simp [afterClear])
  case cWrite tk =>
    obtain ⟨h4, rfl⟩ := hpcw
    split at hi' <;> rename_i he
    · rw [if_pos he]; exact ho.load hi' h4 (by simp) (by simp [hpc]) (by simp [afterClear])
    · rw [if_neg he]; exact ho.load hi' ⟨h4, rfl⟩ (by simp) (by simp [hpc]) (by simp [afterClear])
  case cCas tk =>
    obtain ⟨h4, rfl⟩ := hpcw
    rw [if_pos rfl] at hi' ⊢
    refine .of_ord hi' hw ?_ ?_ ?_
    · simp [WSt.put, WSt.swapP, upd, Ring.stepT, hpc]
    · simp only [WSt.put, WSt.swapP, upd, Ring.stepT, hpc, if_true, go_R, View.join]; omega
    · simp [WSt.put, Ring.stepT, hpc, afterClear]
  case cDisp k =>
    obtain ⟨h4, rfl⟩ := hpcw
    refine .of_ord hi' hw ?_ ?_ ?_
    · simp [WSt.put, WSt.touch, upd, Ring.stepT, hpc, hvp]
    · simp [WSt.put, WSt.touch, upd, Ring.stepT, hpc, hvr]
    · simp [WSt.put, Ring.stepT, hpc, afterClear]
  case cClear k =>
    obtain ⟨h4, rfl⟩ := hpcw
    refine .of_ord hi' hw ?_ ?_ ?_
    · simp [WSt.put, WSt.store, upd, Ring.stepT, hpc, hvp]
    · simp [WSt.put, WSt.store, upd, Ring.stepT, hpc, hvr]
    · intro _ _
      have := (hi.lenRP x.s.R (Nat.le_refl _) (by omega)).1
      simp only [WSt.put, WSt.store, upd, Ring.stepT, hpc, if_true, go_R]
      omega
  case cStat k =>
    exact ho.plain hi' hw (by simp [Ring.stepT, hpc]) (by simp [Ring.stepT, hpc]) (by simp [hpc, afterClear])
  case cBytes k =>
    exact ho.plain hi' hw (by simp [Ring.stepT, hpc]) (by simp [Ring.stepT, hpc]) (by simp [hpc, afterClear])
  case rLoad =>
    exact ho.load hi' (p := .rProc x.s.R) ⟨rfl, hpcw⟩ (by simp) (by simp [hpc]) (by simp [hpc, afterClear])
  case rProc tk =>
    obtain ⟨rfl, h4⟩ := hpcw
    split at hi' <;> rename_i he
    · rw [if_pos he]
      refine ho.load hi' ?_ (by simp) (by simp [hpc]) (by simp [afterClear])
      rcases h4 with h4 | h4
      · exact h4.symm
      · exact mod_inj he (by omega) (by omega)
    · rw [if_neg he]
      refine ho.load hi' (p := .rMark x.s.R) ?_ (by simp) (by simp [hpc]) (by simp [hpc, afterClear])
      rcases h4 with h4 | h4
      · rw [h4] at he; exact absurd rfl he
      · exact ⟨rfl, h4⟩
  case rMark tk =>
    obtain ⟨rfl, h4, h5⟩ := hpcw
    have hm := hvm rfl (by omega)
    have hl := (hi.lenRP x.s.R (Nat.le_refl _) (by omega)).2
    have hb := (hi.thr worker).bm (x.s.R % c.L)
    have e1 : (x.view worker).m (x.s.R % c.L) = x.mlen (x.s.R % c.L) := by omega
    rw [e1, choose_self] at hi' ⊢
    rw [hi.val _ _ (Nat.le_refl _), ← hi.cur, h5] at hi' ⊢
    simp only [ne_eq, not_true_eq_false, if_false] at hi' ⊢
    exact ho.load hi' (p := .rCas x.s.R) ⟨rfl, h4, h5⟩ (by simp) (by simp [hpc]) (by simp [hpc, afterClear])
  case rCas tk =>
    obtain ⟨rfl, h4, h5⟩ := hpcw
    rw [if_pos rfl] at hi' ⊢
    refine .of_ord hi' hw ?_ ?_ ?_
    · simp only [WSt.put, WSt.swapR, upd, Ring.stepT, hpc, if_true, go_P, View.join]; omega
    · simp [WSt.put, WSt.swapR, upd, Ring.stepT, hpc]
    · intro _ hlt
      simp only [WSt.put, Ring.stepT, hpc, if_true, go_P, go_R] at hlt
      omega
  case cEnd =>
    split at hi' <;> rename_i he
    · rw [if_pos he]
      exact ho.plain hi' (ord_go ho.ord hpcw (by simp) (by simp [hpc])) rfl rfl (by simp [afterClear])
    · rw [if_neg he]
      exact ho.plain hi' (ord_go ho.ord hpcw (by simp) (by simp [hpc])) rfl rfl (by simp [afterClear])
  case cLoop =>
    rw [if_neg (by simp [hA])] at hi' ⊢
    split at hi' <;> rename_i he
    · rw [if_pos he]
      exact ho.plain hi' (ord_go ho.ord hpcw (by simp) (by simp [hpc])) rfl rfl (by simp [afterClear])
    · rw [if_neg he]
      exact ho.plain hi' (ord_go ho.ord hpcw (by simp) (by simp [hpc])) rfl rfl (by simp [afterClear])
  case cLoopW =>
    exact ho.load hi' hpcw (by simp) (by simp [hpc]) (by simp [afterClear])
  case cLoopR w =>
    split at hi' <;> rename_i he
    · rw [if_pos he]; exact ho.load hi' hpcw (by simp) (by simp [hpc]) (by simp [afterClear])
    · rw [if_neg he]; exact ho.load hi' hpcw (by simp) (by simp [hpc]) (by simp [afterClear])
  case cSet =>
    exact ho.plain hi' hw (by simp [Ring.stepT, hpc]) (by simp [Ring.stepT, hpc])
      (by simp [Ring.stepT, hpc, afterClear])
  case cFin =>
    exact ho.plain hi' hw (by simp [Ring.stepT, hpc]) (by simp [Ring.stepT, hpc])
      (by simp [Ring.stepT, hpc, afterClear])
  case done =>
    exact ho.plain hi' hw (by simp [Ring.stepT, hpc]) (by simp [Ring.stepT, hpc])
      (by simp [Ring.stepT, hpc])

theorem WOrd.step {c : Cfg α} {x : WSt α} (hA : c.async = true) (hi : WInv c x) (ho : WOrd c x)
    (e : WEv α) (hi' : WInv c (Weak.step c x e)) : WOrd c (Weak.step c x e) := by
  cases e with
  | run t n b =>
    by_cases ht : t = worker
    · subst ht; exact ho.workerStep hA hi hi'
    · have hnc : isCons (x.s.pc t) = false := by
        by_cases hc : isCons (x.s.pc t) = true
        · exact absurd (hi.inv.consTid hA t hc) ht
        · simpa using hc
      have hf := frame_weak hi.inv (n := n) (b := b) hnc
      have hv := view_other c x t n b (Ne.symm ht)
      show WOrd c (Weak.stepT c x t n b)
      refine ⟨ho.ord.of_frame hi.inv hf ht, ?_, ?_, ?_⟩
      · rw [hv, hf.P]; exact ho.vp
      · rw [hv, hf.R]; exact ho.vr
      · rw [hv, hf.P, hf.R, hf.pc _ (Ne.symm ht)]; exact ho.vm
  | call t body =>
    have hpcw := ho.ord.pcw
    unfold Weak.step at hi' ⊢
    simp only at hi' ⊢
    split
    · rename_i hpc
      have ht : t ≠ worker := by rintro rfl; rw [hpc] at hpcw; exact hpcw
      refine ⟨ho.ord.of_frame (t := t) hi.inv
        ⟨rfl, rfl, rfl, rfl, fun u hu => by simp [WSt.put, hu], fun _ _ _ => rfl⟩ ht, ho.vp, ho.vr, ?_⟩
      intro ha hlt
      refine ho.vm ?_ hlt
      simpa [WSt.put, Ne.symm ht] using ha
    · exact ho

theorem WOrd.run {c : Cfg α} (hA : c.async = true) : ∀ {es : List (WEv α)} {x : WSt α},
    WInv c x → WOrd c x → Timely c x es → WOrd c (Weak.run c x es) := by
  intro es
  induction es with
  | nil => intro x _ h _; exact h
  | cons e es ih =>
    intro x hi h ht
    have h1 : WInv c (Weak.step c x e) := by
      cases e with
      | run t n b => exact hi.step _ (fun t' n' b' he => by cases he; exact ht.1)
      | call t body => exact hi.step _ (fun t' n' b' he => by cases he)
    refine ih h1 (h.step hA hi e h1) ?_
    cases e with
    | run t n b => exact ht.2
    | call t body => exact ht

theorem WOrd.init {c : Cfg α} (hA : c.async = true) : WOrd c (Weak.init c) := by
  refine ⟨⟨?_, ?_⟩, rfl, rfl, ?_⟩
  · simp [Weak.init, Ring.init, hA, OrdPC]
  · simp [Weak.init, Ring.init, outN, hA]
  · intro _ h; exact absurd h (Nat.lt_irrefl _)

end FNLog.Weak
