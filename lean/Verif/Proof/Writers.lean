import Verif.Model.Writers
import Verif.Proof.RingStop
import Verif.Proof.RingFinal

/-! # Several writer threads on one queue: the invariant, and the order of each of them -/

namespace FNLog.Ring
open FNLog

variable {α : Type}

/-- The same channel, seen as one where any thread may process the queue. -/
def anyCons (c : Cfg α) : Cfg α := { c with async := false }

theorem timelyAt_any {c : Cfg α} {s : St α} {t : Nat} (h : timelyAt c s t) : timelyAt (anyCons c) s t := h

theorem stepT_any {c : Cfg α} {s : St α} {t : Nat} (h1 : s.pc t ≠ .wExit) (h2 : s.pc t ≠ .cLoop) :
    stepT c s t = stepT (anyCons c) s t := by
  unfold stepT
  cases hpc : s.pc t
  case wExit => exact absurd hpc h1
  case cLoop => exact absurd hpc h2
  case fill k b => cases b <;> rfl
  all_goals rfl

/-- What `Inv` says, whatever the threads that process the queue. -/
abbrev InvM (c : Cfg α) (s : St α) : Prop := Inv (anyCons c) s

theorem InvM.stepT {c : Cfg α} {s : St α} (h : InvM c s) {t : Nat} (ht : timelyAt c s t) : InvM c (stepT c s t) := by
  by_cases h1 : s.pc t = .wExit
  · unfold Ring.stepT
    rw [h1]
    simp only
    split <;> exact Inv.loc h (t := t) rfl rfl rfl rfl rfl rfl rfl rfl rfl rfl rfl rfl
      (by rw [h1]; rfl) (by rw [h1]; rfl) (by simp [h1]) (fun e => by cases e) trivial
  · by_cases h2 : s.pc t = .cLoop
    · unfold Ring.stepT
      rw [h2]
      simp only
      have key : ∀ p, p = .idle ∨ p = .cLoad ∨ p = .cLoopW → InvM c (s.go t p) := by
        intro p hp
        rcases hp with rfl | rfl | rfl <;> exact Inv.loc h (t := t) rfl rfl rfl rfl rfl rfl rfl rfl rfl rfl rfl rfl
          (by rw [h2]; rfl) (by rw [h2]; rfl) (by simp [h2]) (fun e => by cases e) trivial
      repeat' split
      · exact key _ (Or.inl rfl)
      · exact key _ (Or.inr (Or.inl rfl))
      · exact key _ (Or.inr (Or.inr rfl))
    · rw [stepT_any h1 h2]
      exact Inv.stepT h (timelyAt_any ht)

theorem InvM.state {c : Cfg α} {s : St α} (h : InvM c s) (st : ChannelState) (l : Bool) :
    InvM c { s with state := st, lgRunning := l } :=
  ⟨h.1, h.2, h.3, h.4, h.5, h.6, h.7, h.8, h.9, h.10, h.11, h.12, h.13,
    fun t => (h.14 t).congr rfl rfl rfl rfl rfl rfl rfl rfl, h.15, h.16, h.17, h.18, h.19, h.20⟩

theorem InvM.step {c : Cfg α} {s : St α} (h : InvM c s) {e : MEv α} (ht : timelyMEv c s e) : InvM c (stepM c s e) := by
  cases e with
  | join t =>
    simp only [stepM]
    split
    · rename_i hpc
      split
      · exact Inv.loc h (t := t) rfl rfl rfl rfl rfl rfl rfl rfl rfl rfl rfl rfl
          (by rw [hpc]; rfl) (by rw [hpc]; rfl) (by simp [hpc]) (fun e => by cases e) trivial
      · exact h
    · exact h
  | ev e =>
    cases e with
    | run t => exact InvM.stepT h ht
    | call t b =>
      simp only [stepM]
      split
      · rename_i hpc
        split
        · exact Inv.loc h (t := t) rfl rfl rfl rfl rfl rfl rfl rfl rfl rfl rfl rfl
            (by rw [hpc]; rfl) (by rw [hpc]; rfl) (by simp [hpc]) (fun e => by cases e) trivial
        · exact h
      · exact h
    | started =>
      simp only [stepM, Ring.step]
      split
      · exact InvM.state h _ _
      · exact h
    | closing => exact InvM.state h _ _
    | stop =>
      simp only [stepM, Ring.step]
      repeat' split
      · exact InvM.state h _ _
      · exact h
      · exact InvM.state h _ _

theorem InvM.run {c : Cfg α} : ∀ {es : List (MEv α)} {s : St α}, InvM c s → TimelyM c s es → InvM c (runM c s es) := by
  intro es
  induction es with
  | nil => intro s h _; exact h
  | cons e es ih => intro s h ht; exact ih (InvM.step h ht.1) ht.2

theorem InvM.blank (c : Cfg α) (hL : 0 < c.L) : InvM c (blank c) := by
  constructor <;> simp [Ring.blank, Ring.init, anyCons, cown]
  case cap => exact hL
  case ti => intro t; trivial

theorem runM_append (c : Cfg α) (s : St α) (es es' : List (MEv α)) :
    runM c s (es ++ es') = runM c (runM c s es) es' := by simp [runM]

theorem TimelyM.append {c : Cfg α} : ∀ {es es' : List (MEv α)} {s : St α}, TimelyM c s (es ++ es') →
    TimelyM c s es ∧ TimelyM c (runM c s es) es' := by
  intro es
  induction es with
  | nil => intro es' s h; exact ⟨trivial, h⟩
  | cons e es ih =>
    intro es' s h
    obtain ⟨h1, h2⟩ := ih h.2
    exact ⟨⟨h.1, h1⟩, h2⟩

/-- A load on an empty queue changes nothing but the state of the channel. -/
theorem attach_quiet {c : Cfg α} {s : St α} (h : InvM c s) (hq : s.R = s.H) (f : List α → List α) :
    attach c f s = { s with state := .null } := by
  have h1 := h.leRP
  have h2 := h.lePW
  have h3 := h.leWH
  have e1 : s.W = s.H := by omega
  have e2 : s.P = s.R := by omega
  unfold attach recover
  rw [e1, Nat.sub_self]
  simp only [recMarks, recCells, ← e2]

theorem base_stepM (c : Cfg α) (s : St α) (e : MEv α) : (stepM c s e).base = s.base := by
  cases e with
  | join t => simp only [stepM]; (repeat' split) <;> rfl
  | ev e =>
    cases e with
    | call t b => simp only [stepM]; (repeat' split) <;> rfl
    | run t => exact base_run c [.run t] s
    | started => exact base_run c [.started] s
    | closing => exact base_run c [.closing] s
    | stop => exact base_run c [.stop] s

theorem base_runM (c : Cfg α) : ∀ (es : List (MEv α)) (s : St α), (runM c s es).base = s.base := by
  intro es
  induction es with
  | nil => intro s; rfl
  | cons e es ih => intro s; exact (ih _).trans (base_stepM c s e)

/-! ## Program order -/

theorem ProgOrd.stepM {c : Cfg α} {s : St α} (h : ProgOrd c s) (e : MEv α) : ProgOrd c (stepM c s e) := by
  cases e with
  | join t =>
    simp only [Ring.stepM]
    split
    · split
      · exact progOrd_go h (t := t) rfl rfl rfl (Or.inr rfl)
      · exact h
    · exact h
  | ev e =>
    cases e with
    | call t b =>
      have h' : ProgOrd c { s with lgRunning := true } := h
      have := h'.step (.call t b)
      simp only [Ring.step] at this
      simp only [Ring.stepM]
      intro u
      have hu := this u
      revert hu
      cases s.pc t <;> simp only [true_and] <;> (try exact id)
      split <;> exact id
    | run t => exact h.step _
    | started => exact h.step _
    | closing => exact h.step _
    | stop => exact h.step _

theorem ProgOrd.runM {c : Cfg α} : ∀ {es : List (MEv α)} {s : St α}, ProgOrd c s → ProgOrd c (runM c s es) := by
  intro es
  induction es with
  | nil => intro s h; exact h
  | cons e es ih => intro s h; exact ih (h.stepM e)

theorem ProgOrd.blank (c : Cfg α) : ProgOrd c (blank c) := by
  intro t
  simp [Ring.blank, Ring.init, ofThread, pending]

/-! ## What each thread outputs -/

theorem stepT_out (c : Cfg α) (s : St α) (t : Nat) :
    ((stepT c s t).out = s.out ∧ ∀ k, s.pc t ≠ .cDisp k) ∨
    ∃ k, s.pc t = .cDisp k ∧ (stepT c s t).out = s.out ++ [(k, s.cell (k % c.L))] := by
  unfold stepT
  cases hpc : s.pc t
  case cDisp k => exact Or.inr ⟨k, rfl, rfl⟩
  all_goals refine Or.inl ⟨?_, fun k => by simp⟩
  case fill k b => cases b <;> rfl
  all_goals
    first
    | rfl
    | (simp only; (repeat' split) <;> rfl)

theorem stepM_out_other (c : Cfg α) (s : St α) (e : MEv α) (h : ∀ t, e ≠ .ev (.run t)) : (stepM c s e).out = s.out := by
  cases e with
  | join t => simp only [stepM]; (repeat' split) <;> rfl
  | ev e =>
    cases e with
    | call t b => simp only [stepM]; (repeat' split) <;> rfl
    | run t => exact absurd rfl (h t)
    | started => simp only [stepM, step]; (repeat' split) <;> rfl
    | closing => rfl
    | stop => simp only [stepM, step]; (repeat' split) <;> rfl

theorem emits_other (c : Cfg α) (s : St α) (e : MEv α) (h : ∀ t, e ≠ .ev (.run t)) : emits c s e = [] := by
  cases e with
  | join t => rfl
  | ev e => cases e <;> first | rfl | exact absurd rfl (h _)

theorem outs_out (c : Cfg α) : ∀ (es : List (MEv α)) (s : St α), (runM c s es).out = s.out ++ (outs c s es).map Prod.snd := by
  intro es
  induction es with
  | nil => intro s; simp [runM, outs]
  | cons e es ih =>
    intro s
    rw [show runM c s (e :: es) = runM c (stepM c s e) es from rfl, ih, outs, List.map_append, ← List.append_assoc]
    congr 1
    by_cases h : ∃ t, e = .ev (.run t)
    · obtain ⟨t, rfl⟩ := h
      simp only [emits, stepM, step, List.map_map]
      rw [show (Prod.snd ∘ fun x : Nat × List α => (t, x)) = id from rfl, List.map_id]
      rcases stepT_out c s t with ⟨h1, _⟩ | ⟨k, _, h1⟩ <;> rw [h1] <;> simp
    · have h' : ∀ t, e ≠ .ev (.run t) := fun t ht => h ⟨t, ht⟩
      rw [stepM_out_other c s e h', emits_other c s e h', List.map_nil, List.append_nil]

/-- Thread `t` outputs no position below this one any more. -/
def floorOf (s : St α) (t : Nat) : Nat :=
  match s.pc t with
  | .cDisp k => k
  | _ => s.P

theorem floorOf_eq {s : St α} {t : Nat} (h : ∀ k, s.pc t ≠ .cDisp k) : floorOf s t = s.P := by
  unfold floorOf
  cases hp : s.pc t <;> first | rfl | exact absurd hp (h _)

theorem floorOf_le {c : Cfg α} {s : St α} (h : InvM c s) (t : Nat) : floorOf s t ≤ s.P := by
  unfold floorOf
  have := h.ti t
  cases hp : s.pc t <;> rw [hp] at this <;> simp only [TI] at this ⊢ <;> omega

theorem stepM_P_le (c : Cfg α) (s : St α) (e : MEv α) : s.P ≤ (stepM c s e).P := by
  cases e with
  | join t => simp only [stepM]; (repeat' split) <;> exact Nat.le_refl _
  | ev e =>
    cases e with
    | call t b => simp only [stepM]; (repeat' split) <;> exact Nat.le_refl _
    | run t =>
      simp only [stepM, step]
      unfold stepT
      cases s.pc t
      case fill k b => cases b <;> exact Nat.le_refl _
      all_goals
        simp only
        repeat' split
        all_goals simp
    | started => simp only [stepM, step]; (repeat' split) <;> exact Nat.le_refl _
    | closing => exact Nat.le_refl _
    | stop => simp only [stepM, step]; (repeat' split) <;> exact Nat.le_refl _

theorem stepT_pc_ne (c : Cfg α) (s : St α) {t u : Nat} (h : u ≠ t) : (stepT c s t).pc u = s.pc u := by
  unfold stepT
  cases s.pc t
  case fill k b => cases b <;> simp [h]
  all_goals
    simp only
    repeat' split
    all_goals simp [h]

theorem stepT_enters (c : Cfg α) (s : St α) {t k : Nat} (h : (stepT c s t).pc t = .cDisp k) : k = s.P := by
  revert h
  unfold stepT
  cases hp : s.pc t
  case fill j b => cases b <;> simp
  all_goals
    simp only
    repeat' split
    all_goals simp [hp]
  all_goals exact fun e => e.symm

theorem floorOf_step {c : Cfg α} {s : St α} (h : InvM c s) (e : MEv α) (t : Nat) : floorOf s t ≤ floorOf (stepM c s e) t := by
  have hP := stepM_P_le c s e
  have h0 := floorOf_le h t
  by_cases hd : ∃ k, (stepM c s e).pc t = .cDisp k
  · obtain ⟨k, hk⟩ := hd
    rw [show floorOf (stepM c s e) t = k by unfold floorOf; rw [hk]]
    have same : (stepM c s e).pc t = s.pc t → floorOf s t ≤ k := by
      intro he
      rw [he] at hk
      unfold floorOf; rw [hk]; exact Nat.le_refl _
    cases e with
    | join u =>
      by_cases hu : t = u
      · subst hu
        simp only [stepM] at hk
        cases hp : s.pc t <;> rw [hp] at hk <;> simp only at hk <;> (try split at hk) <;>
          first
          | (rw [hp] at hk; cases hk; done)
          | (simp at hk; done)
          | skip
        rw [hp] at hk; cases hk
        unfold floorOf; rw [hp]; exact Nat.le_refl _
      · apply same
        simp only [stepM]; (repeat' split) <;> simp [hu]
    | ev e =>
      cases e with
      | call u b =>
        by_cases hu : t = u
        · subst hu
          simp only [stepM] at hk
          cases hp : s.pc t <;> rw [hp] at hk <;> simp only at hk <;> (try split at hk) <;>
            first
            | (rw [hp] at hk; cases hk; done)
            | (simp at hk; done)
            | skip
          rw [hp] at hk; cases hk
          unfold floorOf; rw [hp]; exact Nat.le_refl _
        · apply same
          simp only [stepM]; (repeat' split) <;> simp [hu]
      | run u =>
        by_cases hu : t = u
        · subst hu
          have := stepT_enters c s (show (stepT c s t).pc t = .cDisp k from hk)
          omega
        · exact same (stepT_pc_ne c s hu)
      | started => apply same; simp only [stepM, step]; (repeat' split) <;> rfl
      | closing => exact same rfl
      | stop => apply same; simp only [stepM, step]; (repeat' split) <;> rfl
  · rw [floorOf_eq (s := stepM c s e) (fun k hk => hd ⟨k, hk⟩)]
    omega

/-- The positions a thread outputs grow. -/
theorem outs_grow (c : Cfg α) (t : Nat) : ∀ (es : List (MEv α)) (s : St α), InvM c s → TimelyM c s es →
    (((outs c s es).filter (fun x => x.1 == t)).map (fun x => x.2.1)).Pairwise (· < ·) ∧
    ∀ k ∈ ((outs c s es).filter (fun x => x.1 == t)).map (fun x => x.2.1), floorOf s t ≤ k := by
  intro es
  induction es with
  | nil => intro s _ _; simp [outs]
  | cons e es ih =>
    intro s h ht
    obtain ⟨i1, i2⟩ := ih (stepM c s e) (InvM.step h ht.1) ht.2
    have hf := floorOf_step h e t
    have skip : (outs c s (e :: es)).filter (fun x => x.1 == t) = (outs c (stepM c s e) es).filter (fun x => x.1 == t) →
        (((outs c s (e :: es)).filter (fun x => x.1 == t)).map (fun x => x.2.1)).Pairwise (· < ·) ∧
        ∀ k ∈ ((outs c s (e :: es)).filter (fun x => x.1 == t)).map (fun x => x.2.1), floorOf s t ≤ k := by
      intro he
      rw [he]
      exact ⟨i1, fun k hk => Nat.le_trans hf (i2 k hk)⟩
    by_cases hr : ∃ u, e = .ev (.run u)
    · obtain ⟨u, rfl⟩ := hr
      rcases stepT_out c s u with ⟨h1, _⟩ | ⟨k, hk, h1⟩
      · apply skip
        rw [outs, emits, h1]; simp
      · by_cases hu : u = t
        · subst hu
          have hlt : k < s.P := by
            have := h.ti u
            rw [hk] at this
            exact this.2.1
          have hfl : floorOf s u = k := by unfold floorOf; rw [hk]
          have hfl' : floorOf (stepM c s (.ev (.run u))) u = s.P := by
            simp only [stepM, step]
            unfold stepT
            rw [hk]
            simp [floorOf]
          have e1 : (outs c s (.ev (.run u) :: es)).filter (fun x => x.1 == u) =
              (u, (k, s.cell (k % c.L))) :: (outs c (stepM c s (.ev (.run u))) es).filter (fun x => x.1 == u) := by
            rw [outs, emits, h1]; simp
          rw [e1]
          refine ⟨?_, ?_⟩
          · rw [List.map_cons, List.pairwise_cons]
            refine ⟨fun j hj => ?_, i1⟩
            have := i2 j hj
            rw [hfl'] at this
            exact Nat.lt_of_lt_of_le hlt this
          · intro j hj
            rw [List.map_cons, List.mem_cons] at hj
            rcases hj with rfl | hj
            · exact Nat.le_of_eq hfl
            · have := i2 j hj
              rw [hfl'] at this
              omega
        · apply skip
          rw [outs, emits, h1]; simp [hu]
    · apply skip
      rw [outs, emits_other c s e (fun u hu => hr ⟨u, hu⟩), List.nil_append]

/-- Elements at growing positions are a part of the list, in order. -/
theorem sublist_of_positions {β : Type} (L : List β) : ∀ (l : List (Nat × β)) (n : Nat), (l.map Prod.fst).Pairwise (· < ·) →
    (∀ x ∈ l, n ≤ x.1) → (∀ x ∈ l, L[x.1]? = some x.2) → (l.map Prod.snd).Sublist (L.drop n) := by
  intro l
  induction l with
  | nil => intro n _ _ _; exact List.nil_sublist _
  | cons x l ih =>
    intro n h1 h2 h3
    rw [List.map_cons, List.pairwise_cons] at h1
    have h4 := ih (x.1 + 1) h1.2 (fun y hy => h1.1 y.1 (List.mem_map_of_mem hy)) (fun y hy => h3 y (List.mem_cons_of_mem _ hy))
    have h5 := h3 x (List.mem_cons_self)
    obtain ⟨hlt, he⟩ := List.getElem?_eq_some_iff.mp h5
    have h6 : (x.2 :: L.drop (x.1 + 1)).Sublist (L.drop n) := by
      rw [← he, ← List.drop_eq_getElem_cons hlt]
      have hn := h2 x (List.mem_cons_self)
      obtain ⟨d, hd⟩ := Nat.le.dest hn
      rw [← hd, ← List.drop_drop]
      exact List.drop_sublist _ _
    rw [List.map_cons]
    exact (h4.cons_cons x.2).trans h6

end FNLog.Ring
