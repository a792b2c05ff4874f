import Verif.Spec.Move

/-! # Stream objects: who holds a record -/

namespace FNLog
open Spec Move

namespace Move
variable {V : Type}

theorem upd_same {α : Type} (f : Nat → α) (i : Nat) (x : α) : upd f i x i = x := if_pos rfl
theorem upd_other {α : Type} (f : Nat → α) {i j : Nat} (x : α) (h : j ≠ i) : upd f i x j = f j := if_neg h

/-- Records are held by one object at most, which has a logger; no object holds a record to come or one that was pushed. -/
structure Inv (w : World V) : Prop where
  below : ∀ i o k, w.objs i = some o → o.data = some k → k < w.next ∧ o.logger = true ∧ ∀ x, (k, x) ∉ w.pushes
  one : ∀ i j o o' k, w.objs i = some o → w.objs j = some o' → o.data = some k → o'.data = some k → i = j
  pushed : ∀ k x, (k, x) ∈ w.pushes → k < w.next
  empty : ∀ k, w.next ≤ k → w.texts k = []

theorem Inv.start : Inv (World.start V) :=
  ⟨fun _ _ _ h => (by cases h), fun _ _ _ _ _ h => (by cases h), fun _ _ h => (by cases h), fun _ _ => rfl⟩

theorem Inv.step {w w' : World V} (h : Inv w) {a : Act V} (e : act w a = some w') : Inv w' := by
  cases a with
  | make i idx =>
    cases ho : w.objs i with
    | some o => simp only [act, ho] at e; cases e
    | none =>
      cases idx with
      | none =>
        simp only [act, ho] at e
        cases e
        refine ⟨?_, ?_, h.pushed, h.empty⟩
        · intro j o k hj hk
          by_cases hji : j = i
          · subst hji; simp only [upd_same] at hj; cases hj; cases hk
          · simp only [upd_other _ _ hji] at hj; exact h.below j o k hj hk
        · intro j l o o' k hj hl hk hk'
          by_cases hji : j = i
          · subst hji; simp only [upd_same] at hj; cases hj; cases hk
          · by_cases hli : l = i
            · subst hli; simp only [upd_same] at hl; cases hl; cases hk'
            · simp only [upd_other _ _ hji] at hj
              simp only [upd_other _ _ hli] at hl
              exact h.one j l o o' k hj hl hk hk'
      | some x =>
        simp only [act, ho] at e
        cases e
        refine ⟨?_, ?_, fun k y hk => Nat.lt_succ_of_lt (h.pushed k y hk), fun k hk => h.empty k (Nat.le_of_succ_le hk)⟩
        · intro j o k hj hk
          by_cases hji : j = i
          · subst hji; simp only [upd_same] at hj; cases hj
            cases hk
            exact ⟨Nat.lt_succ_self _, rfl, fun y hy => Nat.lt_irrefl _ (h.pushed _ y hy)⟩
          · simp only [upd_other _ _ hji] at hj
            have := h.below j o k hj hk
            exact ⟨Nat.lt_succ_of_lt this.1, this.2⟩
        · intro j l o o' k hj hl hk hk'
          by_cases hji : j = i
          · by_cases hli : l = i
            · rw [hji, hli]
            · subst hji; simp only [upd_same] at hj; cases hj
              cases hk
              simp only [upd_other _ _ hli] at hl
              exact absurd (h.below l o' _ hl hk').1 (Nat.lt_irrefl _)
          · by_cases hli : l = i
            · subst hli; simp only [upd_same] at hl; cases hl
              cases hk'
              simp only [upd_other _ _ hji] at hj
              exact absurd (h.below j o _ hj hk).1 (Nat.lt_irrefl _)
            · simp only [upd_other _ _ hji] at hj
              simp only [upd_other _ _ hli] at hl
              exact h.one j l o o' k hj hl hk hk'
  | move i j =>
    cases hi : w.objs i with
    | none => simp only [act, hi] at e; cases e
    | some oi =>
      cases hj : w.objs j with
      | some oj => simp only [act, hi, hj] at e; cases e
      | none =>
        have hij : j ≠ i := by rintro rfl; rw [hi] at hj; cases hj
        simp only [act, hi, hj] at e
        cases e
        -- where an object of the new world comes from
        have back : ∀ l o k, upd (upd w.objs j (some ⟨oi.logger, oi.data, oi.hold⟩)) i (some ⟨false, none, -1⟩) l = some o →
            o.data = some k → (l = j ∧ o = oi) ∨ (l ≠ j ∧ l ≠ i ∧ w.objs l = some o) := by
          intro l o k hl hk
          by_cases hli : l = i
          · subst hli; rw [upd_same] at hl; cases hl; cases hk
          · rw [upd_other _ _ hli] at hl
            by_cases hlj : l = j
            · subst hlj; rw [upd_same] at hl; cases hl; exact Or.inl ⟨rfl, rfl⟩
            · rw [upd_other _ _ hlj] at hl; exact Or.inr ⟨hlj, hli, hl⟩
        refine ⟨?_, ?_, h.pushed, h.empty⟩
        · intro l o k hl hk
          rcases back l o k hl hk with ⟨_, rfl⟩ | ⟨_, _, hw⟩
          · exact h.below i o k hi hk
          · exact h.below l o k hw hk
        · intro l l' o o' k hl hl' hk hk'
          rcases back l o k hl hk with ⟨e1, rfl⟩ | ⟨_, n1, hw⟩ <;> rcases back l' o' k hl' hk' with ⟨e2, rfl⟩ | ⟨_, n2, hw'⟩
          · rw [e1, e2]
          · exact absurd (h.one l' i o' o k hw' hi hk' hk) n2
          · exact absurd (h.one l i o o' k hw hi hk hk') n1
          · exact h.one l l' o o' k hw hw' hk hk'
  | put i v =>
    cases hi : w.objs i with
    | none => simp only [act, hi] at e; cases e
    | some o =>
      cases hd : o.data with
      | none => simp only [act, hi, hd] at e; cases e; exact h
      | some k =>
        simp only [act, hi, hd] at e
        cases e
        refine ⟨h.below, h.one, h.pushed, fun l hl => ?_⟩
        have := (h.below i o k hi hd).1
        have hl : w.next ≤ l := hl
        show upd w.texts k _ l = []
        rw [upd_other _ _ (by omega)]
        exact h.empty l hl
  | drop i =>
    cases hi : w.objs i with
    | none => simp only [act, hi] at e; cases e
    | some oi =>
      have sub : ∀ l o, upd w.objs i none l = some o → l ≠ i ∧ w.objs l = some o := by
        intro l o hl
        by_cases hli : l = i
        · subst hli; rw [upd_same] at hl; cases hl
        · rw [upd_other _ _ hli] at hl; exact ⟨hli, hl⟩
      cases hd : oi.data with
      | none =>
        simp only [act, hi, hd] at e
        cases e
        exact ⟨fun l o k hl => h.below l o k (sub l o hl).2, fun l l' o o' k hl hl' => h.one l l' o o' k (sub l o hl).2 (sub l' o' hl').2,
          h.pushed, h.empty⟩
      | some k =>
        have hb := h.below i oi k hi hd
        simp only [act, hi, hd, hb.2.1, if_true] at e
        cases e
        refine ⟨?_, fun l l' o o' k hl hl' => h.one l l' o o' k (sub l o hl).2 (sub l' o' hl').2, ?_, h.empty⟩
        · intro l o k' hl hk'
          obtain ⟨n, hw⟩ := sub l o hl
          have := h.below l o k' hw hk'
          refine ⟨this.1, this.2.1, fun x hx => ?_⟩
          rw [List.mem_append, List.mem_singleton] at hx
          rcases hx with hx | hx
          · exact this.2.2 x hx
          · cases hx
            exact n (h.one l i o oi k hw hi hk' hd)
        · intro k' x hx
          rw [List.mem_append, List.mem_singleton] at hx
          rcases hx with hx | hx
          · exact h.pushed k' x hx
          · cases hx; exact hb.1

theorem Inv.run {as : List (Act V)} : ∀ {w w' : World V}, Inv w → run w as = some w' → Inv w' := by
  induction as with
  | nil => intro w w' h e; cases e; exact h
  | cons a as ih =>
    intro w w' h e
    unfold Move.run at e
    cases ha : act w a with
    | none => rw [ha] at e; cases e
    | some w1 => rw [ha] at e; exact ih (h.step ha) e

theorem run_append {as bs : List (Act V)} : ∀ {w : World V},
    run w (as ++ bs) = (run w as).bind fun w => run w bs := by
  induction as with
  | nil => intro w; rfl
  | cons a as ih =>
    intro w
    simp only [List.cons_append, run]
    cases act w a with
    | none => rfl
    | some w1 => exact ih

/-- No object holds record `k`. -/
def Gone (w : World V) (k : Nat) : Prop := k < w.next ∧ ∀ i o, w.objs i = some o → o.data ≠ some k

theorem Gone.step {w w' : World V} {k : Nat} (h : Gone w k) {a : Act V} (e : act w a = some w') :
    Gone w' k ∧ w'.texts k = w.texts k ∧ ∃ ps, w'.pushes = w.pushes ++ ps ∧ ∀ p ∈ ps, p.1 ≠ k := by
  cases a with
  | make i idx =>
    cases ho : w.objs i with
    | some o => simp only [act, ho] at e; cases e
    | none =>
      have key : ∀ ob : Obj, ob.data ≠ some k → ∀ j o, upd w.objs i (some ob) j = some o → o.data ≠ some k := by
        intro ob hob j o hj
        by_cases hji : j = i
        · subst hji; rw [upd_same] at hj; cases hj; exact hob
        · rw [upd_other _ _ hji] at hj; exact h.2 j o hj
      cases idx with
      | none =>
        simp only [act, ho] at e
        cases e
        exact ⟨⟨h.1, key _ (by nofun)⟩, rfl, [], (List.append_nil _).symm, by nofun⟩
      | some x =>
        simp only [act, ho] at e
        cases e
        refine ⟨⟨Nat.lt_succ_of_lt h.1, key _ ?_⟩, rfl, [], (List.append_nil _).symm, by nofun⟩
        intro hk
        cases hk
        exact Nat.lt_irrefl _ h.1
  | move i j =>
    cases hi : w.objs i with
    | none => simp only [act, hi] at e; cases e
    | some oi =>
      cases hj : w.objs j with
      | some oj => simp only [act, hi, hj] at e; cases e
      | none =>
        simp only [act, hi, hj] at e
        cases e
        refine ⟨⟨h.1, ?_⟩, rfl, [], (List.append_nil _).symm, by nofun⟩
        intro l o hl
        by_cases hli : l = i
        · subst hli; simp only [upd_same] at hl; cases hl; nofun
        · simp only [upd_other _ _ hli] at hl
          by_cases hlj : l = j
          · subst hlj; rw [upd_same] at hl; cases hl; exact h.2 i oi hi
          · rw [upd_other _ _ hlj] at hl; exact h.2 l o hl
  | put i v =>
    cases hi : w.objs i with
    | none => simp only [act, hi] at e; cases e
    | some o =>
      cases hd : o.data with
      | none => simp only [act, hi, hd] at e; cases e; exact ⟨h, rfl, [], (List.append_nil _).symm, by nofun⟩
      | some k' =>
        simp only [act, hi, hd] at e
        cases e
        refine ⟨h, upd_other _ _ ?_, [], (List.append_nil _).symm, by nofun⟩
        rintro rfl
        exact h.2 i o hi hd
  | drop i =>
    cases hi : w.objs i with
    | none => simp only [act, hi] at e; cases e
    | some oi =>
      have key : ∀ l o, upd w.objs i none l = some o → o.data ≠ some k := by
        intro l o hl
        by_cases hli : l = i
        · subst hli; rw [upd_same] at hl; cases hl
        · rw [upd_other _ _ hli] at hl; exact h.2 l o hl
      cases hd : oi.data with
      | none =>
        simp only [act, hi, hd] at e
        cases e
        exact ⟨⟨h.1, key⟩, rfl, [], (List.append_nil _).symm, by nofun⟩
      | some k' =>
        simp only [act, hi, hd] at e
        split at e
        · cases e
          refine ⟨⟨h.1, key⟩, rfl, [_], rfl, ?_⟩
          intro p hp
          rw [List.mem_singleton] at hp
          subst hp
          rintro rfl
          exact h.2 i oi hi hd
        · cases e

theorem Gone.run {as : List (Act V)} {k : Nat} : ∀ {w w' : World V}, Gone w k → run w as = some w' →
    w'.texts k = w.texts k ∧ ∃ ps, w'.pushes = w.pushes ++ ps ∧ ∀ p ∈ ps, p.1 ≠ k := by
  induction as with
  | nil => intro w w' h e; cases e; exact ⟨rfl, [], (List.append_nil _).symm, by nofun⟩
  | cons a as ih =>
    intro w w' h e
    unfold Move.run at e
    cases ha : act w a with
    | none => rw [ha] at e; cases e
    | some w1 =>
      rw [ha] at e
      obtain ⟨g, t, ps, hp, hn⟩ := h.step ha
      obtain ⟨t', ps', hp', hn'⟩ := ih g e
      refine ⟨t'.trans t, ps ++ ps', by rw [hp', hp, List.append_assoc], ?_⟩
      intro p hm
      rcases List.mem_append.mp hm with hm | hm
      · exact hn p hm
      · exact hn' p hm

/-- What becomes of a record that object `i` holds. -/
theorem held {as : List (Act V)} {k : Nat} {x : Int} : ∀ {w w' : World V} {i : Nat}, Inv w → w.objs i = some ⟨true, some k, x⟩ →
    run w as = some w' → w'.texts k = w.texts k ++ operands i as ∧
      ∃ ps, w'.pushes = w.pushes ++ ps ∧ ps.filter (fun p => p.1 = k) = if ends i as then [(k, x)] else [] := by
  induction as with
  | nil =>
    intro w w' i _ _ e
    cases e
    exact ⟨(List.append_nil _).symm, [], (List.append_nil _).symm, rfl⟩
  | cons a as ih =>
    intro w w' i hI hi e
    unfold Move.run at e
    cases ha : act w a with
    | none => rw [ha] at e; cases e
    | some w1 =>
      rw [ha] at e
      have hI1 := hI.step ha
      -- the step leaves the object, the record and the calls alone
      have same : w1.objs i = some ⟨true, some k, x⟩ → w1.texts k = w.texts k → w1.pushes = w.pushes →
          operands i (a :: as) = operands i as → ends i (a :: as) = ends i as → 
          w'.texts k = w.texts k ++ operands i (a :: as) ∧
            ∃ ps, w'.pushes = w.pushes ++ ps ∧ ps.filter (fun p => p.1 = k) = if ends i (a :: as) then [(k, x)] else [] := by
        intro h1 h2 h3 h4 h5
        rw [h4, h5, ← h2, ← h3]
        exact ih hI1 h1 e
      cases a with
      | make j idx =>
        cases hj : w.objs j with
        | some o => simp only [act, hj] at ha; cases ha
        | none =>
          have hne : i ≠ j := by rintro rfl; rw [hi] at hj; cases hj
          cases idx with
          | none =>
            simp only [act, hj] at ha; cases ha
            exact same ((upd_other _ _ hne).trans hi) rfl rfl rfl rfl
          | some y =>
            simp only [act, hj] at ha; cases ha
            exact same ((upd_other _ _ hne).trans hi) rfl rfl rfl rfl
      | move b c =>
        cases hb : w.objs b with
        | none => simp only [act, hb] at ha; cases ha
        | some ob =>
          cases hc : w.objs c with
          | some oc => simp only [act, hb, hc] at ha; cases ha
          | none =>
            have hbc : c ≠ b := by rintro rfl; rw [hb] at hc; cases hc
            have hic : i ≠ c := by rintro rfl; rw [hi] at hc; cases hc
            simp only [act, hb, hc] at ha
            cases ha
            by_cases hbi : b = i
            · subst hbi
              rw [hi] at hb
              cases hb
              have h1 : upd (upd w.objs c (some ⟨true, some k, x⟩)) b (some ⟨false, none, -1⟩) c = some ⟨true, some k, x⟩ := by
                rw [upd_other _ _ hbc, upd_same]
              have := ih hI1 h1 e
              simp only [operands, ends, if_true]
              exact this
            · exact same (by
                show upd (upd w.objs c _) b _ i = _
                rw [upd_other _ _ (Ne.symm hbi), upd_other _ _ hic]; exact hi) rfl rfl
                (by simp only [operands, if_neg hbi]) (by simp only [ends, if_neg hbi])
      | put j v =>
        cases hj : w.objs j with
        | none => simp only [act, hj] at ha; cases ha
        | some o =>
          by_cases hji : j = i
          · subst hji
            rw [hi] at hj
            cases hj
            simp only [act, hi] at ha
            cases ha
            have := ih hI1 (i := j) hi e
            simp only [upd_same, List.append_assoc, List.singleton_append] at this
            simp only [operands, ends, if_true]
            exact this
          · cases hd : o.data with
            | none =>
              simp only [act, hj, hd] at ha; cases ha
              exact same hi rfl rfl (by simp only [operands, if_neg hji]) rfl
            | some k' =>
              simp only [act, hj, hd] at ha; cases ha
              refine same hi (upd_other _ _ ?_) rfl (by simp only [operands, if_neg hji]) rfl
              rintro rfl
              exact hji (hI.one j i o _ k hj hi hd rfl)
      | drop j =>
        cases hj : w.objs j with
        | none => simp only [act, hj] at ha; cases ha
        | some o =>
          by_cases hji : j = i
          · subst hji
            rw [hi] at hj
            cases hj
            simp only [act, hi, if_true] at ha
            cases ha
            have hg : Gone (V := V) { w with objs := upd w.objs j none, pushes := w.pushes ++ [(k, x)] } k := by
              refine ⟨(hI.below j _ k hi rfl).1, ?_⟩
              intro l o hl hk
              by_cases hlj : l = j
              · subst hlj; simp only [upd_same] at hl; cases hl
              · simp only [upd_other _ _ hlj] at hl
                exact hlj (hI.one l j o _ k hl hi hk rfl)
            obtain ⟨t, ps, hp, hn⟩ := hg.run e
            simp only [operands, ends, if_true, List.append_nil]
            refine ⟨t, (k, x) :: ps, by rw [hp, List.append_assoc]; rfl, ?_⟩
            rw [List.filter_cons_of_pos (by simp), List.filter_eq_nil_iff.mpr]
            intro p hm
            simp only [decide_eq_true_eq]
            exact hn p hm
          · cases hd : o.data with
            | none =>
              simp only [act, hj, hd] at ha; cases ha
              exact same ((upd_other _ _ (Ne.symm hji)).trans hi) rfl rfl
                (by simp only [operands, if_neg hji]) (by simp only [ends, if_neg hji])
            | some k' =>
              simp only [act, hj, hd] at ha
              split at ha
              · cases ha
                obtain ⟨h1, ps, h2, h3⟩ := ih hI1 (i := i) ((upd_other _ _ (Ne.symm hji)).trans hi) e
                simp only [operands, ends, if_neg hji]
                refine ⟨h1, (k', o.hold) :: ps, by rw [h2, List.append_assoc]; rfl, ?_⟩
                rw [List.filter_cons_of_neg, h3]
                simp only [decide_eq_true_eq]
                rintro rfl
                exact hji (hI.one j i o _ k' hj hi hd rfl)
              · cases ha

theorem next_run {as : List (Act V)} : ∀ {w w' : World V}, run w as = some w' → w'.next = w.next + letIn as := by
  induction as with
  | nil => intro w w' e; cases e; rfl
  | cons a as ih =>
    intro w w' e
    unfold Move.run at e
    cases ha : act w a with
    | none => rw [ha] at e; cases e
    | some w1 =>
      rw [ha] at e
      rw [ih e]
      unfold letIn
      rw [List.countP_cons]
      cases a with
      | make i idx =>
        cases ho : w.objs i with
        | some o => simp only [act, ho] at ha; cases ha
        | none =>
          cases idx with
          | none => simp only [act, ho] at ha; cases ha; rfl
          | some x => simp only [act, ho] at ha; cases ha; simp only [if_true]; omega
      | move i j =>
        cases hi : w.objs i with
        | none => simp only [act, hi] at ha; cases ha
        | some oi =>
          cases hj : w.objs j with
          | some oj => simp only [act, hi, hj] at ha; cases ha
          | none => simp only [act, hi, hj] at ha; cases ha; rfl
      | put i v =>
        cases hi : w.objs i with
        | none => simp only [act, hi] at ha; cases ha
        | some o =>
          cases hd : o.data with
          | none => simp only [act, hi, hd] at ha; cases ha; rfl
          | some k => simp only [act, hi, hd] at ha; cases ha; rfl
      | drop i =>
        cases hi : w.objs i with
        | none => simp only [act, hi] at ha; cases ha
        | some o =>
          cases hd : o.data with
          | none => simp only [act, hi, hd] at ha; cases ha; rfl
          | some k =>
            simp only [act, hi, hd] at ha
            split at ha
            · cases ha; rfl
            · cases ha

/-- A world and the list of the objects that exist in it. -/
def Lists (w : World V) (l : List Nat) : Prop := ∀ i, i ∈ l ↔ (w.objs i).isSome = true

theorem act_alive {w : World V} {l : List Nat} (hI : Inv w) (hl : Lists w l) (a : Act V) :
    match aliveStep l a with
    | none => act w a = none
    | some l' => ∃ w', act w a = some w' ∧ Lists w' l' := by
  have hu : ∀ (f : Nat → Option Obj) (i j : Nat) (o : Obj), (upd f i (some o) j).isSome = true ↔ j = i ∨ (f j).isSome = true := by
    intro f i j o
    unfold upd
    split
    · next h => simp [h]
    · next h => simp [h]
  cases a with
  | make i idx =>
    simp only [aliveStep]
    cases ho : w.objs i with
    | some o =>
      have : i ∈ l := (hl i).mpr (by rw [ho]; rfl)
      simp only [if_pos this, act, ho]
    | none =>
      have hn : i ∉ l := fun h => by have := (hl i).mp h; rw [ho] at this; cases this
      simp only [if_neg hn]
      have key : ∀ (o : Obj) (j : Nat), j ∈ i :: l ↔ (upd w.objs i (some o) j).isSome = true := by
        intro o j
        rw [hu, List.mem_cons, hl j]
      cases idx with
      | none => refine ⟨?w1, ?e1, ?l1⟩; rotate_left; (simp only [act, ho]; rfl); exact key _
      | some x => refine ⟨?w2, ?e2, ?l2⟩; rotate_left; (simp only [act, ho]; rfl); exact key _
  | move i j =>
    simp only [aliveStep]
    cases hi : w.objs i with
    | none =>
      have hn : i ∉ l := fun h => by have := (hl i).mp h; rw [hi] at this; cases this
      rw [if_neg (fun h => hn h.1)]
      simp only [act, hi]
    | some oi =>
      have hin : i ∈ l := (hl i).mpr (by rw [hi]; rfl)
      cases hj : w.objs j with
      | some oj =>
        have : j ∈ l := (hl j).mpr (by rw [hj]; rfl)
        rw [if_neg (fun h => h.2 this)]
        simp only [act, hi, hj]
      | none =>
        have hn : j ∉ l := fun h => by have := (hl j).mp h; rw [hj] at this; cases this
        rw [if_pos ⟨hin, hn⟩]
        refine ⟨_, (by simp only [act, hi, hj]; rfl), ?_⟩
        intro b
        show b ∈ j :: l ↔ (upd (upd w.objs j _) i _ b).isSome = true
        rw [hu, hu, List.mem_cons, ← hl b]
        constructor
        · exact Or.inr
        · rintro (rfl | h)
          · exact Or.inr hin
          · exact h
  | put i v =>
    simp only [aliveStep]
    cases hi : w.objs i with
    | none =>
      have hn : i ∉ l := fun h => by have := (hl i).mp h; rw [hi] at this; cases this
      rw [if_neg hn]
      simp only [act, hi]
    | some o =>
      have hin : i ∈ l := (hl i).mpr (by rw [hi]; rfl)
      rw [if_pos hin]
      cases hd : o.data with
      | none => refine ⟨?w3, ?e3, ?l3⟩; rotate_left; (simp only [act, hi, hd]; rfl); exact hl
      | some k => refine ⟨?w4, ?e4, ?l4⟩; rotate_left; (simp only [act, hi, hd]; rfl); exact hl
  | drop i =>
    simp only [aliveStep]
    cases hi : w.objs i with
    | none =>
      have hn : i ∉ l := fun h => by have := (hl i).mp h; rw [hi] at this; cases this
      rw [if_neg hn]
      simp only [act, hi]
    | some o =>
      have hin : i ∈ l := (hl i).mpr (by rw [hi]; rfl)
      rw [if_pos hin]
      have key : ∀ j, j ∈ l.filter (· ≠ i) ↔ (upd w.objs i none j).isSome = true := by
        intro j
        rw [List.mem_filter, decide_eq_true_iff, hl j]
        unfold upd
        split
        · next h => simp [h]
        · next h => simp [h]
      cases hd : o.data with
      | none => refine ⟨?w5, ?e5, ?l5⟩; rotate_left; (simp only [act, hi, hd]; rfl); exact key
      | some k =>
        have hb := (hI.below i o k hi hd).2.1
        refine ⟨?w6, ?e6, ?l6⟩; rotate_left; (simp only [act, hi, hd, hb, if_true]; rfl); exact key

theorem run_alive {as : List (Act V)} : ∀ {w : World V} {l : List Nat}, Inv w → Lists w l →
    (run w as).isSome = (aliveAfter l as).isSome := by
  induction as with
  | nil => intro w l _ _; rfl
  | cons a as ih =>
    intro w l hI hl
    have h := act_alive hI hl a
    simp only [run, aliveAfter]
    cases hs : aliveStep l a with
    | none =>
      rw [hs] at h
      simp only at h
      rw [h]
      rfl
    | some l' =>
      rw [hs] at h
      obtain ⟨w', e, hl'⟩ := h
      rw [e]
      exact ih (hI.step e) hl'

theorem alive_made {post : List (Act V)} {i : Nat} {idx : Option Nat} {l' : List Nat} (pre : List (Act V)) : ∀ l0 : List Nat,
    aliveAfter l0 (pre ++ .make i idx :: post) = some l' → ∃ l, i ∈ l ∧ aliveAfter l post = some l' := by
  induction pre with
  | nil =>
    intro l0 h
    simp only [List.nil_append, aliveAfter, aliveStep] at h
    split at h
    · cases h
    · exact ⟨_, List.mem_cons_self, h⟩
  | cons a pre ih =>
    intro l0 h
    simp only [List.cons_append, aliveAfter] at h
    cases hs : aliveStep l0 a with
    | none => rw [hs] at h; cases h
    | some l1 => rw [hs] at h; exact ih l1 h

end Move

end FNLog
