import Verif.Model.Tally
import Verif.Proof.RingFinal

/-! # The counters of the priorities -/

namespace FNLog.Tally
open FNLog FNLog.Ring

variable {α : Type}

/-- What a step of the queue does to positions. -/
structure Mv (s s' : St α) (t : Nat) : Prop where
  h : (s'.H = s.H ∧ s'.acquired = s.acquired) ∨
    (s'.H = s.H + 1 ∧ (∃ e, s'.acquired = s.acquired ++ [e]) ∧ pown (s'.pc t) = some s.H)
  own : ∀ u k, pown (s'.pc u) = some k → pown (s.pc u) = some k ∨ k = s.H
  left : ∀ u k, pown (s.pc u) = some k → pown (s'.pc u) = some k ∨ k ∈ s'.lost ∨ (u = t ∧ s.pc t = .pMark k)
  lost : ∀ k, k ∈ s'.lost → k ∈ s.lost ∨ pown (s.pc t) = some k
  keep : ∀ k, k ∈ s.lost → k ∈ s'.lost

theorem Mv.stepT (c : Cfg α) (s : St α) (t : Nat) : Mv s (Ring.stepT c s t) t := by
  unfold Ring.stepT
  cases hpc : s.pc t
  case fill k rest =>
    cases rest <;>
      exact ⟨Or.inl ⟨rfl, rfl⟩,
        fun u j => by simp only [go_pc]; split <;> simp_all [pown],
        fun u j => by simp only [go_pc]; split <;> simp_all [pown],
        fun j hj => Or.inl hj, fun j hj => hj⟩
  case hCas i tk b =>
    simp only
    split
    · exact ⟨Or.inr ⟨rfl, ⟨_, rfl⟩, by simp [pown]⟩,
        fun u j => by simp only [go_pc]; split <;> simp_all [pown],
        fun u j => by simp only [go_pc]; split <;> simp_all [pown],
        fun j hj => Or.inl hj, fun j hj => hj⟩
    · split <;>
      exact ⟨Or.inl ⟨rfl, rfl⟩,
        fun u j => by simp only [go_pc]; split <;> simp_all [pown],
        fun u j => by simp only [go_pc]; split <;> simp_all [pown],
        fun j hj => Or.inl hj, fun j hj => hj⟩
  case pChk k =>
    simp only
    split
    · exact ⟨Or.inl ⟨rfl, rfl⟩,
        fun u j => by simp only [go_pc]; split <;> simp_all [pown],
        fun u j => by simp only [go_pc]; split <;> simp_all [pown],
        fun j hj => Or.inl hj, fun j hj => hj⟩
    · exact ⟨Or.inl ⟨rfl, rfl⟩,
        fun u j => by simp only [go_pc]; split <;> simp_all [pown],
        fun u j => by simp only [go_pc, go_lost]; split <;> simp_all [pown],
        fun j hj => by
          rcases List.mem_cons.1 hj with h | h
          · right; simp [hpc, pown, h]
          · exact Or.inl h, fun j hj => List.mem_cons_of_mem _ hj⟩
  all_goals simp only
  all_goals (repeat' split)
  all_goals
    exact ⟨Or.inl ⟨rfl, rfl⟩,
      fun u j => by (try simp only [go_pc]) <;> (try split) <;> simp_all [pown],
      fun u j => by (try simp only [go_pc]) <;> (try split) <;> simp_all [pown],
      fun j hj => Or.inl hj, fun j hj => hj⟩

/-- The other events change neither positions nor slots. -/
theorem other_same (c : Cfg α) (s : St α) (e : Ev α) (he : ∀ t, e ≠ .run t) :
    (Ring.step c s e).H = s.H ∧ (Ring.step c s e).acquired = s.acquired ∧ (Ring.step c s e).cell = s.cell ∧
    (Ring.step c s e).lost = s.lost ∧ ∀ u, pown ((Ring.step c s e).pc u) = pown (s.pc u) := by
  cases e with
  | run t => exact absurd rfl (he t)
  | call u b =>
    simp only [Ring.step]
    split
    · rename_i hpc
      split
      · refine ⟨rfl, rfl, rfl, rfl, ?_⟩
        intro v; simp only [go_pc]; split <;> simp_all [pown]
      · exact ⟨rfl, rfl, rfl, rfl, fun _ => rfl⟩
    · exact ⟨rfl, rfl, rfl, rfl, fun _ => rfl⟩
  | started => simp only [Ring.step]; split <;> exact ⟨rfl, rfl, rfl, rfl, fun _ => rfl⟩
  | closing => exact ⟨rfl, rfl, rfl, rfl, fun _ => rfl⟩
  | stop => simp only [Ring.step]; (repeat' split) <;> exact ⟨rfl, rfl, rfl, rfl, fun _ => rfl⟩

/-- A position whose record is complete: taken, not in work, not given up. -/
def Done (s : St α) (k : Nat) : Prop := k < s.H ∧ (∀ u, pown (s.pc u) ≠ some k) ∧ k ∉ s.lost

theorem Done.mv {s s' : St α} {t k : Nat} (h : Done s k) (hm : Mv s s' t) : Done s' k := by
  obtain ⟨h1, h2, h3⟩ := h
  refine ⟨?_, ?_, ?_⟩
  · rcases hm.h with h | h <;> omega
  · intro u hu
    rcases hm.own u k hu with h | h
    · exact h2 u h
    · omega
  · intro hk
    rcases hm.lost k hk with h | h
    · exact h3 h
    · exact h2 t h

/-- Sum of the lengths of the records with priority `p`. -/
def bytesOf (f : Reads α) (p : Nat) (ls : List (List α)) : Nat :=
  ((ls.filter (fun l => f.prio l == p)).map f.len).sum

theorem bytesOf_append (f : Reads α) (p : Nat) (a b : List (List α)) :
    bytesOf f p (a ++ b) = bytesOf f p a + bytesOf f p b := by simp [bytesOf]

theorem bytesOf_perm (f : Reads α) (p : Nat) {a b : List (List α)} (h : a.Perm b) :
    bytesOf f p a = bytesOf f p b := by
  unfold bytesOf
  exact ((h.filter _).map _).sum_nat

structure TInv (c : Cfg α) (f : Reads α) (x : TSt α) : Prop where
  inv : Inv c x.s
  subp : ∀ t k, x.sub t = .prio k → Done x.s k
  val : ∀ t k, x.sub t = .prio k → x.s.H ≤ k + c.L →
    x.s.acquired[k]?.map Prod.snd = some (x.s.cell (k % c.L))
  uniq : ∀ t u k, x.sub t = .prio k → x.sub u = .prio k → t = u
  cnt : ∀ k ∈ x.counted.map Prod.fst, Done x.s k ∧ ∀ t, x.sub t ≠ .prio k
  nd : (x.counted.map Prod.fst).Nodup
  all : ∀ k, Done x.s k → (∃ t, x.sub t = .prio k) ∨ k ∈ x.counted.map Prod.fst
  sum : ∀ p, x.tally p = bytesOf f p (x.counted.map Prod.snd)

/-- A step of the queue. -/
theorem TInv.ring {c : Cfg α} {f : Reads α} {x : TSt α} (h : TInv c f x) {s' : St α} {t : Nat} {q : Sub}
    (hm : Mv x.s s' t) (hi : Inv c s') (hsub : ∀ k, x.sub t ≠ .prio k)
    (hq : ∀ k, q = .prio k ↔ x.s.pc t = .pMark k)
    (hpm : ∀ k, x.s.pc t = .pMark k → (∀ u, pown (s'.pc u) ≠ some k) ∧ s'.cell = x.s.cell ∧
      s'.H = x.s.H ∧ s'.lost = x.s.lost ∧ s'.acquired = x.s.acquired)
    (hcell : ∀ i, s'.cell i ≠ x.s.cell i → ∃ j, i = j % c.L ∧ (pown (x.s.pc t) = some j))
    : TInv c f ({ x with s := s' }.at t q) := by
  have hdone : ∀ k, Done x.s k → Done s' k := fun k hk => hk.mv hm
  have hsub' : ∀ u k, (upd x.sub t q) u = .prio k → (u = t ∧ x.s.pc t = .pMark k) ∨ (u ≠ t ∧ x.sub u = .prio k) := by
    intro u k hu
    unfold upd at hu
    split at hu
    · rename_i e; exact Or.inl ⟨e, (hq k).1 hu⟩
    · rename_i e; exact Or.inr ⟨e, hu⟩
  have hmark : ∀ k, x.s.pc t = .pMark k → Done s' k ∧ ¬ Done x.s k := by
    intro k hk
    have hti := h.inv.ti t
    rw [hk] at hti
    refine ⟨⟨?_, (hpm k hk).1, ?_⟩, ?_⟩
    · have := hti.1.2.1; rw [(hpm k hk).2.2.1]; exact this
    · intro hl
      rw [(hpm k hk).2.2.2.1] at hl
      exact (h.inv.lostR k hl).2.2.2 t (by rw [hk]; rfl)
    · intro hd; exact hd.2.1 t (by rw [hk]; rfl)
  have hH : x.s.H ≤ s'.H := by rcases hm.h with h1 | h1 <;> omega
  constructor
  · exact hi
  · intro u k hu
    rcases hsub' u k hu with ⟨_, h1⟩ | ⟨_, h1⟩
    · exact (hmark k h1).1
    · exact hdone k (h.subp u k h1)
  · intro u k hu hk
    rcases hsub' u k hu with ⟨_, h1⟩ | ⟨_, h1⟩
    · have hti := h.inv.ti t
      rw [h1] at hti
      show s'.acquired[k]?.map Prod.snd = some (s'.cell (k % c.L))
      rw [(hpm k h1).2.1, (hpm k h1).2.2.2.2, hti.2]; rfl
    · have hk : s'.H ≤ k + c.L := hk
      have hd := h.subp u k h1
      have hv := h.val u k h1 (by omega)
      have hacq : s'.acquired[k]? = x.s.acquired[k]? := by
        rcases hm.h with h2 | ⟨_, ⟨e, h2⟩, _⟩
        · rw [h2.2]
        · rw [h2, List.getElem?_append_left (by rw [h.inv.len]; exact hd.1)]
      have hc : s'.cell (k % c.L) = x.s.cell (k % c.L) := by
        apply Classical.byContradiction
        intro hne
        obtain ⟨j, hj, hj2⟩ := hcell _ hne
        obtain ⟨b1, b2, _, _⟩ := pown_acq (h.inv.ti t) hj2
        have e1 := h.inv.leRP
        have e2 := h.inv.lePW
        have e3 := h.inv.cap
        have : k = j := by
          rcases Nat.lt_or_ge j k with h3 | h3
          · exact slot_inj (c := c) (s := x.s) hj (by omega) (by have := hd.1; omega) (by omega) (by omega)
          · exact mod_inj hj h3 (by omega)
        subst this
        exact hd.2.1 t hj2
      show s'.acquired[k]?.map Prod.snd = some (s'.cell (k % c.L))
      rw [hacq, hc]; exact hv
  · intro u v k hu hv
    rcases hsub' u k hu with ⟨e1, h1⟩ | ⟨e1, h1⟩ <;> rcases hsub' v k hv with ⟨e2, h2⟩ | ⟨e2, h2⟩
    · rw [e1, e2]
    · exact absurd (h.subp v k h2) (hmark k h1).2
    · exact absurd (h.subp u k h1) (hmark k h2).2
    · exact h.uniq u v k h1 h2
  · intro k hk
    obtain ⟨h1, h2⟩ := h.cnt k hk
    refine ⟨hdone k h1, fun u hu => ?_⟩
    rcases hsub' u k hu with ⟨_, h3⟩ | ⟨_, h3⟩
    · exact (hmark k h3).2 h1
    · exact h2 u h3
  · exact h.nd
  · intro k hk
    have hk : Done s' k := hk
    by_cases hpk : x.s.pc t = .pMark k
    · left
      exact ⟨t, by simp only [TSt.at, upd, if_true]; exact (hq k).2 hpk⟩
    · have hkH : k < x.s.H := by
        rcases hm.h with h1 | ⟨h1, _, h2⟩
        · have := hk.1; omega
        · apply Classical.byContradiction
          intro hge
          have : k = x.s.H := by have := hk.1; omega
          subst this
          exact hk.2.1 t h2
      have hd : Done x.s k := by
        refine ⟨hkH, ?_, fun hl => hk.2.2 (hm.keep k hl)⟩
        intro u hu
        rcases hm.left u k hu with h1 | h1 | ⟨_, h1⟩
        · exact hk.2.1 u h1
        · exact hk.2.2 h1
        · exact hpk h1
      rcases h.all k hd with ⟨u, hu⟩ | h1
      · left
        refine ⟨u, ?_⟩
        have hne : u ≠ t := by rintro rfl; exact hsub k hu
        simp only [TSt.at, upd, hne, if_false]; exact hu
      · exact Or.inr h1
  · exact h.sum

/-- A step that changes other statistics only. -/
theorem TInv.quiet {c : Cfg α} {f : Reads α} {x x' : TSt α} (h : TInv c f x) {t : Nat} {q : Sub}
    (hs : x'.s = x.s) (ht : x'.tally = x.tally) (hc : x'.counted = x.counted)
    (hsub : x'.sub = upd x.sub t q) (h1 : ∀ k, x.sub t ≠ .prio k) (h2 : ∀ k, q ≠ .prio k) : TInv c f x' := by
  have e : ∀ u k, x'.sub u = .prio k ↔ x.sub u = .prio k := by
    intro u k
    rw [hsub]
    unfold upd
    by_cases hu : u = t
    · subst hu; simp [h1, h2]
    · simp [hu]
  constructor
  · rw [hs]; exact h.inv
  · intro u k hu; rw [hs]; exact h.subp u k ((e u k).1 hu)
  · intro u k hu; rw [hs]; exact h.val u k ((e u k).1 hu)
  · intro u v k hu hv; exact h.uniq u v k ((e u k).1 hu) ((e v k).1 hv)
  · intro k hk
    rw [hc] at hk
    rw [hs]
    exact ⟨(h.cnt k hk).1, fun u hu => (h.cnt k hk).2 u ((e u k).1 hu)⟩
  · rw [hc]; exact h.nd
  · intro k hk
    rw [hs] at hk
    rw [hc]
    rcases h.all k hk with ⟨u, hu⟩ | h3
    · exact Or.inl ⟨u, (e u k).2 hu⟩
    · exact Or.inr h3
  · intro p; rw [ht, hc]; exact h.sum p

/-- Counting. -/
theorem TInv.count {c : Cfg α} {f : Reads α} {x : TSt α} (h : TInv c f x) {t k : Nat}
    (hk : x.sub t = .prio k) (l : List α) :
    TInv c f ({ x with tally := upd x.tally (f.prio l) (x.tally (f.prio l) + f.len l), counted := x.counted ++ [(k, l)] }.at t .none) := by
  have e : ∀ u j, (upd x.sub t Sub.none) u = .prio j ↔ (u ≠ t ∧ x.sub u = .prio j) := by
    intro u j
    unfold upd
    by_cases hu : u = t
    · simp [hu]
    · simp [hu]
  constructor
  · exact h.inv
  · intro u j hu; exact h.subp u j ((e u j).1 hu).2
  · intro u j hu; exact h.val u j ((e u j).1 hu).2
  · intro u v j hu hv; exact h.uniq u v j ((e u j).1 hu).2 ((e v j).1 hv).2
  · intro j hj
    simp only [TSt.at, List.map_append, List.map_cons, List.map_nil, List.mem_append, List.mem_cons,
      List.not_mem_nil, or_false] at hj
    rcases hj with hj | rfl
    · exact ⟨(h.cnt j hj).1, fun u hu => (h.cnt j hj).2 u ((e u j).1 hu).2⟩
    · refine ⟨h.subp t j hk, fun u hu => ?_⟩
      have := (e u j).1 hu
      exact this.1 (h.uniq u t j this.2 hk)
  · simp only [TSt.at, List.map_append, List.map_cons, List.map_nil]
    rw [List.nodup_append]
    refine ⟨h.nd, by simp, ?_⟩
    intro a ha b hb hab
    simp only [List.mem_cons, List.not_mem_nil, or_false] at hb
    subst hab; subst hb
    exact (h.cnt a ha).2 t hk
  · intro j hj
    simp only [TSt.at, List.map_append, List.map_cons, List.map_nil, List.mem_append, List.mem_cons,
      List.not_mem_nil, or_false]
    rcases h.all j hj with ⟨u, hu⟩ | h1
    · by_cases hut : u = t
      · subst hut
        rw [hk] at hu
        cases hu
        exact Or.inr (Or.inr rfl)
      · exact Or.inl ⟨u, (e u j).2 ⟨hut, hu⟩⟩
    · exact Or.inr (Or.inl h1)
  · intro p
    simp only [TSt.at, List.map_append, List.map_cons, List.map_nil]
    rw [bytesOf_append, ← h.sum p]
    unfold upd bytesOf
    by_cases hp : p = f.prio l
    · subst hp; simp
    · have : ¬ f.prio l = p := fun e => hp e.symm
      simp [hp, this]

theorem next_prio (p : PC α) (k : Nat) : next p = .prio k ↔ p = .pMark k := by
  cases p <;> simp [next]

theorem cell_pown (c : Cfg α) (s : St α) (u i : Nat) (h : (Ring.stepT c s u).cell i ≠ s.cell i) :
    ∃ j, i = j % c.L ∧ pown (s.pc u) = some j := by
  unfold Ring.stepT at h
  split at h <;> rename_i hpc <;> rw [hpc] <;> revert h <;> (repeat' split) <;>
    simp only [go_cell, ne_eq, not_true_eq_false, false_implies, pown, Option.some.injEq, upd] <;>
    grind

theorem TInv.stepT {c : Cfg α} {f : Reads α} {x : TSt α} (h : TInv c f x) {t : Nat} {now : Int}
    (ht : timelyAt c x t) : TInv c f (Tally.stepT c f x t now) := by
  unfold Tally.stepT
  split
  · rename_i hs
    refine h.ring (Mv.stepT c x.s t) (h.inv.stepT (ht hs)) (by rw [hs]; simp) (next_prio _) ?_
      (cell_pown c x.s t)
    intro k hk
    have e : Ring.stepT c x.s t = { x.s with mark := upd x.s.mark (k % c.L) .ready }.go t .wLoad := by
      unfold Ring.stepT; rw [hk]
    rw [e]
    refine ⟨?_, rfl, rfl, rfl, rfl⟩
    intro u hu
    simp only [go_pc] at hu
    split at hu
    · simp [pown] at hu
    · rename_i hne
      exact hne (pown_uniq h.inv hu (by rw [hk]; rfl))
  · rename_i k hs
    exact h.count hs _
  · rename_i k hs
    exact h.quiet rfl rfl rfl rfl (by rw [hs]; simp) (by simp)
  · rename_i k n hs
    split <;> exact h.quiet rfl rfl rfl rfl (by rw [hs]; simp) (by simp)
  · rename_i k n hs
    exact h.quiet rfl rfl rfl rfl (by rw [hs]; simp) (by simp)
  · rename_i k hs
    simp only
    split <;> exact h.quiet rfl rfl rfl rfl (by rw [hs]; simp) (by simp)
  · rename_i d hs
    split <;> exact h.quiet rfl rfl rfl rfl (by rw [hs]; simp) (by simp)
  · rename_i d hs
    exact h.quiet rfl rfl rfl rfl (by rw [hs]; simp) (by simp)

theorem TInv.other {c : Cfg α} {f : Reads α} {x : TSt α} (h : TInv c f x) {e : Ev α}
    (he : ∀ t, e ≠ .run t) : TInv c f { x with s := Ring.step c x.s e } := by
  have hi : Inv c (Ring.step c x.s e) := h.inv.step (by
    cases e with
    | run t => exact absurd rfl (he t)
    | _ => trivial)
  obtain ⟨h1, h2, h3, h4, h5⟩ := other_same c x.s e he
  have hd : ∀ k, Done (Ring.step c x.s e) k ↔ Done x.s k := by
    intro k; unfold Done; rw [h1, h4]; simp only [h5]
  constructor
  · exact hi
  · intro u k hu; exact (hd k).2 (h.subp u k hu)
  · intro u k hu; simp only [h1, h2, h3]; exact h.val u k hu
  · exact h.uniq
  · intro k hk; exact ⟨(hd k).2 (h.cnt k hk).1, (h.cnt k hk).2⟩
  · exact h.nd
  · intro k hk; exact h.all k ((hd k).1 hk)
  · exact h.sum

theorem TInv.step {c : Cfg α} {f : Reads α} {x : TSt α} (h : TInv c f x) (e : TEv α)
    (ht : ∀ t, e.ev = .run t → timelyAt c x t) : TInv c f (Tally.step c f x e) := by
  unfold Tally.step
  split
  · rename_i t he; exact h.stepT (ht t he)
  · rename_i hne
    exact h.other (fun t e' => hne t e')

theorem TInv.run {c : Cfg α} {f : Reads α} : ∀ {es : List (TEv α)} {x : TSt α}, TInv c f x →
    Timely c f x es → TInv c f (Tally.run c f x es) := by
  intro es
  induction es with
  | nil => intro x h _; exact h
  | cons e es ih => intro x h ht; exact ih (h.step e ht.1) ht.2

theorem TInv.init (c : Cfg α) (f : Reads α) (hL : 0 < c.L) : TInv c f (Tally.init c) := by
  constructor
  · exact Inv.init c hL
  · intro t k h; cases h
  · intro t k h; cases h
  · intro t u k h; cases h
  · intro k h; cases h
  · exact List.nodup_nil
  · intro k h; exact absurd h.1 (Nat.not_lt_zero _)
  · intro p; rfl

/-- What was counted is what was logged. -/
def Exact (x : TSt α) : Prop := ∀ e ∈ x.counted, x.s.acquired[e.1]?.map Prod.snd = some e.2

theorem Exact.step {c : Cfg α} {f : Reads α} {x : TSt α} (hi : TInv c f x) (h : Exact x) (e : TEv α)
    (hp : ∀ t, e.ev = .run t → promptAt c x t) : Exact (Tally.step c f x e) := by
  have hlt : ∀ e ∈ x.counted, e.1 < x.s.acquired.length := by
    intro e he; rw [hi.inv.len]; exact (hi.cnt e.1 (List.mem_map.2 ⟨e, he, rfl⟩)).1.1
  unfold Tally.step
  split
  · rename_i t he
    have hp := hp t he
    unfold Tally.stepT
    split
    · intro e he
      have he : e ∈ x.counted := he
      show (Ring.stepT c x.s t).acquired[e.1]?.map Prod.snd = some e.2
      rcases (Mv.stepT c x.s t).h with h1 | ⟨_, ⟨e', h1⟩, _⟩
      · rw [h1.2]; exact h e he
      · rw [h1, List.getElem?_append_left (hlt e he)]; exact h e he
    · rename_i k hs
      intro e he
      simp only [TSt.at, List.mem_append, List.mem_cons, List.not_mem_nil, or_false] at he
      rcases he with he | rfl
      · exact h e he
      · exact hi.val t k hs (hp k hs)
    · exact h
    · split <;> exact h
    · exact h
    · simp only; split <;> exact h
    · split <;> exact h
    · exact h
  · rename_i hne
    intro e he
    show (Ring.step c x.s _).acquired[e.1]?.map Prod.snd = some e.2
    rw [(other_same c x.s _ (fun t e' => hne t e')).2.1]
    exact h e he

theorem Exact.run {c : Cfg α} {f : Reads α} : ∀ {es : List (TEv α)} {x : TSt α}, TInv c f x → Exact x →
    Timely c f x es → Prompt c f x es → Exact (Tally.run c f x es) := by
  intro es
  induction es with
  | nil => intro x _ h _ _; exact h
  | cons e es ih =>
    intro x hi h ht hp
    exact ih (hi.step e ht.1) (h.step hi e hp.1) ht.2 hp.2

/-- Nobody is at work: the counters are those of the acquired lines that were not given up. -/
theorem sum_exact {c : Cfg α} {f : Reads α} {x : TSt α} (hi : TInv c f x) (he : Exact x)
    (hl : x.s.lost = []) (hpc : ∀ t, pown (x.s.pc t) = none) (hsub : ∀ t k, x.sub t ≠ .prio k) (p : Nat) :
    x.tally p = bytesOf f p (x.s.acquired.map Prod.snd) := by
  rw [hi.sum p]
  apply bytesOf_perm
  obtain ⟨rest, h⟩ := atMostOnce_of_positions (x.s.acquired.map Prod.snd) (x.counted.map Prod.snd)
    (x.counted.map Prod.fst) hi.nd (by
      rw [List.map_map, List.map_map]
      apply List.map_congr_left
      intro e hm
      simp only [Function.comp_apply, List.getElem?_map]
      exact (he e hm).symm)
  have hperm : (x.counted.map Prod.fst).Perm (List.range x.s.H) := by
    rw [List.perm_ext_iff_of_nodup hi.nd List.nodup_range]
    intro k
    rw [List.mem_range]
    constructor
    · intro hk; exact (hi.cnt k hk).1.1
    · intro hk
      rcases hi.all k ⟨hk, fun u => by rw [hpc u]; simp, by rw [hl]; simp⟩ with ⟨t, h1⟩ | h1
      · exact absurd h1 (hsub t k)
      · exact h1
  have hlen := hperm.length_eq
  have h2 := h.length_eq
  simp only [List.length_append, List.length_map, List.length_range] at hlen h2
  rw [hi.inv.len] at h2
  have : rest = [] := List.eq_nil_of_length_eq_zero (by omega)
  rw [this, List.append_nil] at h
  exact h

end FNLog.Tally
