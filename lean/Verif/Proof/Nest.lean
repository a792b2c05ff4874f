import Verif.Spec.Nest
import Verif.Props.Live

/-! # Lemmas for C113 -/

namespace FNLog.Nest
open FNLog.Ring FNLog.Spec

variable {α : Type}

theorem ctx_bounds (t d : Nat) : (max t d) * (max t d) + 2 ≤ ctx t d ∧ ctx t d < (max t d + 1) * (max t d + 1) + 2 := by
  unfold ctx
  split
  · rename_i h
    rw [show max t d = d by omega]
    have : (d + 1) * (d + 1) = d * d + 2 * d + 1 := by rw [Nat.mul_add, Nat.add_mul]; omega
    omega
  · rename_i h
    rw [show max t d = t by omega]
    have : (t + 1) * (t + 1) = t * t + 2 * t + 1 := by rw [Nat.mul_add, Nat.add_mul]; omega
    omega

theorem ctx_inj {t d u e : Nat} (h : ctx t d = ctx u e) : t = u ∧ d = e := by
  have h1 := ctx_bounds t d
  have h2 := ctx_bounds u e
  have hm : max t d = max u e := by
    rcases Nat.lt_trichotomy (max t d) (max u e) with k | k | k
    · have := Nat.mul_le_mul (show max t d + 1 ≤ max u e from k) (show max t d + 1 ≤ max u e from k)
      omega
    · exact k
    · have := Nat.mul_le_mul (show max u e + 1 ≤ max t d from k) (show max u e + 1 ≤ max t d from k)
      omega
  unfold ctx at h
  split at h <;> split at h
  · obtain rfl : d = e := by omega
    omega
  · obtain rfl : d = u := by omega
    omega
  · obtain rfl : t = e := by omega
    omega
  · obtain rfl : t = u := by omega
    omega

theorem ctx_two (t d : Nat) : 2 ≤ ctx t d := by unfold ctx; omega

/-- The channel of the statement that is inside of `d` others. -/
def frameAt : List Nat → Nat → Option Nat
  | [], _ => none
  | j :: rest, d => if d = rest.length then some j else frameAt rest d

theorem frameAt_none {l : List Nat} {d : Nat} (h : l.length ≤ d) : frameAt l d = none := by
  induction l with
  | nil => rfl
  | cons j l ih =>
    simp only [List.length_cons] at h
    simp only [frameAt]
    rw [if_neg (by omega)]
    exact ih (by omega)

theorem frameAt_some {l : List Nat} {d i : Nat} (h : frameAt l d = some i) : d < l.length ∧ i ∈ l := by
  induction l with
  | nil => cases h
  | cons j l ih =>
    simp only [frameAt] at h
    split at h
    · cases h
      exact ⟨by simp; omega, List.mem_cons_self ..⟩
    · have := ih h
      exact ⟨by simp; omega, List.mem_cons_of_mem _ this.2⟩

structure NestInv (c : Nat → Cfg α) (s : Nested α) : Prop where
  frames : ∀ t d i, (s.ring i).pc (ctx t d) ≠ .idle ↔ frameAt (s.stack t) d = some i
  nobody : ∀ i, (s.ring i).pc 1 = .idle
  zero : ∀ i, (c i).async = false → (s.ring i).pc 0 = .idle
  only : ∀ i u, (s.ring i).pc u ≠ .idle → u = 0 ∨ ∃ t d, u = ctx t d

theorem step_pc_same {c : Cfg α} {s : St α} {e : Ev α} {u : Nat} (h1 : e ≠ .run u) (h2 : ∀ b, e ≠ .call u b) :
    (Ring.step c s e).pc u = s.pc u := by
  cases e with
  | run t => exact stepT_pc_other c s fun h => h1 (h ▸ rfl)
  | call t b =>
    simp only [Ring.step]
    split
    · split
      · exact if_neg fun (h : u = t) => h2 b (h ▸ rfl)
      · rfl
    · rfl
  | started => simp only [Ring.step]; split <;> rfl
  | closing => rfl
  | stop => simp only [Ring.step]; repeat' split
            all_goals rfl

theorem over_iff {s : St α} {u : Nat} : over s u = true ↔ s.pc u = .idle := by
  unfold over
  cases s.pc u <;> simp

theorem over_false {s : St α} {u : Nat} : over s u = false ↔ s.pc u ≠ .idle := by
  unfold over
  cases s.pc u <;> simp

theorem stepO_pc {c : Cfg α} {s : St α} {e : Option (Ev α)} {u : Nat} (h1 : e ≠ some (.run u)) (h2 : ∀ b, e ≠ some (.call u b)) :
    (stepO c s e).pc u = s.pc u := by
  cases e with
  | none => rfl
  | some e => exact step_pc_same (fun h => h1 (h ▸ rfl)) fun b h => h2 b (h ▸ rfl)

theorem NestInv.init (c : Nat → Cfg α) : NestInv c (ninit c) := by
  have h : ∀ i u, u ≠ 0 → ((ninit c).ring i).pc u = .idle := fun i u hu => if_neg fun h => hu h.2
  refine ⟨fun t d i => ?_, fun i => h i 1 nofun, fun i hA => if_neg fun h => (Bool.false_ne_true (hA.symm.trans h.1)), fun i u hu => ?_⟩
  · have := ctx_two t d
    constructor
    · intro hx; exact absurd (h i _ (by omega)) hx
    · intro hx; cases hx
  · exact Classical.byContradiction fun hx => hu (h i u fun k => hx (Or.inl k))

theorem idle_run {c : Cfg α} {s : St α} {u : Nat} (h : s.pc u = .idle) : Ring.step c s (.run u) = s := by
  simp only [Ring.step]; unfold Ring.stepT; rw [h]

theorem NestInv.step {c : Nat → Cfg α} {s : Nested α} (h : NestInv c s) (e : NEv α) : NestInv c (nstep c s e) := by
  -- which thread the ring event is about
  have hev : ∀ i x, ringEv s i e = some x → (∀ u b, x = .call u b → ∃ t j, e = .log t j b ∧ j = i ∧ s.open t = true ∧ u = ctx t (s.stack t).length) ∧
      (∀ u, x = .run u → (u = 0 ∧ e = .work i) ∨ ∃ t rest, e = .run t ∧ s.stack t = i :: rest ∧ u = ctx t rest.length) := by
    intro i x hx
    cases e with
    | log t j b =>
      simp only [ringEv] at hx
      split at hx
      · rename_i hc
        cases hx
        refine ⟨fun u b' hu => ?_, nofun⟩
        cases hu
        exact ⟨t, j, rfl, hc.1, hc.2, rfl⟩
      · cases hx
    | run t =>
      simp only [ringEv] at hx
      split at hx
      · cases hx
      · rename_i j rest hst
        split at hx
        · rename_i hj
          subst hj
          cases hx
          refine ⟨nofun, fun u hu => ?_⟩
          cases hu
          exact Or.inr ⟨t, rest, rfl, hst, rfl⟩
        · cases hx
    | work j =>
      simp only [ringEv] at hx
      split at hx
      · rename_i hj
        subst hj
        cases hx
        refine ⟨nofun, fun u hu => ?_⟩
        cases hu
        exact Or.inl ⟨rfl, rfl⟩
      · cases hx
    | started j =>
      simp only [ringEv] at hx
      split at hx
      · cases hx; exact ⟨nofun, nofun⟩
      · cases hx
  -- a ring thread that is not concerned
  have same : ∀ i u, (∀ t j b, e = .log t j b → s.open t = true → j = i → u ≠ ctx t (s.stack t).length) →
      (∀ t rest, e = .run t → s.stack t = i :: rest → u ≠ ctx t rest.length) → (e = .work i → u ≠ 0) →
      ((nstep c s e).ring i).pc u = (s.ring i).pc u := by
    intro i u h1 h2 h3
    refine stepO_pc (fun hx => ?_) fun b hx => ?_
    · rcases (hev i _ hx).2 u rfl with ⟨k1, k2⟩ | ⟨t, rest, k1, k2, k3⟩
      · exact h3 k2 k1
      · exact h2 t rest k1 k2 k3
    · obtain ⟨t, j, k1, k2, k3, k4⟩ := (hev i _ hx).1 u b rfl
      exact h1 t j b k1 k3 k2 k4
  refine ⟨fun t d i => ?_, fun i => ?_, fun i hA => ?_, fun i u hu => ?_⟩
  · -- frames
    have hfr := h.frames t d i
    cases e with
    | log t' j b =>
      by_cases hO : s.open t' = true
      · by_cases hne : t = t' ∧ d = (s.stack t').length ∧ i = j
        · obtain ⟨rfl, rfl, rfl⟩ := hne
          show _ ↔ frameAt ((if _ then _ else _ : Nat → List Nat) t) _ = _
          by_cases hov : over ((nstep c s (.log t i b)).ring i) (ctx t (s.stack t).length) = false
          · rw [if_pos ⟨hO, hov⟩, upd_same]
            simp only [frameAt, if_true]
            exact ⟨fun _ => trivial, fun _ => over_false.1 hov⟩
          · rw [if_neg fun hx => hov hx.2]
            rw [frameAt_none (Nat.le_refl _)]
            exact ⟨fun hx => absurd (over_false.2 hx) hov, nofun⟩
        · have hs := same i (ctx t d) (fun t'' j' b' he _ hj hc => by
            cases he
            obtain ⟨rfl, rfl⟩ := ctx_inj hc
            exact hne ⟨rfl, rfl, hj.symm⟩) (fun _ _ he => by cases he) (fun he => by cases he)
          rw [hs, hfr]
          show _ ↔ frameAt ((if _ then _ else _ : Nat → List Nat) t) _ = _
          split
          · by_cases htt : t = t'
            · subst htt
              rw [upd_same]
              simp only [frameAt]
              split
              · rename_i hd
                subst hd
                rw [frameAt_none (Nat.le_refl _)]
                refine ⟨nofun, fun hx => ?_⟩
                cases hx
                exact absurd ⟨rfl, rfl, rfl⟩ hne
              · exact Iff.rfl
            · rw [upd_ne _ _ htt]
          · exact Iff.rfl
      · have hs := same i (ctx t d) (fun t'' j' b' he ho _ => by cases he; exact absurd ho hO) (fun _ _ he => by cases he)
          (fun he => by cases he)
        rw [hs, hfr]
        show _ ↔ frameAt ((if _ then _ else _ : Nat → List Nat) t) _ = _
        rw [if_neg fun hx => hO hx.1]
    | run t' =>
      cases hst : s.stack t' with
      | nil =>
        have hs := same i (ctx t d) (fun _ _ _ he => by cases he) (fun t'' rest he hr => by cases he; rw [hst] at hr; cases hr)
          (fun he => by cases he)
        rw [hs, hfr]
        show _ ↔ frameAt (stackAfter s _ (.run t') t) _ = _
        simp only [stackAfter, hst]
      | cons j rest =>
        by_cases hne : t = t' ∧ d = rest.length ∧ i = j
        · obtain ⟨rfl, rfl, rfl⟩ := hne
          show _ ↔ frameAt (stackAfter s (nstep c s (.run t)).ring (.run t) t) _ = _
          simp only [stackAfter, hst]
          split
          · rename_i hov
            rw [upd_same, frameAt_none (Nat.le_refl _)]
            exact ⟨fun hx => absurd (over_iff.1 hov) hx, nofun⟩
          · rename_i hov
            rw [hst]
            simp only [frameAt, if_true]
            exact ⟨fun _ => trivial, fun _ hx => hov (over_iff.2 hx)⟩
        · have hs := same i (ctx t d) (fun _ _ _ he => by cases he) (fun t'' rest' he hr hc => by
            cases he
            rw [hst] at hr
            cases hr
            obtain ⟨rfl, rfl⟩ := ctx_inj hc
            exact hne ⟨rfl, rfl, rfl⟩) (fun he => by cases he)
          rw [hs, hfr]
          show _ ↔ frameAt (stackAfter s (nstep c s (.run t')).ring (.run t') t) _ = _
          simp only [stackAfter, hst]
          split
          · by_cases htt : t = t'
            · subst htt
              rw [upd_same, hst]
              simp only [frameAt]
              split
              · rename_i hd
                subst hd
                rw [frameAt_none (Nat.le_refl _)]
                refine ⟨fun hx => ?_, nofun⟩
                cases hx
                exact absurd ⟨rfl, rfl, rfl⟩ hne
              · exact Iff.rfl
            · rw [upd_ne _ _ htt]
          · exact Iff.rfl
    | work j =>
      have := ctx_two t d
      rw [same i (ctx t d) (fun _ _ _ he => by cases he) (fun _ _ he => by cases he) (fun _ => by omega)]
      exact hfr
    | started j =>
      rw [same i (ctx t d) (fun _ _ _ he => by cases he) (fun _ _ he => by cases he) (fun he => by cases he)]
      exact hfr
  · rw [same i 1 (fun t _ _ _ _ _ => by have := ctx_two t (s.stack t).length; omega)
      (fun t rest _ _ => by have := ctx_two t rest.length; omega) (fun _ => by omega)]
    exact h.nobody i
  · have h0 := h.zero i hA
    show (stepO (c i) (s.ring i) (ringEv s i e)).pc 0 = .idle
    by_cases hw : ringEv s i e = some (.run 0)
    · rw [hw]
      show (Ring.step _ _ _).pc 0 = _
      rw [idle_run h0]; exact h0
    · rw [stepO_pc hw fun b hx => ?_]
      · exact h0
      · obtain ⟨t, j, _, _, _, k4⟩ := (hev i _ hx).1 0 b rfl
        have := ctx_two t (s.stack t).length
        omega
  · refine Classical.byContradiction fun hx => ?_
    have hx0 : u ≠ 0 := fun k => hx (Or.inl k)
    have hx1 : ∀ t d, u ≠ ctx t d := fun t d k => hx (Or.inr ⟨t, d, k⟩)
    have hs := same i u (fun _ _ _ _ _ _ => hx1 _ _) (fun _ _ _ _ => hx1 _ _) (fun _ => hx0)
    rw [hs] at hu
    exact hx (h.only i u hu)

theorem nestInv (c : Nat → Cfg α) (σ : Nat → NEv α) : ∀ n, NestInv c (nestAt c σ n)
  | 0 => NestInv.init c
  | n + 1 => (nestInv c σ n).step (σ n)

/-- The schedule of ring `i`. -/
def ringSched (c : Nat → Cfg α) (σ : Nat → NEv α) (i n : Nat) : Ev α := (ringEv (nestAt c σ n) i (σ n)).getD (.run 1)

theorem ring_at (c : Nat → Cfg α) (σ : Nat → NEv α) (i n : Nat) : (nestAt c σ n).ring i = stateAt (c i) (ringSched c σ i) n := by
  induction n with
  | zero => rfl
  | succ n ih =>
    rw [stateAt_succ, ← ih]
    show stepO (c i) ((nestAt c σ n).ring i) (ringEv (nestAt c σ n) i (σ n)) = _
    unfold ringSched
    cases ringEv (nestAt c σ n) i (σ n) with
    | some e => rfl
    | none => exact (idle_run ((nestInv c σ n).nobody i)).symm

theorem sched_of {c : Nat → Cfg α} {σ : Nat → NEv α} {i n : Nat} {e : Ev α} (h : ringEv (nestAt c σ n) i (σ n) = some e) :
    ringSched c σ i n = e := by
  unfold ringSched; rw [h]; rfl

theorem timely_sched {c : Nat → Cfg α} {σ : Nat → NEv α} (ht : NestTimely c σ) (i n : Nat) :
    timelyEv (c i) (stateAt (c i) (ringSched c σ i) n) (ringSched c σ i n) := by
  rw [← ring_at]
  cases hx : ringEv (nestAt c σ n) i (σ n) with
  | some e => rw [sched_of hx]; exact ht n i e hx
  | none =>
    rw [show ringSched c σ i n = .run 1 by unfold ringSched; rw [hx]; rfl]
    show timelyAt _ _ 1
    unfold timelyAt
    rw [(nestInv c σ n).nobody i]
    trivial

theorem noStop_sched (c : Nat → Cfg α) (σ : Nat → NEv α) (i n : Nat) : (ringSched c σ i n).noStop := by
  cases hx : ringEv (nestAt c σ n) i (σ n) with
  | none => rw [show ringSched c σ i n = .run 1 by unfold ringSched; rw [hx]; rfl]; trivial
  | some e =>
    rw [sched_of hx]
    cases e with
    | stop =>
      revert hx
      cases σ n with
      | log t j b => simp only [ringEv]; split <;> nofun
      | run t => simp only [ringEv]; repeat' split
                 all_goals nofun
      | work j => simp only [ringEv]; split <;> nofun
      | started j => simp only [ringEv]; split <;> nofun
    | _ => trivial

theorem call_sched {c : Nat → Cfg α} {σ : Nat → NEv α} {i n u : Nat} {b : List α} (h : ringSched c σ i n = .call u b) :
    ∃ t, σ n = .log t i b := by
  unfold ringSched at h
  cases hσ : σ n with
  | log t j b' =>
    rw [hσ] at h
    simp only [ringEv] at h
    split at h
    · rename_i hj
      obtain ⟨rfl, _⟩ := hj
      cases h
      exact ⟨t, rfl⟩
    · cases h
  | run t =>
    rw [hσ] at h
    simp only [ringEv] at h
    split at h
    · cases h
    · split at h <;> cases h
  | work j => rw [hσ] at h; simp only [ringEv] at h; split at h <;> cases h
  | started j => rw [hσ] at h; simp only [ringEv] at h; split at h <;> cases h

/-- The channels a thread is inside of come in the order of their ranks. -/
theorem ranked_stack {rank : Nat → Nat} {c : Nat → Cfg α} {σ : Nat → NEv α} (h : Ranked rank c σ) (n t : Nat) :
    ((nestAt c σ n).stack t).Pairwise fun i j => rank i < rank j := by
  induction n with
  | zero => exact List.Pairwise.nil
  | succ n ih =>
    show (stackAfter (nestAt c σ n) (nstep c (nestAt c σ n) (σ n)).ring (σ n) t).Pairwise _
    cases hσ : σ n with
    | log u i b =>
      simp only [stackAfter]
      split
      · by_cases hu : t = u
        · subst hu
          rw [upd_same]
          exact List.pairwise_cons.2 ⟨h n t i b hσ, ih⟩
        · rw [upd_ne _ _ hu]; exact ih
      · exact ih
    | run u =>
      cases hst : (nestAt c σ n).stack u with
      | nil => simp only [stackAfter, hst]; exact ih
      | cons j rest =>
        simp only [stackAfter, hst]
        split
        · by_cases hu : t = u
          · subst hu
            rw [upd_same]
            rw [hst] at ih
            exact (List.pairwise_cons.1 ih).2
          · rw [upd_ne _ _ hu]; exact ih
        · exact ih
    | work j => exact ih
    | started j => exact ih

/-- Without new statements the stacks only get shorter. -/
theorem stack_shrinks {c : Nat → Cfg α} {σ : Nat → NEv α} {N : Nat} (hN : ∀ n, N ≤ n → ∀ t i b, σ n ≠ .log t i b) {n m : Nat}
    (hn : N ≤ n) (hm : n ≤ m) (t : Nat) : (nestAt c σ m).stack t <:+ (nestAt c σ n).stack t := by
  obtain ⟨k, rfl⟩ := Nat.le.dest hm
  clear hm
  induction k with
  | zero => exact List.suffix_refl _
  | succ k ih =>
    refine List.IsSuffix.trans ?_ ih
    show stackAfter (nestAt c σ (n + k)) (nstep c (nestAt c σ (n + k)) (σ (n + k))).ring (σ (n + k)) t <:+ _
    cases hσ : σ (n + k) with
    | log u i b => exact absurd hσ (hN _ (by omega) u i b)
    | run u =>
      cases hst : (nestAt c σ (n + k)).stack u with
      | nil => simp only [stackAfter, hst]; exact List.suffix_refl _
      | cons j rest =>
        simp only [stackAfter, hst]
        split
        · by_cases hu : t = u
          · subst hu
            rw [upd_same, hst]
            exact List.suffix_cons ..
          · rw [upd_ne _ _ hu]; exact List.suffix_refl _
        · exact List.suffix_refl _
    | work j => exact List.suffix_refl _
    | started j => exact List.suffix_refl _

theorem suffix_eq {l l' : List Nat} (h : l <:+ l') (hl : l'.length ≤ l.length) : l = l' :=
  h.eq_of_length (Nat.le_antisymm h.length_le hl)

/-- The queue of every channel is an endless execution as C100 wants it. -/
theorem nest_endless {c : Nat → Cfg α} {σ : Nat → NEv α} {rank : Nat → Nat} (hL : ∀ i, 2 ≤ (c i).L) (ht : NestTimely c σ)
    (hf : NestFair c σ) (hr : Ranked rank c σ) {N : Nat} (hN : ∀ n, N ≤ n → ∀ t i b, σ n ≠ .log t i b) (k i : Nat) (hk : rank i < k) :
    Endless (c i) (ringSched c σ i) := by
  induction k generalizing i with
  | zero => omega
  | succ k ih =>
    refine ⟨hL i, timely_pointwise (timely_sched ht i), noStop_sched c σ i, fun u n hu => ?_⟩
    rw [← ring_at] at hu
    rcases (nestInv c σ n).only i u hu with rfl | ⟨t, d, rfl⟩
    · by_cases hA : (c i).async = true
      · obtain ⟨m, hm, he⟩ := hf.workers i n hA
        refine ⟨m, hm, sched_of ?_⟩
        rw [he]
        exact if_pos rfl
      · exact absurd ((nestInv c σ n).zero i (by simpa using hA)) hu
    · refine Classical.byContradiction fun hx => ?_
      have hno : ∀ m, n ≤ m → ringSched c σ i m ≠ .run (ctx t d) := fun m hm h => hx ⟨m, hm, h⟩
      -- the statement stays where it is
      have hst : ∀ m, n ≤ m → ((nestAt c σ m).ring i).pc (ctx t d) ≠ .idle := by
        intro m hm
        obtain ⟨q, rfl⟩ := Nat.le.dest hm
        clear hm
        induction q with
        | zero => exact hu
        | succ q ihq =>
          rw [← Nat.add_assoc, ring_at, stateAt_succ, ← ring_at]
          rw [step_pc_other (hno _ (by omega)) ihq]
          exact ihq
      have hfr : ∀ m, n ≤ m → frameAt ((nestAt c σ m).stack t) d = some i := fun m hm => ((nestInv c σ m).frames t d i).1 (hst m hm)
      -- the statements inside of it return
      have hpop : ∀ q m, n ≤ m → N ≤ m → ((nestAt c σ m).stack t).length = d + 1 + q →
          ∃ m', m ≤ m' ∧ ((nestAt c σ m').stack t).length = d + 1 := by
        intro q
        induction q using Nat.strongRecOn with
        | ind q ihq =>
          intro m hm hNm hlen
          cases q with
          | zero => exact ⟨m, Nat.le_refl _, hlen⟩
          | succ q =>
            cases hs : (nestAt c σ m).stack t with
            | nil => rw [hs] at hlen; simp at hlen
            | cons j rest =>
              have hfm := hfr m hm
              have hrk := ranked_stack hr m t
              rw [hs] at hlen hfm hrk
              simp only [List.length_cons] at hlen
              simp only [frameAt] at hfm
              rw [if_neg (by omega)] at hfm
              have hji := (List.pairwise_cons.1 hrk).1 i (frameAt_some hfm).2
              have hE := ih j (by omega)
              obtain ⟨M, hM⟩ := C100_all_return (c j) _ hE (N := N) (fun n' hn' u b hb => by
                obtain ⟨t', ht'⟩ := call_sched hb
                exact hN n' hn' _ _ _ ht')
              have hm1 : m ≤ max m M := Nat.le_max_left ..
              have hidle := (hM (max m M) (Nat.le_max_right ..)).1 (ctx t rest.length)
              rw [← ring_at] at hidle
              have hidle' : ((nestAt c σ (max m M)).ring j).pc (ctx t rest.length) = .idle := by
                rcases hidle with h | ⟨_, h⟩
                · exact h
                · have := ctx_two t rest.length
                  rw [h] at this
                  exact absurd this (by decide)
              have hsuf := stack_shrinks (c := c) hN hNm hm1 t
              have hlt : ((nestAt c σ (max m M)).stack t).length < rest.length + 1 := by
                refine Nat.lt_of_not_le fun hle => ?_
                have heq := suffix_eq hsuf (by rw [hs]; exact hle)
                refine ((nestInv c σ (max m M)).frames t rest.length j).2 ?_ hidle'
                rw [heq, hs]
                simp only [frameAt, if_true]
              have hge := (frameAt_some (hfr (max m M) (by omega))).1
              obtain ⟨m', h1, h2⟩ := ihq (((nestAt c σ (max m M)).stack t).length - (d + 1)) (by omega) (max m M) (by omega) (by omega)
                (by omega)
              exact ⟨m', by omega, h2⟩
      have hn0 := (frameAt_some (hfr (max n N) (by omega))).1
      obtain ⟨m, hm, hlen⟩ := hpop (((nestAt c σ (max n N)).stack t).length - (d + 1)) (max n N) (by omega) (by omega) (by omega)
      obtain ⟨m', hm', he⟩ := hf.threads t m (fun h => by rw [h] at hlen; simp at hlen)
      refine hno m' (by omega) (sched_of ?_)
      rw [he]
      have h1 := (stack_shrinks (c := c) hN (show N ≤ m by omega) hm' t).length_le
      have h2 := hfr m' (by omega)
      cases hs : (nestAt c σ m').stack t with
      | nil => rw [hs] at h2; cases h2
      | cons j rest =>
        rw [hs] at h1 h2
        have h3 := (frameAt_some h2).1
        simp only [List.length_cons] at h1 h3
        have hd : d = rest.length := by omega
        simp only [frameAt] at h2
        rw [if_pos hd] at h2
        cases h2
        simp only [ringEv, hs, if_true, hd]

end FNLog.Nest
