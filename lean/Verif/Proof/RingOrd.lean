import Verif.Proof.RingStep

/-! # Further invariants: async order, timeliness, program order -/

namespace FNLog.Ring
open FNLog

variable {α : Type}

/-- What a step of a thread outside EnterProcChannel leaves alone. -/
structure Frame (c : Cfg α) (s s' : St α) (t : Nat) : Prop where
  P : s'.P = s.P
  R : s'.R = s.R
  out : s'.out = s.out
  base : s'.base = s.base
  pc : ∀ u, u ≠ t → s'.pc u = s.pc u
  mark : ∀ k, s.R ≤ k → k < s.P → s'.mark (k % c.L) = s.mark (k % c.L)

theorem frame_stepT {c : Cfg α} {s : St α} (h : Inv c s) {t : Nat} (hnc : isCons (s.pc t) = false) :
    Frame c s (stepT c s t) t := by
  have h1 := h.leRP
  have h2 := h.lePW
  have h3 := h.leWH
  have h4 := h.cap
  have hti := h.ti t
  have key : ∀ k m j, s.W ≤ k → k < s.H → s.R ≤ j → j < s.P →
      upd s.mark (k % c.L) m (j % c.L) = s.mark (j % c.L) := by
    intro k m j hk1 hk2 hj1 hj2
    apply upd_ne
    intro he
    have := slot_inj (c := c) (s := s) he (by omega) (by omega) (by omega) (by omega)
    omega
  unfold stepT
  split <;> rename_i hpc <;> rw [hpc] at hnc hti <;> simp [isCons] at hnc
  all_goals repeat' split
  all_goals first
    | exact ⟨rfl, rfl, rfl, rfl, fun _ _ => rfl, fun _ _ _ => rfl⟩
    | exact ⟨rfl, rfl, rfl, rfl, fun u hu => by simp [hu], fun _ _ _ => rfl⟩
    | exact ⟨rfl, rfl, rfl, rfl, fun u hu => by simp [hu],
        fun j hj1 hj2 => key _ _ j hti.1.1 hti.1.2.1 hj1 hj2⟩

/-- The single consumer of an async channel keeps `read` and `proc` together. -/
def OrdPC (c : Cfg α) (s : St α) : PC α → Prop
  | .cLoad | .cEnd | .cSet | .cLoop | .cLoopW | .cLoopR _ | .cFin | .done => s.R = s.P
  | .cWrite tk | .cCas tk => s.R = s.P ∧ tk = s.P
  | .cDisp k | .cClear k => s.P = s.R + 1 ∧ k = s.R
  | .cStat k | .cBytes k => s.P = s.R + 1 ∧ k = s.R ∧ s.mark (s.R % c.L) = .invalid
  | .rLoad => s.P = s.R ∨ (s.P = s.R + 1 ∧ s.mark (s.R % c.L) = .invalid)
  | .rProc tk => tk = s.R ∧ (s.P = s.R ∨ (s.P = s.R + 1 ∧ s.mark (s.R % c.L) = .invalid))
  | .rMark tk | .rCas tk => tk = s.R ∧ s.P = s.R + 1 ∧ s.mark (s.R % c.L) = .invalid
  | _ => False

/-- Number of records dispatched so far, counted from position 0. -/
def outN (s : St α) : Nat :=
  match s.pc worker with
  | .cDisp _ => s.P - 1
  | _ => s.P

structure Ord (c : Cfg α) (s : St α) : Prop where
  pcw : OrdPC c s (s.pc worker)
  out : s.out.map Prod.fst = List.range' s.base (outN s - s.base)

theorem Ord.of_frame {c : Cfg α} {s s' : St α} {t : Nat} (h : Inv c s) (ho : Ord c s)
    (hf : Frame c s s' t) (ht : t ≠ worker) : Ord c s' := by
  have hpc := hf.pc worker (Ne.symm ht)
  have hm : s.R < s.P → s'.mark (s.R % c.L) = s.mark (s.R % c.L) :=
    fun hlt => hf.mark s.R (Nat.le_refl _) hlt
  have hle := h.leRP
  constructor
  · rw [hpc]
    have := ho.pcw
    cases hp : s.pc worker <;> rw [hp] at this <;> simp only [OrdPC, hf.P, hf.R] at this ⊢ <;>
      (try exact this)
    case cStat k => exact ⟨this.1, this.2.1, by rw [hm (by omega)]; exact this.2.2⟩
    case cBytes k => exact ⟨this.1, this.2.1, by rw [hm (by omega)]; exact this.2.2⟩
    case rLoad =>
      rcases this with h1 | h1
      · exact Or.inl h1
      · exact Or.inr ⟨h1.1, by rw [hm (by omega)]; exact h1.2⟩
    case rProc tk =>
      refine ⟨this.1, ?_⟩
      rcases this.2 with h1 | h1
      · exact Or.inl h1
      · exact Or.inr ⟨h1.1, by rw [hm (by omega)]; exact h1.2⟩
    case rMark tk => exact ⟨this.1, this.2.1, by rw [hm (by omega)]; exact this.2.2⟩
    case rCas tk => exact ⟨this.1, this.2.1, by rw [hm (by omega)]; exact this.2.2⟩
  · have : outN s' = outN s := by unfold outN; rw [hpc, hf.P]
    rw [hf.out, hf.base, this]; exact ho.out

theorem Ord.worker {c : Cfg α} {s : St α} (hA : c.async = true) (h : Inv c s) (ho : Ord c s) :
    Ord c (stepT c s worker) := by
  have hL : 0 < c.L := by have := h.cap; have := h.leRP; have := h.lePW; have := h.leWH; omega
  have hb := h.baseR
  have hle := h.leRP
  have hpcw := ho.pcw
  have hout := ho.out
  have hnd : ∀ a b, a < b → b < a + c.L → a % c.L = b % c.L → False := by
    intro a b h1 h2 h3
    have := mod_inj h3 (by omega) h2
    omega
  have hcap := h.cap
  have h2 := h.lePW
  have h3 := h.leWH
  unfold outN at hout
  unfold stepT
  cases hpc : s.pc Ring.worker <;> rw [hpc] at hpcw hout <;> simp only [OrdPC] at hpcw <;>
    simp only at hout <;> try contradiction
  case cLoad =>
    exact ⟨by simp [OrdPC, hpcw], by simpa [outN] using hout⟩
  case cWrite tk =>
    obtain ⟨h4, rfl⟩ := hpcw
    simp only; split
    · exact ⟨by simp [OrdPC, h4], by simpa [outN] using hout⟩
    · exact ⟨by simp [OrdPC, h4], by simpa [outN] using hout⟩
  case cCas tk =>
    obtain ⟨h4, rfl⟩ := hpcw
    simp only [if_true]
    exact ⟨by simp [OrdPC, h4], by simpa [outN] using hout⟩
  case cDisp k =>
    obtain ⟨h4, rfl⟩ := hpcw
    refine ⟨by simp [OrdPC, h4], ?_⟩
    simp only [go_out, go_base, List.map_append, List.map_cons, List.map_nil, outN, go_pc, if_true,
      go_P]
    rw [hout]
    have e1 : s.P - s.base = (s.P - 1 - s.base) + 1 := by omega
    rw [e1, List.range'_1_concat]
    congr 2
    omega
  case cClear k =>
    obtain ⟨h4, rfl⟩ := hpcw
    exact ⟨by simp [OrdPC, h4, upd_same], by simpa [outN] using hout⟩
  case cStat k =>
    exact ⟨by simpa [OrdPC] using hpcw, by simpa [outN] using hout⟩
  case cBytes k =>
    exact ⟨by simp [OrdPC, hpcw], by simpa [outN] using hout⟩
  case rLoad =>
    exact ⟨by simpa [OrdPC] using hpcw, by simpa [outN] using hout⟩
  case rProc tk =>
    obtain ⟨rfl, h4⟩ := hpcw
    simp only; split
    · rename_i he
      refine ⟨?_, by simpa [outN] using hout⟩
      simp only [OrdPC, go_pc, if_true, go_R, go_P]
      rcases h4 with h4 | h4
      · exact h4.symm
      · exact mod_inj he (by omega) (by omega)
    · rename_i he
      refine ⟨?_, by simpa [outN] using hout⟩
      simp only [OrdPC, go_pc, if_true, go_R, go_P, go_mark]
      rcases h4 with h4 | h4
      · rw [h4] at he; exact absurd rfl he
      · exact ⟨trivial, h4⟩
  case rMark tk =>
    obtain ⟨rfl, h4, h5⟩ := hpcw
    simp only [h5, ne_eq, not_true_eq_false, if_false]
    exact ⟨by simp [OrdPC, h4, h5], by simpa [outN] using hout⟩
  case rCas tk =>
    obtain ⟨rfl, h4, h5⟩ := hpcw
    simp only [if_true]
    exact ⟨by simp [OrdPC, h4], by simpa [outN] using hout⟩
  case cEnd =>
    simp only; split
    · exact ⟨by simp [OrdPC, hpcw], by simpa [outN] using hout⟩
    · exact ⟨by simp [OrdPC, hpcw], by simpa [outN] using hout⟩
  case cSet => exact ⟨by simp [OrdPC, hpcw], by simpa [outN] using hout⟩
  case cLoop =>
    simp only [hA]; simp only [Bool.true_eq_false, if_false]; split
    · exact ⟨by simp [OrdPC, hpcw], by simpa [outN] using hout⟩
    · exact ⟨by simp [OrdPC, hpcw], by simpa [outN] using hout⟩
  case cLoopW => exact ⟨by simp [OrdPC, hpcw], by simpa [outN] using hout⟩
  case cLoopR w =>
    simp only; split
    · exact ⟨by simp [OrdPC, hpcw], by simpa [outN] using hout⟩
    · exact ⟨by simp [OrdPC, hpcw], by simpa [outN] using hout⟩
  case cFin => exact ⟨by simp [OrdPC, hpcw], by simpa [outN] using hout⟩
  case done => exact ⟨by rw [hpc]; simpa [OrdPC] using hpcw, by unfold outN; rw [hpc]; exact hout⟩

theorem Ord.step {c : Cfg α} {s : St α} (hA : c.async = true) (h : Inv c s) (ho : Ord c s)
    (e : Ev α) : Ord c (step c s e) := by
  have hpcw := ho.pcw
  cases e with
  | run t =>
    by_cases ht : t = Ring.worker
    · subst ht; exact ho.worker hA h
    · refine ho.of_frame h (frame_stepT h ?_) ht
      by_cases hc : isCons (s.pc t) = true
      · exact absurd (h.consTid hA t hc) ht
      · simpa using hc
  | call t b =>
    unfold Ring.step
    simp only
    split
    · rename_i hpc
      have ht : t ≠ Ring.worker := by rintro rfl; rw [hpc] at hpcw; exact hpcw
      split
      · exact ho.of_frame h ⟨rfl, rfl, rfl, rfl, fun u hu => by simp [hu], fun _ _ _ => rfl⟩ ht
      · exact ho
    · exact ho
  | started =>
    unfold Ring.step
    simp only
    split
    · exact ho.of_frame (t := Ring.worker + 1) h
        ⟨rfl, rfl, rfl, rfl, fun u _ => rfl, fun _ _ _ => rfl⟩ (by simp)
    · exact ho
  | closing =>
    exact ho.of_frame (t := Ring.worker + 1) h
        ⟨rfl, rfl, rfl, rfl, fun u _ => rfl, fun _ _ _ => rfl⟩ (by simp)
  | stop =>
    unfold Ring.step
    simp only [hA, if_true]
    · split
      · exact ho.of_frame (t := Ring.worker + 1) h
          ⟨rfl, rfl, rfl, rfl, fun u _ => rfl, fun _ _ _ => rfl⟩ (by simp)
      · exact ho

/-- Induction over a timely run. -/
theorem run_induct {c : Cfg α} (J : St α → Prop)
    (hstep : ∀ s e, Inv c s → J s → timelyEv c s e → J (step c s e)) :
    ∀ {es : List (Ev α)} {s : St α}, Inv c s → J s → Timely c s es → J (run c s es) := by
  intro es
  induction es with
  | nil => intro s _ hj _; exact hj
  | cons e es ih =>
    intro s h hj ht
    exact ih (h.step ht.1) (hstep s e h hj ht.1) ht.2

theorem Ord.init (c : Cfg α) (hA : c.async = true) : Ord c (init c) := by
  constructor
  · simp [Ring.init, hA, OrdPC]
  · simp [Ring.init, hA, outN]

/-! ## Program order -/

/-- The text of a log statement that has not yet acquired its slot. -/
def pending : PC α → Option (List α)
  | .hChk _ b | .hLoad _ b | .hRead _ _ b | .hCas _ _ b | .hOut b | .hSleep b => some b
  | _ => none

/-- Log statements of thread `t` among a history. -/
def ofThread (t : Nat) (l : List (Nat × List α)) : List (List α) :=
  (l.filter (fun e => e.1 == t)).map Prod.snd

/-- Acquired lines of a thread, followed by its waiting statement, are in call order. -/
def ProgOrd (c : Cfg α) (s : St α) : Prop :=
  ∀ t, (ofThread t s.acquired ++ ((pending (s.pc t)).toList.map (· ++ [c.nl]))).Sublist
    ((ofThread t s.calls).map (· ++ [c.nl]))

theorem ofThread_append (t : Nat) (l l' : List (Nat × List α)) :
    ofThread t (l ++ l') = ofThread t l ++ ofThread t l' := by simp [ofThread]

theorem progOrd_go {c : Cfg α} {s s' : St α} (h : ProgOrd c s) {t : Nat} {p : PC α}
    (hpc : s'.pc = fun u => if u = t then p else s.pc u)
    (ha : s'.acquired = s.acquired) (hc : s'.calls = s.calls)
    (hp : pending p = pending (s.pc t) ∨ pending p = none) : ProgOrd c s' := by
  intro u
  rw [ha, hc, hpc]
  simp only
  split
  · rename_i e
    subst e
    rcases hp with hp | hp
    · rw [hp]; exact h u
    · rw [hp]; simp only [Option.toList_none, List.map_nil, List.append_nil]
      exact (List.sublist_append_left _ _).trans (h u)
  · exact h u

theorem ProgOrd.stepT {c : Cfg α} {s : St α} (h : ProgOrd c s) (t : Nat) :
    ProgOrd c (stepT c s t) := by
  unfold Ring.stepT
  split <;> rename_i hpc
  case h_5 i tk b =>
    split
    · intro u
      simp only [go_acquired, go_calls, go_pc]
      by_cases hu : u = t
      · subst hu
        have := h u
        rw [hpc] at this
        simpa [pending, ofThread_append, ofThread] using this
      · have := h u
        have hne : ¬ (t = u) := fun e => hu e.symm
        simpa [hu, hne, ofThread_append, ofThread] using this
    · split <;> exact progOrd_go h (t := t) rfl rfl rfl (by simp [pending, hpc])
  all_goals repeat' split
  all_goals first
    | exact h
    | exact progOrd_go h (t := t) rfl rfl rfl (by simp [pending, hpc])

theorem ProgOrd.step {c : Cfg α} {s : St α} (h : ProgOrd c s) (e : Ev α) :
    ProgOrd c (step c s e) := by
  cases e with
  | run t => exact h.stepT t
  | call t b =>
    unfold Ring.step
    simp only
    split
    · rename_i hpc
      split
      · intro u
        simp only [go_acquired, go_calls, go_pc]
        have := h u
        by_cases hu : u = t
        · subst hu
          rw [hpc] at this
          simp only [pending, Option.toList_none, List.map_nil, List.append_nil] at this
          simp only [if_true, pending, Option.toList_some, List.map_cons, List.map_nil,
            ofThread_append, List.map_append]
          exact this.append (by simp [ofThread])
        · have hne : ¬ (t = u) := fun e => hu e.symm
          simpa [hu, hne, ofThread_append, ofThread] using this
      · exact h
    · exact h
  | started => unfold Ring.step; simp only; split <;> exact h
  | closing => exact h
  | stop => unfold Ring.step; simp only; repeat' split <;> try exact h
            

theorem ProgOrd.run {c : Cfg α} : ∀ {es : List (Ev α)} {s : St α}, ProgOrd c s →
    ProgOrd c (run c s es) := by
  intro es
  induction es with
  | nil => intro s h; exact h
  | cons e es ih => intro s h; exact ih (h.step e)

theorem ProgOrd.init (c : Cfg α) : ProgOrd c (init c) := by
  intro t
  simp only [Ring.init, ofThread]
  split <;> simp [pending]

/-! ## Sufficient conditions for timeliness -/

theorem stepT_H_mono (c : Cfg α) (s : St α) (t : Nat) : s.H ≤ (stepT c s t).H := by
  unfold stepT
  split <;> (repeat' split) <;> simp

theorem step_H_mono (c : Cfg α) (s : St α) (e : Ev α) : s.H ≤ (step c s e).H := by
  cases e with
  | run t => exact stepT_H_mono c s t
  | call t b => unfold step; simp only; (repeat' split) <;> simp
  | started => unfold step; simp only; split <;> simp
  | closing => simp [step]
  | stop => unfold step; simp only; (repeat' split) <;> simp

theorem run_H_mono (c : Cfg α) : ∀ (es : List (Ev α)) (s : St α), s.H ≤ (run c s es).H := by
  intro es
  induction es with
  | nil => intro s; exact Nat.le_refl _
  | cons e es ih => intro s; exact Nat.le_trans (step_H_mono c s e) (ih _)

/-- Runs with fewer than `L` log statements are timely. -/
theorem timely_of_short {c : Cfg α} : ∀ {es : List (Ev α)} {s : St α}, Inv c s →
    (run c s es).H < c.L → Timely c s es := by
  intro es
  induction es with
  | nil => intro s _ _; trivial
  | cons e es ih =>
    intro s h hlt
    have hH : s.H < c.L := Nat.lt_of_le_of_lt (run_H_mono c (e :: es) s) hlt
    have h1 := h.leRP
    have h2 := h.lePW
    have h3 := h.leWH
    have ht : timelyEv c s e := by
      cases e with
      | run t =>
        unfold timelyEv timelyAt
        have hti := h.ti t
        simp only
        split <;> rename_i hpc <;> first | trivial | skip
        all_goals
          rw [hpc] at hti
          intro he
          exact cas_eq he hti.1 (by omega)
      | _ => trivial
    exact ⟨ht, ih (h.step ht) hlt⟩

/-- Runs in which no thread is delayed for a lap are timely. -/
theorem timely_of_lap {c : Cfg α} : ∀ {es : List (Ev α)} {s : St α}, Inv c s → WithinLap c s es → Timely c s es := by
  intro es
  induction es with
  | nil => intro s _ _; trivial
  | cons e es ih =>
    intro s h hw
    have ht : timelyEv c s e := by
      cases e with
      | run t =>
        have hl := hw.1 t rfl
        unfold timelyEv timelyAt
        have hti := h.ti t
        simp only
        split <;> rename_i hpc <;> first | trivial | skip
        all_goals
          rw [hpc] at hti hl
          intro he
          exact cas_eq he hti.1 hl
      | _ => trivial
    exact ⟨ht, ih (h.step ht) hw.2⟩

/-- The index a thread loaded is still the current one. -/
def Exact (s : St α) : PC α → Prop
  | .hRead _ tk _ | .hCas _ tk _ => tk = s.H
  | .wHold tk | .wMark tk | .wCas tk => tk = s.W
  | .cWrite tk | .cCas tk => tk = s.P
  | .rProc tk | .rMark tk | .rCas tk => tk = s.R
  | _ => True

/-- Only thread `t0` (and the worker of an async channel) is ever active. -/
def Solo (c : Cfg α) (t0 : Nat) (s : St α) : Prop :=
  (∀ t, t ≠ t0 → (c.async = true → t ≠ worker) → s.pc t = .idle) ∧ ∀ t, Exact s (s.pc t)

theorem stepT_pc_other (c : Cfg α) (s : St α) {t u : Nat} (h : u ≠ t) :
    (stepT c s t).pc u = s.pc u := by
  unfold stepT
  split <;> (repeat' split) <;> simp [h]

theorem stepT_cons_frame (c : Cfg α) (s : St α) {t : Nat} (h : isCons (s.pc t) = true) :
    (stepT c s t).H = s.H ∧ (stepT c s t).W = s.W := by
  unfold stepT
  split <;> rename_i hpc <;> rw [hpc] at h <;> simp [isCons] at h <;> (repeat' split) <;> simp

theorem exact_stepT (c : Cfg α) (s : St α) {t : Nat} (h : Exact s (s.pc t)) :
    Exact (stepT c s t) ((stepT c s t).pc t) := by
  unfold stepT
  split <;> rename_i hpc <;> rw [hpc] at h <;> (repeat' split) <;> simp_all [Exact]

theorem timelyAt_of_exact {c : Cfg α} {s : St α} {t : Nat} (h : Exact s (s.pc t)) :
    timelyAt c s t := by
  unfold timelyAt
  split <;> rename_i hpc <;> (try rw [hpc] at h) <;> simp_all [Exact]

theorem Solo.stepT {c : Cfg α} {t0 : Nat} {s : St α} (h : Inv c s) (ho : c.async = true → Ord c s)
    (hs : Solo c t0 s) (t : Nat) : Solo c t0 (Ring.stepT c s t) := by
  by_cases hact : t ≠ t0 ∧ (c.async = true → t ≠ worker)
  · have hidle := hs.1 t hact.1 hact.2
    have : Ring.stepT c s t = s := by unfold Ring.stepT; rw [hidle]
    rw [this]; exact hs
  · constructor
    · intro u hu1 hu2
      have hut : u ≠ t := by
        rintro rfl; exact hact ⟨hu1, hu2⟩
      rw [stepT_pc_other c s hut]; exact hs.1 u hu1 hu2
    · intro u
      by_cases hut : u = t
      · subst hut; exact exact_stepT c s (hs.2 u)
      · rw [stepT_pc_other c s hut]
        have hex := hs.2 u
        by_cases hu : u ≠ t0 ∧ (c.async = true → u ≠ worker)
        · rw [hs.1 u hu.1 hu.2]; trivial
        · -- both active and different: an async channel, one of them is the worker
          have hA : c.async = true := by
            apply Classical.byContradiction
            intro hA
            have h1 : ¬ t ≠ t0 := fun e => hact ⟨e, fun e' => absurd e' hA⟩
            have h2 : ¬ u ≠ t0 := fun e => hu ⟨e, fun e' => absurd e' hA⟩
            exact hut ((Decidable.not_not.mp h2).trans (Decidable.not_not.mp h1).symm)
          have hwcons : isCons (s.pc worker) = true := by
            have := (ho hA).pcw
            cases hp : s.pc worker <;> rw [hp] at this <;> simp [OrdPC] at this <;> rfl
          by_cases htw : t = worker
          · subst htw
            obtain ⟨e1, e2⟩ := stepT_cons_frame c s hwcons
            have hnc : isCons (s.pc u) = false := by
              cases hc : isCons (s.pc u) with
              | false => rfl
              | true => exact absurd (h.consTid hA u hc) hut
            cases hp : s.pc u <;> rw [hp] at hex hnc <;> simp_all [Exact, isCons]
          · have huw : u = worker := by
              apply Classical.byContradiction
              intro huw
              have h1 : ¬ t ≠ t0 := fun e => hact ⟨e, fun _ => htw⟩
              have h2 : ¬ u ≠ t0 := fun e => hu ⟨e, fun _ => huw⟩
              exact hut ((Decidable.not_not.mp h2).trans (Decidable.not_not.mp h1).symm)
            subst huw
            have hnc : isCons (s.pc t) = false := by
              cases hc : isCons (s.pc t) with
              | false => rfl
              | true => exact absurd (h.consTid hA t hc) htw
            have hf := frame_stepT h hnc
            have e1 := hf.P
            have e2 := hf.R
            cases hp : s.pc worker <;> rw [hp] at hex hwcons <;> simp_all [Exact, isCons]

/-- A schedule in which only thread `t0` logs. -/
def SoloEvents (t0 : Nat) (es : List (Ev α)) : Prop :=
  ∀ e ∈ es, match e with | .call t _ => t = t0 | _ => True

theorem Solo.step {c : Cfg α} {t0 : Nat} {s : St α} (h : Inv c s) (ho : c.async = true → Ord c s)
    (hs : Solo c t0 s) (e : Ev α) (he : match e with | .call t _ => t = t0 | _ => True) :
    Solo c t0 (Ring.step c s e) := by
  cases e with
  | run t => exact hs.stepT h ho t
  | call t b =>
    simp only at he
    subst he
    unfold Ring.step
    simp only
    split
    · split
      · constructor
        · intro u hu1 hu2
          simpa [hu1] using hs.1 u hu1 hu2
        · intro u
          by_cases hu : u = t
          · simp [hu, Exact]
          · simp only [go_pc, hu, if_false]
            have := hs.2 u
            cases hp : s.pc u <;> rw [hp] at this <;> simp_all [Exact]
      · exact hs
    · exact hs
  | started =>
    unfold Ring.step; simp only; split
    · exact ⟨hs.1, fun u => by
        have := hs.2 u
        cases hp : s.pc u <;> rw [hp] at this <;> simp_all [Exact]⟩
    · exact hs
  | closing =>
    exact ⟨hs.1, fun u => by
        have := hs.2 u
        cases hp : s.pc u <;> rw [hp] at this <;> simp_all [Exact, Ring.step]⟩
  | stop =>
    have key : ∀ st, Solo c t0 { s with state := st } := fun st => ⟨hs.1, fun u => by
        have := hs.2 u
        cases hp : s.pc u <;> rw [hp] at this <;> simp_all [Exact]⟩
    unfold Ring.step; simp only; split
    · split
      · exact key _
      · exact hs
    · exact key _

theorem timely_of_solo {c : Cfg α} {t0 : Nat} (_hL : 0 < c.L) : ∀ {es : List (Ev α)} {s : St α}, Inv c s →
    (c.async = true → Ord c s) → Solo c t0 s → SoloEvents t0 es → Timely c s es := by
  intro es
  induction es with
  | nil => intro s _ _ _ _; trivial
  | cons e es ih =>
    intro s h ho hs he
    have ht : timelyEv c s e := by
      cases e with
      | run t => exact timelyAt_of_exact (hs.2 t)
      | _ => trivial
    refine ⟨ht, ih (h.step ht) (fun hA => (ho hA).step hA h e) (hs.step h ho e (he e (by simp))) ?_⟩
    intro e' he'
    exact he e' (by simp [he'])

theorem Solo.init (c : Cfg α) (t0 : Nat) : Solo c t0 (init c) := by
  constructor
  · intro t _ h2
    simp only [Ring.init]
    rw [if_neg]
    rintro ⟨h3, h4⟩
    exact h2 h3 h4
  · intro t
    simp only [Ring.init]
    by_cases h : c.async = true ∧ t = worker
    · rw [if_pos h]; trivial
    · rw [if_neg h]; trivial

end FNLog.Ring
