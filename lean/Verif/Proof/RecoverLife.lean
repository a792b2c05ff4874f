import Verif.Proof.RecoverMem

/-! # Histories with crashes -/

namespace FNLog.Ring
open FNLog

variable {α : Type}

/-- A history of an async or sync channel in shared memory: any timely steps, and crashes followed by
re-attachment; `past` collects the positions output in earlier sessions. -/
inductive Life (c : Cfg α) (f : List α → List α) : St α → List Nat → Prop where
  | start : Life c f (init c) []
  | step {s past e} : Life c f s past → timelyEv c s e → Life c f (step c s e) past
  | crash {s past} : Life c f s past → Life c f (recover c f s) (past ++ s.out.map Prod.fst)

theorem Life.run {c : Cfg α} {f : List α → List α} : ∀ {es : List (Ev α)} {s : St α} {past : List Nat},
    Life c f s past → Timely c s es → Life c f (run c s es) past := by
  intro es
  induction es with
  | nil => intro s past h _; exact h
  | cons e es ih => intro s past h ht; exact ih (h.step ht.1) ht.2

theorem Ord.le {c : Cfg α} {s : St α} (ho : Ord c s) : s.P ≤ s.R + 1 := by
  have := ho.pcw
  revert this
  cases s.pc Ring.worker <;> simp only [OrdPC] <;> intro h <;>
    first | omega | exact absurd h id

theorem Life.inv {c : Cfg α} (hL : 0 < c.L) (hA : c.async = true) {f : List α → List α} {s : St α}
    {past : List Nat} (h : Life c f s past) :
    Inv c s ∧ Ord c s ∧ (∀ k ∈ past, k ≤ s.R) ∧ ∀ k ∈ s.out.map Prod.fst, k < s.P := by
  have outLt : ∀ {s : St α}, Inv c s → ∀ k ∈ s.out.map Prod.fst, k < s.P :=
    fun hi k hk => ((hi.outMem k).1 hk).2.1
  induction h with
  | start =>
    refine ⟨Inv.init c hL, Ord.init c hA, ?_, ?_⟩ <;> intro k hk <;> cases hk
  | @step s past e h ht ih =>
    obtain ⟨h1, h2, h3, h4⟩ := ih
    refine ⟨h1.step ht, h2.step hA h1 e, ?_, outLt (h1.step ht)⟩
    intro k hk
    have := step_R_mono c s e
    have := h3 k hk
    omega
  | @crash s past h ih =>
    obtain ⟨h1, h2, h3, h4⟩ := ih
    refine ⟨h1.recover f (Or.inl hA), Ord.recover f s hA, ?_, ?_⟩
    · intro k hk
      show k ≤ s.R
      rcases List.mem_append.1 hk with hk | hk
      · exact h3 k hk
      · have := h4 k hk
        have := h2.le
        omega
    · intro k hk; cases hk

/-- The lines output are a segment of the acquired lines starting at `base`. -/
theorem out_segment {c : Cfg α} {s : St α} (hi : Inv c s) (ho : Ord c s) :
    s.out.map Prod.snd = ((s.acquired.map Prod.snd).drop s.base).take (outN s - s.base) := by
  have h1 := outLines hi
  rw [ho.out] at h1
  have hlen : s.out.length = outN s - s.base := by
    have := congrArg List.length ho.out; simpa using this
  apply List.ext_getElem?
  intro i
  have h2 := congrArg (fun l => l[i]?) h1
  simp only [List.getElem?_map, List.getElem?_take, List.getElem?_drop] at h2 ⊢
  by_cases hin : i < outN s - s.base
  · rw [if_pos hin]
    have h3 : (List.range' s.base (outN s - s.base))[i]? = some (s.base + i) := by simp [hin]
    rw [h3] at h2
    cases h4 : s.out[i]? with
    | none => rw [List.getElem?_eq_none_iff] at h4; omega
    | some e =>
      rw [h4] at h2
      simp only [Option.map_some, Option.some.injEq] at h2
      simp [h2]
  · rw [if_neg hin, List.getElem?_eq_none (by omega)]; rfl

/-- New log statements are appended to the acquired ones. -/
theorem acquired_mono (c : Cfg α) : ∀ (es : List (Ev α)) (s : St α),
    ∃ new, (run c s es).acquired = s.acquired ++ new := by
  intro es
  induction es with
  | nil => intro s; exact ⟨[], by simp [Ring.run]⟩
  | cons e es ih =>
    intro s
    have h : ∃ n1, (Ring.step c s e).acquired = s.acquired ++ n1 := by
      cases e with
      | run t =>
        simp only [Ring.step]; unfold stepT; split <;> (repeat' split) <;>
          first
          | exact ⟨_, rfl⟩
          | exact ⟨[], by simp⟩
      | call t b => unfold Ring.step; simp only; (repeat' split) <;> exact ⟨[], by simp⟩
      | started => unfold Ring.step; simp only; (repeat' split) <;> exact ⟨[], by simp⟩
      | closing => exact ⟨[], by simp [Ring.step]⟩
      | stop => unfold Ring.step; simp only; (repeat' split) <;> exact ⟨[], by simp⟩
    obtain ⟨n1, h1⟩ := h
    obtain ⟨n2, h2⟩ := ih (Ring.step c s e)
    exact ⟨n1 ++ n2, by rw [show run c s (e :: es) = run c (Ring.step c s e) es from rfl, h2, h1,
      List.append_assoc]⟩

/-- From any state with the invariants: stop after all log statements have returned drains the queue;
and the worker does finish. -/
theorem drains_from {c : Cfg α} (hA : c.async = true) {s : St α} (hi : Inv c s) (ho : Ord c s)
    (hn : NS c s) (hr : Resp c s) (hrun : s.state = .running)
    (hidle : ∀ t, t ≠ worker → s.pc t = .idle) (es' : List (Ev α)) :
    ((run c s (.stop :: es')).pc worker = .done →
      (run c s (.stop :: es')).out.map Prod.snd = (s.acquired.map Prod.snd).drop s.base) ∧
    (30 * c.L + 17 ≤ workerSteps es' → (run c s (.stop :: es')).pc worker = .done) := by
  have hd := Drain.enter hA hi ho hn hr hrun hidle
  have hi' : Inv c (Ring.step c s .stop) := hi.step trivial
  have ho' : Ord c (Ring.step c s .stop) := ho.step hA hi .stop
  obtain ⟨g1, g2, g3, g4, g5, g6⟩ := Drain.run hA (es := es') hi' ho' hd
  have e : run c s (.stop :: es') = run c (Ring.step c s .stop) es' := rfl
  have hacq : (Ring.step c s .stop).acquired = s.acquired := by
    unfold Ring.step; simp only [hA, if_true]; split <;> rfl
  have hb : (run c (Ring.step c s .stop) es').base = s.base := by
    rw [base_run]
    unfold Ring.step; simp only [hA, if_true]; split <;> rfl
  constructor
  · intro hdone
    rw [e] at hdone ⊢
    rw [out_segment g1 g2, hb, g5, hacq]
    apply List.take_of_length_le
    rw [List.length_drop, List.length_map]
    have hp := g3.pcw
    rw [hdone] at hp
    simp only at hp
    have hpc := g2.pcw
    rw [hdone] at hpc
    simp only [OrdPC] at hpc
    have hf := g3.full
    have hl := g1.len
    rw [g5, hacq] at hl
    unfold outN
    rw [hdone]
    simp only
    omega
  · intro hsteps
    rw [e]
    rcases g6 with h | h
    · exact h
    · exfalso
      have hrank : ∀ (d k : Nat) (p : PC α), drainRank d k p ≤ 17 := by
        intro d k p
        cases p <;> simp only [drainRank] <;> (try split) <;> omega
      have h5 := hrank ((Ring.step c s .stop).W - (Ring.step c s .stop).P)
        ((Ring.step c s .stop).P - (Ring.step c s .stop).R) ((Ring.step c s .stop).pc worker)
      have hne : drainMeasure (Ring.step c s .stop) ≤ 30 * c.L - 30 + 17 := by
        have h1 := hi'.leRP
        have h2 := hi'.lePW
        have h3 := hi'.leWH
        have h4 := hi'.cap
        unfold drainMeasure
        omega
      have hL : 0 < c.L := by
        have h1 := hi.leRP
        have h2 := hi.lePW
        have h3 := hi.leWH
        have h4 := hi.cap
        omega
      omega

end FNLog.Ring
