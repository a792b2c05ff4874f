import Verif.Proof.Shut
import Verif.Props.Threads

/-! # From the log statements to the closed files of an async channel -/

namespace FNLog
open Spec Ring

theorem onTime_join {S : Setup} : ∀ {es es' : List Act} {s s' : Crew}, OnTime S es s → acts S es s = some s' → OnTime S es' s' →
    OnTime S (es ++ es') s := by
  intro es
  induction es with
  | nil => intro es' s s' _ hs h; obtain rfl := Option.some.inj hs; exact h
  | cons e es ih =>
    intro es' s s' h hs h'
    refine ⟨h.1, fun s1 h1 => ?_⟩
    simp only [acts, Option.bind_eq_bind, h1, Option.bind_some] at hs
    exact ih (h.2 s1 h1) hs h'

theorem fOnTime_append {S : Setup} {B : Stdio} : ∀ {es es' : List Act} {f : FCrew},
    FOnTime S B (es ++ es') f → FOnTime S B es f ∧ ∀ f', fActs S B es f = some f' → FOnTime S B es' f' := by
  intro es
  induction es with
  | nil => intro es' f h; exact ⟨trivial, fun f' hf => by obtain rfl := Option.some.inj hf; exact h⟩
  | cons e es ih =>
    intro es' f h
    refine ⟨⟨h.1, fun f' hf => (ih (h.2 f' hf)).1⟩, fun f' hf => ?_⟩
    simp only [fActs, Option.bind_eq_bind] at hf
    cases h1 : fAct S B f e with
    | none => rw [h1] at hf; exact absurd hf (by simp)
    | some f1 =>
      rw [h1] at hf
      exact (ih (h.2 f1 h1)).2 f' hf

theorem fActs_append {S : Setup} {B : Stdio} : ∀ (es es' : List Act) (f : FCrew),
    fActs S B (es ++ es') f = (fActs S B es f).bind (fActs S B es') := by
  intro es
  induction es with
  | nil => intro es' f; rfl
  | cons e es ih =>
    intro es' f
    simp only [List.cons_append, fActs, Option.bind_eq_bind]
    cases fAct S B f e with
    | none => rfl
    | some f1 => exact ih es' f1

/-- The statements of an async channel that is then stopped, the end of its thread, and the closing of its files. -/
theorem async_flushed {S : Setup} (hS : Ready S) (hA : S.cfg.async = true) (hap : FilesApart S.fenv S.channel.id S.channel.devices)
    {o : OutSt} (ho : Spec.Own S.fenv S.channel.id S.channel.devices o)
    (hex : ∀ (j : Nat) (d : Device) (p : List Char), S.channel.devices[j]? = some d → d.outType = .file →
      (o.dev j).handle = some p → o.fs p ≠ none)
    (B : Stdio) {es es' : List Act} (he : ∀ e ∈ es ++ .stop :: es', SoundAct S e)
    (ht : FOnTime S B (es ++ .stop :: es') (fCrew S o)) (hn : ∀ e ∈ es, e.noStop)
    {f f' : FCrew} (hf : fActs S B es (fCrew S o) = some f) (hrun : f.crew.ring.state = .running)
    (hidle : ∀ t, t ≠ worker → f.crew.ring.pc t = .idle)
    (hf' : fActs S B (es ++ .stop :: es') (fCrew S o) = some f') (hdone : f'.crew.ring.pc worker = .done)
    (hl : f'.crew.ring.lgRunning = false) (hst : f'.crew.ring.state ≠ .running)
    (es'' : List FEv) (hJ : ∀ j, .shut j ∈ es'' → ∃ d, S.channel.devices[j]? = some d ∧ d.outType = .file) :
    ∃ (recs : List (Nat × Head × List Char)) (s' : Crew) (f'' : FCrew),
      (∀ t, Logged S (linesOf t f.crew.made) (linesOf t recs)) ∧
      FilesAfter S o s' (fun _ => recs.map Prod.snd) ∧ fEvents S B es'' f' = some f'' ∧
      (∀ (j : Nat) (d : Device) (p : List Char), S.channel.devices[j]? = some d → d.outType = .file →
        FilesOf S.fenv S.channel.id d p → bytesOf f''.crew.out.fs p = bytesOf s'.out.fs p) ∧
      ∀ j, .shut j ∈ es'' → (f''.crew.out.dev j).handle = none := by
  have hG : Guarded S := Or.inl hA
  obtain ⟨ht1, ht2⟩ := fOnTime_append ht
  obtain ⟨f0, rs, s, a1, a2, _, a4, a5, a6⟩ := (FInv.init B hS ho hex).acts hS hap (Or.inl hG) (fun e h => he e (by simp [h])) ht1
  rw [hf] at a1
  obtain rfl := Option.some.inj a1
  have ht2 := ht2 f hf
  obtain ⟨f1, b1, b2⟩ := a6.act hS hap (Or.inl hG) (e := .stop) trivial ht2.1
  rcases b2 with ⟨_, e, _⟩ | ⟨b3, s1, b4, b5⟩
  · cases e
  obtain ⟨f2, rs', s', c1, c2, _, c4, c5, c6⟩ := b5.acts hS hap (Or.inl hG) (fun e h => he e (by simp [h])) (ht2.2 f1 b1)
  have e2 : fActs S B (es ++ .stop :: es') (fCrew S o) = some f2 := by
    rw [fActs_append, hf]
    show (fAct S B f .stop).bind _ = _
    rw [b1]; exact c1
  rw [hf'] at e2
  obtain rfl := Option.some.inj e2
  have hr : f.crew.ring = s.ring := by rw [a6.rel.crew_eq]
  have hr' : f'.crew.ring = s'.ring := by rw [c6.rel.crew_eq]
  have hs' : acts S (rs ++ .stop :: rs') (crew S o) = some s' := by
    rw [acts_append, a5]
    simp only [Option.bind_some, acts, Option.bind_eq_bind, b4, c5]
  have hot : OnTime S (rs ++ .stop :: rs') (crew S o) := by
    refine onTime_join a4 a5 ⟨b3, fun s2 h2 => ?_⟩
    rw [b4] at h2
    obtain rfl := Option.some.inj h2
    exact c4
  have hsound : ∀ e ∈ rs ++ .stop :: rs', SoundAct S e := by
    intro e h
    rcases List.mem_append.mp h with h | h
    · exact he e (List.mem_append.mpr (Or.inl (a2.subset h)))
    · rcases List.mem_cons.mp h with rfl | h
      · trivial
      · exact he e (List.mem_append.mpr (Or.inr (List.mem_cons_of_mem _ (c2.subset h))))
  obtain ⟨recs, d1, d2, _, _, _⟩ := C72_async_complete_partial hS hA hap ho hsound hot (fun e h => hn e (a2.subset h)) a5
    (by rw [← hr]; exact hrun) (fun t h => by rw [← hr]; exact hidle t h) hs' (by rw [← hr']; exact hdone)
  obtain ⟨f'', g1, _, g3, _, g5⟩ := c6.shut hl hst (Or.inl ⟨hA, hdone⟩) es'' hJ
  refine ⟨recs, s', f'', fun t => ?_, d2, g1, g3, g5⟩
  rw [a6.rel.crew_eq]
  exact d1 t

end FNLog
