import Verif.Model.Ring

/-! # The worker thread of an async channel ends only when told to -/

namespace FNLog.Ring

variable {α : Type}

/-- Not on the way out. -/
def Stays (p : PC α) : Prop :=
  p ≠ .cLoopW ∧ (∀ w, p ≠ .cLoopR w) ∧ p ≠ .cFin ∧ p ≠ .done

/-- What holds as long as nobody stops an async channel. -/
def NoStop (s : St α) : Prop :=
  (s.state = .null ∨ s.state = .running) ∧ (∀ t, Stays (s.pc t)) ∧ ∀ t, s.pc t = .cLoop → s.state = .running

theorem noStop_init (c : Cfg α) (hc : c.async = true) : NoStop (init c) := by
  refine ⟨Or.inl (by simp [init, hc]), fun t => ?_, fun t ht => ?_⟩
  · unfold init
    simp only
    split <;> exact ⟨by nofun, by nofun, by nofun, by nofun⟩
  · unfold init at ht
    simp only at ht
    split at ht <;> exact absurd ht (by nofun)

theorem noStop_go {s : St α} {t : Nat} {p : PC α} (h : NoStop s) (hp : Stays p) (hl : p = .cLoop → s.state = .running) :
    NoStop (s.go t p) := by
  refine ⟨h.1, fun u => ?_, fun u hu => ?_⟩
  · unfold St.go
    simp only
    split
    · exact hp
    · exact h.2.1 u
  · unfold St.go at hu
    simp only at hu
    split at hu
    · exact hl hu
    · exact h.2.2 u hu

theorem noStop_stepT (c : Cfg α) (hc : c.async = true) (s : St α) (t : Nat) (h : NoStop s) : NoStop (stepT c s t) := by
  have hst : ∀ p : PC α, Stays p ↔ (p ≠ .cLoopW ∧ (∀ w, p ≠ .cLoopR w) ∧ p ≠ .cFin ∧ p ≠ .done) := fun _ => Iff.rfl
  have ht := h.2.1 t
  have hl := h.2.2 t
  have other : ∀ s' : St α, s'.state = s.state → s'.pc = s.pc → NoStop s' := by
    intro s' h1 h2
    unfold NoStop
    rw [h1, h2]
    exact h
  unfold stepT
  cases hp : s.pc t with
  | cLoopW => rw [hp] at ht; exact absurd rfl ht.1
  | cLoopR w => rw [hp] at ht; exact absurd rfl (ht.2.1 w)
  | cFin => rw [hp] at ht; exact absurd rfl ht.2.2.1
  | done => rw [hp] at ht; exact absurd rfl ht.2.2.2
  | cLoop =>
    simp only
    rw [if_neg (by rw [hc]; simp), if_pos (hl hp)]
    exact noStop_go h ⟨by nofun, by nofun, by nofun, by nofun⟩ (by nofun)
  | cEnd =>
    simp only
    split
    · exact noStop_go h ⟨by nofun, by nofun, by nofun, by nofun⟩ (by nofun)
    · rename_i hn
      exact noStop_go h ⟨by nofun, by nofun, by nofun, by nofun⟩ (fun _ => h.1.resolve_left hn)
  | cSet =>
    have h' : NoStop { s with state := .running } := ⟨Or.inr rfl, h.2.1, fun _ _ => rfl⟩
    exact noStop_go h' ⟨by nofun, by nofun, by nofun, by nofun⟩ (fun _ => rfl)
  | fill k rest =>
    cases rest <;> exact noStop_go (other _ rfl rfl) ⟨by nofun, by nofun, by nofun, by nofun⟩ (by nofun)
  | idle => exact h
  | _ =>
    simp only
    repeat' split
    all_goals exact noStop_go (other _ rfl rfl) ⟨by nofun, by nofun, by nofun, by nofun⟩ (by nofun)

theorem noStop_step (c : Cfg α) (hc : c.async = true) (s : St α) (e : Ev α) (h : NoStop s) (he : e ≠ .stop) :
    NoStop (step c s e) := by
  cases e with
  | call t body =>
    unfold step
    simp only
    split
    · split
      · exact noStop_go (s := { s with calls := s.calls ++ [(t, body)] }) h ⟨by nofun, by nofun, by nofun, by nofun⟩ (by nofun)
      · exact h
    · exact h
  | run t => exact noStop_stepT c hc s t h
  | started =>
    unfold step
    simp only
    split <;> exact h
  | closing => exact h
  | stop => exact absurd rfl he

theorem noStop_run (c : Cfg α) (hc : c.async = true) : ∀ (evs : List (Ev α)) (s : St α), NoStop s → Ev.stop ∉ evs →
    NoStop (run c s evs)
  | [], _, h, _ => h
  | e :: es, s, h, he => by
    simp only [List.mem_cons, not_or] at he
    exact noStop_run c hc es _ (noStop_step c hc s e h (fun h => he.1 h.symm)) he.2

end FNLog.Ring
