import Verif.Proof.Api
import Verif.Spec.ApiLog

/-! # Lemmas for C112: log statements beside the life cycle -/

namespace FNLog.Api
open FNLog.Ring (upd upd_same upd_ne)
open FNLog.Spec

theorem call_frame (s : St) (t : Nat) (c : Call) : (step s (.call t c)).state = s.state ∧ (step s (.call t c)).size = s.size ∧
    (step s (.call t c)).async = s.async ∧ (step s (.call t c)).chan = s.chan ∧ (step s (.call t c)).worker = s.worker ∧
    (step s (.call t c)).loaded = s.loaded := by
  simp only [step]
  split <;> exact ⟨rfl, rfl, rfl, rfl, rfl, rfl⟩

theorem Inv.unload {s : St} (h : Inv s) (b : Bool) : Inv { s with loaded := b } := by
  refine ⟨h.lock, fun t ht => ?_, h.outside, h.term, h.hist⟩
  have := h.here t ht
  show Here _ t (s.pc t)
  generalize s.pc t = p at this
  cases p <;> exact this

/-- What is known at a place of a statement that is made while no call of the life cycle is in progress. -/
def LogPc.Past (s : St) : LogPc → Prop
  | .idle | .shm _ => True
  | .state i => i < s.size
  | .run _ => False
  | .chan i | .hold i | .again i | .size i | .push i | .publish i | .kind i | .queue i | .tail i | .hot i =>
    i < s.size ∧ s.state = .running

theorem LogPc.Past.frame {s s' : St} {p : LogPc} (h : p.Past s) (h1 : s'.state = s.state) (h2 : s'.size = s.size) : p.Past s' := by
  cases p <;> simp_all [LogPc.Past]

structure ApartInv (s : LSt) : Prop where
  inv : Inv s.api
  past : ∀ t, (s.log t).Past s.api

theorem still_outside {s : St} (h : Inv s) (hs : ∀ t, s.pc t = .idle ∨ ∃ h, s.pc t = .hot h) : Outside s := by
  by_cases hz : ∀ t, (s.pc t).depth = 0
  · exact h.outside hz
  · obtain ⟨t, ht⟩ := Classical.not_forall.mp hz
    have hk := h.here t (by omega)
    rcases hs t with e | ⟨x, e⟩ <;> rw [e] at hk <;> exact hk

theorem ApartInv.goto {s : LSt} (h : ApartInv s) {a : St} {t : Nat} {p : LogPc} (ha : Inv a) (h1 : a.state = s.api.state)
    (h2 : a.size = s.api.size) (hp : p.Past a) : ApartInv ({ s with api := a }.goto t p) := by
  refine ⟨ha, fun u => ?_⟩
  show (upd s.log t p u).Past a
  by_cases hu : u = t
  · subst hu; rw [upd_same]; exact hp
  · rw [upd_ne _ _ hu]; exact (h.past u).frame h1 h2

theorem ApartInv.same {s : LSt} (h : ApartInv s) {t : Nat} {p : LogPc} (hp : p.Past s.api) : ApartInv (s.goto t p) :=
  h.goto (a := s.api) h.inv rfl rfl hp

theorem ApartInv.logT {s : LSt} (h : ApartInv s) (hs : Still s) (t : Nat) (e : LEnv) : ApartInv (logT s t e) := by
  have hp := h.past t
  unfold Api.logT
  cases hl : s.log t <;> rw [hl] at hp <;> dsimp only
  case idle => exact h
  case shm i =>
    refine h.same ?_
    split
    · rename_i hx
      simp only [Bool.and_eq_true, decide_eq_true_eq] at hx
      exact hx.2
    · trivial
  case state i =>
    refine h.same ?_
    split
    · rename_i hx; exact ⟨hp, hx⟩
    · trivial
  case queue i =>
    refine h.same ?_
    rcases still_outside h.inv hs.1 with k | k
    · rw [hp.2] at k; cases k.1
    · have hc : s.api.chan i = .running := by
        rcases k.2 i with k | k | k
        · exact k.2.2.1
        · exact k.2.2.1
        · have := k.1; have := hp.1; omega
      rw [if_neg (by rw [hc]; nofun)]
      exact hp
  case run i => exact hp.elim
  case tail i =>
    obtain ⟨f1, f2, _⟩ := call_frame s.api t .hot
    exact h.goto (h.inv.step _) f1 f2 (LogPc.Past.frame (p := .hot i) hp f1 f2)
  all_goals
    refine h.same ?_
    (repeat' split) <;> first | exact hp | trivial

theorem ApartInv.mark {s s' : LSt} {b : Bool} (h : ApartInv s') : ApartInv (s.mark b s') := ⟨h.inv, h.past⟩

theorem ApartInv.step {s : LSt} (h : ApartInv s) (hs : (∃ t, s.log t ≠ .idle) → Still s) (e : LEv) : ApartInv (lstep s e) := by
  have still : ∀ (a : St), Inv a → (∀ d b, ((∃ t, s.log t ≠ .idle) → a.state = s.api.state ∧ a.size = s.api.size) →
      ApartInv { s with api := a, dtor := d, freed := b }) := by
    intro a ha d b hf
    refine ⟨ha, fun t => ?_⟩
    show (s.log t).Past a
    by_cases hl : s.log t = .idle
    · rw [hl]; trivial
    · obtain ⟨f1, f2⟩ := hf ⟨t, hl⟩
      exact (h.past t).frame f1 f2
  cases e with
  | api e =>
    cases e with
    | call t c =>
      simp only [lstep]
      split
      · obtain ⟨f1, f2, _⟩ := call_frame s.api t c
        exact still _ (h.inv.step _) _ _ fun _ => ⟨f1, f2⟩
      · exact h
    | work i e =>
      have f := work_frame s.api i e
      exact (still _ (h.inv.step (.work i e)) _ _ fun _ => ⟨f.1, f.2.1⟩).mark
    | run t e =>
      refine ApartInv.mark (still _ (h.inv.step (.run t e)) _ _ fun hx => ?_)
      show (runT s.api t e).state = _ ∧ (runT s.api t e).size = _
      unfold runT
      rcases (hs hx).1 t with k | ⟨x, k⟩ <;> rw [k]
      · exact ⟨rfl, rfl⟩
      · have h2 := hotStep_pc s.api (.api t) e x
        exact ⟨h2.2.2.2.1, h2.2.2.2.2.1⟩
  | say t i =>
    simp only [lstep]
    split
    · exact h.same trivial
    · exact h
  | go t e =>
    simp only [lstep]
    by_cases hl : s.log t = .idle
    · rw [show Api.logT s t e = s by unfold Api.logT; rw [hl]]
      exact h.mark
    · exact (h.logT (hs ⟨t, hl⟩) t e).mark
  | destroy t =>
    simp only [lstep]
    split
    · exact ⟨h.inv, h.past⟩
    · exact h
  | dtor =>
    simp only [lstep, dtorStep]
    split
    · exact h
    · exact h
    · split
      · exact ⟨h.inv, h.past⟩
      · obtain ⟨f1, f2, _⟩ := call_frame s.api (by assumption) .stop
        exact still _ (h.inv.step _) _ _ fun _ => ⟨f1, f2⟩
    · split
      · exact ⟨h.inv, h.past⟩
      · exact h
    · exact still _ (h.inv.unload false) _ _ fun _ => ⟨rfl, rfl⟩

theorem lrun_append (s : LSt) (a b : List LEv) : lrun s (a ++ b) = lrun (lrun s a) b := List.foldl_append

theorem apart_inv {es : List LEv} (h : Apart es) : ApartInv (lrun {} es) := by
  have key : ∀ (n : Nat) (es : List LEv), es.length = n → Apart es → ApartInv (lrun {} es) := by
    intro n
    induction n with
    | zero =>
      intro es hn _
      rw [List.eq_nil_of_length_eq_zero hn]
      exact ⟨Inv.init, fun _ => trivial⟩
    | succ n ih =>
      intro es hn h
      obtain ⟨init, last, rfl⟩ : ∃ i l, es = i ++ [l] := by
        have hne : es ≠ [] := by intro e; rw [e] at hn; cases hn
        exact ⟨es.dropLast, es.getLast hne, (List.dropLast_concat_getLast hne).symm⟩
      rw [lrun_append]
      refine ApartInv.step (ih init (by simpa using hn) ?_) (fun hx => h init [last] rfl hx) last
      intro es1 es2 he hx
      exact h es1 (es2 ++ [last]) (by rw [he, List.append_assoc]) hx
  exact key _ es rfl h

end FNLog.Api
