import Verif.Proof.LateSim
import Verif.Spec.Share

/-! # Lemmas for C115: two processes with the same `shm_key` -/

namespace FNLog.Api
open FNLog.Ring (upd upd_same upd_ne)
open FNLog.Spec

/-! ## The history is a ghost -/

def St.told (s : St) (d : List Done) : St := { s with done := d }
def LSt.told (s : LSt) (d : List Done) : LSt := { s with api := s.api.told d }

theorem hotStep_told (s : St) (d : List Done) (w : Who) (e : Env) (h : Hot) :
    hotStep (s.told d) w e h = ((hotStep s w e h).1, (hotStep s w e h).2.told d) := by
  cases h <;> simp only [hotStep, St.told] <;> (repeat' split) <;> first | rfl | simp_all

theorem runT_told (s : St) (d : List Done) (t : Nat) (e : Env) : ∃ d', runT (s.told d) t e = (runT s t e).told d' := by
  have hl : ∀ p, locked (s.told d) t p = (locked s t p).told d := by
    intro p
    unfold locked
    show (match take s.lock (.api t) with | some l => _ | none => _) = _
    cases take s.lock (.api t) <;> rfl
  unfold runT
  rw [show (s.told d).pc t = s.pc t from rfl]
  cases s.pc t <;> dsimp only
  case hot h => exact ⟨d, by rw [hotStep_told]; rfl⟩
  case stLock => exact ⟨d, hl _⟩
  case spLock => exact ⟨d, hl _⟩
  case inLock => exact ⟨d, hl _⟩
  case whLock => exact ⟨d, hl _⟩
  case stChan o i =>
    by_cases hi : i < s.size
    · rw [if_pos (show i < (s.told d).size from hi), if_pos hi]
      by_cases ha : s.async i = true
      · rw [if_pos (show (s.told d).async i = true from ha), if_pos ha]; exact ⟨d, rfl⟩
      · rw [if_neg (show ¬ (s.told d).async i = true from ha), if_neg ha]; exact ⟨d, rfl⟩
    · rw [if_neg (show ¬ i < (s.told d).size from hi), if_neg hi]; exact ⟨d, rfl⟩
  case scChan o i =>
    by_cases hi : i < s.size
    · rw [if_pos (show i < (s.told d).size from hi), if_pos hi]
      by_cases ha : s.async i = true
      · rw [if_pos (show (s.told d).async i = true from ha), if_pos ha]; exact ⟨d, rfl⟩
      · rw [if_neg (show ¬ (s.told d).async i = true from ha), if_neg ha]; exact ⟨d, rfl⟩
    · rw [if_neg (show ¬ i < (s.told d).size from hi), if_neg hi]; exact ⟨d, rfl⟩
  case scJoin u i =>
    by_cases hw : s.worker i = .ended
    · rw [if_pos (show (s.told d).worker i = .ended from hw), if_pos hw]; exact ⟨d, rfl⟩
    · rw [if_neg (show ¬ (s.told d).worker i = .ended from hw), if_neg hw]; exact ⟨d, rfl⟩
  case inState o x => cases x <;> exact ⟨d, rfl⟩
  case inLoad o x =>
    by_cases hx : (s.loaded || x.shm) = true
    · rw [if_pos (show ((s.told d).loaded || x.shm) = true from hx), if_pos hx]; exact ⟨_, rfl⟩
    · rw [if_neg (show ¬ ((s.told d).loaded || x.shm) = true from hx), if_neg hx]; exact ⟨d, rfl⟩
  all_goals exact ⟨_, rfl⟩

theorem step_told (s : St) (d : List Done) (e : Ev) : ∃ d', step (s.told d) e = (step s e).told d' := by
  cases e with
  | call t c =>
    refine ⟨d, ?_⟩
    simp only [step]
    rw [show (s.told d).pc t = s.pc t from rfl]
    cases s.pc t <;> rfl
  | run t e => exact runT_told s d t e
  | work i e =>
    refine ⟨d, ?_⟩
    simp only [step]
    unfold workI
    rw [show (s.told d).worker i = s.worker i from rfl]
    cases s.worker i <;> dsimp only
    case hot h => rw [hotStep_told]; rfl
    all_goals rfl

theorem lstep_told (s : LSt) (d : List Done) (e : LEv) : ∃ d', lstep (s.told d) e = (lstep s e).told d' := by
  cases e with
  | api e =>
    cases e with
    | call t c =>
      simp only [lstep]
      rw [show (s.told d).free t = s.free t from rfl]
      split
      · obtain ⟨d', h⟩ := step_told s.api d (.call t c)
        exact ⟨d', congrArg (fun a => ({ s with api := a } : LSt)) h⟩
      · exact ⟨d, rfl⟩
    | run t e =>
      obtain ⟨d', h⟩ := step_told s.api d (.run t e)
      exact ⟨d', congrArg (fun a => s.mark (s.log t).uses { s with api := a }) h⟩
    | work i e =>
      obtain ⟨d', h⟩ := step_told s.api d (.work i e)
      exact ⟨d', congrArg (fun a => s.mark (s.api.worker i).uses { s with api := a }) h⟩
  | say t i =>
    refine ⟨d, ?_⟩
    simp only [lstep]
    rw [show (s.told d).free t = s.free t from rfl]
    split <;> rfl
  | go t e =>
    simp only [lstep]
    have : ∃ d', logT (s.told d) t e = (logT s t e).told d' := by
      unfold logT
      rw [show (s.told d).log t = s.log t from rfl]
      cases s.log t <;> dsimp only
      case tail i =>
        obtain ⟨d', h⟩ := step_told s.api d (.call t .hot)
        exact ⟨d', congrArg (fun a => ({ s with api := a } : LSt).goto t (.hot i)) h⟩
      all_goals exact ⟨d, rfl⟩
    obtain ⟨d', h⟩ := this
    exact ⟨d', congrArg (s.mark (s.log t).uses) h⟩
  | destroy t =>
    refine ⟨d, ?_⟩
    simp only [lstep]
    rw [show (s.told d).free t = s.free t from rfl, show (s.told d).dtor = s.dtor from rfl]
    split <;> rfl
  | dtor =>
    simp only [lstep, dtorStep]
    rw [show (s.told d).dtor = s.dtor from rfl]
    cases s.dtor <;> dsimp only
    case check t =>
      rw [show (s.told d).api.state = s.api.state from rfl]
      split
      · exact ⟨d, rfl⟩
      · obtain ⟨d', h⟩ := step_told s.api d (.call t .stop)
        exact ⟨d', congrArg (fun a => ({ s with api := a, dtor := .stop t } : LSt)) h⟩
    case stop t =>
      rw [show (s.told d).api.pc t = s.api.pc t from rfl]
      cases s.api.pc t <;> exact ⟨d, rfl⟩
    all_goals exact ⟨d, rfl⟩

/-! ## Attached for ever -/

theorem runT_loaded (s : St) (t : Nat) (e : Env) (h : s.loaded = true) : (runT s t e).loaded = true := by
  have hl : ∀ p, (locked s t p).loaded = true := by
    intro p
    unfold locked
    cases take s.lock (.api t) <;> exact h
  unfold runT
  cases s.pc t <;> dsimp only
  case hot x => exact (hotStep_pc s (.api t) e x).2.2.2.2.2.2.2.2.trans h
  case stLock => exact hl _
  case spLock => exact hl _
  case inLock => exact hl _
  case whLock => exact hl _
  all_goals (repeat' split) <;> first | exact h | rfl

theorem lstep_loaded {s : LSt} (hd : ∀ u, s.dtor ≠ .unload u) (h : s.api.loaded = true) (e : LEv) : (lstep s e).api.loaded = true := by
  cases e with
  | api e =>
    cases e with
    | call t c =>
      simp only [lstep]
      split
      · exact (call_frame s.api t c).2.2.2.2.2.trans h
      · exact h
    | run t e => exact runT_loaded s.api t e h
    | work i e => exact (kinds_work s.api i e).trans h
  | say t i => simp only [lstep]; split <;> exact h
  | go t e =>
    show (logT s t e).api.loaded = true
    unfold logT
    cases s.log t <;> dsimp only
    case tail i => exact (call_frame s.api t .hot).2.2.2.2.2.trans h
    all_goals exact h
  | destroy t => simp only [lstep]; split <;> exact h
  | dtor =>
    simp only [lstep, dtorStep]
    cases hs : s.dtor <;> dsimp only
    case check u =>
      split
      · exact h
      · exact (call_frame s.api u .stop).2.2.2.2.2.trans h
    case stop u => cases s.api.pc u <;> exact h
    case unload u => exact absurd hs (hd u)
    all_goals exact h

theorem lstep_dtor {s : LSt} (hd : s.dtor = .no) {e : LEv} (he : ∀ t, e ≠ .destroy t) : (lstep s e).dtor = .no := by
  cases e with
  | api e =>
    cases e with
    | call t c => simp only [lstep]; split <;> exact hd
    | run t e => exact hd
    | work i e => exact hd
  | say t i => simp only [lstep]; split <;> exact hd
  | go t e =>
    show (logT s t e).dtor = .no
    unfold logT
    cases s.log t <;> exact hd
  | destroy t => exact absurd rfl (he t)
  | dtor => simp only [lstep, dtorStep, hd]

/-! ## Turns -/

/-- A process that rests and has no threads. -/
structure Away (s : LSt) : Prop where
  rests : Rests s
  lock : ∀ w, holds s.api.lock w = 0
  worker : ∀ i, s.api.worker i = .none
  term : s.api.terminate = false

/-- It is the turn of `p`. -/
structure Turn (s : Two) (p : Bool) : Prop where
  fit : ∃ d, ApartInv ((s p).told d)
  dtor : ∀ q, (s q).dtor = .no
  away : Away (s (!p))
  link : ((s p).api.loaded = true ∧ (s (!p)).api.loaded = true ∧ (s (!p)).api.chan = (s p).api.chan) ∨
    ∀ j, (s (!p)).api.chan j = .null

theorem not_ne (p : Bool) : (!p) ≠ p := by cases p <;> nofun

theorem Turn.step {s : Two} {p : Bool} (h : Turn s p) {e : LEv}
    (hs : (∃ t, (s p).log t ≠ .idle) → Still (s p)) (he : ∀ t, e ≠ .destroy t) : Turn (tstep s (p, e)) p := by
  have e1 : tstep s (p, e) p = lstep (s p) e := if_pos rfl
  have e2 : tstep s (p, e) (!p) = seen (lstep (s p) e) (s (!p)) := if_neg (not_ne p)
  obtain ⟨d, hf⟩ := h.fit
  have hsd : ∀ a b : LSt, (seen a b).dtor = b.dtor := fun a b => by unfold seen; split <;> rfl
  refine ⟨?_, fun q => ?_, ?_, ?_⟩
  · rw [e1]
    obtain ⟨d', hd'⟩ := lstep_told (s p) d e
    exact ⟨d', hd' ▸ hf.step (fun hx => hs hx) e⟩
  · by_cases hq : q = p
    · subst hq; rw [e1]; exact lstep_dtor (h.dtor q) he
    · have : q = !p := by cases p <;> cases q <;> first | rfl | exact absurd rfl hq
      subst this
      rw [e2, hsd]; exact h.dtor _
  · rw [e2]
    obtain ⟨⟨h1, h2, h3⟩, h4, h5, h6⟩ := h.away
    unfold seen
    split <;> exact ⟨⟨h1, h2, h3⟩, h4, h5, h6⟩
  · rw [e1, e2]
    unfold seen
    split
    · rename_i hb
      rw [Bool.and_eq_true] at hb
      exact .inl ⟨hb.1, hb.2, rfl⟩
    · rename_i hb
      rcases h.link with ⟨k1, k2, _⟩ | k
      · exact absurd (by rw [lstep_loaded (by rw [h.dtor p]; nofun) k1 e, k2]; rfl) hb
      · exact .inr k

theorem Turn.pass {s : Two} {p : Bool} (h : Turn s p) (hr : Rests (s p)) : Turn s (!p) := by
  obtain ⟨d, hf⟩ := h.fit
  have hout : Outside ((s p).told d).api := hf.inv.outside fun t => by
    show ((s p).api.pc t).depth = 0
    rw [hr.2.1 t]; rfl
  have hoff : ∀ j, (s p).api.chan j = .null ∧ (s p).api.worker j = .none := by
    rcases hout with k | k
    · exact k.2
    · exact absurd (k.1.symm.trans hr.1) nofun
  have hnn : (!!p) = p := Bool.not_not p
  obtain ⟨⟨h1, h2, h3⟩, h4, h5, h6⟩ := h.away
  have hnull : ∀ j, (s (!p)).api.chan j = .null := by
    rcases h.link with k | k
    · intro j; rw [k.2.2]; exact (hoff j).1
    · exact k
  refine ⟨⟨[.loaded 0], ⟨⟨?_, ?_, ?_, h6, ?_⟩, ?_⟩⟩, h.dtor, ?_, ?_⟩
  · intro w
    refine (h4 w).trans ?_
    cases w with
    | api t => show 0 = ((s (!p)).api.pc t).depth; rw [h2 t]; rfl
    | worker i => show 0 = ((s (!p)).api.worker i).depth; rw [h5 i]; rfl
  · intro t ht
    have ht : 0 < ((s (!p)).api.pc t).depth := ht
    rw [h2 t] at ht
    cases ht
  · exact fun _ => .inl ⟨h1, fun j => ⟨hnull j, h5 j⟩⟩
  · refine ⟨.stopped, .snoc (.nil _) (.load 0), ?_⟩
    rw [show ((s (!p)).told [.loaded 0]).api.state = (s (!p)).api.state from rfl, h1]
    exact ⟨nofun, nofun⟩
  · intro t
    show ((s (!p)).log t).Past _
    rw [h3 t]; trivial
  · rw [hnn]
    refine ⟨hr, fun w => ?_, fun i => (hoff i).2, hf.inv.term⟩
    refine (hf.inv.lock w).trans ?_
    cases w with
    | api t => show ((s p).api.pc t).depth = 0; rw [hr.2.1 t]; rfl
    | worker i => show ((s p).api.worker i).depth = 0; rw [(hoff i).2]; rfl
  · rw [hnn]
    exact .inr fun j => (hoff j).1

theorem trun_append (s : Two) (a b : List (Bool × LEv)) : trun s (a ++ b) = trun (trun s a) b := List.foldl_append

theorem turns {es : List (Bool × LEv)} (h : Turns es) : ∃ p, Turn (trun (fun _ => {}) es) p := by
  have key : ∀ (n : Nat) (es : List (Bool × LEv)), es.length = n → Turns es → ∃ p, Turn (trun (fun _ => {}) es) p := by
    intro n
    induction n with
    | zero =>
      intro es hn _
      rw [List.eq_nil_of_length_eq_zero hn]
      refine ⟨true, ⟨[], Inv.init, fun _ => trivial⟩, fun _ => rfl, ⟨⟨rfl, fun _ => rfl, fun _ => rfl⟩, fun _ => rfl, fun _ => rfl, rfl⟩,
        .inr fun _ => rfl⟩
    | succ n ih =>
      intro es hn h
      obtain ⟨init, last, rfl⟩ : ∃ i l, es = i ++ [l] := by
        have hne : es ≠ [] := by intro e; rw [e] at hn; cases hn
        exact ⟨es.dropLast, es.getLast hne, (List.dropLast_concat_getLast hne).symm⟩
      obtain ⟨q, e⟩ := last
      obtain ⟨h1, h2, h3⟩ := h init q e [] rfl
      obtain ⟨p, hp⟩ := ih init (by simpa using hn) (by
        intro es1 p' e' es2 he
        exact h es1 p' e' (es2 ++ [(q, e)]) (by rw [he, List.append_assoc]; rfl))
      have hq : Turn (trun (fun _ => {}) init) q := by
        by_cases hpq : p = q
        · exact hpq ▸ hp
        · have : q = !p := by cases p <;> cases q <;> first | rfl | exact absurd rfl hpq
          subst this
          rw [Bool.not_not] at h1
          exact hp.pass h1
      refine ⟨q, ?_⟩
      rw [trun_append]
      exact hq.step h2 h3
  exact key _ es rfl h

/-! ## A process that is not started -/

/-- A statement that has not got past the check of `logger_state_`. -/
def Fore : LogPc → Prop
  | .idle | .shm _ | .state _ => True
  | _ => False

/-- The logger of the process is not running, nobody is inside of a call, and it has no threads. -/
structure Down (s : LSt) : Prop where
  dtor : s.dtor = .no
  state : s.api.state ≠ .running
  pc : ∀ t, s.api.pc t = .idle
  worker : ∀ i, s.api.worker i = .none
  log : ∀ t, Fore (s.log t)

/-- Nobody is inside of a call, no channel is in the state RUNNING, the threads have ended and no statement has been let in. -/
structure Mute (s : LSt) : Prop where
  dtor : s.dtor = .no
  chan : ∀ i, s.api.chan i ≠ .running
  pc : ∀ t, s.api.pc t = .idle
  worker : ∀ i, s.api.worker i = .none ∨ s.api.worker i = .ended
  log : ∀ t, Outer (s.log t)

theorem Down.step {s : LSt} (h : Down s) {e : LEv} (he : NoCall e) : (lstep s e).api = s.api ∧ Down (lstep s e) := by
  have goto : ∀ t p, Fore p → Down (s.goto t p) := by
    intro t p hp
    refine ⟨h.dtor, h.state, h.pc, h.worker, fun u => ?_⟩
    by_cases hu : u = t
    · subst hu
      rw [show (s.goto u p).log u = p from upd_same _ _ _]; exact hp
    · rw [show (s.goto t p).log u = s.log u from upd_ne _ _ hu]; exact h.log u
  have mark : ∀ b s', s'.api = s.api ∧ Down s' → (s.mark b s').api = s.api ∧ Down (s.mark b s') :=
    fun b s' k => ⟨k.1, k.2.dtor, k.2.state, k.2.pc, k.2.worker, k.2.log⟩
  cases e with
  | api e =>
    cases e with
    | call t c => exact he.elim
    | run t e =>
      have : runT s.api t e = s.api := by unfold runT; rw [h.pc t]
      exact mark _ { s with api := runT s.api t e } (by rw [this]; exact ⟨rfl, h⟩)
    | work i e =>
      have : workI s.api i e = s.api := by unfold workI; rw [h.worker i]
      exact mark _ { s with api := workI s.api i e } (by rw [this]; exact ⟨rfl, h⟩)
  | say t i =>
    simp only [lstep]
    split
    · exact ⟨rfl, goto t _ trivial⟩
    · exact ⟨rfl, h⟩
  | go t e =>
    refine mark _ _ ?_
    have hl := h.log t
    unfold logT
    cases hp : s.log t <;> rw [hp] at hl <;> dsimp only
    case idle => exact ⟨rfl, h⟩
    case shm i =>
      refine ⟨rfl, ?_⟩
      by_cases hx : (s.api.loaded && decide (i < s.api.size)) = true
      · rw [if_pos hx]; exact goto t _ trivial
      · rw [if_neg hx]; exact goto t _ trivial
    case state i =>
      rw [if_neg h.state]
      exact ⟨rfl, goto t _ trivial⟩
    all_goals exact hl.elim
  | destroy t => exact he.elim
  | dtor =>
    have : lstep s .dtor = s := by simp only [lstep, dtorStep, h.dtor]
    rw [this]; exact ⟨rfl, h⟩

theorem Mute.step {s : LSt} (h : Mute s) {e : LEv} (he : NoCall e) : (lstep s e).api = s.api ∧ Mute (lstep s e) := by
  have goto : ∀ t p, Outer p → Mute (s.goto t p) := by
    intro t p hp
    refine ⟨h.dtor, h.chan, h.pc, h.worker, fun u => ?_⟩
    by_cases hu : u = t
    · subst hu
      rw [show (s.goto u p).log u = p from upd_same _ _ _]; exact hp
    · rw [show (s.goto t p).log u = s.log u from upd_ne _ _ hu]; exact h.log u
  have mark : ∀ b s', s'.api = s.api ∧ Mute s' → (s.mark b s').api = s.api ∧ Mute (s.mark b s') :=
    fun b s' k => ⟨k.1, k.2.dtor, k.2.chan, k.2.pc, k.2.worker, k.2.log⟩
  cases e with
  | api e =>
    cases e with
    | call t c => exact he.elim
    | run t e =>
      have : runT s.api t e = s.api := by unfold runT; rw [h.pc t]
      exact mark _ { s with api := runT s.api t e } (by rw [this]; exact ⟨rfl, h⟩)
    | work i e =>
      have : workI s.api i e = s.api := by
        unfold workI
        rcases h.worker i with k | k <;> rw [k]
      exact mark _ { s with api := workI s.api i e } (by rw [this]; exact ⟨rfl, h⟩)
  | say t i =>
    simp only [lstep]
    split
    · exact ⟨rfl, goto t _ trivial⟩
    · exact ⟨rfl, h⟩
  | go t e =>
    refine mark _ _ ?_
    have hl := h.log t
    unfold logT
    cases hp : s.log t <;> rw [hp] at hl <;> dsimp only
    case idle => exact ⟨rfl, h⟩
    case shm i =>
      refine ⟨rfl, goto t _ ?_⟩
      split <;> trivial
    case state i =>
      refine ⟨rfl, goto t _ ?_⟩
      split <;> trivial
    case chan i =>
      refine ⟨rfl, goto t _ ?_⟩
      rw [if_neg (by simp [h.chan i])]
      trivial
    all_goals exact hl.elim
  | destroy t => exact he.elim
  | dtor =>
    have : lstep s .dtor = s := by simp only [lstep, dtorStep, h.dtor]
    rw [this]; exact ⟨rfl, h⟩

theorem tstep_self (s : Two) (p : Bool) (e : LEv) : tstep s (p, e) p = lstep (s p) e := if_pos rfl
theorem tstep_other (s : Two) (p : Bool) (e : LEv) : tstep s (p, e) (!p) = seen (lstep (s p) e) (s (!p)) := if_neg (not_ne p)

/-- `p` runs and has lost its threads; the other process is not started. -/
structure Lost (s : Two) : Prop where
  one : Mute (s false)
  two : Down (s true)
  quiet : ∀ i, (s true).api.chan i ≠ .running
  state : (s false).api.state = .running
  worker : ∀ i, (s false).api.worker i = .none ∨ (s false).api.worker i = .ended

theorem Lost.step {s : Two} (h : Lost s) {x : Bool × LEv} (hx : NoCall x.2) : Lost (tstep s x) := by
  obtain ⟨p, e⟩ := x
  cases p
  · obtain ⟨k1, k2⟩ := h.one.step hx
    have e1 := tstep_self s false e
    have e2 : tstep s (false, e) true = _ := tstep_other s false e
    refine ⟨by rw [e1]; exact k2, ?_, ?_, by rw [e1, k1]; exact h.state, by rw [e1, k1]; exact h.worker⟩ <;> rw [e2] <;> unfold seen <;> split
    · exact ⟨h.two.dtor, h.two.state, h.two.pc, h.two.worker, h.two.log⟩
    · exact h.two
    · exact k2.chan
    · exact h.quiet
  · obtain ⟨k1, k2⟩ := h.two.step hx
    have e1 := tstep_self s true e
    have e2 : tstep s (true, e) false = _ := tstep_other s true e
    refine ⟨?_, by rw [e1]; exact k2, by rw [e1, k1]; exact h.quiet, ?_, ?_⟩ <;> rw [e2] <;> unfold seen <;> split
    · exact ⟨h.one.dtor, by show ∀ i, (lstep (s true) e).api.chan i ≠ _; rw [k1]; exact h.quiet, h.one.pc, h.one.worker, h.one.log⟩
    · exact h.one
    · exact h.state
    · exact h.state
    · exact h.worker
    · exact h.worker

theorem Lost.run {s : Two} (h : Lost s) {es : List (Bool × LEv)} (hes : ∀ x ∈ es, NoCall x.2) : Lost (trun s es) := by
  induction es generalizing s with
  | nil => exact h
  | cons x es ih => exact ih (h.step (hes x (List.mem_cons_self ..))) fun y hy => hes y (List.mem_cons_of_mem _ hy)

/-- `StopLogger` of process `false` waits for ever; the other process is not started. -/
structure Jam (s : Two) (t i : Nat) : Prop where
  one : Stuck (s false) t i
  two : Down (s true)
  load1 : (s false).api.loaded = true
  load2 : (s true).api.loaded = true
  size : (s true).api.size = (s false).api.size
  async : (s true).api.async = (s false).api.async
  chan : (s true).api.chan = (s false).api.chan

theorem Jam.step {s : Two} {t i : Nat} (h : Jam s t i) {x : Bool × LEv} (hx : x.1 = true → NoCall x.2) : Jam (tstep s x) t i := by
  obtain ⟨p, e⟩ := x
  cases p
  · have k := h.one.step e
    have kl := lstep_loaded h.one.dtor h.load1 e
    have e1 := tstep_self s false e
    have e2 : tstep s (false, e) true = _ := tstep_other s false e
    have e3 : seen (lstep (s false) e) (s true) = _ := if_pos (by rw [kl, h.load2]; rfl)
    replace e2 := e2.trans e3
    refine ⟨by rw [e1]; exact k, ?_, by rw [e1]; exact kl, ?_, ?_, ?_, ?_⟩ <;> rw [e2]
    · exact ⟨h.two.dtor, h.two.state, h.two.pc, h.two.worker, h.two.log⟩
    · exact h.load2
    all_goals rw [e1]
  · obtain ⟨k1, k2⟩ := h.two.step (hx rfl)
    have e1 := tstep_self s true e
    have e2 : tstep s (true, e) false = s false := by
      refine (tstep_other s true e).trans ?_
      refine (if_pos (by rw [k1, h.load2]; exact h.load1)).trans ?_
      rw [k1, h.size, h.async, h.chan]
      rfl
    refine ⟨?_, ?_, ?_, ?_, ?_, ?_, ?_⟩
    · rw [e2]; exact h.one
    · rw [e1]; exact k2
    · rw [e2]; exact h.load1
    · rw [e1, k1]; exact h.load2
    · rw [e1, e2, k1]; exact h.size
    · rw [e1, e2, k1]; exact h.async
    · rw [e1, e2, k1]; exact h.chan

theorem Jam.run {s : Two} {t i : Nat} (h : Jam s t i) {es : List (Bool × LEv)} (hes : Leaves true es) : Jam (trun s es) t i := by
  induction es generalizing s with
  | nil => exact h
  | cons x es ih =>
    refine ih (h.step fun hp => hes x.2 ?_) fun e he => hes e (List.mem_cons_of_mem _ he)
    rw [← hp]
    exact List.mem_cons_self ..

end FNLog.Api
