import Verif.Spec.Api
import Verif.Proof.RingInv

/-! # Lemmas for C104, C105: the lock and the life cycle -/

namespace FNLog.Api
open FNLog.Ring (upd upd_same upd_ne)
open FNLog.Spec

/-- How many guards of `state_lock_` are alive. -/
def Hot.depth : Hot → Nat
  | .state2 | .update | .unlock => 1
  | _ => 0

def Worker.depth : Worker → Nat
  | .hot h => h.depth
  | _ => 0

def Up.depth : Up → Nat
  | .stop => 1
  | .start o => o.toNat + 1

def Pc.depth : Pc → Nat
  | .idle => 0
  | .hot h => h.depth
  | .stState o | .stShm o | .stLock o => o.toNat
  | .stState2 o | .stSize o | .stMark o | .stChan o _ | .stPoll o _ _ | .stNull o _ | .stRun o _ | .stDone o | .stFail o
  | .stUnlock o _ => o.toNat + 1
  | .spSize | .spState | .spLock => 0
  | .spState2 | .spMark | .spDone | .spUnlock _ => 1
  | .scChan u _ | .scState u _ | .scMark u _ | .scJoin u _ | .scNull u _ => u.depth
  | .inState o _ | .inLock o _ => o.toNat
  | .inState2 o _ | .inLoad o _ | .inUnlock o _ => o.toNat + 1
  | .whState _ _ | .whLock _ _ => 0
  | .whState2 _ | .whUnlock _ => 1

def St.depth (s : St) : Who → Nat
  | .api t => (s.pc t).depth
  | .worker i => (s.worker i).depth

/-- How often `w` has locked. -/
def holds (l : Option (Who × Nat)) (w : Who) : Nat :=
  match l with
  | none => 0
  | some (v, n) => if v = w then n else 0

theorem holds_take {l l' : Option (Who × Nat)} {w : Who} (h : take l w = some l') :
    holds l' w = holds l w + 1 ∧ ∀ v, v ≠ w → holds l' v = holds l v := by
  unfold take at h
  split at h
  · cases h
    exact ⟨by simp [holds], fun v hv => by simp [holds, Ne.symm hv]⟩
  · split at h
    · rename_i hv
      cases h
      subst hv
      exact ⟨by simp [holds], fun v hv => by simp [holds, Ne.symm hv]⟩
    · cases h

theorem holds_release {l : Option (Who × Nat)} {w : Who} (h : 0 < holds l w) :
    holds (release l) w = holds l w - 1 ∧ ∀ v, v ≠ w → holds (release l) v = holds l v := by
  unfold release
  unfold holds at h
  split at h
  · omega
  · rename_i v n
    by_cases hv : v = w
    · subst hv
      rw [if_pos rfl] at h
      match n, h with
      | 1, _ => exact ⟨by simp [holds], fun u hu => by simp [holds, Ne.symm hu]⟩
      | n + 2, _ => exact ⟨by simp [holds], fun u hu => by simp [holds, Ne.symm hu]⟩
    · rw [if_neg hv] at h; omega

/-- Only one holds the lock. -/
theorem holds_one {l : Option (Who × Nat)} {v w : Who} (h : 0 < holds l v) (hw : v ≠ w) : holds l w = 0 := by
  unfold holds at h ⊢
  split at h
  · omega
  · rename_i u n
    by_cases hu : u = v
    · subst hu; exact if_neg hw
    · rw [if_neg hu] at h; omega

/-- A lock held by another is not taken. -/
theorem take_held {l : Option (Who × Nat)} {v w : Who} (h : 0 < holds l v) (hw : v ≠ w) : take l w = none := by
  unfold holds at h
  unfold take
  split at h
  · omega
  · rename_i u n
    by_cases hu : u = v
    · subst hu; exact if_neg hw
    · rw [if_neg hu] at h; omega

/-- The owner of the lock is the one that has guards. -/
def LockInv (s : St) : Prop := ∀ w, holds s.lock w = s.depth w

theorem LockInv.of {s s' : St} (h : LockInv s) {t : Nat} (hp : ∀ u, u ≠ t → s'.pc u = s.pc u)
    (hw : ∀ i, (s'.worker i).depth = (s.worker i).depth) (hl : holds s'.lock (.api t) = (s'.pc t).depth)
    (ho : ∀ v, v ≠ .api t → holds s'.lock v = holds s.lock v) : LockInv s' := by
  intro w
  cases w with
  | api u =>
    by_cases hu : u = t
    · subst hu; exact hl
    · rw [ho _ (fun e => hu (Who.api.inj e)), h]
      show (s.pc u).depth = (s'.pc u).depth
      rw [hp u hu]
  | worker i =>
    rw [ho (.worker i) (fun e => Who.noConfusion e), h]
    exact (hw i).symm

theorem goto_pc (s : St) (t : Nat) (p : Pc) : (s.goto t p).pc t = p := upd_same _ _ _
theorem goto_pc_ne (s : St) {t u : Nat} (p : Pc) (h : u ≠ t) : (s.goto t p).pc u = s.pc u := upd_ne _ _ h

/-- A step that leaves the lock alone. -/
theorem LockInv.plain {s s' : St} (h : LockInv s) {t : Nat} {p : Pc} (hp : s'.pc = s.pc) (hl : s'.lock = s.lock)
    (hw : ∀ i, (s'.worker i).depth = (s.worker i).depth) (hd : p.depth = (s.pc t).depth) : LockInv (s'.goto t p) := by
  refine h.of (t := t) (fun u hu => ?_) hw ?_ (fun v _ => ?_)
  · rw [goto_pc_ne _ _ hu, hp]
  · rw [goto_pc, hd]
    show holds s'.lock _ = _
    rw [hl]; exact h (.api t)
  · show holds s'.lock _ = _
    rw [hl]

theorem LockInv.locked {s : St} (h : LockInv s) {t : Nat} {p : Pc} (hd : p.depth = (s.pc t).depth + 1) :
    LockInv (locked s t p) := by
  unfold Api.locked
  split
  · rename_i l hl
    have := holds_take hl
    refine h.of (t := t) (fun u hu => goto_pc_ne _ _ hu) (fun i => rfl) ?_ this.2
    rw [goto_pc, hd]
    exact this.1.trans (congrArg (· + 1) (h (.api t)))
  · exact h

theorem LockInv.unlock {s : St} (h : LockInv s) {t : Nat} {p : Pc} (hd : (s.pc t).depth = p.depth + 1) :
    LockInv ({ s with lock := release s.lock }.goto t p) := by
  have e : holds s.lock (.api t) = p.depth + 1 := (h (.api t)).trans hd
  have := holds_release (l := s.lock) (w := .api t) (by omega)
  refine h.of (t := t) (fun u hu => goto_pc_ne _ _ hu) (fun i => rfl) ?_ this.2
  rw [goto_pc]
  exact this.1.trans (by omega)

theorem hotStep_pc (s : St) (w : Who) (e : Env) (h : Hot) :
    (hotStep s w e h).2.pc = s.pc ∧ (hotStep s w e h).2.worker = s.worker ∧ (hotStep s w e h).2.chan = s.chan ∧
    (hotStep s w e h).2.state = s.state ∧ (hotStep s w e h).2.size = s.size ∧ (hotStep s w e h).2.async = s.async ∧
    (hotStep s w e h).2.done = s.done ∧ (hotStep s w e h).2.terminate = s.terminate ∧ (hotStep s w e h).2.loaded = s.loaded := by
  cases h <;> simp only [hotStep, and_self]
  · split <;> simp only [and_self]
  · split <;> simp only [and_self]

theorem hotStep_lock (s : St) (w : Who) (e : Env) (h : Hot) (hh : holds s.lock w = h.depth) :
    holds (hotStep s w e h).2.lock w = (hotStep s w e h).1.depth ∧
    ∀ v, v ≠ w → holds (hotStep s w e h).2.lock v = holds s.lock v := by
  cases h <;> simp only [hotStep]
  · split <;> exact ⟨hh, fun _ _ => by trivial⟩
  · split <;> exact ⟨hh, fun _ _ => by trivial⟩
  · split
    · rename_i l hl
      have := holds_take hl
      rw [hh] at this
      exact this
    · exact ⟨hh, fun _ _ => by trivial⟩
  · split <;> exact ⟨hh, fun _ _ => by trivial⟩
  · split <;> exact ⟨hh, fun _ _ => by trivial⟩
  · have := holds_release (l := s.lock) (w := w) (by rw [hh]; exact Nat.one_pos)
    rw [hh] at this
    exact this
  · exact ⟨hh, fun _ _ => by trivial⟩

theorem startRet_depth (o ok : Bool) : (startRet o ok).depth = o.toNat := by cases o <;> rfl
theorem initRet_depth (o ok : Bool) : (initRet o ok).depth = o.toNat := by cases o <;> cases ok <;> rfl
theorem chansRet_depth (u : Up) : (chansRet u).depth = u.depth := by cases u <;> rfl

theorem LockInv.runT {s : St} (h : LockInv s) (t : Nat) (e : Env)
    (hq : ∀ o i, s.pc t = .stChan o i → i < s.size → s.async i = true → s.worker i = .none) : LockInv (runT s t e) := by
  unfold Api.runT
  split <;> rename_i hp
  case h_1 => exact h
  case h_2 hh =>
    have e1 : holds s.lock (.api t) = hh.depth := (h (.api t)).trans (by show (s.pc t).depth = _; rw [hp]; rfl)
    have h1 := hotStep_lock s (.api t) e hh e1
    have h2 := hotStep_pc s (.api t) e hh
    refine h.of (t := t) (fun u hu => ?_) (fun i => ?_) ?_ h1.2
    · dsimp only; rw [goto_pc_ne _ _ hu, h2.1]
    · show ((hotStep s (.api t) e hh).2.worker i).depth = _
      rw [h2.2.1]
    · rw [goto_pc]
      refine h1.1.trans ?_
      split
      · rename_i hd; rw [hd]; rfl
      · rfl
  case h_9 o i =>
    split
    · rename_i hi
      split
      · rename_i ha
        refine h.plain rfl rfl (fun j => ?_) (by rw [hp]; rfl)
        by_cases hj : j = i
        · subst hj
          show Worker.depth (upd _ j _ j) = _
          rw [upd_same, hq o j hp hi ha]; rfl
        · show Worker.depth (upd _ i _ j) = _
          rw [upd_ne _ _ hj]
      · exact h.plain rfl rfl (fun _ => rfl) (by rw [hp]; rfl)
    · exact h.plain rfl rfl (fun _ => rfl) (by rw [hp]; rfl)
  case h_26 u i =>
    split
    · rename_i he
      refine h.plain rfl rfl (fun j => ?_) (by rw [hp]; rfl)
      by_cases hj : j = i
      · subst hj
        show Worker.depth (upd _ j _ j) = _
        rw [upd_same, he]; rfl
      · show Worker.depth (upd _ i _ j) = _
        rw [upd_ne _ _ hj]
    · exact h
  all_goals repeat' split
  all_goals first
    | (refine h.locked ?_; rw [hp]; rfl)
    | (refine h.unlock ?_; rw [hp]; first | rfl | (rw [startRet_depth]; rfl) | (rw [initRet_depth]; rfl))
    | (refine h.plain rfl rfl (fun _ => rfl) ?_
       rw [hp]; first | rfl | (rw [startRet_depth]; rfl) | (rw [initRet_depth]; rfl) | (rw [chansRet_depth]; rfl))

theorem LockInv.workI {s : St} (h : LockInv s) (i : Nat) (e : Env) : LockInv (workI s i e) := by
  have key : ∀ (l : Option (Who × Nat)) (w : Worker) (hl : holds l (.worker i) = w.depth)
      (ho : ∀ v, v ≠ .worker i → holds l v = holds s.lock v) (s' : St), s'.lock = l → s'.pc = s.pc →
      s'.worker = upd s.worker i w → LockInv s' := by
    intro l w hl ho s' e1 e2 e3 v
    rw [e1]
    cases v with
    | api t =>
      rw [ho (.api t) (fun e => Who.noConfusion e), h]
      show (s.pc t).depth = (s'.pc t).depth
      rw [e2]
    | worker j =>
      by_cases hj : j = i
      · subst hj
        show _ = (s'.worker j).depth
        rw [e3, upd_same]; exact hl
      · rw [ho (.worker j) (fun e => hj (Who.worker.inj e)), h]
        show (s.worker j).depth = (s'.worker j).depth
        rw [e3, upd_ne _ _ hj]
  have hi := h (.worker i)
  have hi' : holds s.lock (.worker i) = (s.worker i).depth := hi
  unfold Api.workI
  split <;> rename_i hw <;> rw [hw] at hi'
  · exact h
  · exact key s.lock _ (by split <;> exact hi') (fun _ _ => rfl) _ rfl rfl rfl
  · exact key s.lock (.hot .enter) hi' (fun _ _ => rfl) _ rfl rfl rfl
  · rename_i hh
    have h1 := hotStep_lock s (.worker i) e hh hi'
    have h2 := hotStep_pc s (.worker i) e hh
    refine key (hotStep s (.worker i) e hh).2.lock (if (hotStep s (.worker i) e hh).1 = .done then .check else .hot (hotStep s (.worker i) e hh).1)
      ?_ h1.2 _ rfl h2.1 ?_
    · refine h1.1.trans ?_
      split
      · rename_i hd; rw [hd]; rfl
      · rfl
    · dsimp only; rw [h2.2.1]
  · exact key s.lock _ (by split <;> exact hi') (fun _ _ => rfl) _ rfl rfl rfl
  · exact key s.lock .ended hi' (fun _ _ => rfl) _ rfl rfl rfl
  · exact h

/-! ## Channels -/

/-- The thread of a channel in its loop. -/
def Worker.Body : Worker → Prop
  | .queue | .hot _ | .check => True
  | _ => False

/-- No thread. -/
def Off (s : St) (j : Nat) : Prop := s.chan j = .null ∧ s.worker j = .none

def Live (s : St) (j : Nat) : Prop := s.chan j = .running ∧ (s.worker j).Body

/-- A thread that has been created and may not have set the state yet. -/
def Fresh (s : St) (j : Nat) : Prop := (s.chan j = .null ∧ (s.worker j = .queue ∨ s.worker j = .run)) ∨ Live s j

/-- A thread that was told to end. -/
def Ending (s : St) (j : Nat) : Prop :=
  (s.chan j = .waitingFinish ∧ ((s.worker j).Body ∨ s.worker j = .leave)) ∨ (s.chan j = .finish ∧ s.worker j = .ended)

/-- A channel of a running logger. -/
def UpAt (s : St) (j : Nat) : Prop :=
  (j < s.size ∧ s.async j = true ∧ Live s j) ∨ (j < s.size ∧ s.async j = false ∧ s.chan j = .running ∧ s.worker j = .none) ∨
    (s.size ≤ j ∧ Off s j)

/-- A channel `StopChannels` may find. -/
def SomeAt (s : St) (j : Nat) : Up → Prop
  | .stop => UpAt s j
  | .start _ => Off s j ∨ UpAt s j ∨ (j < s.size ∧ s.async j = true ∧ Fresh s j)

theorem SomeAt.of_up {s : St} {j : Nat} (u : Up) (h : UpAt s j) : SomeAt s j u := by
  cases u
  · exact h
  · exact .inr (.inl h)

/-- Outside of the critical sections. -/
def Outside (s : St) : Prop := (s.state = .uninit ∧ ∀ j, Off s j) ∨ (s.state = .running ∧ ∀ j, UpAt s j)

def Up.state : Up → LoggerState
  | .stop => .closing
  | .start _ => .initing

/-- What a thread that has the lock knows. -/
def Here (s : St) (t : Nat) : Pc → Prop
  | .stSize _ | .inLoad _ _ => Outside s ∧ s.state = .uninit
  | .stMark _ => Outside s ∧ s.state = .uninit ∧ 0 < s.size
  | .spMark => Outside s ∧ s.state = .running
  | .stUnlock _ true | .whUnlock true => Outside s ∧ s.done.getLast? = some (.started t)
  | .spUnlock true => Outside s ∧ s.done.getLast? = some (.stopped t)
  | .inUnlock _ true => Outside s ∧ s.done.getLast? = some (.loaded t)
  | .stChan _ i => s.state = .initing ∧ i ≤ s.size ∧ ∀ j, (j < i → UpAt s j) ∧ (i ≤ j → Off s j)
  | .stPoll _ i _ | .stNull _ i => s.state = .initing ∧ i < s.size ∧ s.async i = true ∧ Fresh s i ∧
      ∀ j, (j < i → UpAt s j) ∧ (i < j → Off s j)
  | .stRun _ i => s.state = .initing ∧ i < s.size ∧ s.async i = true ∧ Live s i ∧
      ∀ j, (j < i → UpAt s j) ∧ (i < j → Off s j)
  | .stDone _ => s.state = .initing ∧ ∀ j, UpAt s j
  | .stFail _ => s.state = .initing ∧ ∀ j, Off s j
  | .spDone => s.state = .closing ∧ ∀ j, Off s j
  | .scChan u i => s.state = u.state ∧ ∀ j, (j < i → Off s j) ∧ (i ≤ j → SomeAt s j u)
  | .scState u i => s.state = u.state ∧ i < s.size ∧ s.async i = true ∧ s.worker i ≠ .none ∧
      ∀ j, (j < i → Off s j) ∧ (i ≤ j → SomeAt s j u)
  | .scMark u i => s.state = u.state ∧ i < s.size ∧ s.async i = true ∧ Live s i ∧
      ∀ j, (j < i → Off s j) ∧ (i < j → SomeAt s j u)
  | .scJoin u i => s.state = u.state ∧ i < s.size ∧ s.async i = true ∧ (Ending s i ∨ (u ≠ .stop ∧ Fresh s i)) ∧
      ∀ j, (j < i → Off s j) ∧ (i < j → SomeAt s j u)
  | .scNull u i => s.state = u.state ∧ i < s.size ∧ s.async i = true ∧ s.worker i = .none ∧
      ∀ j, (j < i → Off s j) ∧ (i < j → SomeAt s j u)
  | _ => Outside s

/-- The history so far. -/
def Hist (s : St) : Prop := ∃ l, Sessions .empty s.done l ∧
  match s.state with
  | .running | .closing => l = .running
  | .initing => l = .stopped
  | .uninit => l ≠ .running ∧ (l = .empty → s.size = 0)

structure Inv (s : St) : Prop where
  lock : LockInv s
  here : ∀ t, 0 < (s.pc t).depth → Here s t (s.pc t)
  outside : (∀ t, (s.pc t).depth = 0) → Outside s
  term : s.terminate = false
  hist : Hist s

theorem here_outside {s : St} {t : Nat} {p : Pc} (h : p.depth = 0) : Here s t p ↔ Outside s := by
  cases p <;> first | exact Iff.rfl | skip
  all_goals first | (cases h; done) | skip
  all_goals first | (rename_i u i; cases u <;> cases h; done) | skip

/-! ## Steps of the threads of the channels -/

theorem work_frame (s : St) (i : Nat) (e : Env) : (workI s i e).state = s.state ∧ (workI s i e).size = s.size ∧
    (workI s i e).async = s.async ∧ (workI s i e).done = s.done ∧ (workI s i e).pc = s.pc ∧
    (workI s i e).terminate = s.terminate ∧
    ∀ j, j ≠ i → (workI s i e).chan j = s.chan j ∧ (workI s i e).worker j = s.worker j := by
  unfold workI
  split
  · exact ⟨rfl, rfl, rfl, rfl, rfl, rfl, fun _ _ => ⟨rfl, rfl⟩⟩
  · exact ⟨rfl, rfl, rfl, rfl, rfl, rfl, fun _ hj => ⟨rfl, upd_ne _ _ hj⟩⟩
  · exact ⟨rfl, rfl, rfl, rfl, rfl, rfl, fun _ hj => ⟨upd_ne _ _ hj, upd_ne _ _ hj⟩⟩
  · rename_i hh _
    have h2 := hotStep_pc s (.worker i) e hh
    refine ⟨h2.2.2.2.1, h2.2.2.2.2.1, h2.2.2.2.2.2.1, h2.2.2.2.2.2.2.1, h2.1, h2.2.2.2.2.2.2.2.1, fun j hj => ⟨?_, ?_⟩⟩
    · exact congrFun h2.2.2.1 j
    · dsimp only; rw [upd_ne _ _ hj, h2.2.1]
  · exact ⟨rfl, rfl, rfl, rfl, rfl, rfl, fun _ hj => ⟨rfl, upd_ne _ _ hj⟩⟩
  · exact ⟨rfl, rfl, rfl, rfl, rfl, rfl, fun _ hj => ⟨upd_ne _ _ hj, upd_ne _ _ hj⟩⟩
  · exact ⟨rfl, rfl, rfl, rfl, rfl, rfl, fun _ _ => ⟨rfl, rfl⟩⟩

/-- The thread's own channel. -/
theorem work_own (s : St) (i : Nat) (e : Env) :
    (s.worker i = .none ∧ (workI s i e).chan i = s.chan i ∧ (workI s i e).worker i = .none) ∨
    (s.worker i = .queue ∧ (workI s i e).chan i = s.chan i ∧
      (workI s i e).worker i = if s.chan i = .null then .run else .hot .enter) ∨
    (s.worker i = .run ∧ (workI s i e).chan i = .running ∧ (workI s i e).worker i = .hot .enter) ∨
    (∃ h, s.worker i = .hot h ∧ (workI s i e).chan i = s.chan i ∧
      (workI s i e).worker i = if (hotStep s (.worker i) e h).1 = .done then .check else .hot (hotStep s (.worker i) e h).1) ∨
    (s.worker i = .check ∧ (workI s i e).chan i = s.chan i ∧
      (workI s i e).worker i = if s.chan i = .running || e.more then .queue else .leave) ∨
    (s.worker i = .leave ∧ (workI s i e).chan i = .finish ∧ (workI s i e).worker i = .ended) ∨
    (s.worker i = .ended ∧ (workI s i e).chan i = s.chan i ∧ (workI s i e).worker i = .ended) := by
  unfold workI
  split <;> rename_i hw
  · exact .inl ⟨hw, rfl, hw⟩
  · exact .inr (.inl ⟨hw, rfl, upd_same _ _ _⟩)
  · exact .inr (.inr (.inl ⟨hw, upd_same _ _ _, upd_same _ _ _⟩))
  · rename_i hh
    have h2 := hotStep_pc s (.worker i) e hh
    exact .inr (.inr (.inr (.inl ⟨hh, hw, congrFun h2.2.2.1 i, upd_same _ _ _⟩)))
  · exact .inr (.inr (.inr (.inr (.inl ⟨hw, rfl, upd_same _ _ _⟩))))
  · exact .inr (.inr (.inr (.inr (.inr (.inl ⟨hw, upd_same _ _ _, upd_same _ _ _⟩)))))
  · exact .inr (.inr (.inr (.inr (.inr (.inr ⟨hw, rfl, hw⟩)))))

variable {s : St} {i : Nat} {e : Env} {j : Nat}

theorem Off.work (h : Off s j) (i : Nat) (e : Env) : Off (workI s i e) j := by
  by_cases hj : j = i
  · subst hj
    rcases work_own s j e with ⟨_, hc, hw'⟩ | h' | h' | ⟨_, h'⟩ | h' | h' | h'
    · exact ⟨hc.trans h.1, hw'⟩
    all_goals exact absurd (h.2.symm.trans h'.1) (fun e => Worker.noConfusion e)
  · have := (work_frame s i e).2.2.2.2.2.2 j hj
    exact ⟨this.1.trans h.1, this.2.trans h.2⟩

theorem Live.work (h : Live s j) (i : Nat) (e : Env) : Live (workI s i e) j := by
  by_cases hj : j = i
  · subst hj
    obtain ⟨h1, h2⟩ := h
    rcases work_own s j e with ⟨hw, hc, hw'⟩ | ⟨hw, hc, hw'⟩ | ⟨hw, hc, hw'⟩ | ⟨x, hw, hc, hw'⟩ | ⟨hw, hc, hw'⟩ | ⟨hw, hc, hw'⟩ | ⟨hw, hc, hw'⟩
    all_goals rw [hw] at h2
    all_goals first | (cases h2; done) | skip
    all_goals refine ⟨hc.trans h1, ?_⟩
    all_goals rw [hw']
    · rw [h1]; trivial
    · split <;> trivial
    · rw [h1]; trivial
  · have := (work_frame s i e).2.2.2.2.2.2 j hj
    exact ⟨this.1.trans h.1, by rw [this.2]; exact h.2⟩

theorem Fresh.work (h : Fresh s j) (i : Nat) (e : Env) : Fresh (workI s i e) j := by
  rcases h with h | h
  · by_cases hj : j = i
    · subst hj
      obtain ⟨h1, h2⟩ := h
      rcases work_own s j e with ⟨hw, hc, hw'⟩ | ⟨hw, hc, hw'⟩ | ⟨hw, hc, hw'⟩ | ⟨x, hw, hc, hw'⟩ | ⟨hw, hc, hw'⟩ | ⟨hw, hc, hw'⟩ | ⟨hw, hc, hw'⟩
      all_goals rw [hw] at h2
      · rcases h2 with h2 | h2 <;> cases h2
      · rw [h1] at hw'
        exact .inl ⟨hc.trans h1, .inr hw'⟩
      · exact .inr ⟨hc, by rw [hw']; trivial⟩
      all_goals rcases h2 with h2 | h2 <;> cases h2
    · have := (work_frame s i e).2.2.2.2.2.2 j hj
      exact .inl ⟨this.1.trans h.1, by rw [this.2]; exact h.2⟩
  · exact .inr (h.work i e)

theorem Ending.work (h : Ending s j) (i : Nat) (e : Env) : Ending (workI s i e) j := by
  by_cases hj : j = i
  · subst hj
    rcases work_own s j e with ⟨hw, hc, hw'⟩ | ⟨hw, hc, hw'⟩ | ⟨hw, hc, hw'⟩ | ⟨x, hw, hc, hw'⟩ | ⟨hw, hc, hw'⟩ | ⟨hw, hc, hw'⟩ | ⟨hw, hc, hw'⟩
    all_goals rcases h with ⟨h1, h2⟩ | ⟨h1, h2⟩ <;> rw [hw] at h2
    all_goals first | (cases h2; done) | (rcases h2 with h2 | h2 <;> cases h2; done) | skip
    · rw [h1] at hw'
      exact .inl ⟨hc.trans h1, .inl (by rw [hw']; trivial)⟩
    · exact .inl ⟨hc.trans h1, .inl (by rw [hw']; split <;> trivial)⟩
    · refine .inl ⟨hc.trans h1, ?_⟩
      rw [hw']
      split
      · exact .inl trivial
      · exact .inr rfl
    · exact .inr ⟨hc, hw'⟩
    · exact .inr ⟨hc.trans h1, hw'⟩
  · have := (work_frame s i e).2.2.2.2.2.2 j hj
    unfold Ending
    rw [this.1, this.2]
    exact h

theorem UpAt.work (h : UpAt s j) (i : Nat) (e : Env) : UpAt (workI s i e) j := by
  have f := work_frame s i e
  unfold UpAt
  rw [f.2.1, f.2.2.1]
  rcases h with h | h | h
  · exact .inl ⟨h.1, h.2.1, h.2.2.work i e⟩
  · refine .inr (.inl ⟨h.1, h.2.1, ?_⟩)
    by_cases hj : j = i
    · subst hj
      rcases work_own s j e with ⟨_, hc, hw'⟩ | h' | h' | ⟨_, h'⟩ | h' | h' | h'
      · exact ⟨hc.trans h.2.2.1, hw'⟩
      all_goals exact absurd (h.2.2.2.symm.trans h'.1) (fun e => Worker.noConfusion e)
    · have := f.2.2.2.2.2.2 j hj
      rw [this.1, this.2]; exact h.2.2
  · exact .inr (.inr ⟨h.1, h.2.work i e⟩)

theorem SomeAt.work {u : Up} (h : SomeAt s j u) (i : Nat) (e : Env) : SomeAt (workI s i e) j u := by
  have f := work_frame s i e
  cases u with
  | stop => exact UpAt.work h i e
  | start o =>
    rcases h with h | h | h
    · exact .inl (h.work i e)
    · exact .inr (.inl (h.work i e))
    · refine .inr (.inr ?_)
      rw [f.2.1, f.2.2.1]
      exact ⟨h.1, h.2.1, h.2.2.work i e⟩

theorem none_work (h : s.worker j = .none) (i : Nat) (e : Env) : (workI s i e).worker j = .none := by
  by_cases hj : j = i
  · subst hj
    rcases work_own s j e with ⟨_, hc, hw'⟩ | h' | h' | ⟨_, h'⟩ | h' | h' | h'
    · exact hw'
    all_goals exact absurd (h.symm.trans h'.1) (fun e => Worker.noConfusion e)
  · rw [((work_frame s i e).2.2.2.2.2.2 j hj).2]; exact h

theorem some_work (h : s.worker j ≠ .none) (i : Nat) (e : Env) : (workI s i e).worker j ≠ .none := by
  by_cases hj : j = i
  · subst hj
    rcases work_own s j e with h' | h' | h' | ⟨_, h'⟩ | h' | h' | h'
    · exact absurd h'.1 h
    all_goals rw [h'.2.2]
    all_goals try split
    all_goals exact fun e => Worker.noConfusion e
  · rw [((work_frame s i e).2.2.2.2.2.2 j hj).2]; exact h

theorem Outside.work (h : Outside s) (i : Nat) (e : Env) : Outside (workI s i e) := by
  have f := work_frame s i e
  unfold Outside
  rw [f.1]
  rcases h with h | h
  · exact .inl ⟨h.1, fun j => (h.2 j).work i e⟩
  · exact .inr ⟨h.1, fun j => (h.2 j).work i e⟩

theorem Here.work {t : Nat} {p : Pc} (h : Here s t p) (i : Nat) (e : Env) : Here (workI s i e) t p := by
  obtain ⟨f1, f2, f3, f4, f5, f6, _⟩ := work_frame s i e
  cases p with
  | stUnlock o b => cases b <;> (unfold Here at h ⊢; dsimp only at h ⊢)
                    · exact h.work i e
                    · exact ⟨h.1.work i e, f4 ▸ h.2⟩
  | spUnlock b => cases b <;> (unfold Here at h ⊢; dsimp only at h ⊢)
                  · exact h.work i e
                  · exact ⟨h.1.work i e, f4 ▸ h.2⟩
  | whUnlock b => cases b <;> (unfold Here at h ⊢; dsimp only at h ⊢)
                  · exact h.work i e
                  · exact ⟨h.1.work i e, f4 ▸ h.2⟩
  | inUnlock o b => cases b <;> (unfold Here at h ⊢; dsimp only at h ⊢)
                    · exact h.work i e
                    · exact ⟨h.1.work i e, f4 ▸ h.2⟩
  | stSize => exact ⟨h.1.work i e, f1.trans h.2⟩
  | inLoad => exact ⟨h.1.work i e, f1.trans h.2⟩
  | stMark => exact ⟨h.1.work i e, f1.trans h.2.1, by rw [f2]; exact h.2.2⟩
  | spMark => exact ⟨h.1.work i e, f1.trans h.2⟩
  | stChan => exact ⟨f1.trans h.1, by rw [f2]; exact h.2.1, fun j => ⟨fun k => ((h.2.2 j).1 k).work i e, fun k => ((h.2.2 j).2 k).work i e⟩⟩
  | stPoll => exact ⟨f1.trans h.1, by rw [f2]; exact h.2.1, by rw [f3]; exact h.2.2.1, h.2.2.2.1.work i e,
                fun j => ⟨fun k => ((h.2.2.2.2 j).1 k).work i e, fun k => ((h.2.2.2.2 j).2 k).work i e⟩⟩
  | stNull => exact ⟨f1.trans h.1, by rw [f2]; exact h.2.1, by rw [f3]; exact h.2.2.1, h.2.2.2.1.work i e,
                fun j => ⟨fun k => ((h.2.2.2.2 j).1 k).work i e, fun k => ((h.2.2.2.2 j).2 k).work i e⟩⟩
  | stRun => exact ⟨f1.trans h.1, by rw [f2]; exact h.2.1, by rw [f3]; exact h.2.2.1, h.2.2.2.1.work i e,
                fun j => ⟨fun k => ((h.2.2.2.2 j).1 k).work i e, fun k => ((h.2.2.2.2 j).2 k).work i e⟩⟩
  | stDone => exact ⟨f1.trans h.1, fun j => (h.2 j).work i e⟩
  | stFail => exact ⟨f1.trans h.1, fun j => (h.2 j).work i e⟩
  | spDone => exact ⟨f1.trans h.1, fun j => (h.2 j).work i e⟩
  | scChan => exact ⟨f1.trans h.1, fun j => ⟨fun k => ((h.2 j).1 k).work i e, fun k => ((h.2 j).2 k).work i e⟩⟩
  | scState => exact ⟨f1.trans h.1, by rw [f2]; exact h.2.1, by rw [f3]; exact h.2.2.1, some_work h.2.2.2.1 i e,
                fun j => ⟨fun k => ((h.2.2.2.2 j).1 k).work i e, fun k => ((h.2.2.2.2 j).2 k).work i e⟩⟩
  | scMark => exact ⟨f1.trans h.1, by rw [f2]; exact h.2.1, by rw [f3]; exact h.2.2.1, h.2.2.2.1.work i e,
                fun j => ⟨fun k => ((h.2.2.2.2 j).1 k).work i e, fun k => ((h.2.2.2.2 j).2 k).work i e⟩⟩
  | scJoin => exact ⟨f1.trans h.1, by rw [f2]; exact h.2.1, by rw [f3]; exact h.2.2.1,
                h.2.2.2.1.imp (fun k => k.work i e) (fun k => ⟨k.1, k.2.work i e⟩),
                fun j => ⟨fun k => ((h.2.2.2.2 j).1 k).work i e, fun k => ((h.2.2.2.2 j).2 k).work i e⟩⟩
  | scNull => exact ⟨f1.trans h.1, by rw [f2]; exact h.2.1, by rw [f3]; exact h.2.2.1, none_work h.2.2.2.1 i e,
                fun j => ⟨fun k => ((h.2.2.2.2 j).1 k).work i e, fun k => ((h.2.2.2.2 j).2 k).work i e⟩⟩
  | _ => exact Outside.work h i e

theorem Inv.workI {s : St} (h : Inv s) (i : Nat) (e : Env) : Inv (workI s i e) := by
  obtain ⟨f1, f2, f3, f4, f5, f6, _⟩ := work_frame s i e
  refine ⟨h.lock.workI i e, fun t ht => ?_, fun ht => ?_, f6.trans h.term, ?_⟩
  · rw [f5] at ht ⊢
    exact (h.here t ht).work i e
  · rw [f5] at ht
    exact (h.outside ht).work i e
  · have := h.hist
    unfold Hist at this ⊢
    rw [f1, f2, f4]
    exact this

/-! ## Steps of the threads that use the API -/

theorem upd_id {β : Type} (f : Nat → β) (i : Nat) : upd f i (f i) = f := by
  funext j
  unfold upd
  split
  · rename_i h; rw [h]
  · rfl

theorem Up.depth_pos (u : Up) : 0 < u.depth := by cases u <;> exact Nat.succ_pos _

/-- While another has the lock a thread only comes up to the lock. -/
theorem quiet {s : St} (h : LockInv s) {t u : Nat} (hne : u ≠ t) (hu : 0 < (s.pc u).depth) (e : Env) :
    ∃ p n, p.depth = 0 ∧ runT s t e = { s with pc := upd s.pc t p, null := n } := by
  have h1 : 0 < holds s.lock (.api u) := by rw [h]; exact hu
  have h2 : (s.pc t).depth = 0 := by
    have := holds_one h1 (w := .api t) (fun e => hne (Who.api.inj e))
    rw [h] at this; exact this
  have h3 : take s.lock (.api t) = none := take_held h1 (fun e => hne (Who.api.inj e))
  have stay : ∀ p, s.pc t = p → s = { s with pc := upd s.pc t p, null := s.null } := by
    intro p hp
    rw [← hp, upd_id]
  unfold runT
  split <;> rename_i hp <;> rw [hp] at h2
  case h_1 => exact ⟨.idle, s.null, rfl, stay _ hp⟩
  case h_2 hh =>
    cases hh <;> first | (cases h2; done) | skip
    · refine ⟨_, s.null, ?_, rfl⟩
      dsimp only [hotStep]
      repeat' split
      all_goals first | rfl | (rename_i hx; cases hx; done) | skip
    · refine ⟨_, s.null, ?_, rfl⟩
      dsimp only [hotStep]
      repeat' split
      all_goals first | rfl | (rename_i hx; cases hx; done) | skip
    · refine ⟨.hot .lock, s.null, rfl, ?_⟩
      simp only [hotStep, h3]
      rfl
    · exact ⟨.idle, s.null, rfl, rfl⟩
  all_goals first | (cases h2; done) | exact absurd h2 (Nat.ne_of_gt (Up.depth_pos _)) | skip
  all_goals first
    | (unfold locked; rw [h3]; exact ⟨_, s.null, h2, stay _ hp⟩)
    | (refine ⟨_, _, ?_, rfl⟩
       repeat' split
       all_goals first | exact h2 | rfl | exact (startRet_depth _ _).trans h2)
    | skip
  rename_i o x
  cases x with
  | none => exact ⟨_, s.null, (initRet_depth _ _).trans h2, rfl⟩
  | some x =>
    refine ⟨_, s.null, ?_, rfl⟩
    split
    · exact h2
    · exact (initRet_depth _ _).trans h2

theorem here_startRet {s : St} {t : Nat} {o : Bool} (h : Outside s) : Here s t (startRet o false) := by cases o <;> exact h

theorem here_initRet {s : St} {t : Nat} {o : Bool} (h : Outside s) : Here s t (initRet o false) := by cases o <;> exact h

theorem off_chan {s : St} {t i j : Nat} {c : ChannelState} {p : Pc} (h : j ≠ i) :
    Off ({ s with chan := upd s.chan i c }.goto t p) j ↔ Off s j := by
  unfold Off
  simp only [St.goto, upd_ne _ _ h]

theorem some_chan {s : St} {t i j : Nat} {c : ChannelState} {p : Pc} {u : Up} (h : j ≠ i) :
    SomeAt ({ s with chan := upd s.chan i c }.goto t p) j u ↔ SomeAt s j u := by
  unfold SomeAt UpAt Fresh Live Off
  simp only [St.goto, upd_ne _ _ h]

/-- A step of a thread while no other thread that uses the API has the lock. -/
theorem Here.run {s : St} {t : Nat} (h : Here s t (s.pc t)) (hh : Hist s) (ht : s.terminate = false) (e : Env) :
    Here (runT s t e) t ((runT s t e).pc t) ∧ Hist (runT s t e) ∧ (runT s t e).terminate = false := by
  unfold runT
  split <;> rename_i hp <;> rw [hp] at h
  case h_1 => exact ⟨by rw [hp]; exact h, hh, ht⟩
  case h_2 x =>
    obtain ⟨a1, a2, a3, a4, a5, a6, a7, a8, _⟩ := hotStep_pc s (.api t) e x
    dsimp only
    rw [goto_pc]
    refine ⟨?_, ?_, a8.trans ht⟩
    · have : Outside (hotStep s (.api t) e x).2 := by
        unfold Outside UpAt Off Live
        rw [a2, a3, a4, a5, a6]
        exact h
      split <;> exact this
    · unfold Hist
      show ∃ l, Sessions _ (hotStep s (.api t) e x).2.done l ∧ match (hotStep s (.api t) e x).2.state with
        | .running | .closing => l = .running
        | .initing => l = .stopped
        | .uninit => l ≠ .running ∧ (l = .empty → (hotStep s (.api t) e x).2.size = 0)
      rw [a4, a5, a7]
      exact hh
  all_goals first
    | (unfold locked
       split
       · rw [goto_pc]
         exact ⟨h, hh, ht⟩
       · rw [hp]
         exact ⟨h, hh, ht⟩)
    | skip
  case h_3 o =>
    rw [goto_pc]
    refine ⟨?_, hh, ht⟩
    split
    · exact h
    · exact here_startRet h
  case h_4 o =>
    rw [goto_pc]
    refine ⟨?_, hh, ht⟩
    split
    · exact h
    · exact here_startRet h
  case h_6 o =>
    rw [goto_pc]
    refine ⟨?_, hh, ht⟩
    split
    · rename_i hs; exact ⟨h, hs⟩
    · exact h
  case h_7 o =>
    rw [goto_pc]
    refine ⟨?_, hh, ht⟩
    split
    · rename_i hs; exact ⟨h.1, h.2, hs⟩
    · exact h.1
  case h_8 o =>
    rw [goto_pc]
    obtain ⟨h1, h2, h3⟩ := h
    refine ⟨⟨rfl, Nat.zero_le _, fun j => ⟨fun k => absurd k (Nat.not_lt_zero _), fun _ => ?_⟩⟩, ?_, ht⟩
    · rcases h1 with h1 | h1
      · exact h1.2 j
      · rw [h2] at h1; cases h1.1
    · obtain ⟨l, hl, hm⟩ := hh
      rw [h2] at hm
      refine ⟨l, hl, ?_⟩
      cases l with
      | empty => exact absurd (hm.2 rfl) (Nat.ne_of_gt h3)
      | stopped => rfl
      | running => exact absurd rfl hm.1
  case h_9 o i =>
    obtain ⟨h1, h2, h3⟩ := h
    split
    · rename_i hi
      split
      · rename_i ha
        have hn := (h3 i).2 (Nat.le_refl _)
        rw [goto_pc]
        refine ⟨⟨h1, hi, ha, .inl ⟨hn.1, .inl (upd_same _ _ _)⟩, fun j => ⟨fun k => ?_, fun k => ?_⟩⟩, hh, ?_⟩
        · have := (h3 j).1 k
          unfold UpAt Live Off at this ⊢
          simp only [St.goto, upd_ne _ _ (Nat.ne_of_lt k)]
          exact this
        · have := (h3 j).2 (Nat.le_of_lt k)
          unfold Off at this ⊢
          simp only [St.goto, upd_ne _ _ (Nat.ne_of_gt k)]
          exact this
        · show (s.terminate || decide (s.worker i ≠ Worker.none)) = false
          rw [ht, hn.2]; rfl
      · rename_i ha
        have ha : s.async i = false := by simpa using ha
        have hn := (h3 i).2 (Nat.le_refl _)
        rw [goto_pc]
        refine ⟨⟨h1, hi, fun j => ⟨fun k => ?_, fun k => ?_⟩⟩, hh, ht⟩
        · by_cases hj : j = i
          · subst hj
            exact .inr (.inl ⟨hi, ha, upd_same _ _ _, hn.2⟩)
          · have := (h3 j).1 (by omega)
            unfold UpAt Live Off at this ⊢
            simp only [St.goto, upd_ne _ _ hj]
            exact this
        · have := (h3 j).2 (by omega)
          unfold Off at this ⊢
          simp only [St.goto, upd_ne _ _ (show j ≠ i by omega)]
          exact this
    · rename_i hi
      rw [goto_pc]
      refine ⟨⟨h1, fun j => ?_⟩, hh, ht⟩
      by_cases hj : j < s.size
      · exact (h3 j).1 (by omega)
      · exact .inr (.inr ⟨Nat.le_of_not_lt hj, (h3 j).2 (by omega)⟩)
  case h_10 o i n =>
    rw [goto_pc]
    refine ⟨?_, hh, ht⟩
    split <;> exact h
  case h_11 o i =>
    rw [goto_pc]
    refine ⟨?_, hh, ht⟩
    obtain ⟨h1, h2, h3, h4, h5⟩ := h
    split
    · refine ⟨h1, fun j => ⟨fun k => absurd k (Nat.not_lt_zero _), fun _ => ?_⟩⟩
      rcases Nat.lt_trichotomy j i with k | k | k
      · exact .inr (.inl ((h5 j).1 k))
      · subst k; exact .inr (.inr ⟨h2, h3, h4⟩)
      · exact .inl ((h5 j).2 k)
    · rename_i hc
      refine ⟨h1, h2, h3, ?_, h5⟩
      rcases h4 with h4 | h4
      · exact absurd h4.1 hc
      · exact h4
  case h_12 o i =>
    rw [goto_pc]
    refine ⟨?_, hh, ht⟩
    obtain ⟨h1, h2, h3, h4, h5⟩ := h
    split
    · refine ⟨h1, h2, fun j => ⟨fun k => ?_, fun k => (h5 j).2 k⟩⟩
      by_cases hj : j = i
      · subst hj; exact .inl ⟨h2, h3, h4⟩
      · exact (h5 j).1 (by omega)
    · rename_i hc
      exact absurd h4.1 hc
  case h_13 o =>
    rw [goto_pc]
    refine ⟨⟨.inr ⟨rfl, h.2⟩, by simp [St.goto]⟩, ?_, ht⟩
    obtain ⟨l, hl, hm⟩ := hh
    rw [h.1] at hm
    refine ⟨.running, .snoc hl ?_, rfl⟩
    have hm : l = .stopped := hm
    rw [hm]; exact .start t
  case h_14 o =>
    rw [goto_pc]
    refine ⟨.inl ⟨rfl, h.2⟩, ?_, ht⟩
    obtain ⟨l, hl, hm⟩ := hh
    rw [h.1] at hm
    have hm : l = .stopped := hm
    exact ⟨l, hl, by rw [hm]; exact ⟨nofun, nofun⟩⟩
  case h_15 o ok =>
    rw [goto_pc]
    refine ⟨?_, hh, ht⟩
    cases ok
    · exact here_startRet h
    · cases o
      · exact h.1
      · exact h
  case h_16 =>
    rw [goto_pc]
    refine ⟨?_, hh, ht⟩
    split <;> exact h
  case h_17 =>
    rw [goto_pc]
    refine ⟨?_, hh, ht⟩
    split <;> exact h
  case h_19 =>
    rw [goto_pc]
    refine ⟨?_, hh, ht⟩
    split
    · rename_i hs; exact ⟨h, hs⟩
    · exact h
  case h_20 =>
    rw [goto_pc]
    obtain ⟨h1, h2⟩ := h
    refine ⟨⟨rfl, fun j => ⟨fun k => absurd k (Nat.not_lt_zero _), fun _ => ?_⟩⟩, ?_, ht⟩
    · rcases h1 with h1 | h1
      · rw [h2] at h1; cases h1.1
      · exact h1.2 j
    · obtain ⟨l, hl, hm⟩ := hh
      rw [h2] at hm
      exact ⟨l, hl, hm⟩
  case h_21 =>
    rw [goto_pc]
    refine ⟨⟨.inl ⟨rfl, h.2⟩, by simp [St.goto]⟩, ?_, ht⟩
    obtain ⟨l, hl, hm⟩ := hh
    rw [h.1] at hm
    have hm : l = .running := hm
    exact ⟨.stopped, .snoc hl (by rw [hm]; exact .stop t), nofun, nofun⟩
  case h_22 ok =>
    rw [goto_pc]
    refine ⟨?_, hh, ht⟩
    cases ok
    · exact h
    · exact h.1
  case h_23 u i =>
    obtain ⟨h1, h2⟩ := h
    split
    · rename_i hi
      split
      · rename_i ha
        rw [goto_pc]
        refine ⟨?_, hh, ht⟩
        split
        · rename_i hw
          exact ⟨h1, hi, ha, hw, fun j => ⟨(h2 j).1, fun k => (h2 j).2 (by omega)⟩⟩
        · rename_i hw
          exact ⟨h1, hi, ha, hw, h2⟩
      · rename_i ha
        rw [goto_pc]
        refine ⟨⟨h1, fun j => ⟨fun k => ?_, fun k => ?_⟩⟩, hh, ht⟩
        · by_cases hj : j = i
          · subst hj
            refine ⟨upd_same _ _ _, ?_⟩
            show s.worker j = .none
            have := (h2 j).2 (Nat.le_refl _)
            have up : UpAt s j → s.worker j = .none := by
              intro this
              rcases this with q | q | q
              · exact absurd q.2.1 ha
              · exact q.2.2.2
              · exact q.2.2
            cases u with
            | stop => exact up this
            | start o =>
              rcases this with q | q | q
              · exact q.2
              · exact up q
              · exact absurd q.2.1 ha
          · exact (off_chan hj).2 ((h2 j).1 (by omega))
        · exact (some_chan (show j ≠ i by omega)).2 ((h2 j).2 (by omega))
    · rename_i hi
      rw [goto_pc]
      refine ⟨?_, hh, ht⟩
      have off : ∀ j, Off s j := by
        intro j
        by_cases hj : j < i
        · exact (h2 j).1 hj
        · have := (h2 j).2 (by omega)
          have up : UpAt s j → Off s j := by
            intro this
            rcases this with q | q | q
            · exact absurd q.1 (by omega)
            · exact absurd q.1 (by omega)
            · exact q.2
          cases u with
          | stop => exact up this
          | start o =>
            rcases this with q | q | q
            · exact q
            · exact up q
            · exact absurd q.1 (by omega)
      cases u
      · exact ⟨h1, off⟩
      · exact ⟨h1, off⟩
  case h_24 u i =>
    obtain ⟨h1, h2, h3, h4, h5⟩ := h
    rw [goto_pc]
    refine ⟨?_, hh, ht⟩
    have hs := (h5 i).2 (Nat.le_refl _)
    have up : UpAt s i → Live s i := by
      intro this
      rcases this with q | q | q
      · exact q.2.2
      · exact absurd q.2.2.2 h4
      · exact absurd q.2.2 h4
    have fr : Fresh s i := by
      cases u with
      | stop => exact .inr (up hs)
      | start o =>
        rcases hs with q | q | q
        · exact absurd q.2 h4
        · exact .inr (up q)
        · exact q.2.2
    split
    · rename_i hc
      refine ⟨h1, h2, h3, ?_, fun j => ⟨(h5 j).1, fun k => (h5 j).2 (by omega)⟩⟩
      rcases fr with q | q
      · rw [hc] at q; cases q.1
      · exact q
    · rename_i hc
      refine ⟨h1, h2, h3, .inr ⟨?_, fr⟩, fun j => ⟨(h5 j).1, fun k => (h5 j).2 (by omega)⟩⟩
      rintro rfl
      exact hc (up hs).1
  case h_25 u i =>
    obtain ⟨h1, h2, h3, h4, h5⟩ := h
    rw [goto_pc]
    refine ⟨⟨h1, h2, h3, .inl (.inl ⟨upd_same _ _ _, .inl h4.2⟩), fun j => ⟨fun k => ?_, fun k => ?_⟩⟩, hh, ht⟩
    · exact (off_chan (show j ≠ i by omega)).2 ((h5 j).1 k)
    · exact (some_chan (show j ≠ i by omega)).2 ((h5 j).2 k)
  case h_26 u i =>
    obtain ⟨h1, h2, h3, h4, h5⟩ := h
    split
    · rename_i hw
      rw [goto_pc]
      refine ⟨⟨h1, h2, h3, upd_same _ _ _, fun j => ⟨fun k => ?_, fun k => ?_⟩⟩, hh, ht⟩
      · have := (h5 j).1 k
        unfold Off at this ⊢
        simp only [St.goto, upd_ne _ _ (show j ≠ i by omega)]
        exact this
      · have := (h5 j).2 k
        unfold SomeAt UpAt Fresh Live Off at this ⊢
        simp only [St.goto, upd_ne _ _ (show j ≠ i by omega)]
        exact this
    · rw [hp]
      exact ⟨⟨h1, h2, h3, h4, h5⟩, hh, ht⟩
  case h_27 u i =>
    obtain ⟨h1, h2, h3, h4, h5⟩ := h
    rw [goto_pc]
    refine ⟨⟨h1, fun j => ⟨fun k => ?_, fun k => ?_⟩⟩, hh, ht⟩
    · by_cases hj : j = i
      · subst hj
        exact ⟨upd_same _ _ _, h4⟩
      · exact (off_chan hj).2 ((h5 j).1 (by omega))
    · exact (some_chan (show j ≠ i by omega)).2 ((h5 j).2 k)
  case h_28 o x =>
    cases x with
    | none =>
      dsimp only
      rw [goto_pc]
      exact ⟨here_initRet h, hh, ht⟩
    | some x =>
      dsimp only
      rw [goto_pc]
      refine ⟨?_, hh, ht⟩
      split
      · exact h
      · exact here_initRet h
  case h_30 o x =>
    rw [goto_pc]
    refine ⟨?_, hh, ht⟩
    split
    · rename_i hs; exact ⟨h, hs⟩
    · exact h
  case h_31 o x =>
    obtain ⟨h1, h2⟩ := h
    have off : ∀ j, Off s j := by
      rcases h1 with h1 | h1
      · exact h1.2
      · rw [h2] at h1; cases h1.1
    obtain ⟨l, hl, hm⟩ := hh
    rw [h2] at hm
    split
    · rw [goto_pc]
      by_cases hx : 0 < x.size
      · simp only [if_pos hx, decide_eq_true hx]
        refine ⟨⟨.inl ⟨h2, fun j => ⟨rfl, (off j).2⟩⟩, by simp [St.goto]⟩, ⟨.stopped, .snoc hl ?_, ?_⟩, ht⟩
        · cases l with
          | empty => exact .load t
          | stopped => exact .reload t
          | running => exact absurd rfl hm.1
        · show match s.state with | .running | .closing => _ | .initing => _ | .uninit => _
          rw [h2]
          exact ⟨nofun, nofun⟩
      · simp only [if_neg hx, decide_eq_false hx]
        refine ⟨.inl ⟨h2, fun j => ⟨rfl, (off j).2⟩⟩, ⟨l, hl, ?_⟩, ht⟩
        show match s.state with | .running | .closing => _ | .initing => _ | .uninit => _
        rw [h2]
        exact ⟨hm.1, fun _ => by show x.size = 0; omega⟩
    · rw [goto_pc]
      refine ⟨.inl ⟨h2, off⟩, ⟨l, hl, ?_⟩, ht⟩
      show match s.state with | .running | .closing => _ | .initing => _ | .uninit => _
      rw [h2]
      exact hm
  case h_32 o ok =>
    rw [goto_pc]
    refine ⟨?_, hh, ht⟩
    cases ok
    · exact here_initRet h
    · cases o
      · exact h.1
      · exact h.1
  case h_33 p x =>
    rw [goto_pc]
    refine ⟨?_, hh, ht⟩
    split <;> exact h
  case h_34 p x =>
    unfold locked
    split
    · rw [goto_pc]
      refine ⟨?_, hh, ht⟩
      cases p <;> exact h
    · rw [hp]
      exact ⟨h, hh, ht⟩
  case h_35 x =>
    rw [goto_pc]
    refine ⟨?_, hh, ht⟩
    split <;> exact h
  case h_36 ok =>
    rw [goto_pc]
    refine ⟨?_, hh, ht⟩
    cases ok
    · exact h
    · exact h.1

theorem run_pc_other (s : St) {t v : Nat} (e : Env) (h : v ≠ t) : (runT s t e).pc v = s.pc v := by
  have g : ∀ (s' : St) p, s'.pc = s.pc → (s'.goto t p).pc v = s.pc v := fun s' p hs => by rw [goto_pc_ne _ _ h, hs]
  unfold runT
  split
  case h_2 x _ => exact g _ _ (hotStep_pc s (.api t) e x).1
  case h_28 => split <;> exact g _ _ rfl
  all_goals first
    | rfl
    | exact g _ _ rfl
    | (unfold locked; split <;> first | exact g _ _ rfl | rfl)
    | (repeat' split
       all_goals first | exact g _ _ rfl | rfl)

theorem Inv.runT {s : St} (h : Inv s) (t : Nat) (e : Env) : Inv (runT s t e) := by
  by_cases hu : ∃ u, u ≠ t ∧ 0 < (s.pc u).depth
  · obtain ⟨u, hne, hu⟩ := hu
    obtain ⟨p, n, hd, he⟩ := quiet h.lock hne hu e
    have hl : LockInv (Api.runT s t e) := by
      refine h.lock.runT t e (fun o i hp _ _ => ?_)
      have := holds_one (l := s.lock) (v := .api u) (w := .api t) (by rw [h.lock]; exact hu) (fun e => hne (Who.api.inj e))
      rw [h.lock] at this
      have : (s.pc t).depth = 0 := this
      rw [hp] at this
      cases this
    rw [he] at hl ⊢
    refine ⟨hl, fun v hv => ?_, fun hv => ?_, h.term, h.hist⟩
    · by_cases hvt : v = t
      · subst hvt
        exfalso
        dsimp only at hv
        rw [upd_same, hd] at hv
        omega
      · dsimp only at hv ⊢
        rw [upd_ne _ _ hvt] at hv ⊢
        exact h.here v hv
    · exfalso
      have := hv u
      dsimp only at this
      rw [upd_ne _ _ hne] at this
      omega
  · have hz : ∀ u, u ≠ t → (s.pc u).depth = 0 := fun u hne => Nat.eq_zero_of_not_pos (fun k => hu ⟨u, hne, k⟩)
    have hk : Here s t (s.pc t) := by
      by_cases hd : 0 < (s.pc t).depth
      · exact h.here t hd
      · refine (here_outside (by omega)).2 (h.outside (fun v => ?_))
        by_cases hv : v = t
        · subst hv; omega
        · exact hz v hv
    obtain ⟨k1, k2, k3⟩ := hk.run h.hist h.term e
    refine ⟨h.lock.runT t e (fun o i hp _ _ => ?_), fun v hv => ?_, fun hv => ?_, k3, k2⟩
    · rw [hp] at hk
      exact ((hk.2.2 i).2 (Nat.le_refl _)).2
    · by_cases hvt : v = t
      · subst hvt; exact k1
      · rw [run_pc_other _ _ hvt] at hv
        have := hz v hvt
        omega
    · exact (here_outside (hv t)).1 k1

theorem call_depth (c : Call) : c.pc.depth = 0 := by cases c <;> rfl

theorem Inv.step {s : St} (h : Inv s) (e : Ev) : Inv (step s e) := by
  cases e with
  | run t e => exact h.runT t e
  | work i e => exact h.workI i e
  | call t c =>
    unfold Api.step
    dsimp only
    split
    · rename_i hp
      have hl : LockInv (s.goto t c.pc) := h.lock.plain rfl rfl (fun _ => rfl) (by rw [hp, call_depth]; rfl)
      have hd : ∀ v, ((s.goto t c.pc).pc v).depth = (s.pc v).depth := by
        intro v
        by_cases hv : v = t
        · subst hv; rw [goto_pc, hp, call_depth]; rfl
        · rw [goto_pc_ne _ _ hv]
      refine ⟨hl, fun v hv => ?_, fun hv => ?_, h.term, h.hist⟩
      · by_cases hvt : v = t
        · subst hvt
          rw [goto_pc, call_depth] at hv
          omega
        · rw [goto_pc_ne _ _ hvt] at hv ⊢
          exact h.here v hv
      · exact h.outside (fun v => (hd v).symm.trans (hv v))
    · exact h

theorem Inv.init : Inv {} := by
  refine ⟨fun w => ?_, fun t ht => ?_, fun _ => .inl ⟨rfl, fun j => ⟨rfl, rfl⟩⟩, rfl, ⟨.empty, .nil _, nofun, fun _ => rfl⟩⟩
  · cases w <;> rfl
  · exact absurd ht (Nat.not_lt_zero _)

theorem Inv.run {s : St} (h : Inv s) (es : List Ev) : Inv (run s es) := by
  induction es generalizing s with
  | nil => exact h
  | cons e es ih => exact ih (h.step e)

theorem inv (es : List Ev) : Inv (Api.run {} es) := Inv.init.run es

/-- What holds between the states of the logger, the channels and the threads. -/
theorem Inv.threads {s : St} (h : Inv s) : s.terminate = false ∧
    (s.state = .running → ∀ i, i < s.size → s.chan i = .running ∧
      (s.async i = true → s.worker i ≠ .none ∧ s.worker i ≠ .ended)) ∧
    (s.state = .uninit → ∀ i, s.chan i = .null ∧ s.worker i = .none) := by
  have out : s.state ≠ .initing → s.state ≠ .closing → Outside s := by
    intro h1 h2
    by_cases hd : ∃ t, 0 < (s.pc t).depth
    · obtain ⟨t, ht⟩ := hd
      have hh := h.here t ht
      generalize s.pc t = p at hh
      have hu : ∀ u : Up, s.state ≠ u.state := by intro u; cases u <;> assumption
      cases p <;> first
        | exact hh
        | exact hh.1
        | exact absurd hh.1 h1
        | exact absurd hh.1 h2
        | exact absurd hh.1 (hu _)
        | (rename_i b; cases b <;> first | exact hh | exact hh.1)
    · exact h.outside (fun t => Nat.eq_zero_of_not_pos (fun k => hd ⟨t, k⟩))
  refine ⟨h.term, fun hs i hi => ?_, fun hs i => ?_⟩
  · rcases out (by rw [hs]; nofun) (by rw [hs]; nofun) with k | k
    · rw [hs] at k; cases k.1
    · rcases k.2 i with q | q | q
      · refine ⟨q.2.2.1, fun _ => ⟨fun e => ?_, fun e => ?_⟩⟩
        · have := q.2.2.2; rw [e] at this; exact this
        · have := q.2.2.2; rw [e] at this; exact this
      · exact ⟨q.2.2.1, fun ha => absurd (ha.symm.trans q.2.1) (fun e => Bool.noConfusion e)⟩
      · omega
  · rcases out (by rw [hs]; nofun) (by rw [hs]; nofun) with k | k
    · exact k.2 i
    · rw [hs] at k; cases k.1

end FNLog.Api
