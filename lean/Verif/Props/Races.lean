import Verif.Proof.Api
import Verif.Proof.KernelRfl
import Verif.Spec.Races

/-!
# Property theorem C107: data races of the life cycle

`logger_state_`, `channel_state_`, `hot_update_`, `shm_` and `async_threads` are plain variables.
-/

namespace FNLog
open Spec Api Ring

theorem hot_same (s : Api.St) (w : Who) (e : Env) (h : Hot) (v : Var) (hv : ¬ hotWrites h v) :
    Same s (hotStep s w e h).2 v := by
  cases h <;> cases v <;> simp_all [hotWrites, hotStep, Same] <;> (repeat' split) <;> simp_all

theorem upd_ne' {β : Type} (f : Nat → β) {i j : Nat} (x : β) (h : ¬ i = j) : upd f i x j = f j := upd_ne f x fun e => h e.symm

/-- The accesses of `Spec/Races` are those of the model: what a step does not write it does not change. -/
theorem C107_writes_listed (s : Api.St) (e : Env) (w : Who) (v : Var) (h : ¬ Writes s v w) : Same s (stepOf s e w) v := by
  cases w with
  | api t =>
    simp only [Writes] at h
    simp only [stepOf, runT]
    cases hp : s.pc t <;> rw [hp] at h
    case hot x =>
      have := hot_same s (.api t) e x v h
      cases v <;> exact this
    all_goals dsimp only
    all_goals cases v <;> simp only [pcWrites, not_true_eq_false] at h
    all_goals (try unfold locked) <;> (repeat' split) <;> first
      | (simp only [Same, St.goto, and_self]; done)
      | (simp_all [Same, St.goto, upd_ne']; done)
  | worker i =>
    simp only [Writes] at h
    cases v with
    | thread j =>
      exact ⟨fun hn => none_work hn i e, fun hn => Classical.byContradiction fun hx => some_work hx i e hn⟩
    | _ =>
      simp only [stepOf, workI]
      cases hp : s.worker i <;> rw [hp] at h
      case hot x => exact hot_same s (.worker i) e x _ h
      all_goals simp only [workWrites] at h
      all_goals first
        | (simp only [Same, and_self]; done)
        | (simp_all [Same, upd_ne']; done)

theorem hot_next {a b : Api.St} {w : Who} {e : Env} {x : Hot} (hl : a.lock = b.lock)
    (h1 : hotReads x .state → a.state = b.state) (h3 : hotReads x .hot → a.hot = b.hot) :
    (hotStep a w e x).1 = (hotStep b w e x).1 := by
  cases x
  case lock =>
    simp only [hotStep]
    rw [hl]
    split <;> rfl
  all_goals simp_all [hotReads, hotStep]

/-- And where a thread goes on depends on nothing but what the step reads, the answers of the environment, the lock, and whether the
thread it joins has ended. -/
theorem C107_reads_listed (a b : Api.St) (e : Env) (t : Nat) (hp : a.pc t = b.pc t) (hl : a.lock = b.lock)
    (hw : ∀ i, a.worker i = .ended ↔ b.worker i = .ended) (h : ∀ v, Reads a v (.api t) → Same a b v) :
    (runT a t e).pc t = (runT b t e).pc t := by
  have h1 := h .state
  have h2 := h .shm
  have h3 := h .hot
  have h4 := fun i => h (.chan i)
  have h5 := fun i => h (.thread i)
  clear h
  simp only [Reads, Same] at h1 h2 h3 h4 h5
  cases hq : a.pc t
  case hot x =>
    have hq' := hp.symm.trans hq
    rw [hq] at h1 h3
    simp only [runT, hq, hq', goto_pc]
    rw [hot_next (b := b) hl h1 h3]
  all_goals
    have hq' := hp.symm.trans hq
    rw [hq] at h1 h2 h3 h4 h5
    simp only [pcReads, true_implies, false_implies] at h1 h2 h3 h4 h5
    simp only [runT, hq, hq', goto_pc]
  all_goals try
    unfold locked
    rw [hl]
    split <;> simp only [goto_pc, hq, hq']
    done
  all_goals try
    (repeat' split) <;> simp_all [goto_pc]
    done

/-- The same for the thread of a channel. -/
theorem C107_work_reads_listed (a b : Api.St) (e : Env) (i : Nat) (hp : a.worker i = b.worker i) (hl : a.lock = b.lock)
    (h : ∀ v, Reads a v (.worker i) → Same a b v) : (workI a i e).worker i = (workI b i e).worker i := by
  have h1 := h .state
  have h3 := h .hot
  have h4 := h (.chan i)
  clear h
  simp only [Reads, Same] at h1 h3 h4
  cases hq : a.worker i
  case hot x =>
    have hq' := hp.symm.trans hq
    rw [hq] at h1 h3
    simp only [workI, hq, hq', upd_same]
    rw [hot_next (b := b) hl h1 h3]
  all_goals
    have hq' := hp.symm.trans hq
    rw [hq] at h4
    simp only [workReads, true_implies, false_implies] at h4
    simp only [workI, hq, hq', upd_same]
  all_goals simp_all

/-! ## What does not race -/

theorem pcWrites_depth {s : Api.St} {p : Pc} {v : Var} (h : pcWrites s p v) : 0 < p.depth := by
  cases p
  case hot x => cases x <;> cases v <;> first | exact Nat.one_pos | exact h.elim
  all_goals cases v <;> first
    | exact Nat.succ_pos _
    | exact Up.depth_pos _
    | exact h.elim

theorem workWrites_depth {i : Nat} {x : Worker} {v : Var} (hv : ∀ j, v ≠ .chan j) (h : workWrites i x v) : 0 < x.depth := by
  cases x
  case hot x => cases x <;> cases v <;> first | exact Nat.one_pos | exact h.elim
  all_goals cases v <;> first
    | exact (hv _ rfl).elim
    | exact h.elim

theorem owner {s : Api.St} (h : LockInv s) {w : Who} (hd : 0 < s.depth w) : ∃ n, s.lock = some (w, n) := by
  have hw := h w
  unfold holds at hw
  split at hw
  · omega
  · rename_i v n _
    by_cases hv : v = w
    · subst hv; exact ⟨_, by assumption⟩
    · rw [if_neg hv] at hw; omega

/-- **C107.** All writes to `logger_state_`, `shm_`, `hot_update_` and the objects of threads are made by the owner of the lock. -/
theorem C107_locked (es : List Api.Ev) {v : Var} (hv : ∀ j, v ≠ .chan j) {w : Who} (h : Writes (Api.run {} es) v w) :
    ∃ n, (Api.run {} es).lock = some (w, n) := by
  refine owner (Api.inv es).lock ?_
  cases w with
  | api t => exact pcWrites_depth h
  | worker i => exact workWrites_depth hv h

theorem one_owner {s : Api.St} (h : LockInv s) {w r : Who} (hne : w ≠ r) (hw : 0 < s.depth w) (hr : 0 < s.depth r) : False := by
  have h1 := holds_one (v := w) (w := r) (by rw [h]; exact hw) hne
  rw [h] at h1
  omega

/-- The thread of channel `i` sets its state: nobody else does. -/
theorem setting {s : Api.St} (h : Api.Inv s) {i t : Nat} (hi : workWrites i (s.worker i) (.chan i))
    (ht : pcWrites s (s.pc t) (.chan i)) : False := by
  have hh := h.here t (pcWrites_depth ht)
  have hb : ¬ (s.worker i).Body ∧ s.worker i ≠ .none := by
    cases hx : s.worker i with
    | hot x => rw [hx] at hi; cases x <;> exact hi.elim
    | _ => rw [hx] at hi; first | exact hi.elim | exact ⟨id, nofun⟩
  have hoff : ¬ Off s i := fun hx => hb.2 hx.2
  have hlive : ¬ Live s i := fun hx => hb.1 hx.2
  have hup : UpAt s i → False := by
    rintro (k | k | k)
    · exact hlive k.2.2
    · exact hb.2 k.2.2.2
    · exact hoff k.2
  generalize hp : s.pc t = p at hh ht
  cases p
  case hot x => cases x <;> exact ht.elim
  case stChan o j =>
    obtain ⟨rfl, _, _⟩ := ht
    exact hoff ((hh.2.2 j).2 (Nat.le_refl _))
  case scChan u j =>
    obtain ⟨rfl, _, ha⟩ := ht
    have := (hh.2 j).2 (Nat.le_refl _)
    cases u
    · exact hup this
    · rcases this with k | k | k
      · exact hoff k
      · exact hup k
      · rw [ha] at k; exact absurd k.2.1 nofun
  case scMark u j =>
    obtain rfl : j = i := ht
    exact hlive hh.2.2.2.1
  case scNull u j =>
    obtain rfl : j = i := ht
    exact hb.2 hh.2.2.2.1
  case inLoad o x =>
    rcases hh.1 with k | k
    · exact hoff (k.2 i)
    · have := hh.2; rw [k.1] at this; cases this
  all_goals exact ht.elim

/-- **C107.** Two threads are never about to write the same variable. -/
theorem C107_writes (es : List Api.Ev) (v : Var) {w r : Who} (hw : Writes (Api.run {} es) v w) (hr : Writes (Api.run {} es) v r) :
    w = r := by
  have h := Api.inv es
  generalize Api.run {} es = s at h hw hr
  refine Classical.byContradiction fun hne => ?_
  have hwork : ∀ {i : Nat}, Writes s v (.worker i) → (∀ j, v ≠ .chan j) ∨ v = .chan i := by
    intro i hx
    cases v with
    | chan j =>
      right
      simp only [Writes] at hx
      cases hq : s.worker i <;> rw [hq] at hx
      case hot x => cases x <;> exact hx.elim
      case run => obtain rfl : i = j := hx; rfl
      case leave => obtain rfl : i = j := hx; rfl
      all_goals exact hx.elim
    | _ => exact Or.inl nofun
  cases w with
  | api t =>
    cases r with
    | api u => exact one_owner h.lock hne (pcWrites_depth hw) (pcWrites_depth hr)
    | worker i =>
      rcases hwork hr with k | rfl
      · exact one_owner h.lock hne (pcWrites_depth hw) (workWrites_depth k hr)
      · exact setting h hr hw
  | worker i =>
    cases r with
    | api u =>
      rcases hwork hw with k | rfl
      · exact one_owner h.lock hne (workWrites_depth k hw) (pcWrites_depth hr)
      · exact setting h hw hr
    | worker j =>
      rcases hwork hw with k | rfl
      · exact one_owner h.lock hne (workWrites_depth k hw) (workWrites_depth k hr)
      · rcases hwork hr with k | k
        · exact k i rfl
        · cases k; exact hne rfl

theorem none_chan {p : Pc} {s : Api.St} {j : Nat} (h : pcReads s p (.chan j)) : 0 < p.depth := by
  cases p
  case hot x => cases x <;> exact h.elim
  all_goals first
    | exact Nat.succ_pos _
    | exact Up.depth_pos _
    | exact h.elim

theorem reads_thread {p : Pc} {s : Api.St} {j : Nat} (h : pcReads s p (.thread j)) : 0 < p.depth := by
  cases p
  case hot x => cases x <;> exact h.elim
  all_goals first
    | exact Up.depth_pos _
    | exact h.elim

/-- **C107**: where the races are.  A race is between a write and a read, and either on the state of a channel, between its thread and
a thread that starts or stops it, or on `logger_state_`, `shm_` or `hot_update_`, the read being made without the lock.  The
objects of threads are not raced for, and the thread of a channel does not race for `shm_`. -/
theorem C107_where_partial (es : List Api.Ev) {v : Var} {w r : Who} (h : Race (Api.run {} es) v w r) :
    Reads (Api.run {} es) v r ∧
    ((∃ i, v = .chan i ∧ (w = .worker i ∨ r = .worker i)) ∨
      ((v = .state ∨ v = .hot ∨ (v = .shm ∧ ∃ t, r = .api t)) ∧ ∀ n, (Api.run {} es).lock ≠ some (r, n))) := by
  obtain ⟨hne, hw, hr⟩ := h
  have hr : Reads (Api.run {} es) v r := by
    rcases hr with hr | hr
    · exact hr
    · exact absurd (C107_writes es v hw hr) hne
  refine ⟨hr, ?_⟩
  have hl := (Api.inv es).lock
  by_cases hc : ∃ i, v = .chan i
  · left
    obtain ⟨i, rfl⟩ := hc
    refine ⟨i, rfl, ?_⟩
    cases w with
    | worker j =>
      left
      simp only [Writes] at hw
      cases hq : (Api.run {} es).worker j <;> rw [hq] at hw
      case hot x => cases x <;> exact hw.elim
      case run => obtain rfl : j = i := hw; rfl
      case leave => obtain rfl : j = i := hw; rfl
      all_goals exact hw.elim
    | api t =>
      right
      cases r with
      | api u => exact (one_owner hl hne (pcWrites_depth hw) (none_chan hr)).elim
      | worker j =>
        simp only [Reads] at hr
        cases hq : (Api.run {} es).worker j <;> rw [hq] at hr
        case hot x => cases x <;> exact hr.elim
        case queue => obtain rfl : j = i := hr; rfl
        case check => obtain rfl : j = i := hr; rfl
        all_goals exact hr.elim
  · right
    obtain ⟨n, hn⟩ := C107_locked es (fun i e => hc ⟨i, e⟩) hw
    refine ⟨?_, fun m hm => ?_⟩
    · cases v with
      | state => exact Or.inl rfl
      | hot => exact Or.inr (Or.inl rfl)
      | chan i => exact absurd ⟨i, rfl⟩ hc
      | shm =>
        refine Or.inr (Or.inr ⟨rfl, ?_⟩)
        cases r with
        | api t => exact ⟨t, rfl⟩
        | worker i =>
          exfalso
          cases w with
          | worker j =>
            simp only [Writes] at hw
            cases hq : (Api.run {} es).worker j <;> rw [hq] at hw
            case hot x => cases x <;> exact hw.elim
            all_goals exact hw.elim
          | api t =>
            have hh := (Api.inv es).here t (pcWrites_depth hw)
            have hz : (Api.run {} es).worker i ≠ .none := by
              intro hz
              simp only [Reads, hz] at hr
              exact hr
            simp only [Writes] at hw
            cases hp : (Api.run {} es).pc t <;> rw [hp] at hw hh
            case hot x => cases x <;> exact hw.elim
            case inLoad o x =>
              rcases hh.1 with k | k
              · exact hz (k.2 i).2
              · have := hh.2; rw [k.1] at this; cases this
            all_goals exact hw.elim
      | thread i =>
        exfalso
        cases r with
        | worker j =>
          simp only [Reads] at hr
          cases hq : (Api.run {} es).worker j <;> rw [hq] at hr
          case hot x => cases x <;> exact hr.elim
          all_goals exact hr.elim
        | api u =>
          have h1 : 0 < (Api.run {} es).depth (.api u) := reads_thread hr
          rw [← hl, hn] at h1
          unfold holds at h1
          simp only [if_neg hne] at h1
          omega
    · rw [hn] at hm
      exact hne (Prod.mk.inj (Option.some.inj hm)).1

/-! ## One thread for the life cycle -/

def coldHot : Hot → Prop
  | .enter | .done => True
  | _ => False

def coldPc : Pc → Prop
  | .hot h => coldHot h
  | .inState _ x | .whState _ x | .whLock _ x | .whState2 x => ∀ c, x = some c → c.hot = false
  | .inLock _ x | .inState2 _ x | .inLoad _ x => x.hot = false
  | _ => True

def coldWorker : Worker → Prop
  | .hot h => coldHot h
  | _ => True

structure ColdInv (s : Api.St) : Prop where
  hot : s.hot = false
  idle : ∀ t, t ≠ 0 → s.pc t = .idle
  pc : coldPc (s.pc 0)
  worker : ∀ i, coldWorker (s.worker i)

theorem ColdInv.goto {s s' : Api.St} (h : ColdInv s) {p : Pc} (hh : s'.hot = false) (hp : s'.pc = s.pc)
    (hw : ∀ i, coldWorker (s'.worker i)) (hc : coldPc p) : ColdInv (s'.goto 0 p) :=
  ⟨hh, fun t ht => by rw [goto_pc_ne _ _ ht, hp]; exact h.idle t ht, by rw [goto_pc]; exact hc, hw⟩

theorem coldHot_step {s : Api.St} {w : Who} {e : Env} {x : Hot} (h : s.hot = false) (hx : coldHot x) :
    hotStep s w e x = (.done, s) := by
  cases x <;> first | exact hx.elim | simp [hotStep, h]

theorem coldPc_startRet (o ok : Bool) : coldPc (startRet o ok) := by cases o <;> trivial
theorem coldPc_initRet (o ok : Bool) : coldPc (initRet o ok) := by cases o <;> cases ok <;> trivial
theorem coldPc_chansRet (u : Up) : coldPc (chansRet u) := by cases u <;> trivial

theorem ColdInv.step {s : Api.St} (h : ColdInv s) {e : Api.Ev} (he : Alone e) : ColdInv (Api.step s e) := by
  cases e with
  | call t c =>
    obtain ⟨rfl, hc⟩ := he
    simp only [Api.step]
    split
    · refine h.goto h.hot rfl h.worker ?_
      cases c <;> first | exact hc | trivial
    · exact h
  | work i e =>
    simp only [Api.step, workI]
    have hw := h.worker i
    have key : ∀ (s' : Api.St) (x : Worker), s'.hot = s.hot → s'.pc = s.pc → s'.worker = upd s.worker i x → coldWorker x →
        ColdInv s' := by
      intro s' x h1 h2 h3 h4
      refine ⟨h1.trans h.hot, by rw [h2]; exact h.idle, by rw [h2]; exact h.pc, fun j => ?_⟩
      rw [h3]
      by_cases hj : j = i
      · subst hj; rw [upd_same]; exact h4
      · rw [upd_ne _ _ hj]; exact h.worker j
    split
    · exact h
    · refine key _ _ rfl rfl rfl ?_
      split <;> trivial
    · exact key _ _ rfl rfl rfl trivial
    · rename_i x hx
      rw [hx] at hw
      rw [coldHot_step h.hot hw]
      exact key _ _ rfl rfl rfl trivial
    · refine key _ _ rfl rfl rfl ?_
      split <;> trivial
    · exact key _ _ rfl rfl rfl trivial
    · exact h
  | run t e =>
    by_cases ht : t = 0
    · subst ht
      simp only [Api.step, runT]
      have hp := h.pc
      cases hq : s.pc 0 <;> rw [hq] at hp
      case hot x =>
        dsimp only
        rw [coldHot_step h.hot hp]
        exact h.goto h.hot rfl h.worker trivial
      all_goals dsimp only
      case stChan o i =>
        split
        · split
          · refine h.goto h.hot rfl (fun j => ?_) trivial
            show coldWorker (upd s.worker i .queue j)
            by_cases hj : j = i
            · subst hj; rw [upd_same]; trivial
            · rw [upd_ne _ _ hj]; exact h.worker j
          · exact h.goto h.hot rfl h.worker trivial
        · exact h.goto h.hot rfl h.worker trivial
      case scJoin u i =>
        split
        · refine h.goto h.hot rfl (fun j => ?_) trivial
          show coldWorker (upd s.worker i .none j)
          by_cases hj : j = i
          · subst hj; rw [upd_same]; trivial
          · rw [upd_ne _ _ hj]; exact h.worker j
        · exact h
      case inLoad o x =>
        split
        · exact h.goto hp rfl h.worker trivial
        · exact h.goto hp rfl h.worker trivial
      all_goals (try unfold locked) <;> (repeat' split) <;> first
        | exact h
        | exact h.goto h.hot rfl h.worker trivial
        | exact h.goto h.hot rfl h.worker hp
        | exact h.goto h.hot rfl h.worker (hp _ rfl)
        | exact h.goto h.hot rfl h.worker (coldPc_startRet _ _)
        | exact h.goto h.hot rfl h.worker (coldPc_initRet _ _)
        | exact h.goto h.hot rfl h.worker (coldPc_chansRet _)
    · simp only [Api.step, runT, h.idle t ht]
      exact h

/-- **C107**: if one thread only does starting, stopping and loading, and no hot update is configured, then the only races are those on
the state of a channel, between this thread and the thread of the channel. -/
theorem C107_single_partial {es : List Api.Ev} (he : ∀ e ∈ es, Alone e) {v : Var} {w r : Who} (h : Race (Api.run {} es) v w r) :
    ∃ i, v = .chan i ∧ ((w = .worker i ∧ r = .api 0) ∨ (w = .api 0 ∧ r = .worker i)) := by
  have hcold : ColdInv (Api.run {} es) := by
    have : ∀ (es : List Api.Ev) (s : Api.St), (∀ e ∈ es, Alone e) → ColdInv s → ColdInv (Api.run s es) := by
      intro es
      induction es with
      | nil => intro s _ h; exact h
      | cons e es ih =>
        intro s he h
        exact ih _ (fun x hx => he x (List.mem_cons_of_mem _ hx)) (h.step (he e (List.mem_cons_self ..)))
    exact this es _ he ⟨rfl, fun _ _ => rfl, trivial, fun _ => trivial⟩
  have hzero : ∀ t, (Api.run {} es).pc t ≠ .idle → t = 0 := fun t ht =>
    Classical.byContradiction fun hx => ht (hcold.idle t hx)
  obtain ⟨hr, hc⟩ := C107_where_partial es h
  obtain ⟨hne, hw, _⟩ := h
  have hapiW : ∀ t, w = .api t → t = 0 := by
    rintro t rfl
    refine hzero t fun hx => ?_
    simp only [Writes, hx] at hw
    exact hw
  have hapiR : ∀ t, r = .api t → t = 0 := by
    rintro t rfl
    refine hzero t fun hx => ?_
    simp only [Reads, hx] at hr
    exact hr
  rcases hc with ⟨i, rfl, hi⟩ | ⟨hv, _⟩
  · refine ⟨i, rfl, ?_⟩
    have hwj : ∀ j, w = .worker j → j = i := by
      rintro j rfl
      simp only [Writes] at hw
      cases hq : (Api.run {} es).worker j <;> rw [hq] at hw
      case hot x => cases x <;> exact hw.elim
      case run => exact hw
      case leave => exact hw
      all_goals exact hw.elim
    have hrj : ∀ j, r = .worker j → j = i := by
      rintro j rfl
      simp only [Reads] at hr
      cases hq : (Api.run {} es).worker j <;> rw [hq] at hr
      case hot x => cases x <;> exact hr.elim
      case queue => exact hr
      case check => exact hr
      all_goals exact hr.elim
    rcases hi with rfl | rfl
    · cases r with
      | api t => left; rw [hapiR t rfl]; exact ⟨rfl, rfl⟩
      | worker j => exact absurd (by rw [hrj j rfl]) hne
    · cases w with
      | api t => right; rw [hapiW t rfl]; exact ⟨rfl, rfl⟩
      | worker j => exact absurd (by rw [hwj j rfl]) hne
  · exfalso
    cases w with
    | worker j =>
      have hcw := hcold.worker j
      simp only [Writes] at hw
      cases hq : (Api.run {} es).worker j <;> rw [hq] at hw hcw
      case hot x => cases x <;> first | exact hcw.elim | exact hw.elim
      all_goals rcases hv with rfl | rfl | ⟨rfl, _⟩ <;> exact hw.elim
    | api t =>
      cases r with
      | api u => exact hne (by rw [hapiR u rfl, hapiW t rfl])
      | worker i =>
        have hcw := hcold.worker i
        rcases hv with rfl | rfl | ⟨_, u, hu⟩
        · simp only [Reads] at hr
          cases hq : (Api.run {} es).worker i <;> rw [hq] at hr hcw
          case hot x => cases x <;> first | exact hcw.elim | exact hr.elim
          all_goals exact hr.elim
        · have hz : (Api.run {} es).worker i ≠ .none := by
            intro hz
            simp only [Reads, hz] at hr
            exact hr
          obtain rfl := hapiW t rfl
          have hh := (Api.inv es).here 0 (pcWrites_depth hw)
          have hcp := hcold.pc
          simp only [Writes] at hw
          cases hp : (Api.run {} es).pc 0 <;> rw [hp] at hw hh hcp
          case hot x => cases x <;> first | exact hcp.elim | exact hw.elim
          case inLoad o x =>
            rcases hh.1 with k | k
            · exact hz (k.2 i).2
            · have := hh.2; rw [k.1] at this; cases this
          all_goals exact hw.elim
        · cases hu

/-! ## What races -/

/-- One async channel, hot update off. -/
def raceConf : Conf := ⟨1, fun _ => true, false, true⟩

/-- **C107** fails for `logger_state_`: thread 1 is going to write it in `StopLogger` (fn_core.h 189), thread 2 reads it in front of the
lock (line 177). -/
theorem C107_logger_state_counterexample :
    Race (Api.run {} ([.call 0 (.loadStart (some raceConf))] ++ List.replicate 14 (.run 0 {}) ++ [.work 0 {}, .work 0 {}] ++
      List.replicate 7 (.run 0 {}) ++ [.call 1 .stop, .call 2 .stop] ++ List.replicate 4 (.run 1 {}) ++ [.run 2 {}]))
      .state (.api 1) (.api 2) := by
  have h1 : (Api.run {} ([.call 0 (.loadStart (some raceConf))] ++ List.replicate 14 (.run 0 {}) ++ [.work 0 {}, .work 0 {}] ++
      List.replicate 7 (.run 0 {}) ++ [.call 1 .stop, .call 2 .stop] ++ List.replicate 4 (.run 1 {}) ++ [.run 2 {}])).pc 1
    = .spMark := by kernel_rfl
  have h2 : (Api.run {} ([.call 0 (.loadStart (some raceConf))] ++ List.replicate 14 (.run 0 {}) ++ [.work 0 {}, .work 0 {}] ++
      List.replicate 7 (.run 0 {}) ++ [.call 1 .stop, .call 2 .stop] ++ List.replicate 4 (.run 1 {}) ++ [.run 2 {}])).pc 2
    = .spState := by kernel_rfl
  refine ⟨nofun, ?_, Or.inl ?_⟩
  · simp only [Writes, h1, pcWrites]
  · simp only [Reads, h2, pcReads]

/-- **C107** fails for `channel_state_` whenever a logger with an async channel is started, even if one thread only uses the logger: the
thread of the channel is going to write the state (fn_channel.h 189) that `StartChannels` reads (fn_core.h 53). -/
theorem C107_channel_state_counterexample :
    (∀ e ∈ [Api.Ev.call 0 (.loadStart (some raceConf))] ++ List.replicate 14 (.run 0 {}) ++ [.work 0 {}], Alone e) ∧
    Race (Api.run {} ([.call 0 (.loadStart (some raceConf))] ++ List.replicate 14 (.run 0 {}) ++ [.work 0 {}]))
      (.chan 0) (.worker 0) (.api 0) := by
  have h1 : (Api.run {} ([.call 0 (.loadStart (some raceConf))] ++ List.replicate 14 (.run 0 {}) ++ [.work 0 {}])).worker 0
    = .run := by kernel_rfl
  have h2 : (Api.run {} ([.call 0 (.loadStart (some raceConf))] ++ List.replicate 14 (.run 0 {}) ++ [.work 0 {}])).pc 0
    = .stPoll true 0 0 := by kernel_rfl
  refine ⟨?_, nofun, ?_, Or.inl ?_⟩
  · intro e he
    simp only [List.mem_append, List.mem_cons, List.not_mem_nil, or_false, List.mem_replicate] at he
    rcases he with (rfl | ⟨_, rfl⟩) | rfl
    · refine ⟨rfl, fun c hc => ?_⟩
      cases hc; rfl
    · trivial
    · trivial
  · simp only [Writes, h1, workWrites]
  · simp only [Reads, h2, pcReads]

/-- **C107** fails for `shm_` and what it points to: thread 0 is going to load a configuration (fn_load.h 206-244), thread 1 looks at it in
`StopLogger` (fn_core.h 172) without the lock. -/
theorem C107_shm_counterexample :
    Race (Api.run {} ([.call 0 (.init (some raceConf)), .call 1 .stop] ++ List.replicate 3 (.run 0 {}))) .shm (.api 0) (.api 1) := by
  have h1 : (Api.run {} ([.call 0 (.init (some raceConf)), .call 1 .stop] ++ List.replicate 3 (.run 0 {}))).pc 0
    = .inLoad false raceConf := by kernel_rfl
  have h2 : (Api.run {} ([.call 0 (.init (some raceConf)), .call 1 .stop] ++ List.replicate 3 (.run 0 {}))).pc 1
    = .spSize := by kernel_rfl
  refine ⟨nofun, ?_, Or.inl ?_⟩
  · simp only [Writes, h1, pcWrites]
  · simp only [Reads, h2, pcReads]

/-- Two async channels with hot update. -/
def raceHot : Conf := ⟨2, fun _ => true, true, true⟩

def raceHotRun : List Api.Ev := [.call 0 (.loadStart (some raceHot))] ++ List.replicate 14 (.run 0 {}) ++ [.work 0 {}, .work 0 {}] ++
  List.replicate 5 (.run 0 {}) ++ [.work 1 {}, .work 1 {}] ++ List.replicate 7 (.run 0 {}) ++
  [.work 0 { changed := true }, .work 0 { parsed := some true }, .work 0 {}, .work 0 {}]

/-- **C107** fails for `hot_update_`: the threads of two channels, one in `HotUpdateLogger` with the lock, the other in front of it. -/
theorem C107_hot_update_counterexample : Race (Api.run {} raceHotRun) .hot (.worker 0) (.worker 1) := by
  have h1 : (Api.run {} raceHotRun).worker 0 = .hot .update := by kernel_rfl
  have h2 : (Api.run {} raceHotRun).worker 1 = .hot .enter := by kernel_rfl
  refine ⟨nofun, ?_, Or.inl ?_⟩
  · simp only [Writes, h1, workWrites, hotWrites]
  · simp only [Reads, h2, workReads, hotReads]

end FNLog
