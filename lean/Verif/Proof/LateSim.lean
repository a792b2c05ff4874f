import Verif.Proof.Late

/-! # Lemmas for C114: with the same kinds of channels, statements do not change the life cycle -/

namespace FNLog.Api
open FNLog.Ring (upd upd_same upd_ne)
open FNLog.Spec

/-- The states of the async channels are those of `b`. -/
def Agree (b : St) (c : Nat → ChannelState) : Prop := ∀ i, i < b.size → b.async i = true → c i = b.chan i

/-- `a` differs from `b` only in the states of other channels. -/
def Twin (a b : St) : Prop := ∃ c, a = { b with chan := c } ∧ Agree b c

theorem Agree.upd {b : St} {c : Nat → ChannelState} (h : Agree b c) (i : Nat) (x : ChannelState) :
    Agree { b with chan := Ring.upd b.chan i x } (Ring.upd c i x) := by
  intro j h1 h2
  show Ring.upd c i x j = Ring.upd b.chan i x j
  by_cases hj : j = i
  · subst hj; rw [upd_same, upd_same]
  · rw [upd_ne _ _ hj, upd_ne _ _ hj]; exact h j h1 h2

theorem hotStep_chan (b : St) (c : Nat → ChannelState) (w : Who) (e : Env) (h : Hot) :
    hotStep { b with chan := c } w e h = ((hotStep b w e h).1, { (hotStep b w e h).2 with chan := c }) := by
  cases h <;> simp only [hotStep]
  · split <;> rfl
  · split <;> rfl

/-- The steps of the API do not look at the states of sync channels. -/
theorem Twin.runT {a b : St} (h : Twin a b) (hb : ∀ t, 0 < (b.pc t).depth → Here b t (b.pc t)) (t : Nat) (e : Env) :
    Twin (runT a t e) (runT b t e) := by
  obtain ⟨c, rfl, hc⟩ := h
  have hh := hb t
  have hlock : ∀ p, Twin (locked { b with chan := c } t p) (locked b t p) := by
    intro p
    unfold locked
    dsimp only
    split
    · exact ⟨c, rfl, hc⟩
    · exact ⟨c, rfl, hc⟩
  unfold Api.runT
  dsimp only
  cases hp : b.pc t <;> rw [hp] at hh <;> dsimp only
  case hot x =>
    rw [hotStep_chan]
    dsimp only
    obtain ⟨a1, a2, a3, a4, a5, a6, _⟩ := hotStep_pc b (.api t) e x
    refine ⟨c, rfl, fun i h1 h2 => ?_⟩
    have h1 : i < (hotStep b (.api t) e x).2.size := h1
    have h2 : (hotStep b (.api t) e x).2.async i = true := h2
    show c i = (hotStep b (.api t) e x).2.chan i
    rw [a5] at h1
    rw [a6] at h2
    rw [a3]
    exact hc i h1 h2
  case stChan o i =>
    split
    · split
      · exact ⟨c, rfl, hc⟩
      · exact ⟨_, rfl, hc.upd i _⟩
    · exact ⟨c, rfl, hc⟩
  case stPoll o i n =>
    have k := hh (Nat.succ_pos _)
    simp only [hc i k.2.1 k.2.2.1]
    exact ⟨c, rfl, hc⟩
  case stNull o i =>
    have k := hh (Nat.succ_pos _)
    simp only [hc i k.2.1 k.2.2.1]
    exact ⟨c, rfl, hc⟩
  case stRun o i =>
    have k := hh (Nat.succ_pos _)
    simp only [hc i k.2.1 k.2.2.1]
    exact ⟨c, rfl, hc⟩
  case scChan u i =>
    split
    · split
      · exact ⟨c, rfl, hc⟩
      · exact ⟨_, rfl, hc.upd i _⟩
    · exact ⟨c, rfl, hc⟩
  case scState u i =>
    have k := hh (Up.depth_pos u)
    simp only [hc i k.2.1 k.2.2.1]
    exact ⟨c, rfl, hc⟩
  case scMark u i => exact ⟨_, rfl, hc.upd i _⟩
  case scJoin u i =>
    split
    · exact ⟨c, rfl, hc⟩
    · exact ⟨c, rfl, hc⟩
  case scNull u i => exact ⟨_, rfl, hc.upd i _⟩
  case inState o x =>
    cases x <;> exact ⟨c, rfl, hc⟩
  case inLoad o x =>
    split
    · exact ⟨_, rfl, fun _ _ _ => rfl⟩
    · exact ⟨c, rfl, hc⟩
  all_goals first | exact hlock _ | exact ⟨c, rfl, hc⟩

theorem Twin.workI {a b : St} (h : Twin a b) (hb : ∀ j, b.worker j ≠ .none → j < b.size ∧ b.async j = true) (i : Nat) (e : Env) :
    Twin (workI a i e) (workI b i e) := by
  obtain ⟨c, rfl, hc⟩ := h
  have hi := hb i
  unfold Api.workI
  dsimp only
  cases hw : b.worker i <;> rw [hw] at hi <;> dsimp only
  case hot x =>
    rw [hotStep_chan]
    dsimp only
    obtain ⟨a1, a2, a3, a4, a5, a6, _⟩ := hotStep_pc b (.worker i) e x
    refine ⟨c, rfl, fun j h1 h2 => ?_⟩
    have h1 : j < (hotStep b (.worker i) e x).2.size := h1
    have h2 : (hotStep b (.worker i) e x).2.async j = true := h2
    show c j = (hotStep b (.worker i) e x).2.chan j
    rw [a5] at h1
    rw [a6] at h2
    rw [a3]
    exact hc j h1 h2
  case queue =>
    obtain ⟨k1, k2⟩ := hi nofun
    simp only [hc i k1 k2]
    exact ⟨c, rfl, hc⟩
  case run => exact ⟨_, rfl, hc.upd i _⟩
  case check =>
    obtain ⟨k1, k2⟩ := hi nofun
    simp only [hc i k1 k2]
    exact ⟨c, rfl, hc⟩
  case leave => exact ⟨_, rfl, hc.upd i _⟩
  all_goals exact ⟨c, rfl, hc⟩

theorem Twin.call {a b : St} (h : Twin a b) (t : Nat) (x : Call) : Twin (step a (.call t x)) (step b (.call t x)) := by
  obtain ⟨c, rfl, hc⟩ := h
  simp only [step]
  split <;> exact ⟨c, rfl, hc⟩

theorem Twin.fields {a b : St} (h : Twin a b) : a.state = b.state ∧ a.lock = b.lock ∧ a.loaded = b.loaded ∧ a.size = b.size ∧
    a.async = b.async ∧ a.worker = b.worker ∧ a.pc = b.pc ∧ a.terminate = b.terminate ∧ a.done = b.done := by
  obtain ⟨c, rfl, _⟩ := h
  exact ⟨rfl, rfl, rfl, rfl, rfl, rfl, rfl, rfl, rfl⟩

/-- A statement sets the state of a sync channel. -/
theorem Twin.late {a b : St} (h : Twin a b) {i : Nat} (hi : a.async i = false ∨ a.size ≤ i) (x : ChannelState) :
    Twin { a with chan := upd a.chan i x } b := by
  obtain ⟨c, rfl, hc⟩ := h
  refine ⟨_, rfl, fun j h1 h2 => ?_⟩
  have hj : j ≠ i := by
    rintro rfl
    rcases hi with k | k
    · have k : b.async j = false := k
      rw [k] at h2; cases h2
    · have k : b.size ≤ j := k
      omega
  show upd c i x j = _
  rw [upd_ne _ _ hj]
  exact hc j h1 h2

/-! ## The events of the life cycle -/

/-- What an event means for the life cycle; a step of a thread that does not exist if it means nothing. -/
def erase (s : LSt) : LEv → Ev
  | .api (.call t c) => if s.free t && c.user then .call t c else .work s.api.size {}
  | .api e => e
  | .go t _ => match s.log t with
    | .tail _ => .call t .hot
    | _ => .work s.api.size {}
  | _ => .work s.api.size {}

structure Sim (s : LSt) (b : St) : Prop where
  twin : Twin s.api b
  inv : Inv b
  w : WInv b
  dtor : s.dtor = .no

theorem Sim.none {s : LSt} {b : St} (h : Sim s b) : step b (.work s.api.size {}) = b := by
  have : b.worker s.api.size = .none := Classical.byContradiction fun hw => by
    have := (h.w.base _ hw).1
    rw [h.twin.fields.2.2.2.1] at this
    omega
  simp only [step, Api.workI, this]

/-- Unless a statement sets the state of an async channel, an event does to the life cycle what it means. -/
theorem Sim.step {s : LSt} {b : St} (h : Sim s b) (e : LEv) (hd : ∀ t, e ≠ .destroy t)
    (hl : ∀ t x i, e = .go t x → s.log t = .run i → s.api.async i = false ∨ s.api.size ≤ i) :
    Sim (lstep s e) (step b (erase s e)) := by
  have hn := h.none
  have same : ∀ s' : LSt, Twin s'.api b → s'.dtor = .no → Sim s' (Api.step b (.work s.api.size {})) := by
    intro s' h1 h2
    rw [hn]
    exact ⟨h1, h.inv, h.w, h2⟩
  cases e with
  | api e =>
    cases e with
    | call t c =>
      simp only [lstep, erase]
      split
      · exact ⟨h.twin.call t c, h.inv.step _, h.w.call t c, h.dtor⟩
      · exact same _ h.twin h.dtor
    | work i e => exact ⟨h.twin.workI h.w.base i e, h.inv.workI i e, h.w.workI i e, h.dtor⟩
    | run t e => exact ⟨h.twin.runT h.inv.here t e, h.inv.runT t e, h.w.runT t e, h.dtor⟩
  | say t i =>
    refine same _ ?_ ?_ <;> simp only [lstep] <;> split
    · exact h.twin
    · exact h.twin
    · exact h.dtor
    · exact h.dtor
  | go t e =>
    have hl := hl t e
    simp only [lstep, erase]
    have hdt : (logT s t e).dtor = .no := by
      unfold logT
      cases s.log t <;> exact h.dtor
    unfold logT at hdt ⊢
    cases hp : s.log t <;> rw [hp] at hdt <;> dsimp only at hdt ⊢
    case tail i => exact ⟨h.twin.call t .hot, h.inv.step _, h.w.call t .hot, hdt⟩
    case run i => exact same _ (h.twin.late (hl i rfl hp) _) hdt
    all_goals exact same _ h.twin hdt
  | destroy t => exact absurd rfl (hd t)
  | dtor =>
    have : lstep s .dtor = s := by
      simp only [lstep, dtorStep, h.dtor]
    rw [this]
    exact same _ h.twin h.dtor

/-! ## Configurations with the same kinds of channels -/

def PcKinds (f : Nat → Bool) : Pc → Prop
  | .inState _ x | .whState _ x | .whLock _ x | .whState2 x => ∀ y, x = some y → Kinds f y
  | .inLock _ x | .inState2 _ x | .inLoad _ x => Kinds f x
  | _ => True

def LogKinds (f : Nat → Bool) (s : St) : LogPc → Prop
  | .idle | .shm _ => True
  | .queue i | .run i => s.loaded = true ∧ f i = false
  | _ => s.loaded = true

structure KindInv (f : Nat → Bool) (s : LSt) : Prop where
  conf : s.api.loaded = true → ∀ i, s.api.async i = if i < s.api.size then f i else true
  pc : ∀ t, PcKinds f (s.api.pc t)
  log : ∀ t, LogKinds f s.api (s.log t)

theorem startRet_kinds (f : Nat → Bool) (o ok : Bool) : PcKinds f (startRet o ok) := by cases o <;> trivial
theorem initRet_kinds (f : Nat → Bool) (o ok : Bool) : PcKinds f (initRet o ok) := by cases o <;> cases ok <;> trivial
theorem chansRet_kinds (f : Nat → Bool) (u : Up) : PcKinds f (chansRet u) := by cases u <;> trivial

/-- What a step of the API does to the configuration. -/
theorem kinds_run {f : Nat → Bool} {s : St} (hc : s.loaded = true → ∀ i, s.async i = if i < s.size then f i else true)
    {t : Nat} (hk : PcKinds f (s.pc t)) (e : Env) :
    ((runT s t e).loaded = true → ∀ i, (runT s t e).async i = if i < (runT s t e).size then f i else true) ∧
    PcKinds f ((runT s t e).pc t) ∧ (s.loaded = true → (runT s t e).loaded = true) := by
  have hl : ∀ p, PcKinds f p → ((locked s t p).loaded = true → ∀ i, (locked s t p).async i = if i < (locked s t p).size then f i else true) ∧
      PcKinds f ((locked s t p).pc t) ∧ (s.loaded = true → (locked s t p).loaded = true) := by
    intro p hp
    unfold locked
    split
    · rw [goto_pc]; exact ⟨hc, hp, fun h => h⟩
    · exact ⟨hc, hk, fun h => h⟩
  unfold runT
  cases hp : s.pc t <;> rw [hp] at hk <;> dsimp only
  case idle => rw [hp]; exact ⟨hc, trivial, fun h => h⟩
  case hot x =>
    obtain ⟨a1, a2, a3, a4, a5, a6, a7, a8, a9⟩ := hotStep_pc s (.api t) e x
    rw [goto_pc]
    refine ⟨fun h i => ?_, ?_, fun h => ?_⟩
    · have h : (hotStep s (.api t) e x).2.loaded = true := h
      show (hotStep s (.api t) e x).2.async i = if i < (hotStep s (.api t) e x).2.size then f i else true
      rw [a9] at h
      rw [a5, a6]
      exact hc h i
    · split <;> trivial
    · show (hotStep s (.api t) e x).2.loaded = true
      rw [a9]; exact h
  case stLock o => exact hl _ trivial
  case spLock => exact hl _ trivial
  case inLock o x => exact hl _ hk
  case whLock p x =>
    refine hl _ ?_
    split <;> exact hk
  case stChan o i =>
    split
    · split <;> rw [goto_pc] <;> exact ⟨hc, trivial, fun h => h⟩
    · rw [goto_pc]; exact ⟨hc, trivial, fun h => h⟩
  case scChan u i =>
    split
    · split <;> rw [goto_pc]
      · refine ⟨hc, ?_, fun h => h⟩
        split <;> trivial
      · exact ⟨hc, trivial, fun h => h⟩
    · rw [goto_pc]; exact ⟨hc, chansRet_kinds _ _, fun h => h⟩
  case scJoin u i =>
    split
    · rw [goto_pc]; exact ⟨hc, trivial, fun h => h⟩
    · rw [hp]; exact ⟨hc, trivial, fun h => h⟩
  case inState o x =>
    cases x with
    | none => rw [goto_pc]; exact ⟨hc, initRet_kinds _ _ _, fun h => h⟩
    | some x =>
      rw [goto_pc]
      refine ⟨hc, ?_, fun h => h⟩
      split
      · exact hk x rfl
      · exact initRet_kinds _ _ _
  case inLoad o x =>
    split
    · rw [goto_pc]; exact ⟨fun _ => hk, trivial, fun _ => rfl⟩
    · rw [goto_pc]; exact ⟨hc, trivial, fun h => h⟩
  all_goals
    rw [goto_pc]
    refine ⟨hc, ?_, fun h => h⟩
    first
      | trivial
      | exact startRet_kinds _ _ _
      | exact initRet_kinds _ _ _
      | (split <;> first | trivial | exact startRet_kinds _ _ _ | exact hk)

theorem kinds_work (s : St) (i : Nat) (e : Env) : (workI s i e).loaded = s.loaded := by
  unfold workI
  split
  all_goals try rfl
  exact (hotStep_pc _ _ _ _).2.2.2.2.2.2.2.2

theorem LogKinds.frame {f : Nat → Bool} {s s' : St} {p : LogPc} (h : LogKinds f s p) (h1 : s.loaded = true → s'.loaded = true) :
    LogKinds f s' p := by
  cases p <;> first | trivial | exact h1 h | exact ⟨h1 h.1, h.2⟩

theorem KindInv.step {f : Nat → Bool} {s : LSt} (h : KindInv f s) (hd : s.dtor = .no) {e : LEv} (he : Typed f e) :
    KindInv f (lstep s e) := by
  have call : ∀ t c, (∀ x, callConf c = some x → Kinds f x) →
      (Api.step s.api (.call t c)).loaded = s.api.loaded ∧ (Api.step s.api (.call t c)).async = s.api.async ∧
      (Api.step s.api (.call t c)).size = s.api.size ∧ ∀ u, PcKinds f ((Api.step s.api (.call t c)).pc u) := by
    intro t c hx
    simp only [Api.step]
    split
    · refine ⟨rfl, rfl, rfl, fun u => ?_⟩
      by_cases hu : u = t
      · subst hu
        rw [goto_pc]
        cases c <;> first | trivial | exact hx
      · rw [goto_pc_ne _ _ hu]; exact h.pc u
    · exact ⟨rfl, rfl, rfl, h.pc⟩
  cases e with
  | api e =>
    cases e with
    | call t c =>
      obtain ⟨k1, k2, k3, k4⟩ := call t c he
      simp only [lstep]
      split
      · refine ⟨?_, k4, fun u => (h.log u).frame fun k => k1.trans k⟩
        dsimp only
        rw [k1, k2, k3]
        exact h.conf
      · exact h
    | work i e =>
      obtain ⟨f1, f2, f3, f4, f5, f6, f7⟩ := work_frame s.api i e
      have f8 := kinds_work s.api i e
      refine ⟨?_, fun t => ?_, fun t => (h.log t).frame fun k => ?_⟩
      · show (Api.workI s.api i e).loaded = true → ∀ j, (Api.workI s.api i e).async j = if j < (Api.workI s.api i e).size then f j else true
        rw [f2, f3, f8]
        exact h.conf
      · show PcKinds f ((Api.workI s.api i e).pc t)
        rw [f5]; exact h.pc t
      · show (Api.workI s.api i e).loaded = true
        rw [f8]; exact k
    | run t e =>
      obtain ⟨k1, k2, k3⟩ := kinds_run h.conf (h.pc t) e
      refine ⟨k1, fun u => ?_, fun u => (h.log u).frame k3⟩
      by_cases hu : u = t
      · subst hu; exact k2
      · show PcKinds f ((Api.runT s.api t e).pc u)
        rw [run_pc_other _ _ hu]; exact h.pc u
  | say t i =>
    simp only [lstep]
    split
    · refine ⟨h.conf, h.pc, fun u => ?_⟩
      show LogKinds f s.api (upd s.log t _ u)
      by_cases hu : u = t
      · subst hu; rw [upd_same]; trivial
      · rw [upd_ne _ _ hu]; exact h.log u
    · exact h
  | go t e =>
    have hk := h.log t
    have go : ∀ p, LogKinds f s.api p → KindInv f (s.goto t p) := by
      intro p hp
      refine ⟨h.conf, h.pc, fun u => ?_⟩
      show LogKinds f s.api (upd s.log t _ u)
      by_cases hu : u = t
      · subst hu; rw [upd_same]; exact hp
      · rw [upd_ne _ _ hu]; exact h.log u
    have mk : ∀ s', KindInv f s' → KindInv f (s.mark (s.log t).uses s') := fun _ k => ⟨k.conf, k.pc, k.log⟩
    refine mk _ ?_
    unfold logT
    cases hp : s.log t <;> rw [hp] at hk <;> dsimp only
    case idle => exact h
    case shm i =>
      refine go _ ?_
      split
      · rename_i hx
        simp only [Bool.and_eq_true] at hx
        exact hx.1
      · trivial
    case kind i =>
      refine go _ ?_
      split
      · rename_i hx
        simp only [Bool.and_eq_true, Bool.not_eq_true', decide_eq_true_eq] at hx
        have := h.conf hk i
        rw [hx.1] at this
        split at this
        · exact ⟨hk, this.symm⟩
        · cases this
      · trivial
    case queue i =>
      refine go _ ?_
      split
      · exact hk
      · exact hk.1
    case run i =>
      refine ⟨h.conf, h.pc, fun u => ?_⟩
      show LogKinds f { s.api with chan := _ } (upd s.log t _ u)
      by_cases hu : u = t
      · subst hu; rw [upd_same]; exact hk.1
      · rw [upd_ne _ _ hu]; exact (h.log u).frame fun k => k
    case tail i =>
      obtain ⟨k1, k2, k3, k4⟩ := call t .hot nofun
      refine ⟨?_, k4, fun u => ?_⟩
      · show (Api.step s.api (.call t .hot)).loaded = true → ∀ j, (Api.step s.api (.call t .hot)).async j =
          if j < (Api.step s.api (.call t .hot)).size then f j else true
        rw [k1, k2, k3]
        exact h.conf
      · show LogKinds f (Api.step s.api (.call t .hot)) (upd s.log t _ u)
        by_cases hu : u = t
        · subst hu; rw [upd_same]; exact k1.trans hk
        · rw [upd_ne _ _ hu]; exact (h.log u).frame fun k => k1.trans k
    all_goals
      refine go _ ?_
      repeat' split
      all_goals first | exact hk | trivial
  | destroy t => exact he.elim
  | dtor =>
    have : lstep s .dtor = s := by
      simp only [lstep, dtorStep, hd]
    rw [this]
    exact h

/-! ## Schedules -/

/-- The life cycle of a schedule of statements and calls. -/
def eraseAll (σ : Nat → LEv) (n : Nat) : Ev := erase (logAt σ n) (σ n)

theorem logAt_succ (σ : Nat → LEv) (n : Nat) : logAt σ (n + 1) = lstep (logAt σ n) (σ n) := by
  unfold logAt lrun
  rw [List.range_succ, List.map_append, List.foldl_append]
  rfl

theorem Sim.next {f : Nat → Bool} {s : LSt} {b : St} (h : Sim s b) (hk : KindInv f s) {e : LEv} (he : Typed f e) :
    Sim (lstep s e) (Api.step b (erase s e)) ∧ KindInv f (lstep s e) := by
  refine ⟨h.step _ (fun t ht => ?_) (fun t x i _ hp => ?_), hk.step h.dtor he⟩
  · rw [ht] at he
    exact he
  · have k := hk.log t
    rw [hp] at k
    have := hk.conf k.1 i
    by_cases hi : i < s.api.size
    · rw [if_pos hi] at this
      exact .inl (this.trans k.2)
    · exact .inr (by omega)

theorem Sim.init : Sim {} {} := ⟨⟨_, rfl, fun _ _ _ => rfl⟩, Inv.init, WInv.init, rfl⟩

theorem KindInv.init (f : Nat → Bool) : KindInv f {} := ⟨nofun, fun _ => trivial, fun _ => trivial⟩

theorem sim_run {f : Nat → Bool} {es : List LEv} (h : ∀ e ∈ es, Typed f e) :
    ∃ es', Sim (lrun {} es) (Api.run {} es') ∧ KindInv f (lrun {} es) := by
  have key : ∀ (es : List LEv) (s : LSt) (b : St), Sim s b → KindInv f s → (∀ e ∈ es, Typed f e) →
      ∃ es', Sim (lrun s es) (Api.run b es') ∧ KindInv f (lrun s es) := by
    intro es
    induction es with
    | nil => intro s b h1 h2 _; exact ⟨[], h1, h2⟩
    | cons e es ih =>
      intro s b h1 h2 h3
      obtain ⟨k1, k2⟩ := h1.next h2 (h3 e List.mem_cons_self)
      obtain ⟨es', k⟩ := ih _ _ k1 k2 fun x hx => h3 x (List.mem_cons_of_mem _ hx)
      exact ⟨erase s e :: es', k⟩
  exact key es {} {} Sim.init (KindInv.init f) h

theorem sim_at {f : Nat → Bool} {σ : Nat → LEv} (h : ∀ n, Typed f (σ n)) (n : Nat) :
    Sim (logAt σ n) (apiAt (eraseAll σ) n) ∧ KindInv f (logAt σ n) := by
  induction n with
  | zero => exact ⟨Sim.init, KindInv.init f⟩
  | succ n ih =>
    rw [logAt_succ, apiAt_succ]
    exact ih.1.next ih.2 (h n)

theorem erase_fair {f : Nat → Bool} {σ : Nat → LEv} (h : ∀ n, Typed f (σ n)) (hf : LateFair σ) : ApiFair (eraseAll σ) := by
  refine ⟨fun t n hp => ?_, fun i n hw he => ?_⟩
  · rw [← (sim_at h n).1.twin.fields.2.2.2.2.2.2.1] at hp
    obtain ⟨m, e, hm, k⟩ := hf.call t n hp
    refine ⟨m, e, hm, ?_⟩
    unfold eraseAll
    rw [k]; rfl
  · rw [← (sim_at h n).1.twin.fields.2.2.2.2.2.1] at hw he
    obtain ⟨m, e, hm, k⟩ := hf.work i n hw he
    refine ⟨m, e, hm, ?_⟩
    unfold eraseAll
    rw [k]; rfl

theorem erase_drained {σ : Nat → LEv} (hd : LateDrained σ) : Drained (eraseAll σ) := by
  obtain ⟨k, hk⟩ := hd
  refine ⟨k, fun m i e hm he => ?_⟩
  unfold eraseAll erase at he
  cases hs : σ m with
  | api x =>
    rw [hs] at he
    cases x with
    | call t c =>
      dsimp only at he
      split at he
      · cases he
      · cases he; rfl
    | run t x => cases he
    | work j x =>
      cases he
      exact hk m i e hm hs
  | go t x =>
    rw [hs] at he
    dsimp only at he
    split at he <;> cases he
    rfl
  | _ => rw [hs] at he; cases he; rfl

/-! ## A thread that is told to run again -/

/-- `StopLogger` of thread `t` waits for the thread of channel `i`, and the channel is in the state RUNNING. -/
structure Stuck (s : LSt) (t i : Nat) : Prop where
  w : WInv s.api
  pc : s.api.pc t = .scJoin .stop i
  chan : s.api.chan i = .running
  worker : (s.api.worker i).Body
  dtor : ∀ u, s.dtor ≠ .unload u

theorem Stuck.closing {s : LSt} {t i : Nat} (h : Stuck s t i) : s.api.state = .closing := by
  have := h.w.here t (by rw [h.pc]; exact Nat.one_pos)
  rw [h.pc] at this
  exact this.1

theorem Stuck.call {s : LSt} {t i : Nat} (h : Stuck s t i) (u : Nat) (c : Call) :
    WInv (step s.api (.call u c)) ∧ (step s.api (.call u c)).pc t = .scJoin .stop i ∧
    (step s.api (.call u c)).chan i = .running ∧ ((step s.api (.call u c)).worker i).Body := by
  refine ⟨h.w.call u c, ?_⟩
  simp only [Api.step]
  split
  · rename_i hp
    have hu : t ≠ u := by rintro rfl; rw [h.pc] at hp; cases hp
    rw [goto_pc_ne _ _ hu]
    exact ⟨h.pc, h.chan, h.worker⟩
  · exact ⟨h.pc, h.chan, h.worker⟩

theorem Stuck.step {s : LSt} {t i : Nat} (h : Stuck s t i) (e : LEv) : Stuck (lstep s e) t i := by
  have hw := h.w.lstep e
  cases e with
  | api e =>
    cases e with
    | call u c =>
      simp only [lstep] at hw ⊢
      split
      · obtain ⟨k1, k2, k3, k4⟩ := h.call u c
        exact ⟨k1, k2, k3, k4, h.dtor⟩
      · exact h
    | work j e =>
      obtain ⟨f1, f2, f3, f4, f5, f6, f7⟩ := work_frame s.api j e
      have hl : Live s.api i := ⟨h.chan, h.worker⟩
      obtain ⟨k1, k2⟩ := hl.work j e
      exact ⟨hw, (congrFun f5 t).trans h.pc, k1, k2, h.dtor⟩
    | run u e =>
      by_cases hu : t = u
      · subst hu
        have hne : s.api.worker i ≠ .ended := fun k => by have := h.worker; rw [k] at this; exact this
        have : Api.runT s.api t e = s.api := by
          simp only [Api.runT, h.pc]
          rw [if_neg hne]
        refine ⟨hw, ?_, ?_, ?_, h.dtor⟩
        · show (Api.runT s.api t e).pc t = _
          rw [this]; exact h.pc
        · show (Api.runT s.api t e).chan i = _
          rw [this]; exact h.chan
        · show ((Api.runT s.api t e).worker i).Body
          rw [this]; exact h.worker
      · obtain ⟨p, n, hd, he⟩ := quiet h.w.lock hu (by rw [h.pc]; exact Nat.one_pos) e
        refine ⟨hw, ?_, ?_, ?_, h.dtor⟩
        · show (Api.runT s.api u e).pc t = _
          rw [he]; exact (upd_ne _ _ hu).trans h.pc
        · show (Api.runT s.api u e).chan i = _
          rw [he]; exact h.chan
        · show ((Api.runT s.api u e).worker i).Body
          rw [he]; exact h.worker
  | say u j =>
    simp only [lstep] at hw ⊢
    split
    · exact ⟨h.w, h.pc, h.chan, h.worker, h.dtor⟩
    · exact h
  | go u e =>
    have mk : ∀ s', Stuck s' t i → Stuck (s.mark (s.log u).uses s') t i := fun _ k => ⟨k.w, k.pc, k.chan, k.worker, k.dtor⟩
    refine mk _ ?_
    have hw : WInv (logT s u e).api := hw
    unfold logT at hw ⊢
    cases hp : s.log u <;> rw [hp] at hw <;> dsimp only at hw ⊢
    case run j =>
      refine ⟨hw, h.pc, ?_, h.worker, h.dtor⟩
      show upd s.api.chan j .running i = .running
      by_cases hj : i = j
      · subst hj; exact upd_same _ _ _
      · rw [upd_ne _ _ hj]; exact h.chan
    case tail j =>
      obtain ⟨k1, k2, k3, k4⟩ := h.call u .hot
      exact ⟨k1, k2, k3, k4, h.dtor⟩
    all_goals exact ⟨h.w, h.pc, h.chan, h.worker, h.dtor⟩
  | destroy u =>
    simp only [lstep] at hw ⊢
    split
    · exact ⟨h.w, h.pc, h.chan, h.worker, nofun⟩
    · exact h
  | dtor =>
    simp only [lstep, dtorStep] at hw ⊢
    cases hd : s.dtor <;> dsimp only
    case check u =>
      rw [if_neg (by rw [h.closing]; nofun)]
      obtain ⟨k1, k2, k3, k4⟩ := h.call u .stop
      exact ⟨k1, k2, k3, k4, nofun⟩
    case stop u =>
      split
      · exact ⟨h.w, h.pc, h.chan, h.worker, nofun⟩
      · exact h
    case unload u => exact absurd hd (h.dtor u)
    all_goals exact h

theorem Stuck.run {s : LSt} {t i : Nat} (h : Stuck s t i) (es : List LEv) : Stuck (lrun s es) t i := by
  induction es generalizing s with
  | nil => exact h
  | cons e es ih => exact ih (h.step e)

end FNLog.Api
