import Verif.Proof.ApiWorker
import Verif.Props.Races

/-!
# Property theorem C112: log statements while the logger is started, stopped or destroyed
-/

namespace FNLog
open Spec Api Ring

/-! ## The accesses of `Spec/ApiLog` are those of the model -/

/-- What the step of a statement does not write it does not change. -/
theorem C112_writes_listed (s : LSt) (e : LEnv) (t : Nat) (v : Var) (h : ¬ logWrites (s.log t) v) : Same s.api (logT s t e).api v := by
  have hc : Same s.api (Api.step s.api (.call t .hot)) v := by
    obtain ⟨h1, h2, h3, h4, h5, h6⟩ := call_frame s.api t .hot
    cases v with
    | state => exact h1.symm
    | shm => exact ⟨h6.symm, h2.symm, h3.symm⟩
    | hot =>
      show s.api.hot = _
      simp only [Api.step]
      split <;> rfl
    | chan i => exact (congrFun h4 i).symm
    | thread i =>
      show (_ ↔ _)
      rw [h5]
  unfold logT
  cases hl : s.log t <;> rw [hl] at h <;> dsimp only
  case run i =>
    cases v with
    | chan j =>
      show s.api.chan j = upd s.api.chan i _ j
      exact (upd_ne _ _ fun e => h e.symm).symm
    | state => rfl
    | shm => exact ⟨rfl, rfl, rfl⟩
    | hot => rfl
    | thread i => exact Iff.rfl
  case tail i => exact hc
  all_goals
    cases v with
    | shm => exact ⟨rfl, rfl, rfl⟩
    | thread i => exact Iff.rfl
    | _ => rfl

/-- And where it goes on depends on nothing but what it reads and the answers of the environment. -/
theorem C112_reads_listed (a b : LSt) (e : LEnv) (t : Nat) (hp : a.log t = b.log t) (hq : a.api.pc t = b.api.pc t)
    (h : ∀ v, logReads (a.log t) v → Same a.api b.api v) : (logT a t e).log t = (logT b t e).log t := by
  have h1 := h .state
  have h2 := h .shm
  have h3 := fun i => h (.chan i)
  clear h
  unfold logT
  rw [← hp]
  cases hl : a.log t <;> rw [hl] at h1 h2 h3 <;> dsimp only
  case idle => rw [← hp, hl]
  case hot i =>
    simp only [LSt.goto, upd_same, hq]
  all_goals
    simp only [logReads, Same, true_implies, false_implies] at h1 h2 h3
    simp only [LSt.goto, upd_same]
  all_goals simp_all

/-! ## Statements that are made while no call is in progress -/

/-- **C112**: if log statements are made only when no call of the life cycle is in progress, then no statement takes part in a data race,
except for `hot_update_` (C107). -/
theorem C112_apart_partial {es : List LEv} (ha : Apart es) {v : Var} {w r : Who} (h : LRace (lrun {} es) v w r)
    (hs : Stating (lrun {} es) w ∨ Stating (lrun {} es) r) : v = .hot := by
  have hinv := apart_inv ha
  have hst : Still (lrun {} es) := by
    refine ha es [] (List.append_nil es).symm ?_
    rcases hs with ⟨t, _, ht⟩ | ⟨t, _, ht⟩ <;> exact ⟨t, ht⟩
  generalize lrun {} es = s at *
  have hout := still_outside hinv.inv hst.1
  obtain ⟨_, hw, _⟩ := h
  have hot : ∀ x, hotWrites x v → v = .hot := by
    intro x hx
    cases x <;> cases v <;> first | rfl | exact hx.elim
  rcases hw with hw | ⟨t, rfl, hw | hw⟩
  · cases w with
    | api t =>
      simp only [Writes] at hw
      rcases hst.1 t with k | ⟨x, k⟩ <;> rw [k] at hw
      · exact hw.elim
      · exact hot x hw
    | worker i =>
      simp only [Writes] at hw
      have hbody : s.api.worker i = .none ∨ (s.api.worker i).Body := by
        rcases hout with k | k
        · exact Or.inl (k.2 i).2
        · rcases k.2 i with k | k | k
          · exact Or.inr k.2.2.2
          · exact Or.inl k.2.2.2
          · exact Or.inl k.2.2
      cases hq : s.api.worker i <;> rw [hq] at hw hbody
      case hot x => exact hot x hw
      all_goals first
        | exact hw.elim
        | (rcases hbody with k | k
           · cases k
           · exact k.elim)
  · have hp := hinv.past t
    cases hl : s.log t <;> rw [hl] at hw hp
    case run i => exact hp.elim
    all_goals exact hw.elim
  · rcases hst.2 with k | k <;> rw [k] at hw <;> exact hw.elim

/-! ## Released memory -/

/-- Outside of the life cycle. -/
def Easy : Pc → Prop
  | .idle | .hot _ => True
  | _ => False

theorem easy_still {s : Api.St} (h : ∀ t, Easy (s.pc t)) : ∀ t, s.pc t = .idle ∨ ∃ h, s.pc t = .hot h := by
  intro t
  have := h t
  cases hp : s.pc t <;> rw [hp] at this <;> first | exact this.elim | exact Or.inl rfl | exact Or.inr ⟨_, rfl⟩

structure ControlInv (s : LSt) : Prop where
  others : ∀ t, t ≠ 0 → Easy (s.api.pc t)
  freed : s.freed = true → s.dtor = .gone
  dtor : match s.dtor with
    | .no => True
    | .check t => t = 0 ∧ Easy (s.api.pc 0)
    | .stop t => t = 0
    | .unload t => t = 0 ∧ Easy (s.api.pc 0) ∧ s.api.state = .uninit
    | .gone => Easy (s.api.pc 0) ∧ s.api.state = .uninit ∧ s.api.loaded = false

theorem easy_run {s : Api.St} {t : Nat} (e : Env) (h : Easy (s.pc t)) : Easy ((runT s t e).pc t) ∧ (runT s t e).state = s.state ∧
    (runT s t e).loaded = s.loaded := by
  unfold runT
  cases hp : s.pc t <;> rw [hp] at h <;> dsimp only
  case idle => rw [hp]; exact ⟨trivial, rfl, rfl⟩
  case hot x =>
    have h2 := hotStep_pc s (.api t) e x
    rw [goto_pc]
    refine ⟨?_, h2.2.2.2.1, h2.2.2.2.2.2.2.2.2⟩
    split <;> trivial
  all_goals exact h.elim

theorem easy_call {s : Api.St} {t u : Nat} {c : Api.Call} (hc : c = .hot) (h : Easy (s.pc u)) :
    Easy ((Api.step s (.call t c)).pc u) := by
  simp only [Api.step]
  split
  · by_cases hu : u = t
    · subst hu; rw [goto_pc, hc]; trivial
    · rw [goto_pc_ne _ _ hu]; exact h
  · exact h

/-- A step that keeps the places of the threads easy, the state and the pointer. -/
theorem ControlInv.keep {s : LSt} (h : ControlInv s) {s' : LSt} (hd : s'.dtor = s.dtor) (hf : s'.freed = s.freed)
    (he : ∀ t, Easy (s.api.pc t) → Easy (s'.api.pc t)) (hs : (∀ t, Easy (s.api.pc t)) → s'.api.state = s.api.state ∧ s'.api.loaded = s.api.loaded) :
    ControlInv s' := by
  refine ⟨fun t ht => he t (h.others t ht), fun hx => by rw [hd]; exact h.freed (hf ▸ hx), ?_⟩
  have hk := h.dtor
  rw [hd]
  have hall : Easy (s.api.pc 0) → ∀ t, Easy (s.api.pc t) := by
    intro h0 t
    by_cases ht : t = 0
    · rw [ht]; exact h0
    · exact h.others t ht
  cases hdt : s.dtor <;> rw [hdt] at hk
  case no => trivial
  case check t => exact ⟨hk.1, he 0 hk.2⟩
  case stop t => exact hk
  case unload t => exact ⟨hk.1, he 0 hk.2.1, (hs (hall hk.2.1)).1.trans hk.2.2⟩
  case gone => exact ⟨he 0 hk.1, (hs (hall hk.1)).1.trans hk.2.1, (hs (hall hk.1)).2.trans hk.2.2⟩

theorem work_loaded (s : Api.St) (i : Nat) (e : Env) : (workI s i e).loaded = s.loaded := by
  unfold workI
  split <;> first
    | rfl
    | exact (hotStep_pc _ _ _ _).2.2.2.2.2.2.2.2

theorem logT_frame (s : LSt) (t : Nat) (e : LEnv) : (logT s t e).dtor = s.dtor ∧ (logT s t e).freed = s.freed ∧
    (logT s t e).bad = s.bad ∧ (logT s t e).api.state = s.api.state ∧ (logT s t e).api.loaded = s.api.loaded ∧
    (∀ u, Easy (s.api.pc u) → Easy ((logT s t e).api.pc u)) ∧ ∀ u, u ≠ t → (logT s t e).log u = s.log u := by
  obtain ⟨h1, _, _, _, _, h6⟩ := call_frame s.api t .hot
  unfold logT
  cases hl : s.log t <;> dsimp only
  case idle => exact ⟨rfl, rfl, rfl, rfl, rfl, fun _ h => h, fun _ _ => rfl⟩
  case tail i => exact ⟨rfl, rfl, rfl, h1, h6, fun u h => easy_call rfl h, fun u hu => upd_ne _ _ hu⟩
  all_goals exact ⟨rfl, rfl, rfl, rfl, rfl, fun _ h => h, fun u hu => upd_ne _ _ hu⟩

theorem ControlInv.step {s : LSt} (h : ControlInv s) {e : LEv} (he : (s.dtor = .no ∧ OneThread e) ∨ NoCall e ∨ e = .destroy 0) :
    ControlInv (lstep s e) := by
  cases e with
  | api e =>
    cases e with
    | call t c =>
      simp only [lstep]
      split
      · rcases he with ⟨hn, rfl⟩ | he | he
        · refine ⟨fun u hu => ?_, h.freed, ?_⟩
          · show Easy ((Api.step s.api (.call 0 c)).pc u)
            simp only [Api.step]
            split
            · rw [goto_pc_ne _ _ hu]; exact h.others u hu
            · exact h.others u hu
          · show match s.dtor with | .no => _ | .check t => _ | .stop t => _ | .unload t => _ | .gone => _
            rw [hn]; trivial
        · exact he.elim
        · cases he
      · exact h
    | work i e =>
      have f := work_frame s.api i e
      refine h.keep rfl rfl (fun u hu => ?_) fun _ => ⟨f.1, work_loaded _ _ _⟩
      show Easy ((workI s.api i e).pc u)
      rw [f.2.2.2.2.1]; exact hu
    | run t e =>
      by_cases hE : Easy (s.api.pc t)
      · obtain ⟨h1, h2, h3⟩ := easy_run e hE
        refine h.keep rfl rfl (fun u hu => ?_) fun _ => ⟨h2, h3⟩
        show Easy ((runT s.api t e).pc u)
        by_cases hut : u = t
        · subst hut; exact h1
        · rw [run_pc_other _ _ hut]; exact hu
      · have ht : t = 0 := Classical.byContradiction fun k => hE (h.others t k)
        subst ht
        refine ⟨fun u hu => ?_, h.freed, ?_⟩
        · show Easy ((runT s.api 0 e).pc u)
          rw [run_pc_other _ _ hu]; exact h.others u hu
        · have hk := h.dtor
          show match s.dtor with | .no => _ | .check t => _ | .stop t => _ | .unload t => _ | .gone => _
          cases hdt : s.dtor <;> rw [hdt] at hk
          case no => trivial
          case check t => exact absurd hk.2 hE
          case stop t => exact hk
          case unload t => exact absurd hk.2.1 hE
          case gone => exact absurd hk.1 hE
  | say t i =>
    simp only [lstep]
    split
    · exact h.keep rfl rfl (fun _ hu => hu) fun _ => ⟨rfl, rfl⟩
    · exact h
  | go t e =>
    obtain ⟨f1, f2, f3, f4, f5, f6, f7⟩ := logT_frame s t e
    exact h.keep f1 f2 f6 fun _ => ⟨f4, f5⟩
  | destroy t =>
    have ht : t = 0 := by
      rcases he with he | he | he
      · exact he.2.elim
      · exact he.elim
      · cases he; rfl
    subst ht
    simp only [lstep]
    split
    · rename_i hf
      simp only [Bool.and_eq_true, LSt.free, beq_iff_eq] at hf
      refine ⟨h.others, fun hx => absurd (h.freed hx) (by rw [hf.2]; nofun), rfl, ?_⟩
      have := hf.1.1.1
      show Easy (s.api.pc 0)
      split at this
      · rename_i hp; rw [hp]; trivial
      · cases this
    · exact h
  | dtor =>
    have hk := h.dtor
    have hfr := h.freed
    simp only [lstep, dtorStep]
    cases hdt : s.dtor <;> rw [hdt] at hk hfr <;> dsimp only
    case no => exact h
    case gone => exact h
    case check t =>
      obtain ⟨rfl, hk⟩ := hk
      split
      · rename_i hs
        exact ⟨h.others, fun hx => absurd (hfr hx) nofun, rfl, hk, hs⟩
      · refine ⟨fun u hu => ?_, fun hx => absurd (hfr hx) nofun, rfl⟩
        show Easy ((Api.step s.api (.call 0 .stop)).pc u)
        simp only [Api.step]
        split
        · rw [goto_pc_ne _ _ hu]; exact h.others u hu
        · exact h.others u hu
    case stop t =>
      obtain rfl := hk
      split
      · rename_i hp
        refine ⟨h.others, fun hx => absurd (hfr hx) nofun, rfl, ?_⟩
        show Easy (s.api.pc 0)
        rw [hp]; trivial
      · exact ⟨h.others, h.freed, by rw [hdt]⟩
    case unload t =>
      exact ⟨h.others, fun _ => rfl, hk.2.1, hk.2.2, rfl⟩

theorem one_inv {es : List LEv} (h : ∀ e ∈ es, OneThread e) : ControlInv (lrun {} es) ∧ (lrun {} es).dtor = .no ∧
    (lrun {} es).freed = false ∧ (lrun {} es).bad = false := by
  have key : ∀ (s : LSt), ControlInv s → s.dtor = .no → s.freed = false → s.bad = false →
      ControlInv (lrun s es) ∧ (lrun s es).dtor = .no ∧ (lrun s es).freed = false ∧ (lrun s es).bad = false := by
    induction es with
    | nil => exact fun s h1 h2 h3 h4 => ⟨h1, h2, h3, h4⟩
    | cons e es ih =>
      intro s h1 h2 h3 h4
      have he := h e (List.mem_cons_self ..)
      have h1' := h1.step (Or.inl ⟨h2, he⟩)
      refine ih (fun e he => h e (List.mem_cons_of_mem _ he)) (lstep s e) h1' ?_ ?_ ?_
      all_goals
        cases e with
        | api e => cases e <;> simp only [lstep, LSt.mark] <;> (repeat' split) <;> simp_all
        | say t i => simp only [lstep] <;> split <;> assumption
        | go t e =>
          obtain ⟨f1, f2, f3, _⟩ := logT_frame s t e
          simp only [lstep, LSt.mark] <;> simp_all
        | destroy t => exact he.elim
        | dtor => simp only [lstep, dtorStep, h2] <;> assumption
  exact key {} ⟨fun _ _ => trivial, nofun, trivial⟩ rfl rfl rfl

/-- Some statement is at a place where its next step uses the memory behind `shm_`. -/
def InUse (s : LSt) : Prop := ∃ t, (s.log t).uses = true

theorem gone_workers {s : LSt} (h : ControlInv s) (hw : WInv s.api) (hf : s.freed = true) : NoWorker s.api := by
  have hd := h.freed hf
  have hk := h.dtor
  rw [hd] at hk
  have hall : ∀ t, (s.api.pc t).depth = 0 → True := fun _ _ => trivial
  have hst := easy_still (s := s.api) fun t => by
    by_cases ht : t = 0
    · rw [ht]; exact hk.1
    · exact h.others t ht
  by_cases hx : ∃ t, 0 < (s.api.pc t).depth
  · obtain ⟨t, ht⟩ := hx
    have := hw.here t ht
    rcases hst t with k | ⟨x, k⟩ <;> rw [k] at this ht
    · cases ht
    · have hq : WOut s.api := this
      rcases hq with q | q
      · exact q.2
      · rw [hk.2.1] at q; cases q
  · rcases hw.outside fun t => Nat.eq_zero_of_not_pos fun k => hx ⟨t, k⟩ with q | q
    · exact q.2
    · rw [hk.2.1] at q; cases q

/-- Either no released memory was used, and no statement is about to, or a statement was in progress when it was released. -/
theorem memory_inv {s0 : LSt} (hc : ControlInv s0) (hw : WInv s0.api) (hf : s0.freed = false) (hb : s0.bad = false) (es : List LEv)
    (hn : ∀ e ∈ es, NoCall e) :
    ControlInv (lrun s0 es) ∧ WInv (lrun s0 es).api ∧
    (((lrun s0 es).bad = false ∧ ((lrun s0 es).freed = true → ¬ InUse (lrun s0 es))) ∨
      ∃ a b t, es = a ++ .dtor :: b ∧ (lrun s0 a).dtor = .unload t ∧ InUse (lrun s0 a)) := by
  generalize hr : es.reverse = rs
  induction rs generalizing es with
  | nil =>
    obtain rfl : es = [] := by simpa using hr
    exact ⟨hc, hw, Or.inl ⟨hb, fun k => by rw [show lrun s0 [] = s0 from rfl, hf] at k; cases k⟩⟩
  | cons e rs ih =>
    obtain ⟨es', rfl⟩ : ∃ es', es = es' ++ [e] := ⟨rs.reverse, by rw [← List.reverse_reverse es, hr]; simp⟩
    have hn' : ∀ e ∈ es', NoCall e := fun x hx => hn x (List.mem_append_left _ hx)
    have he : NoCall e := hn e (by simp)
    obtain ⟨h1, h2, h3⟩ := ih es' hn' (by simpa using hr)
    rw [lrun_append]
    generalize hs : lrun s0 es' = s at *
    show ControlInv (lstep s e) ∧ WInv (lstep s e).api ∧ _
    refine ⟨h1.step (Or.inr (Or.inl he)), h2.lstep e, ?_⟩
    rcases h3 with ⟨hbad, huse⟩ | ⟨a, b, t, rfl, k⟩
    · show ((lstep s e).bad = false ∧ ((lstep s e).freed = true → ¬ InUse (lstep s e))) ∨ _
      have hmark : ∀ t, (s.freed && (s.log t).uses) = false := by
        intro t
        cases hfr : s.freed with
        | false => rfl
        | true =>
          cases hu : (s.log t).uses with
          | false => rfl
          | true => exact absurd ⟨t, hu⟩ (huse hfr)
      cases e with
      | api e =>
        left
        cases e with
        | call t c => exact he.elim
        | work i e =>
          simp only [lstep, LSt.mark]
          refine ⟨?_, huse⟩
          rw [hbad]
          cases hfr : s.freed with
          | false => rfl
          | true => rw [gone_workers h1 h2 hfr i]; rfl
        | run t e =>
          simp only [lstep, LSt.mark]
          exact ⟨by rw [hbad, hmark]; rfl, huse⟩
      | say t i =>
        left
        simp only [lstep]
        split
        · refine ⟨hbad, fun hfr => ?_⟩
          rintro ⟨u, hu⟩
          by_cases hut : u = t
          · subst hut
            simp only [LSt.goto, upd_same] at hu
            cases hu
          · simp only [LSt.goto, upd_ne _ _ hut] at hu
            exact huse hfr ⟨u, hu⟩
        · exact ⟨hbad, huse⟩
      | go t e =>
        left
        obtain ⟨f1, f2, f3, f4, f5, f6, f7⟩ := logT_frame s t e
        simp only [lstep, LSt.mark]
        refine ⟨by rw [f3, hbad, hmark]; rfl, fun hfr => ?_⟩
        rintro ⟨u, hu⟩
        have hfs : s.freed = true := f2.symm.trans hfr
        by_cases hut : u = t
        · subst hut
          have hnu := hmark u
          rw [hfs] at hnu
          have hk := h1.dtor
          rw [h1.freed hfs] at hk
          revert hu
          show ((logT s u e).log u).uses = true → False
          unfold logT
          cases hl : s.log u <;> rw [hl] at hnu <;> first | (cases hnu; done) | skip
          · dsimp only; rw [hl]; nofun
          · dsimp only
            simp only [LSt.goto, upd_same, hk.2.2]
            nofun
          · dsimp only
            simp only [LSt.goto, upd_same, hk.2.1]
            nofun
        · simp only [f7 u hut] at hu
          exact huse hfs ⟨u, hu⟩
      | destroy t => exact he.elim
      | dtor =>
        by_cases hu : ∃ t, s.dtor = .unload t
        · obtain ⟨t, ht⟩ := hu
          by_cases hi : InUse s
          · exact Or.inr ⟨es', [], t, rfl, by rw [hs]; exact ht, by rw [hs]; exact hi⟩
          · left
            simp only [lstep, dtorStep, ht]
            exact ⟨hbad, fun _ => hi⟩
        · left
          simp only [lstep, dtorStep]
          cases hd : s.dtor <;> dsimp only
          case unload t => exact absurd ⟨t, hd⟩ hu
          all_goals
            (repeat' split) <;> exact ⟨hbad, huse⟩
    · exact Or.inr ⟨a, b ++ [e], t, by simp, k⟩

/-- **C112**: one thread makes all the calls of the life cycle and at last calls the destructor; other threads log as they like.  When the
memory has been released, no thread of a channel is left.  Released memory is used only if a statement was in progress at the moment of the
release. -/
theorem C112_memory_partial {es1 es2 : List LEv} (h1 : ∀ e ∈ es1, OneThread e) (h2 : ∀ e ∈ es2, NoCall e) :
    ((lrun {} (es1 ++ .destroy 0 :: es2)).freed = true → ∀ i, (lrun {} (es1 ++ .destroy 0 :: es2)).api.worker i = .none) ∧
    ((lrun {} (es1 ++ .destroy 0 :: es2)).bad = true → ∃ a b t, es2 = a ++ .dtor :: b ∧
      (lrun {} (es1 ++ .destroy 0 :: a)).dtor = .unload t ∧ ∃ u, ((lrun {} (es1 ++ .destroy 0 :: a)).log u).uses = true) := by
  obtain ⟨c1, c2, c3, c4⟩ := one_inv h1
  have hd := c1.step (e := .destroy 0) (Or.inr (Or.inr rfl))
  have hsplit : ∀ es, lrun {} (es1 ++ .destroy 0 :: es) = lrun (lstep (lrun {} es1) (.destroy 0)) es := fun es => lrun_append ..
  have hf : (lstep (lrun {} es1) (.destroy 0)).freed = false := by simp only [lstep]; split <;> exact c3
  have hb : (lstep (lrun {} es1) (.destroy 0)).bad = false := by simp only [lstep]; split <;> exact c4
  obtain ⟨k1, k2, k3⟩ := memory_inv hd ((wInv es1).lstep _) hf hb es2 h2
  rw [hsplit]
  refine ⟨fun hx => gone_workers k1 k2 hx, fun hx => ?_⟩
  rcases k3 with k | ⟨a, b, t, ha, k⟩
  · rw [hx] at k; cases k.1
  · exact ⟨a, b, t, ha, by rw [hsplit]; exact k⟩

/-! ## The hypotheses are met: the logger is started, and then any threads log -/

theorem Spec.Still.step {s : LSt} (h : Still s) {e : LEv} (he : NoCall e) : Still (lstep s e) := by
  have hE : ∀ t, Easy (s.api.pc t) := by
    intro t
    rcases h.1 t with k | ⟨x, k⟩ <;> rw [k] <;> trivial
  cases e with
  | api e =>
    cases e with
    | call t c => exact he.elim
    | work i e =>
      refine ⟨fun t => ?_, h.2⟩
      show (workI s.api i e).pc t = _ ∨ ∃ h, (workI s.api i e).pc t = _
      rw [(work_frame s.api i e).2.2.2.2.1]
      exact h.1 t
    | run t e =>
      refine ⟨easy_still (s := runT s.api t e) fun u => ?_, h.2⟩
      by_cases hu : u = t
      · subst hu; exact (easy_run e (hE u)).1
      · rw [run_pc_other _ _ hu]; exact hE u
  | say t i =>
    simp only [lstep]
    split <;> exact h
  | go t e =>
    obtain ⟨f1, _, _, _, _, f6, _⟩ := logT_frame s t e
    exact ⟨easy_still (s := (logT s t e).api) fun u => f6 u (hE u), by show (logT s t e).dtor = _ ∨ (logT s t e).dtor = _; rw [f1]; exact h.2⟩
  | destroy t => exact he.elim
  | dtor =>
    simp only [lstep, dtorStep]
    rcases h.2 with k | k <;> rw [k] <;> exact h

theorem Spec.Still.run {s : LSt} (h : Still s) {es : List LEv} (he : ∀ e ∈ es, NoCall e) : Still (lrun s es) := by
  induction es generalizing s with
  | nil => exact h
  | cons e es ih => exact ih (h.step (he e (List.mem_cons_self ..))) fun x hx => he x (List.mem_cons_of_mem _ hx)

theorem api_log {es : List LEv} (h : ∀ e ∈ es, ∃ x, e = .api x) (s : LSt) : (lrun s es).log = s.log := by
  induction es generalizing s with
  | nil => rfl
  | cons e es ih =>
    refine (ih (fun x hx => h x (List.mem_cons_of_mem _ hx)) (lstep s e)).trans ?_
    obtain ⟨x, rfl⟩ := h e (List.mem_cons_self ..)
    cases x <;> simp only [lstep, LSt.mark]
    split <;> rfl

/-- **C112**: after any calls have returned, statements without further calls are apart from them. -/
theorem C112_after_calls {es1 es2 : List LEv} (h1 : ∀ e ∈ es1, ∃ x, e = .api x) (h : Still (lrun {} es1)) (h2 : ∀ e ∈ es2, NoCall e) :
    Apart (es1 ++ es2) := by
  intro a b hab hx
  rcases List.append_eq_append_iff.1 hab with ⟨c, rfl, rfl⟩ | ⟨c, rfl, rfl⟩
  · rw [lrun_append]
    exact h.run fun e he => h2 e (List.mem_append_left _ he)
  · obtain ⟨t, ht⟩ := hx
    rw [api_log (fun e he => h1 e (List.mem_append_left _ he))] at ht
    exact absurd rfl ht

/-- One sync channel. -/
def syncConf : Conf := ⟨1, fun _ => false, false, true⟩

/-- `n` steps of thread 0 in a call. -/
def ctl (n : Nat) : List LEv := List.replicate n (.api (.run 0 {}))

/-- `n` steps of the statement of thread `t`. -/
def says (t n : Nat) : List LEv := List.replicate n (.go t {})

/-- Thread 0 has loaded and started the logger. -/
def syncUp : List LEv := .api (.call 0 (.loadStart (some syncConf))) :: ctl 18

theorem ctl_api {n : Nat} : ∀ e ∈ ctl n, ∃ x, e = .api x := fun _ he => ⟨_, (List.mem_replicate.1 he).2⟩
theorem ctl_one {n : Nat} : ∀ e ∈ ctl n, OneThread e := fun e he => by rw [(List.mem_replicate.1 he).2]; trivial
theorem says_no {t n : Nat} : ∀ e ∈ says t n, NoCall e := fun e he => by rw [(List.mem_replicate.1 he).2]; trivial
theorem says_one {t n : Nat} : ∀ e ∈ says t n, OneThread e := fun e he => by rw [(List.mem_replicate.1 he).2]; trivial

theorem syncUp_one : ∀ e ∈ syncUp, OneThread e := by
  intro e he
  rcases List.mem_cons.1 he with rfl | he
  · rfl
  · exact ctl_one e he

theorem syncUp_still : Still (lrun {} syncUp) := by
  have h := one_inv syncUp_one
  have h0 : (lrun {} syncUp).api.pc 0 = .idle := by kernel_rfl
  refine ⟨easy_still fun t => ?_, Or.inl h.2.1⟩
  by_cases ht : t = 0
  · rw [ht, h0]; trivial
  · exact h.1.others t ht

/-- Two threads log at the same time on the sync channel of a logger that was started: one is in `HotUpdateLogger`, the other before line
331; the logger runs. -/
example : Apart (syncUp ++ (.say 1 0 :: .say 2 0 :: says 1 10)) ∧
    (lrun {} (syncUp ++ (.say 1 0 :: .say 2 0 :: says 1 10))).log 1 = .hot 0 ∧
    (lrun {} (syncUp ++ (.say 1 0 :: .say 2 0 :: says 1 10))).log 2 = .shm 0 ∧
    (lrun {} (syncUp ++ (.say 1 0 :: .say 2 0 :: says 1 10))).api.state = .running := by
  refine ⟨C112_after_calls ?_ syncUp_still ?_, by kernel_rfl, by kernel_rfl, by kernel_rfl⟩
  · intro e he
    rcases List.mem_cons.1 he with rfl | he
    · exact ⟨_, rfl⟩
    · exact ctl_api e he
  · intro e he
    rcases List.mem_cons.1 he with rfl | he
    · trivial
    rcases List.mem_cons.1 he with rfl | he
    · trivial
    exact says_no e he

/-! ## Statements while a call is in progress: data races -/

/-- One thread controls the logger; the statement of thread 1 looks at `logger_state_` while `StopLogger` sets it. -/
theorem C112_state_counterexample : ∃ es, (∀ e ∈ es, OneThread e) ∧ LRace (lrun {} es) .state (.api 0) (.api 1) := by
  refine ⟨syncUp ++ (.say 1 0 :: .go 1 {} :: .api (.call 0 .stop) :: ctl 4), ?_, nofun, Or.inl ?_, Or.inl (Or.inr ⟨1, rfl, Or.inl ?_⟩)⟩
  · intro e he
    rcases List.mem_append.1 he with he | he
    · exact syncUp_one e he
    rcases List.mem_cons.1 he with rfl | he
    · trivial
    rcases List.mem_cons.1 he with rfl | he
    · trivial
    rcases List.mem_cons.1 he with rfl | he
    · rfl
    exact ctl_one e he
  · have : (lrun {} (syncUp ++ (.say 1 0 :: .go 1 {} :: .api (.call 0 .stop) :: ctl 4))).api.pc 0 = .spMark := by kernel_rfl
    simp only [Writes, this]
    trivial
  · have : (lrun {} (syncUp ++ (.say 1 0 :: .go 1 {} :: .api (.call 0 .stop) :: ctl 4))).log 1 = .state 0 := by kernel_rfl
    rw [this]
    trivial

/-- The events of the next counterexample: thread 1 is at line 339 and thread 0 in `StopChannels`. -/
def chanRun : List LEv := syncUp ++ (.say 1 0 :: says 1 2) ++ .api (.call 0 .stop) :: ctl 5

/-- The same for `channel_state_`. -/
theorem C112_chan_counterexample : ∃ es, (∀ e ∈ es, OneThread e) ∧ LRace (lrun {} es) (.chan 0) (.api 0) (.api 1) := by
  refine ⟨chanRun, ?_, nofun, Or.inl ?_, Or.inl (Or.inr ⟨1, rfl, Or.inl ?_⟩)⟩
  · intro e he
    rcases List.mem_append.1 he with he | he
    · rcases List.mem_append.1 he with he | he
      · exact syncUp_one e he
      rcases List.mem_cons.1 he with rfl | he
      · trivial
      exact says_one e he
    rcases List.mem_cons.1 he with rfl | he
    · rfl
    exact ctl_one e he
  · have h1 : (lrun {} chanRun).api.pc 0 = .scChan .stop 0 := by kernel_rfl
    have h2 : (lrun {} chanRun).api.size = 1 := by kernel_rfl
    have h3 : (lrun {} chanRun).api.async 0 = false := by kernel_rfl
    simp only [Writes, h1, pcWrites, h2, h3]
    exact ⟨trivial, Nat.one_pos, trivial⟩
  · have : (lrun {} chanRun).log 1 = .chan 0 := by kernel_rfl
    rw [this]
    rfl

/-- Threads 1 and 2 are in `EnterProcChannel` on the sync channel when the logger is stopped. -/
def lateRun : List LEv :=
  syncUp ++ (.say 1 0 :: says 1 8) ++ (.say 2 0 :: says 2 8) ++ (.api (.call 0 .stop) :: ctl 9) ++ [.go 1 {}, .go 2 {}]

/-- Two late statements both set `channel_state_`, after `StopLogger` has returned; and the channel then is marked as running. -/
theorem C112_late_counterexample : ∃ es, (∀ e ∈ es, OneThread e) ∧ LRace (lrun {} es) (.chan 0) (.api 1) (.api 2) ∧
    (lrun {} es).api.state = .uninit ∧ (lstep (lrun {} es) (.go 1 {})).api.chan 0 = .running := by
  refine ⟨lateRun, ?_, ⟨nofun, Or.inr ⟨1, rfl, Or.inl ?_⟩, Or.inr (Or.inr ⟨2, rfl, Or.inl ?_⟩)⟩, by kernel_rfl, by kernel_rfl⟩
  · intro e he
    simp only [lateRun, List.mem_append, List.mem_cons, List.not_mem_nil, or_false] at he
    rcases he with ((((he | rfl | he) | rfl | he) | rfl | he) | rfl | rfl)
    · exact syncUp_one e he
    · trivial
    · exact says_one e he
    · trivial
    · exact says_one e he
    · rfl
    · exact ctl_one e he
    · trivial
    · trivial
  · have : (lrun {} lateRun).log 1 = .run 0 := by kernel_rfl
    rw [this]; rfl
  · have : (lrun {} lateRun).log 2 = .run 0 := by kernel_rfl
    rw [this]; rfl

/-! ## Released memory is used -/

/-- After the destructor was called. -/
def destroyed : List LEv := .dtor :: ctl 9 ++ [.dtor, .dtor, .dtor]

theorem destroyed_no : ∀ e ∈ destroyed, NoCall e := by
  intro e he
  simp only [destroyed, ctl, List.mem_append, List.mem_cons, List.not_mem_nil, or_false, List.mem_replicate] at he
  rcases he with (rfl | ⟨_, rfl⟩) | rfl | rfl | rfl <;> trivial

/-- A thread that has come to line 339 when the logger is destroyed: the statement goes on with released memory. -/
theorem C112_memory_counterexample : ∃ es1 es2, (∀ e ∈ es1, OneThread e) ∧ (∀ e ∈ es2, NoCall e) ∧
    (lrun {} (es1 ++ .destroy 0 :: es2)).bad = true := by
  refine ⟨syncUp ++ (.say 1 0 :: says 1 2), destroyed ++ [.go 1 {}], ?_, ?_, by kernel_rfl⟩
  · intro e he
    rcases List.mem_append.1 he with he | he
    · exact syncUp_one e he
    rcases List.mem_cons.1 he with rfl | he
    · trivial
    exact says_one e he
  · intro e he
    rcases List.mem_append.1 he with he | he
    · exact destroyed_no e he
    · rw [List.mem_singleton.1 he]; trivial

/-- If there was no such statement: the memory is released, later statements end at line 331, and nothing is used (`C112_memory_partial`
applies, with a memory that was indeed released). -/
example : (lrun {} (syncUp ++ (.say 1 0 :: says 1 1) ++ .destroy 0 :: (destroyed ++ .go 1 {} :: .say 2 0 :: says 2 2))).freed = true ∧
    (lrun {} (syncUp ++ (.say 1 0 :: says 1 1) ++ .destroy 0 :: (destroyed ++ .go 1 {} :: .say 2 0 :: says 2 2))).bad = false := by
  exact ⟨by kernel_rfl, by kernel_rfl⟩

/-- Thread 0 has loaded the configuration of C107 (one async channel). -/
def loaded : List LEv := .api (.call 0 (.init (some raceConf))) :: ctl 5

/-- Two threads control the logger: while the destructor is between line 413 and line 421 of fn_core.h, another thread starts the logger;
its thread works with released memory, without any log statement. -/
theorem C112_destructor_counterexample : ∃ es, (∀ t i, .say t i ∉ es) ∧ (lrun {} es).bad = true := by
  refine ⟨loaded ++ [.destroy 0, .dtor, .api (.call 1 .start)] ++ List.replicate 7 (.api (.run 1 {})) ++ [.dtor, .api (.work 0 {})],
    fun t i hx => ?_, by kernel_rfl⟩
  simp only [loaded, ctl, List.mem_append, List.mem_cons, List.not_mem_nil, List.mem_replicate, reduceCtorEq, and_false, or_self] at hx

end FNLog
