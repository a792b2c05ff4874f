import Verif.Model.Shut
import Verif.Proof.FlushRun

/-! # After the end of the dispatchers -/

namespace FNLog
open Spec Ring

/-- No thread outputs anything any more. -/
structure Over (S : Setup) (f : FCrew) : Prop where
  closed : f.crew.ring.lgRunning = false
  state : f.crew.ring.state ≠ .running
  fl : ∀ t, f.fl t = .off
  pc : (S.cfg.async = true ∧ f.crew.ring.pc worker = .done ∧ ∀ t, t ≠ worker → isCons (f.crew.ring.pc t) = false) ∨
    ∀ t, f.crew.ring.pc t = .idle

/-- A thread outside of EnterProcChannel on an async channel. -/
theorem stepT_outside {c : Cfg Piece} (hA : c.async = true) {s : St Piece} {t : Nat} (h : isCons (s.pc t) = false) :
    isCons ((stepT c s t).pc t) = false ∧ (stepT c s t).state = s.state ∧ (stepT c s t).lgRunning = s.lgRunning := by
  unfold Ring.stepT
  split <;> rename_i hpc <;> rw [hpc] at h <;> (repeat' split) <;> simp_all [isCons]

theorem flushAfter_off {B : Stdio} {n : Nat} {p q : PC Piece} (h : isCons p = false) : (flushAfter B n p q).2 = .off := by
  unfold flushAfter
  (repeat' split) <;> first
    | rfl
    | simp [isCons] at h

/-- Nothing reaches a device. -/
theorem Over.act {S : Setup} {B : Stdio} {f : FCrew} (h : Over S f) (e : Act) : ∃ f', fAct S B f e = some f' ∧ Over S f' ∧
    f'.crew.out = f.crew.out ∧ f'.crew.visits = f.crew.visits ∧ f'.buf = f.buf ∧ f'.gen = f.gen := by
  cases e with
  | log t a ops =>
    refine ⟨f, ?_, h, rfl, rfl, rfl, rfl⟩
    simp only [fAct, FNLog.act, beginLog]
    rw [if_neg (fun x => by rw [h.closed] at x; exact absurd x.1 (by decide))]
    split <;> rfl
  | dates t c => exact ⟨_, rfl, ⟨h.closed, h.state, h.fl, h.pc⟩, rfl, rfl, rfl, rfl⟩
  | started =>
    refine ⟨f, ?_, h, rfl, rfl, rfl, rfl⟩
    simp only [fAct, FNLog.act, Ring.step]
    rw [if_neg h.state]
    rfl
  | closing => exact ⟨_, rfl, ⟨rfl, h.state, h.fl, h.pc⟩, rfl, rfl, rfl, rfl⟩
  | stop =>
    refine ⟨_, rfl, ⟨?_, ?_, h.fl, ?_⟩, rfl, rfl, rfl, rfl⟩
    · simp only [Ring.step]; (repeat' split) <;> exact h.closed
    · simp only [Ring.step]
      (repeat' split) <;> first
        | exact h.state
        | (intro x; cases x; done)
    · simp only [Ring.step]; (repeat' split) <;> exact h.pc
  | run t =>
    simp only [fAct, fRunThread, h.fl t, bufRunThread]
    have same : stepT S.cfg f.crew.ring t = f.crew.ring → f.crew.ring.pc t = .idle ∨ f.crew.ring.pc t = .done →
        ∃ f', (runThread S t f.crew).map (f.moved B t) = some f' ∧ Over S f' ∧ f'.crew.out = f.crew.out ∧
          f'.crew.visits = f.crew.visits ∧ f'.buf = f.buf ∧ f'.gen = f.gen := by
      intro hs hp
      have hr : runThread S t f.crew = some f.crew := by
        unfold runThread
        rcases hp with e | e <;> rw [e] <;> simp only [hs]
      rw [hr]
      refine ⟨_, rfl, ⟨h.closed, h.state, fun u => ?_, h.pc⟩, rfl, rfl, rfl, rfl⟩
      show upd f.fl t _ u = _
      by_cases e : u = t
      · subst e
        simp only [upd, if_true]
        rcases hp with e | e <;> rw [e] <;> rfl
      · simp only [upd, e, if_false]; exact h.fl u
    rcases h.pc with ⟨hA, hw, ho⟩ | hi
    · by_cases et : t = worker
      · subst et
        rw [hw]
        simp only
        refine same ?_ (Or.inr hw)
        unfold Ring.stepT
        rw [hw]
      · have hn := ho t et
        obtain ⟨s1, s2, s3⟩ := stepT_outside hA hn
        have hr : runThread S t f.crew = some { f.crew with ring := stepT S.cfg f.crew.ring t } := by
          unfold runThread
          split
          · rename_i k hk
            rw [hk] at hn
            cases hn
          · rfl
        have : ∃ f', (runThread S t f.crew).map (f.moved B t) = some f' ∧ Over S f' ∧ f'.crew.out = f.crew.out ∧
          f'.crew.visits = f.crew.visits ∧ f'.buf = f.buf ∧ f'.gen = f.gen := by
          rw [hr]
          refine ⟨_, rfl, ⟨s3.trans h.closed, ?_, fun u => ?_, Or.inl ⟨hA, ?_, fun u hu => ?_⟩⟩, rfl, rfl, rfl, rfl⟩
          · show (stepT S.cfg f.crew.ring t).state ≠ _
            rw [s2]; exact h.state
          · show upd f.fl t _ u = _
            by_cases e : u = t
            · subst e
              simp only [upd, if_true]
              exact flushAfter_off hn
            · simp only [upd, e, if_false]; exact h.fl u
          · show (stepT S.cfg f.crew.ring t).pc worker = _
            rw [stepT_pc_other _ _ (Ne.symm et)]; exact hw
          · show isCons ((stepT S.cfg f.crew.ring t).pc u) = _
            by_cases e : u = t
            · subst e; exact s1
            · rw [stepT_pc_other _ _ e]; exact ho u hu
        cases hpc : f.crew.ring.pc t with
        | cDisp k => rw [hpc] at hn; cases hn
        | _ => simp only; exact this
    · rw [hi t]
      simp only
      refine same ?_ (Or.inl (hi t))
      unfold Ring.stepT
      rw [hi t]

open Classical in
/-- One event: only `shut` changes what a device has. -/
theorem Over.event {S : Setup} {B : Stdio} {f : FCrew} (h : Over S f) (hm : S.cfg.async = true → f.crew.ring.pc worker = .done)
    (hb : ∀ j, f.buf j = [])
    {J : Nat → Prop} (hex : ∀ j p, J j → (f.crew.out.dev j).handle = some p → f.crew.out.fs p ≠ none) (e : FEv)
    (he : ∀ j, e = .shut j → J j) :
    ∃ f', fEvent S B f e = some f' ∧ Over S f' ∧ (S.cfg.async = true → f'.crew.ring.pc worker = .done) ∧ (∀ j, f'.buf j = []) ∧
      (∀ j p, J j → (f'.crew.out.dev j).handle = some p → f'.crew.out.fs p ≠ none) ∧
      f'.crew.visits = f.crew.visits ∧ (∀ p, bytesOf f'.crew.out.fs p = bytesOf f.crew.out.fs p) ∧
      ∀ j, (f'.crew.out.dev j).handle = if e = .shut j then none else (f.crew.out.dev j).handle := by
  cases e with
  | act e =>
    obtain ⟨f', h1, h2, h3, h4, h5, _⟩ := h.act (B := B) e
    refine ⟨f', h1, h2, fun hA => ?_, fun j => by rw [h5]; exact hb j, fun j p hJ hp => by rw [h3] at hp ⊢; exact hex j p hJ hp, h4,
      fun p => by rw [h3], fun j => by rw [h3, if_neg (by nofun)]⟩
    have hd := hm hA
    cases e with
    | run t =>
      simp only [fAct, fRunThread, h.fl t, bufRunThread] at h1
      rcases h2.pc with ⟨_, hw, _⟩ | hi
      · exact hw
      · by_cases et : t = worker
        · subst et
          rw [hd] at h1
          simp only [runThread, hd, Option.map_some] at h1
          obtain rfl := Option.some.inj h1
          show (stepT S.cfg f.crew.ring worker).pc worker = _
          unfold Ring.stepT
          rw [hd]
          exact hd
        · have hwi := hi worker
          exfalso
          have key : ∀ c, runThread S t f.crew = some c → c.ring.pc worker = f.crew.ring.pc worker := by
            intro c hc
            unfold runThread at hc
            split at hc
            · rename_i k hk
              rcases h.pc with ⟨_, _, ho⟩ | hi'
              · have := ho t et; rw [hk] at this; cases this
              · rw [hi' t] at hk; cases hk
            · obtain rfl := Option.some.inj hc
              exact stepT_pc_other _ _ (Ne.symm et)
          have hne : f'.crew.ring.pc worker = f.crew.ring.pc worker := by
            split at h1
            · rename_i k hk
              rcases h.pc with ⟨_, _, ho⟩ | hi'
              · have := ho t et; rw [hk] at this; cases this
              · rw [hi' t] at hk; cases hk
            · obtain ⟨c, hc, hf'⟩ := Option.map_eq_some_iff.mp h1
              subst hf'
              exact key c hc
          rw [hwi, hd] at hne
          cases hne
    | log t a ops | dates t c | started | closing | stop =>
      simp only [fAct] at h1
      obtain ⟨c, hc, hf'⟩ := Option.map_eq_some_iff.mp h1
      subst hf'
      obtain ⟨_, _, q⟩ := act_quiet hc (by nofun)
      rcases q worker with e | ⟨e, _⟩
      · exact e.trans hd
      · rw [hd] at e; cases e
  | clean =>
    refine ⟨_, rfl, ?_⟩
    split
    · exact ⟨⟨h.closed, h.state, h.fl, h.pc⟩, hm, hb, hex, rfl, fun _ => rfl, fun j => by rw [if_neg (by nofun)]; rfl⟩
    · exact ⟨h, hm, hb, hex, rfl, fun _ => rfl, fun j => by rw [if_neg (by nofun)]⟩
  | shut j =>
    have hms : mayShut S f = true := by
      unfold mayShut
      rw [h.closed]
      by_cases hA : S.cfg.async = true
      · simp [hm hA]
      · simp [hA]
    refine ⟨_, rfl, ?_⟩
    rw [if_pos hms]
    unfold shutFile
    by_cases hn : (f.crew.out.dev j).handle = none
    · rw [if_pos hn]
      refine ⟨h, hm, hb, hex, rfl, fun _ => rfl, fun i => ?_⟩
      split
      · rename_i hx
        cases hx
        exact hn
      · rfl
    · rw [if_neg hn]
      obtain ⟨p, hp⟩ := Option.ne_none_iff_exists'.mp hn
      have hp' : (f.file j).handle = some p := hp
      have hcl : (f.file j).close = ⟨f.crew.out.fs.append p [], none, [], f.gen j, (f.crew.out.dev j).logs⟩ := by
        unfold BufSt.close BufSt.flush
        rw [hp']
        show (⟨f.crew.out.fs.append p (f.buf j).bytes, none, [], f.gen j, (f.crew.out.dev j).logs⟩ : BufSt) = _
        rw [hb j]
        rfl
      have hfs : ∀ q, bytesOf (f.crew.out.fs.append p []) q = bytesOf f.crew.out.fs q := by
        intro q
        by_cases e : q = p
        · subst e
          rw [bytesOf_append_self _ _ _ (hex j q (he j rfl) hp), option_map_append_nil]
        · unfold bytesOf
          rw [append_other _ _ e]
      rw [hcl]
      refine ⟨⟨h.closed, h.state, h.fl, h.pc⟩, hm, fun i => ?_, fun i q hJ hq => ?_, rfl, hfs, fun i => ?_⟩
      · show upd f.buf j [] i = []
        by_cases e : i = j
        · simp [upd, e]
        · simp only [upd, e, if_false]; exact hb i
      · by_cases e : i = j
        · subst e; rw [setFile_dev_self] at hq; cases hq
        · rw [setFile_dev_ne _ _ e] at hq
          exact append_ne _ _ _ _ (hex i q hJ hq)
      · by_cases e : i = j
        · subst e
          rw [setFile_dev_self, if_pos rfl]
        · rw [setFile_dev_ne _ _ e, if_neg (fun x => e (by cases x; rfl))]

open Classical in
theorem Over.events {S : Setup} {B : Stdio} {J : Nat → Prop} : ∀ (es : List FEv), (∀ j, .shut j ∈ es → J j) →
    ∀ {f : FCrew}, Over S f →
    (S.cfg.async = true → f.crew.ring.pc worker = .done) → (∀ j, f.buf j = []) →
    (∀ j p, J j → (f.crew.out.dev j).handle = some p → f.crew.out.fs p ≠ none) →
    ∃ f', fEvents S B es f = some f' ∧ f'.crew.visits = f.crew.visits ∧
      (∀ p, bytesOf f'.crew.out.fs p = bytesOf f.crew.out.fs p) ∧
      ∀ j, ((f'.crew.out.dev j).handle = none ∨ (f'.crew.out.dev j).handle = (f.crew.out.dev j).handle) ∧
        (.shut j ∈ es → (f'.crew.out.dev j).handle = none) := by
  intro es
  induction es with
  | nil => intro _ f _ _ _ _; exact ⟨f, rfl, rfl, fun _ => rfl, fun j => ⟨Or.inr rfl, nofun⟩⟩
  | cons e es ih =>
    intro hJ f h hm hb hex
    obtain ⟨f1, g1, g2, g3, g4, g5, g6, g7, g8⟩ := h.event (B := B) hm hb hex e fun j e => hJ j (by rw [e]; exact List.mem_cons_self ..)
    obtain ⟨f', a1, a2, a3, a4⟩ := ih (fun j hx => hJ j (List.mem_cons_of_mem _ hx)) g2 g3 g4 g5
    refine ⟨f', ?_, a2.trans g6, fun p => (a3 p).trans (g7 p), fun j => ⟨?_, fun hx => ?_⟩⟩
    · show (fEvent S B f e).bind _ = _
      rw [g1]; exact a1
    · rcases (a4 j).1 with x | x
      · exact Or.inl x
      · rw [x, g8 j]
        split
        · exact Or.inl rfl
        · exact Or.inr rfl
    · rcases List.mem_cons.mp hx with rfl | hx
      · rcases (a4 j).1 with x | x
        · exact x
        · rw [x, g8 j, if_pos rfl]
      · exact (a4 j).2 hx

/-- A thread without events is where it was. -/
theorem acts_pc_other {S : Setup} {t : Nat} : ∀ (es : List Act) {s s' : Crew}, acts S es s = some s' →
    (∀ e ∈ es, e.thread ≠ some t) → s'.ring.pc t = s.ring.pc t := by
  intro es
  induction es with
  | nil => intro s s' h _; cases h; rfl
  | cons e es ih =>
    intro s s' h hn
    simp only [acts, Option.bind_eq_bind, Option.bind_eq_some_iff] at h
    obtain ⟨s1, h1, h⟩ := h
    rw [ih h fun x hx => hn x (List.mem_cons_of_mem _ hx)]
    have hne := hn e (List.mem_cons_self ..)
    cases e with
    | dates | started | closing | stop =>
      simp only [act] at h1
      obtain rfl := Option.some.inj h1
      first
        | rfl
        | (simp only [Ring.step]; (repeat' split) <;> rfl)
    | log u a ops =>
      have htu : t ≠ u := fun e => hne (by rw [e]; rfl)
      simp only [act, beginLog] at h1
      split at h1
      · split at h1
        · simp only [Option.bind_eq_bind, Option.bind_eq_some_iff] at h1
          obtain ⟨y, _, h1⟩ := h1
          obtain rfl := Option.some.inj h1
          cases y.1 with
          | none => rfl
          | some b =>
            simp only [holdFor, Ring.step]
            (repeat' split) <;> first
              | rfl
              | (simp [htu]; done)
        · cases h1; rfl
      · cases h1; rfl
    | run u =>
      have htu : t ≠ u := fun e => hne (by rw [e]; rfl)
      simp only [act, runThread] at h1
      split at h1
      · split at h1
        · simp only [dispatchNext, Option.bind_eq_bind, Option.bind_eq_some_iff] at h1
          obtain ⟨_, _, _, _, _, _, h1⟩ := h1
          obtain rfl := Option.some.inj h1
          rfl
        · obtain rfl := Option.some.inj h1
          exact stepT_pc_other _ _ htu
      · obtain rfl := Option.some.inj h1
        exact stepT_pc_other _ _ htu

/-- After the last dispatch nothing is in the buffers. -/
theorem FInvFrom.over {S : Setup} {B : Stdio} {o : OutSt} {f : FCrew} {s : Crew} (h6 : FInv S B o f s)
    (hl : f.crew.ring.lgRunning = false) (hst : f.crew.ring.state ≠ .running)
    (hend : (S.cfg.async = true ∧ f.crew.ring.pc worker = .done) ∨ (S.cfg.async = false ∧ ∀ t, f.crew.ring.pc t = .idle)) :
    Over S f ∧ ∀ j, f.buf j = [] := by
  have hr : f.crew.ring = s.ring := by rw [h6.rel.crew_eq]
  have hcons : ∀ t, f.crew.ring.pc t = .done ∨ isCons (f.crew.ring.pc t) = false := by
    intro t
    rcases hend with ⟨hA, hw⟩ | ⟨_, hi⟩
    · by_cases e : t = worker
      · subst e; exact Or.inl hw
      · refine Or.inr ?_
        cases hc : isCons (f.crew.ring.pc t) with
        | false => rfl
        | true => rw [hr] at hc; exact absurd (h6.crew.ring.consTid hA t hc) e
    · right; rw [hi t]; rfl
  have hfl : ∀ t, f.fl t = .off := by
    intro t
    refine Classical.byContradiction fun hx => ?_
    rcases (h6.tidy.look t hx).1 with y | y <;> rcases hcons t with z | z <;> rw [y] at z <;> cases z
  have hbuf : ∀ j, f.buf j = [] := by
    intro j
    refine lagOf_all fun t => ?_
    have hk := h6.tidy.lag t j
    have hcnt : f.count t = 0 := by
      refine Classical.byContradiction fun hx => ?_
      have hy := h6.tidy.cnt t hx
      rcases hcons t with z | z
      · rw [z] at hy; cases hy
      · generalize f.crew.ring.pc t = q at hy z
        cases q <;> first | (cases z; done) | (cases hy; done)
    have how : owing (f.crew.pos t) j (f.crew.ring.pc t) = 0 := by
      rcases hcons t with z | z
      · rw [z]; rfl
      · generalize f.crew.ring.pc t = q at z
        cases q <;> first | rfl | cases z
    rw [hfl t, hcnt] at hk
    simp only [allowed, how] at hk
    omega
  have hover : Over S f := by
    refine ⟨hl, hst, hfl, ?_⟩
    rcases hend with ⟨hA, hw⟩ | ⟨_, hi⟩
    · refine Or.inl ⟨hA, hw, fun t ht => ?_⟩
      rcases hcons t with z | z
      · rw [hr] at z
        exact absurd (h6.crew.ring.consTid hA t (by rw [z]; rfl)) ht
      · exact z
    · exact Or.inr hi
  exact ⟨hover, hbuf⟩

/-- After the last dispatch, StopLogger closes the files while other threads go on. -/
theorem FInvFrom.shut {S : Setup} {B : Stdio} {o : OutSt} {f : FCrew} {s : Crew} (h6 : FInv S B o f s)
    (hl : f.crew.ring.lgRunning = false) (hst : f.crew.ring.state ≠ .running)
    (hend : (S.cfg.async = true ∧ f.crew.ring.pc worker = .done) ∨ (S.cfg.async = false ∧ ∀ t, f.crew.ring.pc t = .idle))
    (es' : List FEv) (hJ : ∀ j, .shut j ∈ es' → ∃ d, S.channel.devices[j]? = some d ∧ d.outType = .file) :
    ∃ f', fEvents S B es' f = some f' ∧ f'.crew.visits = s.visits ∧
      (∀ (j : Nat) (d : Device) (p : List Char), S.channel.devices[j]? = some d → d.outType = .file →
        FilesOf S.fenv S.channel.id d p → bytesOf f'.crew.out.fs p = bytesOf s.out.fs p) ∧
      (∀ j, (f'.crew.out.dev j).handle = none ∨ (f'.crew.out.dev j).handle = (f.crew.out.dev j).handle) ∧
      ∀ j, .shut j ∈ es' → (f'.crew.out.dev j).handle = none := by
  obtain ⟨hover, hbuf⟩ := h6.over hl hst hend
  obtain ⟨f', a1, a2, a3, a4⟩ := Over.events (B := B) es' hJ hover
    (fun hA => by
      rcases hend with ⟨_, hw⟩ | ⟨hn, _⟩
      · exact hw
      · rw [hA] at hn; cases hn) hbuf
    (fun j p ⟨d, hj, hd⟩ hp => ((h6.rel.files j d hj hd).own p hp).2)
  refine ⟨f', a1, ?_, fun j d p hj hd hp => ?_, fun j => (a4 j).1, fun j => (a4 j).2⟩
  · rw [a2, h6.rel.crew_eq]
  · rw [a3]
    have hb := (h6.rel.files j d hj hd).files p hp
    have : pendingAt (f.file j) p = [] := by
      unfold pendingAt
      split
      · show (f.buf j).bytes = []
        rw [hbuf]; rfl
      · rfl
    rw [this, option_map_append_nil] at hb
    exact hb.symm

end FNLog
