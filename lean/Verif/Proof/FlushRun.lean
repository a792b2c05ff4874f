import Verif.Proof.FlushInv

/-! # The crew with streams does what the crew without does -/

namespace FNLog
open Spec Ring

variable {b : Nat} {prior : List (Nat × Head × List Char)}

/-- No stream is closed while a thread may be flushing. -/
def Guarded (S : Setup) : Prop := S.cfg.async = true ∨ Steady S

theorem FInvFrom.alone {S : Setup} {B : Stdio} {o : OutSt} {f : FCrew} {s : Crew} (h : FInvFrom S B o b prior f s)
    (ha : S.cfg.async = true) {t u : Nat} (ht : f.fl t ≠ .off) (hu : isCons (f.crew.ring.pc u) = true) : t = u := by
  have h1 : isCons (f.crew.ring.pc t) = true := by
    rcases (h.tidy.look t ht).1 with e | e <;> rw [e] <;> rfl
  rw [h.rel.ring] at h1 hu
  rw [h.crew.ring.consTid ha t h1, h.crew.ring.consTid ha u hu]

theorem FInvFrom.quiet {S : Setup} {B : Stdio} {o : OutSt} {f : FCrew} {s : Crew} (h : FInvFrom S B o b prior f s) {u : Nat}
    (hu : f.crew.ring.pc u = .idle) : f.fl u = .off :=
  Classical.byContradiction fun hx => by rcases (h.tidy.look u hx).1 with e | e <;> rw [hu] at e <;> cases e

theorem FRel.visited {S : Setup} {f : FCrew} {s : Crew} (h : FRel S f s) (t : Nat) (v : Visit) :
    FRel S (f.visited t v) { s with pos := upd s.pos t (s.pos t + 1), visits := s.visits ++ [v] } where
  ring := h.ring
  caches := h.caches
  pos := by show upd f.crew.pos t (f.crew.pos t + 1) = _; rw [h.pos]
  made := h.made
  visits := by show f.crew.visits ++ [v] = _; rw [h.visits]
  dev := h.dev
  screen := h.screen
  net := h.net
  files := h.files
  foreign := h.foreign
  noBuf := h.noBuf

/-- DispatchLog at one device. -/
theorem FInvFrom.visit {S : Setup} {B : Stdio} (hap : FilesApart S.fenv S.channel.id S.channel.devices) {o : OutSt}
    {f : FCrew} {s s' : Crew} (h : FInvFrom S B o b prior f s) {t k : Nat} {d : Device} (hG : Guarded S ∨ ∀ u, u ≠ t → f.fl u = .off) (hpc : f.crew.ring.pc t = .cDisp k)
    (hoff : f.fl t = .off) (hd : S.channel.devices[f.crew.pos t]? = some d)
    (hs : dispatchNext S t k d s = some s') (hi : CrewFrom S o b prior s') :
    ∃ f', bufDispatchNext S B t k d f = some f' ∧ FInvFrom S B o b prior f' s' := by
  unfold dispatchNext at hs
  unfold bufDispatchNext
  rw [h.rel.ring, h.rel.pos, h.rel.visits]
  have hd' : S.channel.devices[s.pos t]? = some d := by rw [← h.rel.pos]; exact hd
  simp only [Option.bind_eq_bind, Option.bind_eq_some_iff] at hs ⊢
  obtain ⟨⟨hh, text⟩, e1, r, e2, o', e3, e4⟩ := hs
  obtain rfl := Option.some.inj e4
  have key : ∃ f1, enterBufIf S B r t (visitsOf (s.pos t) s.visits).length (s.pos t) d (devLog hh text) f = some f1 ∧
      FRel S f1 { s with out := o' } ∧ f1.count = f.count ∧ f1.fl = f.fl ∧
      (∀ i, i ≠ s.pos t → f1.buf i = f.buf i ∧ f1.gen i = f.gen i) ∧
      ((f1.buf (s.pos t)).map Prod.fst).Sublist ((f.buf (s.pos t)).map Prod.fst ++ [t]) ∧
      (Steady S → (f.crew.out.dev (s.pos t)).handle ≠ none →
        (f1.crew.out.dev (s.pos t)).handle ≠ none ∧ f1.gen (s.pos t) = f.gen (s.pos t)) ∧
      (∀ i, i ≠ s.pos t → f1.crew.out.dev i = f.crew.out.dev i) := by
    unfold enterIf at e3
    unfold enterBufIf
    cases r with
    | true =>
      rw [if_pos rfl] at e3 ⊢
      exact enterBuf_sim hap h.rel hd' e3
    | false =>
      rw [if_neg (by nofun)] at e3 ⊢
      obtain rfl := Option.some.inj e3
      exact ⟨f, rfl, h.rel, rfl, rfl, fun _ _ => ⟨rfl, rfl⟩, List.sublist_append_left _ _, fun _ hh => ⟨hh, rfl⟩,
        fun _ _ => rfl⟩
  obtain ⟨f1, g1, g2, g3, g4, g5, g6, g7, g8⟩ := key
  refine ⟨_, ⟨(hh, text), e1, r, e2, f1, g1, rfl⟩, hi, g2.visited t _, ?_, ?_, ?_⟩
  · have hp : f1.crew.pos = f.crew.pos := by rw [g2.pos, h.rel.pos]
    refine h.tidy.visit hpc hoff (by show f1.crew.ring = _; rw [g2.ring, h.rel.ring]) ?_ g3 g4 ?_ ?_
    · show upd f1.crew.pos t (f1.crew.pos t + 1) = _
      rw [hp]
    · intro i hi
      rw [h.rel.pos] at hi
      exact (g5 i hi).1
    · rw [h.rel.pos]; exact g6
  · intro u j g hu
    exact h.dev u j g (by rw [← g4]; exact hu)
  · intro u j g hu
    have hu' : f.fl u = .call j g := by rw [← g4]; exact hu
    obtain ⟨l1, l2⟩ := h.live u j g hu'
    show (f1.crew.out.dev j).handle ≠ none ∧ f1.gen j = g
    by_cases e : j = s.pos t
    · subst e
      rcases hG with (ha | hst) | hx
      · have := h.alone ha (t := u) (u := t) (by rw [hu']; nofun) (by rw [hpc]; rfl)
        subst this
        rw [hoff] at hu'
        cases hu'
      · obtain ⟨m1, m2⟩ := g7 hst l1
        exact ⟨m1, by rw [m2, l2]⟩
      · by_cases e : u = t
        · subst e
          rw [hoff] at hu'
          cases hu'
        · rw [hx u e] at hu'
          cases hu'
    · rw [g8 j e, (g5 j e).2]
      exact ⟨l1, l2⟩

/-- `runThread` outside of the visits. -/
theorem runThread_move {S : Setup} {s s' : Crew} {t : Nat} (h : runThread S t s = some s')
    (hv : ∀ k, s.ring.pc t = .cDisp k → S.channel.devices[s.pos t]? = none) :
    s'.ring = stepT S.cfg s.ring t ∧ (∀ u, u ≠ t → s'.pos u = s.pos u) ∧
    ∀ k, s.ring.pc t = .cDisp k → s'.pos t = s.pos t ∨ s'.ring.pc t = .cClear k := by
  unfold runThread at h
  split at h
  · rename_i k hpc
    rw [hv k hpc] at h
    obtain rfl := Option.some.inj h
    refine ⟨rfl, fun u hu => by simp [upd, hu], fun k' hk => Or.inr ?_⟩
    rw [hpc] at hk
    cases hk
    show (stepT S.cfg s.ring t).pc t = _
    unfold Ring.stepT
    rw [hpc]
    simp
  · rename_i hpc
    obtain rfl := Option.some.inj h
    exact ⟨rfl, fun _ _ => rfl, fun k hk => absurd hk (hpc k)⟩

theorem FInvFrom.moved {S : Setup} {B : Stdio} {o : OutSt} {f : FCrew} {s s' : Crew} (h : FInvFrom S B o b prior f s) {t : Nat}
    (hoff : f.fl t = .off) (hv : ∀ k, f.crew.ring.pc t = .cDisp k → S.channel.devices[f.crew.pos t]? = none)
    (hs : act S s (.run t) = some s') (hi : CrewFrom S o b prior s') :
    ∃ c, runThread S t f.crew = some c ∧ FInvFrom S B o b prior (f.moved B t c) s' := by
  obtain ⟨h1, h2⟩ := act_out hs (fun u k hu hk => by
    cases hu
    rw [← h.rel.ring] at hk
    rw [← h.rel.pos]
    exact hv k hk) f.crew.out
  rw [← h.rel.crew_eq] at h2
  refine ⟨_, h2, hi, h.rel.step h1 rfl rfl rfl, ?_, ?_, ?_⟩
  · obtain ⟨m1, m2, m3⟩ := runThread_move (s := f.crew) h2 hv
    exact h.tidy.move hoff m1 m2 m3
  · intro u j g hu
    by_cases e : u = t
    · subst e
      have : ∀ n p q, (flushAfter B n p q).2 ≠ .call j g := by
        intro n p q
        unfold flushAfter
        (repeat' split) <;> nofun
      exact absurd (by simpa [FCrew.moved, upd] using hu) (this _ _ _)
    · exact h.dev u j g (by simpa [FCrew.moved, upd, e] using hu)
  · intro u j g hu
    by_cases e : u = t
    · subst e
      have : ∀ n p q, (flushAfter B n p q).2 ≠ .call j g := by
        intro n p q
        unfold flushAfter
        (repeat' split) <;> nofun
      exact absurd (by simpa [FCrew.moved, upd] using hu) (this _ _ _)
    · exact h.live u j g (by simpa [FCrew.moved, upd, e] using hu)

/-- A step of a flush loop. -/
theorem FInvFrom.flushStep {S : Setup} {B : Stdio} (hap : FilesApart S.fenv S.channel.id S.channel.devices) {o : OutSt}
    {f : FCrew} {s : Crew} (h : FInvFrom S B o b prior f s) {t : Nat} (ht : f.fl t ≠ .off) :
    ∃ f', fRunThread S B t f = some f' ∧ FInvFrom S B o b prior f' s := by
  unfold fRunThread
  cases hf : f.fl t with
  | off => exact absurd hf ht
  | look j =>
    refine ⟨_, rfl, ?_⟩
    unfold flushLook
    have skip : f.buf j = [] → FInvFrom S B o b prior { f with fl := upd f.fl t (.look (j + 1)) } s := by
      intro hb
      refine ⟨h.crew, h.rel.step (f' := { f with fl := upd f.fl t (.look (j + 1)) }) rfl h.rel.crew_eq rfl rfl,
        h.tidy.next (Or.inl hf) rfl rfl rfl rfl (fun _ _ => rfl) hb, ?_, ?_⟩
      · intro u i g hu
        by_cases e : u = t
        · subst e; simp [upd] at hu
        · exact h.dev u i g (by simpa [upd, e] using hu)
      · intro u i g hu
        by_cases e : u = t
        · subst e; simp [upd] at hu
        · exact h.live u i g (by simpa [upd, e] using hu)
    cases hj : S.channel.devices[j]? with
    | none =>
      simp only
      refine ⟨h.crew, h.rel.step (f' := { f with fl := upd f.fl t .off }) rfl h.rel.crew_eq rfl rfl, ?_, ?_, ?_⟩
      · refine ⟨fun u hu => ?_, h.tidy.cnt, h.tidy.bound, fun u i => ?_⟩
        · by_cases e : u = t
          · subst e; simp [upd] at hu
          · exact h.tidy.look u (by simpa [upd, e] using hu)
        · have hl := h.tidy.lag u i
          by_cases e : u = t
          · subst e
            by_cases hi : i < S.channel.devices.length
            · rw [hf] at hl
              have : S.channel.devices.length ≤ j := List.getElem?_eq_none_iff.mp hj
              simp only [allowed] at hl
              rw [if_neg (by omega)] at hl
              exact Nat.le_trans hl (Nat.zero_le _)
            · have : f.buf i = [] := h.rel.noBuf i (fun d hd => by
                rw [List.getElem?_eq_none_iff.mpr (by omega)] at hd; cases hd)
              show lagOf (f.buf i) u ≤ _
              rw [this, lagOf_nil]
              exact Nat.zero_le _
          · simpa [upd, e] using hl
      · intro u i g hu
        by_cases e : u = t
        · subst e; simp [upd] at hu
        · exact h.dev u i g (by simpa [upd, e] using hu)
      · intro u i g hu
        by_cases e : u = t
        · subst e; simp [upd] at hu
        · exact h.live u i g (by simpa [upd, e] using hu)
    | some d =>
      simp only
      by_cases hd : d.outType = .file
      · by_cases hh : (f.crew.out.dev j).handle = none
        · rw [if_neg (fun x => x.2 hh)]
          exact skip ((h.rel.files j d hj hd).closed hh)
        · rw [if_pos ⟨hd, hh⟩]
          refine ⟨h.crew, h.rel.step (f' := { f with fl := upd f.fl t (.call j (f.gen j)) }) rfl h.rel.crew_eq rfl rfl,
            ?_, ?_, ?_⟩
          · refine ⟨fun u hu => ?_, h.tidy.cnt, h.tidy.bound, fun u i => ?_⟩
            · by_cases e : u = t
              · subst e; exact h.tidy.look u ht
              · exact h.tidy.look u (by simpa [upd, e] using hu)
            · have hl := h.tidy.lag u i
              by_cases e : u = t
              · subst e
                rw [hf] at hl
                simpa [upd, allowed] using hl
              · simpa [upd, e] using hl
          · intro u i g hu
            by_cases e : u = t
            · subst e
              simp only [upd, if_true] at hu
              cases hu
              exact ⟨d, hj, hd⟩
            · exact h.dev u i g (by simpa [upd, e] using hu)
          · intro u i g hu
            by_cases e : u = t
            · subst e
              simp only [upd, if_true] at hu
              cases hu
              exact ⟨hh, rfl⟩
            · exact h.live u i g (by simpa [upd, e] using hu)
      · rw [if_neg (fun x => hd x.1)]
        exact skip (h.rel.noBuf j (fun d' hd' => by rw [hj] at hd'; cases hd'; exact hd))
  | call j g =>
    obtain ⟨l1, l2⟩ := h.live t j g hf
    obtain ⟨d, hj, hd⟩ := h.dev t j g hf
    unfold flushCall
    simp only
    rw [if_neg (fun x => x.elim l1 fun y => y l2)]
    refine ⟨_, rfl, ?_⟩
    obtain ⟨b1, b2, b3, b4, b5⟩ := (h.rel.files j d hj hd).flush
    have blogs : (f.file j).flush.logs = (f.file j).logs := by unfold BufSt.flush; split <;> rfl
    have hrel : FRel S (f.setFile j (f.file j).flush) { s with out := s.out } := by
      refine h.rel.setFile hap hj hd b1 b5 (fun _ _ => rfl) (fun _ _ => rfl) ?_ rfl rfl
      rw [b3, blogs, ← h.rel.dev]
      rfl
    have hdv : ∀ i, ((f.setFile j (f.file j).flush).crew.out.dev i).handle = (f.crew.out.dev i).handle := by
      intro i
      by_cases e : i = j
      · subst e; rw [setFile_dev_self]; exact b3
      · rw [setFile_dev_ne _ _ e]
    have hgen : ∀ i, (f.setFile j (f.file j).flush).gen i = f.gen i := by
      intro i
      show upd f.gen j (f.file j).flush.gen i = _
      by_cases e : i = j
      · subst e; simp only [upd, if_true]; exact b4
      · simp [upd, e]
    refine ⟨h.crew, ⟨hrel.ring, hrel.caches, hrel.pos, hrel.made, hrel.visits, hrel.dev, hrel.screen, hrel.net, hrel.files,
      hrel.foreign, hrel.noBuf⟩, ?_, ?_, ?_⟩
    · refine h.tidy.next (Or.inr ⟨g, hf⟩) rfl rfl rfl rfl (fun i hi => ?_) ?_
      · show upd f.buf j _ i = _
        simp [upd, hi]
      · show upd f.buf j _ j = _
        simp only [upd, if_true]
        exact b2
    · intro u i g' hu
      by_cases e : u = t
      · subst e; simp [upd] at hu
      · exact h.dev u i g' (by simpa [upd, e] using hu)
    · intro u i g' hu
      have hu' : f.fl u = .call i g' := by
        by_cases e : u = t
        · subst e; simp [upd] at hu
        · simpa [upd, e] using hu
      obtain ⟨m1, m2⟩ := h.live u i g' hu'
      exact ⟨by rw [hdv]; exact m1, by rw [hgen]; exact m2⟩

/-- One event: a step of a flush loop, or the same event without streams. -/
theorem FInvFrom.act {S : Setup} {B : Stdio} (hS : Ready S)
    (hap : FilesApart S.fenv S.channel.id S.channel.devices) {o : OutSt} {f : FCrew} {s : Crew} (h : FInvFrom S B o b prior f s) {e : Act}
    (hG : Guarded S ∨ ∀ t, e.thread = some t → ∀ u, u ≠ t → f.crew.ring.pc u = .idle)
    (he : SoundAct S e) (ht : ∀ t, e = .run t → f.fl t = .off → timelyAt S.cfg f.crew.ring t) :
    ∃ f', fAct S B f e = some f' ∧
      ((∃ t, e = .run t ∧ FInvFrom S B o b prior f' s) ∨
        ((∀ t, e = .run t → timelyAt S.cfg s.ring t) ∧ ∃ s', FNLog.act S s e = some s' ∧ FInvFrom S B o b prior f' s')) := by
  by_cases hr : ∃ t, e = .run t
  · obtain ⟨t, rfl⟩ := hr
    by_cases hoff : f.fl t = .off
    · have htt : ∀ u, Act.run t = .run u → timelyAt S.cfg s.ring u := by
        intro u hu
        cases hu
        rw [← h.rel.ring]
        exact ht t rfl hoff
      obtain ⟨s', _, e1, e2, _⟩ := act_ok hS hap h.crew he htt
      have : ∃ f', fAct S B f (.run t) = some f' ∧ FInvFrom S B o b prior f' s' := by
        show ∃ f', fRunThread S B t f = some f' ∧ _
        unfold fRunThread
        rw [hoff]
        simp only
        unfold bufRunThread
        cases hpc : f.crew.ring.pc t with
        | cDisp k =>
          simp only
          cases hd : S.channel.devices[f.crew.pos t]? with
          | some d =>
            refine h.visit hap (hG.imp id fun hx u hu => h.quiet (hx t rfl u hu)) hpc hoff hd ?_ e2
            have e1' : runThread S t s = some s' := e1
            unfold runThread at e1'
            rw [← h.rel.ring, ← h.rel.pos, hpc] at e1'
            simp only [hd] at e1'
            exact e1'
          | none =>
            obtain ⟨c, c1, c2⟩ := h.moved hoff (fun _ _ => hd) e1 e2
            exact ⟨_, by simp only; rw [c1]; rfl, c2⟩
        | _ =>
          obtain ⟨c, c1, c2⟩ := h.moved hoff (fun k hk => by rw [hpc] at hk; cases hk) e1 e2
          exact ⟨_, by simp only; rw [c1]; rfl, c2⟩
      obtain ⟨f', f1, f2⟩ := this
      exact ⟨f', f1, Or.inr ⟨htt, s', e1, f2⟩⟩
    · obtain ⟨f', f1, f2⟩ := h.flushStep hap hoff
      exact ⟨f', f1, Or.inl ⟨t, rfl, f2⟩⟩
  · have hne : ∀ t, e ≠ .run t := fun t x => hr ⟨t, x⟩
    have htt : ∀ u, e = .run u → timelyAt S.cfg s.ring u := fun u hu => absurd hu (hne u)
    obtain ⟨s', _, e1, e2, _⟩ := act_ok hS hap h.crew he htt
    obtain ⟨h1, h2⟩ := act_out e1 (fun u k hu _ => absurd hu (hne u)) f.crew.out
    rw [← h.rel.crew_eq] at h2
    have hf : fAct S B f e = some { f with crew := { s' with out := f.crew.out } } := by
      cases e with
      | run t => exact absurd rfl (hne t)
      | _ => simp only [fAct]; rw [h2]; rfl
    obtain ⟨q1, q2, q3⟩ := act_quiet h2 hne
    refine ⟨_, hf, Or.inr ⟨htt, s', e1, e2, ?_, ?_, h.dev, h.live⟩⟩
    · exact h.rel.step (f' := { f with crew := { s' with out := f.crew.out } }) h1 rfl rfl rfl
    · exact h.tidy.quiet (f' := { f with crew := { s' with out := f.crew.out } }) q1 rfl rfl rfl q3

/-- A sequence of events. -/
theorem FInvFrom.acts {S : Setup} {B : Stdio} (hS : Ready S)
    (hap : FilesApart S.fenv S.channel.id S.channel.devices) {o : OutSt} : ∀ {es : List Act} {f : FCrew} {s : Crew},
    FInvFrom S B o b prior f s → Guarded S ∨ Serial S B es f → (∀ e ∈ es, SoundAct S e) → FOnTime S B es f →
    ∃ (f' : FCrew) (rs : List Act) (s' : Crew), fActs S B es f = some f' ∧ rs.Sublist es ∧
      (∀ t, statementsOf t rs = statementsOf t es) ∧ OnTime S rs s ∧ FNLog.acts S rs s = some s' ∧ FInvFrom S B o b prior f' s' := by
  intro es
  induction es with
  | nil => intro f s h _ _ _; exact ⟨f, [], s, rfl, List.Sublist.refl _, fun _ => rfl, trivial, rfl, h⟩
  | cons e es ih =>
    intro f s h hG he ht
    obtain ⟨f1, g1, g2⟩ := h.act hS hap (hG.imp id And.left) (he e (List.mem_cons_self ..)) ht.1
    have he' : ∀ x ∈ es, SoundAct S x := fun x hx => he x (List.mem_cons_of_mem _ hx)
    rcases g2 with ⟨t, rfl, g2⟩ | ⟨g2, s1, g3, g4⟩
    · obtain ⟨f', rs, s', a1, a2, a3, a4, a5, a6⟩ := ih g2 (hG.imp id fun x => x.2 f1 g1) he' (ht.2 f1 g1)
      refine ⟨f', rs, s', ?_, a2.cons _, fun u => ?_, a4, a5, a6⟩
      · show (fAct S B f (.run t)).bind _ = _
        rw [g1]; exact a1
      · rw [a3]; rfl
    · obtain ⟨f', rs, s', a1, a2, a3, a4, a5, a6⟩ := ih g4 (hG.imp id fun x => x.2 f1 g1) he' (ht.2 f1 g1)
      refine ⟨f', e :: rs, s', ?_, a2.cons_cons _, fun u => ?_, ⟨g2, ?_⟩, ?_, a6⟩
      · show (fAct S B f e).bind _ = _
        rw [g1]; exact a1
      · cases e <;> simp only [statementsOf, a3]
      · intro s2 hs2
        rw [g3] at hs2
        obtain rfl := Option.some.inj hs2
        exact a4
      · show (FNLog.act S s e).bind _ = _
        rw [g3]; exact a5

/-- The beginning. -/
theorem FInv.init {S : Setup} (B : Stdio) (hS : Ready S) {o : OutSt} (ho : Spec.Own S.fenv S.channel.id S.channel.devices o)
    (hex : ∀ (j : Nat) (d : Device) (p : List Char), S.channel.devices[j]? = some d → d.outType = .file →
      (o.dev j).handle = some p → o.fs p ≠ none) : FInv S B o (fCrew S o) (FNLog.crew S o) where
  crew := crew_inv hS ho
  rel := by
    refine ⟨rfl, rfl, rfl, rfl, rfl, rfl, rfl, rfl, ?_, fun _ _ => rfl, fun _ _ => rfl⟩
    intro j d hj hd
    refine ⟨rfl, rfl, fun p hp => ⟨ho j d p hj hd hp, hex j d p hj hd hp⟩, fun _ => rfl, fun p _ => ?_⟩
    have : pendingAt ((fCrew S o).file j) p = [] := by unfold pendingAt; split <;> rfl
    rw [this, option_map_append_nil]
    rfl
  tidy := ⟨fun _ h => absurd rfl h, fun _ h => absurd rfl h, fun _ => Nat.zero_le _, fun _ _ => Nat.zero_le _⟩
  dev := nofun
  live := nofun

/-- A thread at rest has nothing in the buffers. -/
theorem FInvFrom.rest {S : Setup} {B : Stdio} {o : OutSt} {f : FCrew} {s : Crew} (h : FInvFrom S B o b prior f s) {t : Nat}
    (ht : AtRest f t) (j : Nat) : lagOf (f.buf j) t = 0 := by
  have hl := h.tidy.lag t j
  have hc := h.tidy.cnt t
  have hk := h.tidy.look t
  have hoff : f.fl t = .off := by
    rcases ht with e | e | e
    · exact Classical.byContradiction fun hx => by rcases (hk hx).1 with y | y <;> rw [e] at y <;> cases y
    · exact Classical.byContradiction fun hx => by rcases (hk hx).1 with y | y <;> rw [e] at y <;> cases y
    · exact e.2
  have hcount : f.count t = 0 := by
    refine Classical.byContradiction fun hx => ?_
    have := hc hx
    rcases ht with e | e | e
    · rw [e] at this; cases this
    · rw [e] at this; cases this
    · rw [e.1] at this; cases this
  rw [hoff, hcount] at hl
  have : owing (f.crew.pos t) j (f.crew.ring.pc t) = 0 := by
    rcases ht with e | e | e
    · rw [e]; rfl
    · rw [e]; rfl
    · rw [e.1]; rfl
  simp only [allowed, this] at hl
  omega

/-- No thread ever has more than FN_LOG_FORCE_FLUSH_QUE + 1 records in a buffer. -/
theorem FInvFrom.few {S : Setup} {B : Stdio} {o : OutSt} {f : FCrew} {s : Crew} (h : FInvFrom S B o b prior f s) (t j : Nat) :
    lagOf (f.buf j) t ≤ B.queue + 1 := by
  refine Nat.le_trans (h.tidy.lag t j) ?_
  have hb := h.tidy.bound t
  have key : counted (f.crew.ring.pc t) + owing (f.crew.pos t) j (f.crew.ring.pc t) ≤ 1 := by
    cases f.crew.ring.pc t <;> simp only [counted, owing] <;> (try split) <;> omega
  cases f.fl t with
  | off => simp only [allowed]; omega
  | look i => simp only [allowed]; split <;> omega
  | call i g => simp only [allowed]; split <;> omega

theorem lagOf_all {b : Chunks} (h : ∀ t, lagOf b t = 0) : b = [] := by
  cases b with
  | nil => rfl
  | cons x b =>
    have := h x.1
    simp [lagOf] at this

/-! ## Examples -/

/-- `FOnTime`, decided. -/
def fOnTimeB (S : Setup) (B : Stdio) : List Act → FCrew → Bool
  | [], _ => true
  | .run t :: es, f => (f.fl t != .off || decide (timelyAt S.cfg f.crew.ring t)) &&
    (match fAct S B f (.run t) with | some f' => fOnTimeB S B es f' | none => true)
  | e :: es, f => match fAct S B f e with | some f' => fOnTimeB S B es f' | none => true

theorem fOnTime_of {S : Setup} {B : Stdio} : ∀ {es : List Act} {f : FCrew}, fOnTimeB S B es f = true → FOnTime S B es f := by
  intro es
  induction es with
  | nil => intro f _; trivial
  | cons e es ih =>
    intro f h
    have key : ∀ {e : Act}, (match fAct S B f e with | some f' => fOnTimeB S B es f' | none => true) = true →
        ∀ f', fAct S B f e = some f' → FOnTime S B es f' := by
      intro e h f' hs
      rw [hs] at h
      exact ih h
    cases e with
    | run t =>
      unfold fOnTimeB at h
      rw [Bool.and_eq_true] at h
      refine ⟨fun u hu hoff => ?_, key h.2⟩
      cases hu
      have h1 := h.1
      rw [hoff] at h1
      simpa using h1
    | _ =>
      unfold fOnTimeB at h
      exact ⟨fun u hu => (by cases hu), key h⟩

end FNLog
