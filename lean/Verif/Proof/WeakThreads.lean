import Verif.Spec.WeakThreads
import Verif.Proof.ThreadsEnd
import Verif.Proof.WeakOrd

/-! # Any number of threads on one channel, under the C++ memory model -/

namespace FNLog
open Spec Ring

/-! ## The ring -/

namespace Weak

variable {α : Type}

/-- A thread inside DispatchLog knows of all accesses to the record. -/
theorem WInv.knows {c : Cfg α} {x : WSt α} (h : WInv c x) {t k : Nat} (hpc : x.s.pc t = .cDisp k) :
    (x.view t).a (k % c.L) = x.acc (k % c.L) := by
  have hg := h.thr t
  have hti := h.inv.ti t
  have hwt := h.wti t
  rw [hpc] at hti hwt
  have hl := h.lenRP k hti.1 hti.2.1
  have hmk := hti.2.2 (by rw [h.old0]; omega)
  rw [h.cur, markOf_ready] at hmk
  have hb := hg.bm (k % c.L)
  have hr := hg.rdy k hwt
  have hvm : (x.view t).m (k % c.L) = x.mlen (k % c.L) := by omega
  have h5 := hg.am (k % c.L)
  have h6 := hg.ba (k % c.L)
  rw [hvm] at h5
  rcases h.accR _ hmk with h7 | ⟨u, j, hu, hj⟩
  · omega
  · exfalso
    have hut : u ≠ t := by rintro rfl; rw [hpc] at hu; cases hu
    exact cown_slots h.inv hut (by rw [hu]; rfl) (by rw [hpc]; rfl) hj

theorem WInv.peek {c : Cfg α} {x : WSt α} (h : WInv c x) {t k : Nat} (hpc : x.s.pc t = .cDisp k) :
    x.peek t (k % c.L) = x := by
  have := h.knows hpc
  unfold WSt.peek
  rw [this]
  simp

theorem stepT_weak_other (c : Cfg α) (x : WSt α) (t n : Nat) (b : Bool) {u : Nat} (hu : u ≠ t) :
    (stepT c x t n b).s.pc u = x.s.pc u := by
  rcases base_cases c x t n b with h1 | ⟨p, h1 | ⟨k, h1⟩, _⟩
  · rw [h1]; exact stepT_pc_other _ _ hu
  · rw [h1]; simp [hu]
  · rw [h1]; simp [hu]

theorem stepT_disp (c : Cfg α) (x : WSt α) (t n : Nat) (b : Bool) {k : Nat} (hpc : x.s.pc t = .cDisp k) :
    (stepT c x t n b).s = Ring.stepT c x.s t := by
  rcases base_cases c x t n b with h1 | ⟨p, _, _, _, h4⟩
  · exact h1
  · exact absurd hpc (h4 k)

end Weak

theorem weak_quiet (c : Cfg Piece) (x : Weak.WSt Piece) (t n : Nat) (b : Bool) (hp : ∀ k, x.s.pc t ≠ .cDisp k) :
    (Weak.stepT c x t n b).s.out = x.s.out ∧ (Weak.stepT c x t n b).s.calls = x.s.calls ∧
    ∃ y, (Weak.stepT c x t n b).s.acquired = x.s.acquired ++ y := by
  rcases Weak.base_cases c x t n b with h1 | ⟨p, h1 | ⟨k, h1⟩, _⟩
  · rw [h1]; exact ⟨stepT_out _ _ _ hp, stepT_calls _ _ _, stepT_acquired _ _ _⟩
  · rw [h1]; exact ⟨rfl, rfl, [], (List.append_nil _).symm⟩
  · rw [h1]; exact ⟨rfl, rfl, [], (List.append_nil _).symm⟩

/-! ## The invariant -/

/-- The invariants of the ring and of the devices. -/
structure WCrewInv (S : Setup) (o : OutSt) (x : WCrew) : Prop where
  weak : Weak.WInv S.cfg x.weak
  crew : CrewInv S o x.crew
  ord : S.cfg.async = true → Weak.WOrd S.cfg x.weak ∧ InTurn S x.crew

theorem inTurn_keep {S : Setup} {s : Crew} (ho : InTurn S s) {r : St Piece} {ca : Nat → DateCache}
    {made : List (Nat × Call × List StreamOp)} (h1 : r.out = s.ring.out)
    (h2 : r.pc worker = s.ring.pc worker ∨ s.pos worker = 0) :
    InTurn S { s with ring := r, caches := ca, made := made } := by
  have hcur : current { s with ring := r, caches := ca, made := made } = current s := by
    rcases h2 with h2 | h2
    · simp only [current, h2]
    · rw [current_nil (s := s) h2, current_nil]
      exact h2
  unfold InTurn at ho ⊢
  rw [hcur]
  simp only [h1]
  exact ho

/-- A step of a thread that is not inside DispatchLog. -/
theorem WCrewInv.plain {S : Setup} {o : OutSt} {x : WCrew} (h : WCrewInv S o x) {t n : Nat} {b : Bool}
    (ht : timelyAt S.cfg x.weak.s t) (hp : ∀ k, x.weak.s.pc t ≠ .cDisp k) :
    WCrewInv S o { x with weak := Weak.stepT S.cfg x.weak t n b } := by
  have hw : Weak.WInv S.cfg (Weak.stepT S.cfg x.weak t n b) := h.weak.stepT ht
  obtain ⟨q1, q2, q3⟩ := weak_quiet S.cfg x.weak t n b hp
  have hpos : x.pos t = 0 := h.crew.posZero t hp
  refine ⟨hw, ?_, fun hA => ⟨(h.ord hA).1.step hA h.weak (.run t n b) hw, ?_⟩⟩
  · refine h.crew.keep hw.inv (Weak.ProgOrd.weak h.crew.prog (.run t n b)) (Weak.base_weak _ _ (.run t n b)) h.crew.caches ?_
      q1 q3 ?_ ?_
    · rw [q2]; exact h.crew.spoken
    · intro u k hu
      have e : u ≠ t := by rintro rfl; exact hp k hu
      rw [Weak.stepT_weak_other _ _ _ _ _ e]
      exact hu
    · intro u k hu
      by_cases e : u = t
      · subst e; exact Or.inr hpos
      · rw [Weak.stepT_weak_other _ _ _ _ _ e] at hu
        exact Or.inl hu
  · refine inTurn_keep (h.ord hA).2 q1 ?_
    by_cases e : worker = t
    · subst e; exact Or.inr hpos
    · exact Or.inl (Weak.stepT_weak_other _ _ _ _ _ e)

/-- The end of DispatchLog. -/
theorem WCrewInv.finish {S : Setup} {o : OutSt} {x : WCrew} (h : WCrewInv S o x) {t n k : Nat} {b : Bool}
    (hpc : x.weak.s.pc t = .cDisp k) (hpos : S.channel.devices.length ≤ x.pos t) :
    WCrewInv S o { x with weak := Weak.stepT S.cfg x.weak t n b, pos := upd x.pos t 0 } := by
  have ht : timelyAt S.cfg x.weak.s t := by unfold timelyAt; rw [hpc]; trivial
  have hw : Weak.WInv S.cfg (Weak.stepT S.cfg x.weak t n b) := h.weak.stepT ht
  have e := Weak.stepT_disp S.cfg x.weak t n b hpc
  refine ⟨hw, ?_, fun hA => ⟨(h.ord hA).1.step hA h.weak (.run t n b) hw, ?_⟩⟩
  · have := h.crew.finish hpc hpos
    show CrewInv S o ⟨(Weak.stepT S.cfg x.weak t n b).s, _, _, _, _, _⟩
    rw [e]
    exact this
  · have ho := (h.ord hA).2
    have htw : t = worker := h.weak.inv.consTid hA t (by rw [hpc]; rfl)
    subst htw
    have hlen : x.pos worker = S.channel.devices.length := Nat.le_antisymm (h.crew.posLe worker) hpos
    have e2 : Ring.stepT S.cfg x.weak.s worker =
        { x.weak.s with out := x.weak.s.out ++ [(k, x.weak.s.cell (k % S.cfg.L))] }.go worker (.cClear k) := by
      unfold Ring.stepT
      rw [hpc]
    unfold InTurn at ho ⊢
    rw [current_nil (show upd x.pos worker 0 worker = 0 from upd_same _ _ _), List.append_nil]
    simp only [WCrew.crew] at ho ⊢
    simp only [ho, current, hpc, hlen, e, e2, Ring.St.go, List.map_append, List.flatMap_append, List.map_cons, List.map_nil,
      List.flatMap_cons, List.flatMap_nil, List.append_nil]

/-- A visit of a device. -/
theorem WCrewInv.visit {S : Setup} (hS : Ready S) (hap : FilesApart S.fenv S.channel.id S.channel.devices) {o : OutSt}
    {x : WCrew} (h : WCrewInv S o x) {t k : Nat} (hpc : x.weak.s.pc t = .cDisp k) {d : Device}
    (hd : S.channel.devices[x.pos t]? = some d) : ∃ x', wDispatchNext S t k d x = some x' ∧ WCrewInv S o x' := by
  obtain ⟨s', e1, e2, e3, e4, hdr, line, e5, _⟩ := h.crew.visit hS hap hpc hd
  obtain ⟨r, ou, ca, po, ma, vi⟩ := s'
  simp only at e3 e4 e5
  subst e3
  refine ⟨⟨x.weak.peek t (k % S.cfg.L), ou, ca, po, ma, vi⟩, ?_, ?_⟩
  · unfold wDispatchNext
    rw [e1]
    rfl
  · rw [h.weak.peek hpc]
    refine ⟨h.weak, e2, fun hA => ⟨(h.ord hA).1, ?_⟩⟩
    have htw : t = worker := h.weak.inv.consTid hA t (by rw [hpc]; rfl)
    subst htw
    have ho := (h.ord hA).2
    unfold InTurn at ho ⊢
    simp only [WCrew.crew] at ho e4 e5 ⊢
    rw [e5, List.map_append, ho]
    simp only [current, hpc, e4, upd_same, List.range_succ, List.map_append, List.append_assoc, List.map_cons, List.map_nil]

/-! ## Events -/

theorem weak_call {c : Cfg Piece} {x : Weak.WSt Piece} {t : Nat} {body : List Piece} (hpc : x.s.pc t = .idle) :
    (Weak.step c x (.call t body)).s.calls = x.s.calls ++ [(t, body)] ∧
    (Weak.step c x (.call t body)).s.out = x.s.out ∧ (Weak.step c x (.call t body)).s.acquired = x.s.acquired ∧
    ∀ u, (Weak.step c x (.call t body)).s.pc u = if u = t then .hChk 0 body else x.s.pc u := by
  simp only [Weak.step, hpc]
  exact ⟨rfl, rfl, rfl, fun u => rfl⟩

/-- One event: defined, and the invariants remain. -/
theorem wAct_ok {S : Setup} (hS : Ready S) (hap : FilesApart S.fenv S.channel.id S.channel.devices) {o : OutSt} {x : WCrew}
    (h : WCrewInv S o x) {e : WAct} (he : SoundWAct S e) (ht : ∀ t n b, e = .run t n b → timelyAt S.cfg x.weak.s t) :
    ∃ x', wAct S x e = some x' ∧ WCrewInv S o x' := by
  cases e with
  | dates t c =>
    refine ⟨_, rfl, h.weak, ?_, fun hA => ⟨(h.ord hA).1, inTurn_keep (h.ord hA).2 rfl (Or.inl rfl)⟩⟩
    refine h.crew.keep h.crew.ring h.crew.prog rfl (fun u => ?_) h.crew.spoken rfl ⟨[], (List.append_nil _).symm⟩
      (fun _ _ hk => hk) fun _ _ hk => Or.inl hk
    show CacheFrom S.env.zone (upd x.caches t c u)
    by_cases e : u = t
    · subst e; rw [upd_same]; exact he
    · rw [upd_ne _ _ e]; exact h.crew.caches u
  | log t a ops b =>
    simp only [wAct]
    unfold wBeginLog
    split
    · rename_i hpc
      cases b with
      | false => exact ⟨_, if_neg (by decide), h⟩
      | true =>
        rw [if_pos rfl]
        have hcache := h.crew.caches t
        have hupd : ∀ {c : DateCache}, CacheFrom S.env.zone c → ∀ u, CacheFrom S.env.zone (upd x.caches t c u) := by
          intro c hc u
          by_cases e : u = t
          · subst e; rw [upd_same]; exact hc
          · rw [upd_ne _ _ e]; exact h.crew.caches u
        have hpos : x.pos t = 0 := h.crew.posZero t fun k hk => by rw [show x.weak.s.pc t = _ from hk] at hpc; cases hpc
        obtain ⟨recs, g1, g2, g3⟩ := h.crew.spoken
        rcases formed_ok hS he hcache with ⟨h1, h2⟩ | ⟨h1, file, text, c', h2, h3, h4, h5, body, h6, h7⟩
        · have h2' : formed S a ops (x.caches t) = _ := h2
          rw [h2']
          refine ⟨_, rfl, h.weak, ?_, fun hA => ⟨(h.ord hA).1, inTurn_keep (h.ord hA).2 rfl (Or.inl rfl)⟩⟩
          exact h.crew.keep h.crew.ring h.crew.prog rfl (hupd hcache) ⟨recs, g1.refused h1, g2, g3⟩ rfl
            ⟨[], (List.append_nil _).symm⟩ (fun _ _ hk => hk) fun _ _ hk => Or.inl hk
        · have h6' : formed S a ops (x.caches t) = _ := h6
          rw [h6']
          have hw : Weak.WInv S.cfg (Weak.step S.cfg x.weak (.call t body)) := h.weak.step _ (by nofun)
          obtain ⟨q1, q2, q3, q4⟩ := weak_call (c := S.cfg) (body := body) hpc
          refine ⟨_, rfl, hw, ?_, fun hA => ⟨(h.ord hA).1.step hA h.weak _ hw, ?_⟩⟩
          · refine h.crew.keep hw.inv (Weak.ProgOrd.weak h.crew.prog _) (Weak.base_weak _ _ _) (hupd h4) ?_ q2
              ⟨[], by rw [List.append_nil]; exact q3⟩ ?_ ?_
            · refine ⟨recs ++ [(t, headOf S.env S.names a ops file, lineOf S.env.N text)], g1.admitted h1 h2 h3, ?_, ?_⟩
              · intro r hr'
                rw [← List.append_assoc] at hr'
                rcases List.mem_append.mp hr' with hr' | hr'
                · exact g2 r hr'
                · rw [List.mem_singleton] at hr'
                  subst hr'
                  exact ⟨h5, he.dispatch⟩
              · have g3' : x.weak.s.calls.map _ = _ := g3
                show (Weak.step S.cfg x.weak (.call t body)).s.calls.map _ = _
                rw [q1, ← List.append_assoc, List.map_append, List.map_append, g3']
                simp only [List.map_cons, List.map_nil, h7]
            · intro u k hk
              show (Weak.step S.cfg x.weak (.call t body)).s.pc u = _
              rw [q4]
              have e : u ≠ t := by rintro rfl; rw [show x.weak.s.pc u = _ from hk] at hpc; cases hpc
              rw [if_neg e]
              exact hk
            · intro u k hk
              have hk : (Weak.step S.cfg x.weak (.call t body)).s.pc u = .cDisp k := hk
              rw [q4] at hk
              by_cases e : u = t
              · subst e; exact Or.inr hpos
              · rw [if_neg e] at hk; exact Or.inl hk
          · refine inTurn_keep (h.ord hA).2 q2 ?_
            by_cases e : worker = t
            · subst e; exact Or.inr hpos
            · exact Or.inl ((q4 worker).trans (if_neg e))
    · exact ⟨_, rfl, h⟩
  | run t n b =>
    have htt := ht t n b rfl
    simp only [wAct]
    unfold wRunThread
    split
    · rename_i k hpc
      split
      · rename_i d hd
        exact h.visit hS hap hpc hd
      · rename_i hd
        exact ⟨_, rfl, h.finish hpc (List.getElem?_eq_none_iff.mp hd)⟩
    · rename_i hne
      exact ⟨_, rfl, h.plain htt fun k hk => hne k hk⟩

theorem wCrew_inv {S : Setup} (hS : Ready S) {o : OutSt} (ho : Spec.Own S.fenv S.channel.id S.channel.devices o) :
    WCrewInv S o (wCrew S o) where
  weak := Weak.WInv.init S.cfg (Nat.lt_of_lt_of_le (by decide) hS.slots)
  crew := crew_inv hS ho
  ord := fun hA => ⟨Weak.WOrd.init hA, by
    simp [InTurn, wCrew, WCrew.crew, current, Weak.init, Ring.init, worker, hA]⟩

/-- A schedule: defined, and the invariants hold at the end. -/
theorem wActs_ok {S : Setup} (hS : Ready S) (hap : FilesApart S.fenv S.channel.id S.channel.devices) {o : OutSt} :
    ∀ {es : List WAct} {x : WCrew}, WCrewInv S o x → (∀ e ∈ es, SoundWAct S e) → WOnTime S es x →
    ∃ x', wActs S es x = some x' ∧ WCrewInv S o x' := by
  intro es
  induction es with
  | nil => intro x h _ _; exact ⟨x, rfl, h⟩
  | cons e es ih =>
    intro x h he ht
    obtain ⟨x1, a1, a2⟩ := wAct_ok hS hap h (he e (by simp)) ht.1
    obtain ⟨x2, b1, b2⟩ := ih a2 (fun y hy => he y (by simp [hy])) (ht.2 x1 a1)
    exact ⟨x2, by simp only [wActs, Option.bind_eq_bind, a1, Option.bind_some, b1], b2⟩

/-! ## The statements made -/

theorem wMade_act {S : Setup} {x x' : WCrew} {e : WAct} (h : wAct S x e = some x') (t : Nat) :
    ∃ y, linesOf t x'.made = linesOf t x.made ++ y ∧ y.Sublist (wStatementsOf t [e]) := by
  have same : x'.made = x.made → ∃ y, linesOf t x'.made = linesOf t x.made ++ y ∧ y.Sublist (wStatementsOf t [e]) :=
    fun e => ⟨[], by rw [e, List.append_nil], List.nil_sublist _⟩
  cases e with
  | dates => obtain rfl := Option.some.inj h; exact same rfl
  | run u n b =>
    simp only [wAct, wRunThread] at h
    split at h
    · split at h
      · unfold wDispatchNext at h
        simp only [Option.bind_eq_bind] at h
        rename_i k _ _ d _
        cases hd : dispatchNext S u k d x.crew with
        | none => rw [hd] at h; exact absurd h (by simp)
        | some s =>
          rw [hd] at h
          obtain rfl := Option.some.inj h
          exact same (dispatchNext_keeps hd).2
      · obtain rfl := Option.some.inj h; exact same rfl
    · obtain rfl := Option.some.inj h; exact same rfl
  | log u a ops b =>
    simp only [wAct, wBeginLog] at h
    split at h
    · split at h
      · cases hf : formed S a ops (x.caches u) with
        | none => rw [hf] at h; exact absurd h (by simp)
        | some y =>
          rw [hf] at h
          simp only [Option.bind_eq_bind, Option.bind_some] at h
          obtain rfl := Option.some.inj h
          refine ⟨linesOf t [(u, a, ops)], linesOf_append t _ _, ?_⟩
          rw [linesOf_one]
          exact List.Sublist.refl _
      · obtain rfl := Option.some.inj h; exact same rfl
    · obtain rfl := Option.some.inj h; exact same rfl

theorem wStatementsOf_cons (t : Nat) (e : WAct) (es : List WAct) :
    wStatementsOf t (e :: es) = wStatementsOf t [e] ++ wStatementsOf t es := by
  cases e <;> simp only [wStatementsOf, List.nil_append]
  split <;> rfl

theorem wMade_acts {S : Setup} (t : Nat) : ∀ {es : List WAct} {x x' : WCrew}, wActs S es x = some x' →
    ∃ y, linesOf t x'.made = linesOf t x.made ++ y ∧ y.Sublist (wStatementsOf t es) := by
  intro es
  induction es with
  | nil => intro x x' h; obtain rfl := Option.some.inj h; exact ⟨[], by rw [List.append_nil], List.nil_sublist _⟩
  | cons e es ih =>
    intro x x' h
    simp only [wActs, Option.bind_eq_bind] at h
    cases h1 : wAct S x e with
    | none => rw [h1] at h; exact absurd h (by simp)
    | some x1 =>
      rw [h1] at h
      obtain ⟨y, hy1, hy2⟩ := wMade_act h1 t
      obtain ⟨z, hz1, hz2⟩ := ih h
      refine ⟨y ++ z, by rw [hz1, hy1, List.append_assoc], ?_⟩
      rw [wStatementsOf_cons]
      exact hy2.append hz2

/-! ## Examples -/

/-- `WOnTime`, decided. -/
def wOnTimeB (S : Setup) : List WAct → WCrew → Bool
  | [], _ => true
  | .run t n b :: es, x =>
    decide (timelyAt S.cfg x.weak.s t) && (match wAct S x (.run t n b) with | some x' => wOnTimeB S es x' | none => true)
  | e :: es, x => match wAct S x e with | some x' => wOnTimeB S es x' | none => true

theorem wOnTime_of {S : Setup} : ∀ {es : List WAct} {x : WCrew}, wOnTimeB S es x = true → WOnTime S es x := by
  intro es
  induction es with
  | nil => intro x _; trivial
  | cons e es ih =>
    intro x h
    have key : ∀ {e : WAct}, (match wAct S x e with | some x' => wOnTimeB S es x' | none => true) = true →
        ∀ x', wAct S x e = some x' → WOnTime S es x' := by
      intro e h x' hs
      rw [hs] at h
      exact ih h
    cases e with
    | run t n b =>
      simp only [wOnTimeB, Bool.and_eq_true, decide_eq_true_eq] at h
      exact ⟨fun u m c hu => by injection hu with hu; subst hu; exact h.1, key h.2⟩
    | log => exact ⟨fun u _ _ hu => absurd hu (by nofun), key h⟩
    | dates => exact ⟨fun u _ _ hu => absurd hu (by nofun), key h⟩

end FNLog
