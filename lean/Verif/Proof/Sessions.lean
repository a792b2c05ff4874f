import Verif.Proof.SessionsLike
import Verif.Spec.Sessions
import Verif.Props.Serial

/-! # Sessions one after the other -/

namespace FNLog
open Spec Ring

/-- The logger between two sessions. -/
structure Rested (S : Setup) (f : FCrew) : Prop where
  H : f.crew.ring.H = 0
  W : f.crew.ring.W = 0
  P : f.crew.ring.P = 0
  R : f.crew.ring.R = 0
  mark : ∀ i, f.crew.ring.mark (i % S.cfg.L) = .invalid
  thread : ∀ t, ¬ (S.cfg.async = true ∧ t = worker) →
    f.crew.ring.pc t = .idle ∧ f.crew.pos t = 0 ∧ f.count t = 0 ∧ f.fl t = .off
  caches : ∀ t, CacheFrom S.env.zone (f.crew.caches t)
  buf : ∀ j, f.buf j = []
  handle : ∀ (j : Nat) (d : Device), S.channel.devices[j]? = some d → d.outType = .file → (f.crew.out.dev j).handle = none

theorem rested_fresh {S : Setup} {o : OutSt}
    (ho : ∀ (j : Nat) (d : Device), S.channel.devices[j]? = some d → d.outType = .file → (o.dev j).handle = none) :
    Rested S (fCrew S o) := by
  refine ⟨rfl, rfl, rfl, rfl, fun _ => rfl, fun t ht => ⟨?_, rfl, rfl, rfl⟩, fun _ => Or.inl rfl, fun _ => rfl, ho⟩
  show (if S.cfg.async = true ∧ t = worker then _ else _) = _
  rw [if_neg ht]

theorem Rested.inv {S : Setup} (hL : 0 < S.cfg.L) {f : FCrew} (h : Rested S f) : Inv S.cfg (Ring.begin S.cfg f.crew.ring) := by
  have hpc : ∀ t, (Ring.begin S.cfg f.crew.ring).pc t = .cLoad ∧ S.cfg.async = true ∧ t = worker ∨
      (Ring.begin S.cfg f.crew.ring).pc t = .idle := by
    intro t
    simp only [Ring.begin]
    by_cases hx : S.cfg.async = true ∧ t = worker
    · rw [if_pos hx]; exact Or.inl ⟨rfl, hx⟩
    · rw [if_neg hx]; exact Or.inr (h.thread t hx).1
  have eH : (Ring.begin S.cfg f.crew.ring).H = 0 := h.H
  have eW : (Ring.begin S.cfg f.crew.ring).W = 0 := h.W
  have eP : (Ring.begin S.cfg f.crew.ring).P = 0 := h.P
  have eR : (Ring.begin S.cfg f.crew.ring).R = 0 := h.R
  constructor
  case leRP => omega
  case lePW => omega
  case leWH => omega
  case cap => omega
  case len => exact eH.symm
  case baseR => exact Nat.zero_le _
  case oldOk => exact Or.inr (Nat.zero_le _)
  case mPW => intro k _ h; omega
  case mFree => intro k _ _; exact h.mark k
  case mRP => intro k _ h; omega
  case mWH => intro k _ h; omega
  case sealedW => intro k _ h; omega
  case sealedH => intro k _ h; omega
  case ti =>
    intro t
    rcases hpc t with h | h
    · rw [h.1]; trivial
    · rw [h]; trivial
  case uniqC =>
    intro t u k h
    rcases hpc t with h1 | h1
    · rw [h1.1] at h; cases h
    · rw [h1] at h; cases h
  case consTid =>
    intro _ t h
    rcases hpc t with h1 | h1
    · exact h1.2.2
    · rw [h1] at h; cases h
  case outND => exact List.nodup_nil
  case outMem =>
    intro k
    constructor
    · intro h; cases h
    · intro h; omega
  case outVal => intro e h; cases h
  case lostR => intro k h; cases h

/-- The date caches of the first `n` threads. -/
def cacheActs (f : FCrew) (n : Nat) : List Act := (List.range n).map fun t => .dates t (f.crew.caches t)

theorem fActs_dates {S : Setup} {B : Stdio} (ca : Nat → DateCache) : ∀ (l : List Nat) (g : FCrew),
    ∃ g', fActs S B (l.map fun t => .dates t (ca t)) g = some g' ∧ FOnTime S B (l.map fun t => .dates t (ca t)) g ∧
      Serial S B (l.map fun t => .dates t (ca t)) g ∧
      g'.crew.ring = g.crew.ring ∧ g'.crew.out = g.crew.out ∧ g'.crew.pos = g.crew.pos ∧ g'.crew.made = g.crew.made ∧
      g'.crew.visits = g.crew.visits ∧ g'.buf = g.buf ∧ g'.gen = g.gen ∧ g'.count = g.count ∧ g'.fl = g.fl ∧
      ∀ t, g'.crew.caches t = if t ∈ l then ca t else g.crew.caches t := by
  intro l
  induction l with
  | nil => intro g; exact ⟨g, rfl, trivial, trivial, rfl, rfl, rfl, rfl, rfl, rfl, rfl, rfl, rfl, fun t => by simp⟩
  | cons u l ih =>
    intro g
    obtain ⟨g', h1, h1', h1'', h2, h3, h4, h5, h6, h7, h8, h9, h10, h11⟩ := ih { g with crew := { g.crew with caches := upd g.crew.caches u (ca u) } }
    refine ⟨g', h1, ⟨nofun, fun x hx => ?_⟩, ⟨nofun, fun x hx => ?_⟩, h2, h3, h4, h5, h6, h7, h8, h9, h10, fun t => ?_⟩
    · obtain rfl := Option.some.inj hx; exact h1'
    · obtain rfl := Option.some.inj hx; exact h1''
    · rw [h11]
      by_cases e : t ∈ l
      · rw [if_pos e, if_pos (List.mem_cons_of_mem _ e)]
      · rw [if_neg e]
        show upd g.crew.caches u (ca u) t = _
        unfold upd
        by_cases e' : t = u
        · subst e'; simp
        · rw [if_neg e', if_neg (by simp [e, e'])]

/-- The start. -/
theorem Rested.start {S : Setup} {B : Stdio} (hL : 0 < S.cfg.L) {f : FCrew} (h : Rested S f) (n : Nat) :
    ∃ g, fActs S B (cacheActs f n) (fCrew S f.crew.out) = some g ∧ FOnTime S B (cacheActs f n) (fCrew S f.crew.out) ∧
      Serial S B (cacheActs f n) (fCrew S f.crew.out) ∧ FLike S n f.gen (fStart S f) g := by
  obtain ⟨g, h1, h1', h1'', h2, h3, h4, h5, h6, h7, h8, h9, h10, h11⟩ :=
    fActs_dates (S := S) (B := B) f.crew.caches (List.range n) (fCrew S f.crew.out)
  refine ⟨g, h1, h1', h1'', ?_⟩
  have hr : g.crew.ring = Ring.init S.cfg := h2
  have zero : ∀ {β : Type} (v : β) (x : Nat → β), (∀ t, ¬ (S.cfg.async = true ∧ t = worker) → x t = v) →
      newLocal S v x = fun _ => v := by
    intro β v x hx
    funext t
    unfold newLocal
    by_cases hA : S.cfg.async = true
    · rw [if_pos hA]
      unfold upd
      split
      · rfl
      · rename_i e; exact hx t fun y => e y.2
    · rw [if_neg hA]
      exact hx t fun y => hA y.1
  refine ⟨?_, h.inv hL, ?_, h3.symm, fun t ht => ?_, ?_, h5.symm, h6.symm, ?_, fun j => ?_, ?_, fun t => ?_⟩
  · rw [hr]
    refine ⟨h.H, h.W, h.P, h.R, h.mark, rfl, rfl, ?_, rfl, rfl, rfl, rfl, rfl, rfl⟩
    funext t
    show (if S.cfg.async = true ∧ t = worker then _ else _) = if S.cfg.async = true ∧ t = worker then _ else _
    by_cases hx : S.cfg.async = true ∧ t = worker
    · rw [if_pos hx, if_pos hx]
    · rw [if_neg hx, if_neg hx, (h.thread t hx).1]
  · rw [hr]; exact Inv.init S.cfg hL
  · rw [h11, if_pos (List.mem_range.mpr ht)]
    rfl
  · rw [h4]
    exact zero _ _ fun t ht => (h.thread t ht).2.1
  · rw [h7]
    funext j
    exact h.buf j
  · rw [h8]
    exact (Nat.zero_add _).symm
  · rw [h9]
    exact zero _ _ fun t ht => (h.thread t ht).2.2.1
  · rw [h10]
    show newLocal S .off f.fl t = .off
    rw [zero _ _ fun t ht => (h.thread t ht).2.2.2]

/-! ## The end of a session of an async channel -/

theorem step_closed {c : Cfg Piece} {s : St Piece} (h : s.lgRunning = false) (hs : s.state ≠ .running) (e : Ev Piece) :
    (Ring.step c s e).lgRunning = false := by
  cases e with
  | run t => simp only [Ring.step]; unfold Ring.stepT; (repeat' split) <;> exact h
  | started => simp only [Ring.step]; rw [if_neg hs]; exact h
  | closing => rfl
  | stop => simp only [Ring.step]; (repeat' split) <;> exact h
  | call t b => simp only [Ring.step]; (repeat' split) <;> exact h

theorem Drain.state {c : Cfg Piece} {s : St Piece} (h : Drain c s) : s.state ≠ .running := by
  rcases h.st with e | ⟨_, e⟩ <;> rw [e] <;> nofun

theorem Drain.closed {c : Cfg Piece} (hA : c.async = true) : ∀ {es : List (Ev Piece)} {s : St Piece}, Inv c s → Ord c s → Drain c s →
    s.lgRunning = false → (Ring.run c s es).lgRunning = false := by
  intro es
  induction es with
  | nil => intro s _ _ _ h; exact h
  | cons e es ih =>
    intro s hi ho hd h
    obtain ⟨a1, a2, a3, _⟩ := Drain.run hA (es := [e]) hi ho hd
    exact ih (s := Ring.step c s e) a1 a2 a3 (step_closed h (Drain.state hd) e)

/-- The statements of an async channel that is then stopped, and the end of its thread. -/
theorem async_ends {S : Setup} (hS : Ready S) (hA : S.cfg.async = true) (hap : FilesApart S.fenv S.channel.id S.channel.devices)
    {o : OutSt} (ho : Spec.Own S.fenv S.channel.id S.channel.devices o)
    (hex : ∀ (j : Nat) (d : Device) (p : List Char), S.channel.devices[j]? = some d → d.outType = .file →
      (o.dev j).handle = some p → o.fs p ≠ none)
    (B : Stdio) {es es' : List Act} (he : ∀ e ∈ es ++ .stop :: es', SoundAct S e)
    (ht : FOnTime S B (es ++ .stop :: es') (fCrew S o)) (hn : ∀ e ∈ es, e.noStop)
    {f : FCrew} (hf : fActs S B es (fCrew S o) = some f) (hrun : f.crew.ring.state = .running)
    (hlg : f.crew.ring.lgRunning = false)
    (hidle : ∀ t, t ≠ worker → f.crew.ring.pc t = .idle) :
    ∃ f', fActs S B (es ++ .stop :: es') (fCrew S o) = some f' ∧ (f'.crew.ring.pc worker = .done →
      f'.crew.ring.lgRunning = false ∧ f'.crew.ring.state ≠ .running ∧ (∀ t, t ≠ worker → f'.crew.ring.pc t = .idle) ∧
      f'.crew.ring.R = f'.crew.ring.H ∧ f'.crew.ring.W = f'.crew.ring.H ∧
      ∃ (recs : List (Nat × Head × List Char)) (s' : Crew), (∀ t, Logged S (linesOf t f.crew.made) (linesOf t recs)) ∧
        FilesAfter S o s' (fun _ => recs.map Prod.snd) ∧ FInv S B o f' s' ∧
        s'.out.screen = o.screen ++ screenLines S.channel.devices (recs.map Prod.snd)) := by
  have hL : 0 < S.cfg.L := Nat.lt_of_lt_of_le (by decide) hS.slots
  have hG : Guarded S := Or.inl hA
  obtain ⟨ht1, ht2⟩ := fOnTime_append ht
  obtain ⟨f0, rs, s, a1, a2, _, a4, a5, a6⟩ := (FInv.init B hS ho hex).acts hS hap (Or.inl hG) (fun e h => he e (by simp [h])) ht1
  rw [hf] at a1
  obtain rfl := Option.some.inj a1
  have ht2 := ht2 f hf
  obtain ⟨f1, b1, b2⟩ := a6.act hS hap (Or.inl hG) (e := .stop) trivial ht2.1
  rcases b2 with ⟨_, e, _⟩ | ⟨b3, s1, b4, b5⟩
  · cases e
  obtain ⟨f', rs', s', c1, c2, _, c4, c5, c6⟩ := b5.acts hS hap (Or.inl hG) (fun e h => he e (by simp [h])) (ht2.2 f1 b1)
  have e2 : fActs S B (es ++ .stop :: es') (fCrew S o) = some f' := by
    rw [fActs_append, hf]
    show (fAct S B f .stop).bind _ = _
    rw [b1]; exact c1
  refine ⟨f', e2, fun hdone => ?_⟩
  have hr : f.crew.ring = s.ring := by rw [a6.rel.crew_eq]
  have hr' : f'.crew.ring = s'.ring := by rw [c6.rel.crew_eq]
  have hs' : acts S (rs ++ .stop :: rs') (crew S o) = some s' := by
    rw [acts_append, a5]
    simp only [Option.bind_some, acts, Option.bind_eq_bind, b4, c5]
  have hot : OnTime S (rs ++ .stop :: rs') (crew S o) := by
    refine onTime_join a4 a5 ⟨b3, fun s2 h2 => ?_⟩
    rw [b4] at h2
    obtain rfl := Option.some.inj h2
    exact c4
  have hsound : ∀ e ∈ rs ++ .stop :: rs', SoundAct S e := by
    intro e h
    rcases List.mem_append.mp h with h | h
    · exact he e (List.mem_append.mpr (Or.inl (a2.subset h)))
    · rcases List.mem_cons.mp h with rfl | h
      · trivial
      · exact he e (List.mem_append.mpr (Or.inr (List.mem_cons_of_mem _ (c2.subset h))))
  obtain ⟨recs, d1, d2, _, d4, _⟩ := C72_async_complete_partial hS hA hap ho hsound hot (fun e h => hn e (a2.subset h)) a5
    (by rw [← hr]; exact hrun) (fun t h => by rw [← hr]; exact hidle t h) hs' (by rw [← hr']; exact hdone)
  -- the ring
  obtain ⟨s0, es0, g1, _, g3, g4, g5, _⟩ := acts_after hS hap ho (fun e h => hsound e (List.mem_append.mpr (Or.inl h))) a4
  rw [a5] at g1
  obtain rfl := Option.some.inj g1
  have hno := g5 fun e h => hn e (a2.subset h)
  rw [hr, g3] at hrun hidle hlg
  have hd := Drain.enter hA (inv_after hL g4) (ord_after hL hA g4) (ns_after hL g4 hno).1 (ns_after hL g4 hno).2 hrun hidle
  have hi1 := (inv_after hL g4).step (e := .stop) trivial
  have ho1 := (ord_after hL hA g4).step hA (inv_after hL g4) .stop
  have es1 : s1.ring = Ring.step S.cfg (after S.cfg es0) .stop := by
    simp only [act] at b4
    obtain rfl := Option.some.inj b4
    rw [← g3]
  obtain ⟨s2, es2, k1, _, k3, _⟩ := acts_ok hS hap b5.crew (fun e h => he e (by simp [c2.subset h])) c4
  rw [c5] at k1
  obtain rfl := Option.some.inj k1
  rw [es1] at k3
  obtain ⟨_, _, m3, _⟩ := Drain.run hA (es := es2) hi1 ho1 hd
  have m4 := Drain.closed hA (es := es2) hi1 ho1 hd (by
    simp only [Ring.step]; rw [if_pos hA, if_pos hrun]; exact hlg)
  rw [hr', k3] at hdone ⊢
  have hp := m3.pcw
  rw [hdone] at hp
  refine ⟨m4, Drain.state m3, m3.idle, hp.trans m3.full, m3.full, recs, s', fun t => ?_, d2, c6, d4⟩
  rw [a6.rel.crew_eq]
  exact d1 t

/-! ## The end of a session of a sync channel -/

theorem serial_like {S : Setup} {B : Stdio} (hA : S.cfg.async = false) (hS : Ready S)
    (hap : FilesApart S.fenv S.channel.id S.channel.devices) {o : OutSt} {n : Nat} {x : Nat → Nat} :
    ∀ {es : List Act} {f g : FCrew} {s : Crew}, FLike S n x f g → FInv S B o g s → (∃ t, SerAt S t s) →
    (∀ e ∈ es, ∀ t, e.user = some t → t < n) → Serial S B es f → (∀ e ∈ es, SoundAct S e) → Serial S B es g := by
  intro es
  induction es with
  | nil => intro _ _ _ _ _ _ _ _ _; trivial
  | cons e es ih =>
    intro f g s hl h ⟨t0, hx⟩ hn hser he
    have hser1 : ∀ t, e.thread = some t → ∀ u, u ≠ t → g.crew.ring.pc u = .idle := by
      intro t he u hu
      rw [← hl.ring.pc]
      exact hser.1 t he u hu
    have hser2 := hser1
    rw [h.rel.ring] at hser2
    obtain ⟨t, hx, ht⟩ : ∃ t, SerAt S t s ∧ ∀ u, e.thread = some u → u = t := by
      cases hth : e.thread with
      | none => exact ⟨t0, hx, nofun⟩
      | some u => exact ⟨u, hx.switch (hser2 u hth), fun v hv => (Option.some.inj hv).symm⟩
    have htim : ∀ u, e = .run u → g.fl u = .off → timelyAt S.cfg g.crew.ring u := by
      rintro u rfl _
      rw [h.rel.ring, ht u rfl]
      exact timelyAt_of_exact hx.lone.exact
    obtain ⟨g1, k1, k2⟩ := h.act hS hap (Or.inr hser1) (he e (List.mem_cons_self ..)) htim
    obtain ⟨f1, l1, l2⟩ := hl.fAct (hn e (List.mem_cons_self ..)) htim k1
    refine ⟨hser1, fun g2 hg2 => ?_⟩
    rw [k1] at hg2
    obtain rfl := Option.some.inj hg2
    have hn' : ∀ x ∈ es, ∀ t, x.user = some t → t < n := fun x hx => hn x (List.mem_cons_of_mem _ hx)
    have he' : ∀ x ∈ es, SoundAct S x := fun x hx => he x (List.mem_cons_of_mem _ hx)
    rcases k2 with ⟨u, rfl, k2⟩ | ⟨_, s1, k3, k4⟩
    · exact ih l2 k2 ⟨t, hx⟩ hn' (hser.2 f1 l1) he'
    · exact ih l2 k4 ⟨t, hx.act hA hS hap h.crew ht k3⟩ hn' (hser.2 f1 l1) he'

/-- Nothing but date caches and states differs. -/
structure Calm (f f' : FCrew) : Prop where
  H : f'.crew.ring.H = f.crew.ring.H
  W : f'.crew.ring.W = f.crew.ring.W
  P : f'.crew.ring.P = f.crew.ring.P
  R : f'.crew.ring.R = f.crew.ring.R
  mark : f'.crew.ring.mark = f.crew.ring.mark
  pc : f'.crew.ring.pc = f.crew.ring.pc
  out : f'.crew.out = f.crew.out
  pos : f'.crew.pos = f.crew.pos
  buf : f'.buf = f.buf
  count : f'.count = f.count
  fl : f'.fl = f.fl

theorem Calm.refl (f : FCrew) : Calm f f := ⟨rfl, rfl, rfl, rfl, rfl, rfl, rfl, rfl, rfl, rfl, rfl⟩

theorem Calm.trans {f g h : FCrew} (a : Calm f g) (b : Calm g h) : Calm f h :=
  ⟨b.H.trans a.H, b.W.trans a.W, b.P.trans a.P, b.R.trans a.R, b.mark.trans a.mark, b.pc.trans a.pc, b.out.trans a.out,
    b.pos.trans a.pos, b.buf.trans a.buf, b.count.trans a.count, b.fl.trans a.fl⟩

/-- After StopLogger has closed a sync channel outside of log statements. -/
structure Closed0 (S : Setup) (f : FCrew) : Prop where
  lg : f.crew.ring.lgRunning = false
  state : f.crew.ring.state ≠ .running
  pc : ∀ t, f.crew.ring.pc t = .idle
  fl : ∀ t, f.fl t = .off

theorem Closed0.act {S : Setup} {B : Stdio} {f : FCrew} (h : Closed0 S f) (e : Act) :
    ∃ f', fAct S B f e = some f' ∧ Closed0 S f' ∧ Calm f f' ∧
      (SoundAct S e → (∀ t, CacheFrom S.env.zone (f.crew.caches t)) → ∀ t, CacheFrom S.env.zone (f'.crew.caches t)) := by
  cases e with
  | log t a ops =>
    refine ⟨f, ?_, h, Calm.refl f, fun _ x => x⟩
    simp only [fAct, FNLog.act, beginLog]
    rw [if_neg (fun x => by rw [h.lg] at x; exact absurd x.1 (by decide))]
    split <;> rfl
  | dates t c =>
    refine ⟨_, rfl, ⟨h.lg, h.state, h.pc, h.fl⟩, ⟨rfl, rfl, rfl, rfl, rfl, rfl, rfl, rfl, rfl, rfl, rfl⟩, fun hc x u => ?_⟩
    show CacheFrom _ (upd f.crew.caches t c u)
    unfold upd
    split
    · exact hc
    · exact x u
  | started =>
    refine ⟨f, ?_, h, Calm.refl f, fun _ x => x⟩
    simp only [fAct, FNLog.act, Ring.step]
    rw [if_neg h.state]
    rfl
  | closing => exact ⟨_, rfl, ⟨rfl, h.state, h.pc, h.fl⟩, ⟨rfl, rfl, rfl, rfl, rfl, rfl, rfl, rfl, rfl, rfl, rfl⟩, fun _ x => x⟩
  | stop =>
    refine ⟨_, rfl, ⟨?_, ?_, ?_, h.fl⟩, ?_, fun _ x => x⟩
    · simp only [Ring.step]; (repeat' split) <;> exact h.lg
    · simp only [Ring.step]
      (repeat' split) <;> first
        | exact h.state
        | (intro x; cases x; done)
    · simp only [Ring.step]; (repeat' split) <;> exact h.pc
    · constructor <;> first
        | rfl
        | (simp only [Ring.step]; (repeat' split) <;> rfl)
  | run t =>
    have hst : stepT S.cfg f.crew.ring t = f.crew.ring := by unfold Ring.stepT; rw [h.pc t]
    have hr : runThread S t f.crew = some f.crew := by
      unfold runThread
      rw [h.pc t]
      simp only
      rw [hst]
    have hm : f.moved B t f.crew = f := by
      unfold FCrew.moved
      rw [h.pc t]
      simp only [flushAfter]
      have e1 : upd f.count t (f.count t) = f.count := by funext u; unfold upd; split <;> simp_all
      have e2 : upd f.fl t .off = f.fl := by
        funext u
        unfold upd
        split
        · exact (h.fl u).symm
        · rfl
      rw [e1, e2]
    refine ⟨f, ?_, h, Calm.refl f, fun _ x => x⟩
    simp only [fAct, fRunThread, h.fl t, bufRunThread, h.pc t]
    rw [hr, Option.map_some, hm]

theorem Closed0.acts {S : Setup} {B : Stdio} : ∀ (es : List Act) {f : FCrew}, Closed0 S f →
    ∃ f', fActs S B es f = some f' ∧ Closed0 S f' ∧ Calm f f' ∧ ((∀ e ∈ es, SoundAct S e) →
      (∀ t, CacheFrom S.env.zone (f.crew.caches t)) → ∀ t, CacheFrom S.env.zone (f'.crew.caches t)) := by
  intro es
  induction es with
  | nil => intro f h; exact ⟨f, rfl, h, Calm.refl f, fun _ x => x⟩
  | cons e es ih =>
    intro f h
    obtain ⟨f1, a1, a2, a3, a4⟩ := h.act (B := B) e
    obtain ⟨f', b1, b2, b3, b4⟩ := ih a2
    refine ⟨f', ?_, b2, a3.trans b3, fun he x => b4 (fun e h => he e (List.mem_cons_of_mem _ h)) (a4 (he e (List.mem_cons_self ..)) x)⟩
    show (fAct S B f e).bind _ = _
    rw [a1]; exact b1

/-- StopLogger on a sync channel. -/
theorem sync_stops {S : Setup} {B : Stdio} (hA : S.cfg.async = false) {f : FCrew} (hpc : ∀ t, f.crew.ring.pc t = .idle)
    (hfl : ∀ t, f.fl t = .off) (es : List Act) :
    ∃ f', fActs S B (.closing :: .stop :: es) f = some f' ∧ Closed0 S f' ∧ Calm f f' ∧ ((∀ e ∈ es, SoundAct S e) →
      (∀ t, CacheFrom S.env.zone (f.crew.caches t)) → ∀ t, CacheFrom S.env.zone (f'.crew.caches t)) := by
  obtain ⟨f', a1, a2, a3, a4⟩ := Closed0.acts (S := S) (B := B) es
    (f := { f with crew := { f.crew with ring := Ring.step S.cfg (Ring.step S.cfg f.crew.ring .closing) .stop } })
    ⟨by simp [Ring.step, hA], by simp [Ring.step, hA], fun t => by simp [Ring.step, hA, hpc], hfl⟩
  refine ⟨f', a1, a2, Calm.trans ?_ a3, a4⟩
  constructor <;> first
    | rfl
    | simp [Ring.step, hA]

/-! ## The end of StopLogger -/

theorem fAct_caches {S : Setup} {B : Stdio} {f f' : FCrew} {e : Act} {u : Nat} (h : fAct S B f e = some f')
    (hu : e.user ≠ some u) : f'.crew.caches u = f.crew.caches u := by
  cases e with
  | started | closing | stop => obtain rfl := Option.some.inj h; rfl
  | dates t c =>
    obtain rfl := Option.some.inj h
    show upd f.crew.caches t c u = _
    unfold upd
    rw [if_neg fun e => hu (by rw [e]; rfl)]
  | log t a ops =>
    simp only [fAct, FNLog.act, beginLog] at h
    split at h
    · split at h
      · simp only [Option.bind_eq_bind] at h
        cases hfm : formed S a ops (f.crew.caches t) with
        | none => rw [hfm] at h; cases h
        | some y =>
          rw [hfm] at h
          simp only [Option.bind_some, Option.map_some] at h
          obtain rfl := Option.some.inj h
          show upd f.crew.caches t y.2 u = _
          unfold upd
          rw [if_neg fun e => hu (by rw [e]; rfl)]
      · obtain rfl := Option.some.inj h; rfl
    · obtain rfl := Option.some.inj h; rfl
  | run t =>
    have hrt : ∀ {c : Crew}, runThread S t f.crew = some c → c.caches = f.crew.caches := by
      intro c hc
      unfold runThread at hc
      split at hc
      · split at hc
        · simp only [dispatchNext, Option.bind_eq_bind, Option.bind_eq_some_iff] at hc
          obtain ⟨_, _, _, _, _, _, hc⟩ := hc
          obtain rfl := Option.some.inj hc
          rfl
        · obtain rfl := Option.some.inj hc
          rfl
      · obtain rfl := Option.some.inj hc
        rfl
    have hmv : (runThread S t f.crew).map (f.moved B t) = some f' → f'.crew.caches u = f.crew.caches u := by
      intro hx
      rw [Option.map_eq_some_iff] at hx
      obtain ⟨c, hc, rfl⟩ := hx
      exact congrFun (hrt hc) u
    simp only [fAct, fRunThread] at h
    split at h
    · obtain rfl := Option.some.inj h
      unfold flushLook
      (repeat' split) <;> rfl
    · unfold flushCall at h
      split at h
      · cases h
      · obtain rfl := Option.some.inj h; rfl
    · unfold bufRunThread at h
      split at h
      · split at h
        · simp only [bufDispatchNext, Option.bind_eq_bind, Option.bind_eq_some_iff] at h
          obtain ⟨y, _, r, _, f1, h1, h⟩ := h
          obtain rfl := Option.some.inj h
          show f1.crew.caches u = _
          unfold enterBufIf enterBuf at h1
          split at h1
          · split at h1
            · rw [Option.map_eq_some_iff] at h1
              obtain ⟨b, _, rfl⟩ := h1
              rfl
            · rw [Option.map_eq_some_iff] at h1
              obtain ⟨b, _, rfl⟩ := h1
              rfl
          · obtain rfl := Option.some.inj h1; rfl
        · exact hmv h
      · exact hmv h

theorem fActs_caches {S : Setup} {B : Stdio} {u : Nat} : ∀ {es : List Act} {f f' : FCrew}, fActs S B es f = some f' →
    (∀ e ∈ es, e.user ≠ some u) → f'.crew.caches u = f.crew.caches u := by
  intro es
  induction es with
  | nil => intro f f' h _; obtain rfl := Option.some.inj h; rfl
  | cons e es ih =>
    intro f f' h hu
    simp only [fActs, Option.bind_eq_bind, Option.bind_eq_some_iff] at h
    obtain ⟨f1, h1, h⟩ := h
    rw [ih h fun e he => hu e (List.mem_cons_of_mem _ he), fAct_caches h1 (hu e (List.mem_cons_self ..))]

/-- Closing files. -/
theorem shuts_end {S : Setup} {B : Stdio} : ∀ (js : List Nat) {f : FCrew}, mayShut S f = true → (∀ j, f.buf j = []) →
    (∀ j ∈ js, ∀ p, (f.crew.out.dev j).handle = some p → f.crew.out.fs p ≠ none) →
    ∃ f', fEvents S B (js.map .shut) f = some f' ∧ f'.crew.ring = f.crew.ring ∧ f'.crew.caches = f.crew.caches ∧
      f'.crew.pos = f.crew.pos ∧ f'.count = f.count ∧ f'.fl = f.fl ∧ (∀ j, f'.buf j = []) ∧
      f'.crew.out.screen = f.crew.out.screen ∧
      (∀ p, bytesOf f'.crew.out.fs p = bytesOf f.crew.out.fs p) ∧
      (∀ j, (f'.crew.out.dev j).logs = (f.crew.out.dev j).logs) ∧
      (∀ j, ((f'.crew.out.dev j).handle = none ∨ (f'.crew.out.dev j).handle = (f.crew.out.dev j).handle) ∧
        (j ∈ js → (f'.crew.out.dev j).handle = none)) := by
  intro js
  induction js with
  | nil =>
    intro f _ hb _
    exact ⟨f, rfl, rfl, rfl, rfl, rfl, rfl, hb, rfl, fun _ => rfl, fun _ => rfl, fun j => ⟨Or.inr rfl, nofun⟩⟩
  | cons j js ih =>
    intro f hm hb hex
    have key : ∃ f1, shutFile j f = f1 ∧ f1.crew.ring = f.crew.ring ∧ f1.crew.caches = f.crew.caches ∧
      f1.crew.pos = f.crew.pos ∧ f1.count = f.count ∧ f1.fl = f.fl ∧ (∀ j, f1.buf j = []) ∧
      f1.crew.out.screen = f.crew.out.screen ∧
      (∀ p, bytesOf f1.crew.out.fs p = bytesOf f.crew.out.fs p) ∧
      (∀ i, (f1.crew.out.dev i).logs = (f.crew.out.dev i).logs) ∧
      (∀ i, (f1.crew.out.dev i).handle = if i = j then none else (f.crew.out.dev i).handle) := by
      unfold shutFile
      by_cases hn : (f.crew.out.dev j).handle = none
      · rw [if_pos hn]
        refine ⟨f, rfl, rfl, rfl, rfl, rfl, rfl, hb, rfl, fun _ => rfl, fun _ => rfl, fun i => ?_⟩
        split
        · rename_i e; rw [e]; exact hn
        · rfl
      · rw [if_neg hn]
        obtain ⟨p, hp⟩ := Option.ne_none_iff_exists'.mp hn
        have hp' : (f.file j).handle = some p := hp
        have hcl : (f.file j).close = ⟨f.crew.out.fs.append p [], none, [], f.gen j, (f.crew.out.dev j).logs⟩ := by
          unfold BufSt.close BufSt.flush
          rw [hp']
          show (⟨f.crew.out.fs.append p (f.buf j).bytes, none, [], f.gen j, (f.crew.out.dev j).logs⟩ : BufSt) = _
          rw [hb j]
          rfl
        rw [hcl]
        refine ⟨_, rfl, rfl, rfl, rfl, rfl, rfl, fun i => ?_, rfl, fun q => ?_, fun i => ?_, fun i => ?_⟩
        · show upd f.buf j [] i = []
          by_cases e : i = j
          · simp [upd, e]
          · simp only [upd, e, if_false]; exact hb i
        · show bytesOf (f.crew.out.fs.append p []) q = bytesOf f.crew.out.fs q
          by_cases e : q = p
          · subst e
            rw [bytesOf_append_self _ _ _ (hex j (List.mem_cons_self ..) q hp), option_map_append_nil]
          · unfold bytesOf
            rw [append_other _ _ e]
        · by_cases e : i = j
          · subst e; rw [setFile_dev_self]
          · rw [setFile_dev_ne _ _ e]
        · by_cases e : i = j
          · subst e; rw [setFile_dev_self, if_pos rfl]
          · rw [setFile_dev_ne _ _ e, if_neg e]
    obtain ⟨f1, e1, a2, a3, a4, a5, a6, a7, a7', a8, a9, a10⟩ := key
    have hm1 : mayShut S f1 = true := by unfold mayShut at hm ⊢; rw [a2]; exact hm
    obtain ⟨f', b1, b2, b3, b4, b5, b6, b7, b7', b8, b9, b10⟩ := ih hm1 a7 (by
      intro i hi p hp hx
      rw [a10] at hp
      split at hp
      · cases hp
      · rw [← bytesOf_none, a8, bytesOf_none] at hx
        exact hex i (List.mem_cons_of_mem _ hi) p hp hx)
    refine ⟨f', ?_, b2.trans a2, b3.trans a3, b4.trans a4, b5.trans a5, b6.trans a6, b7, b7'.trans a7',
      fun p => (b8 p).trans (a8 p), fun i => (b9 i).trans (a9 i), fun i => ⟨?_, fun hi => ?_⟩⟩
    · show (some (if mayShut S f then shutFile j f else f)).bind _ = _
      rw [if_pos hm, e1]
      exact b1
    · rcases (b10 i).1 with e | e
      · exact Or.inl e
      · rw [e, a10]
        split
        · exact Or.inl rfl
        · exact Or.inr rfl
    · rcases List.mem_cons.mp hi with rfl | hi
      · rcases (b10 i).1 with e | e
        · exact e
        · rw [e, a10, if_pos rfl]
      · exact (b10 i).2 hi

/-- When StopLogger gets to line 191, in an orderly session. -/
structure Ended (S : Setup) (f : FCrew) : Prop where
  lg : f.crew.ring.lgRunning = false
  done : S.cfg.async = true → f.crew.ring.pc worker = .done
  R : f.crew.ring.R = f.crew.ring.W
  mark : ∀ i, f.crew.ring.mark (i % S.cfg.L) = .invalid
  thread : ∀ t, ¬ (S.cfg.async = true ∧ t = worker) →
    f.crew.ring.pc t = .idle ∧ f.crew.pos t = 0 ∧ f.count t = 0 ∧ f.fl t = .off
  caches : ∀ t, CacheFrom S.env.zone (f.crew.caches t)
  buf : ∀ j, f.buf j = []
  live : ∀ (j : Nat) (d : Device), S.channel.devices[j]? = some d → d.outType = .file →
    ∀ p, (f.crew.out.dev j).handle = some p → f.crew.out.fs p ≠ none

theorem Ended.close {S : Setup} {B : Stdio} {f : FCrew} (h : Ended S f) :
    ∃ f', fEvents S B (closeAll S) f = some f' ∧ Rested S f' ∧ f'.crew.out.screen = f.crew.out.screen ∧
      (∀ p, bytesOf f'.crew.out.fs p = bytesOf f.crew.out.fs p) ∧
      ∀ j, (f'.crew.out.dev j).logs = (f.crew.out.dev j).logs := by
  have hm : mayShut S f = true := by
    unfold mayShut
    rw [h.lg]
    by_cases hA : S.cfg.async = true
    · simp [h.done hA]
    · simp [hA]
  have hm1 : mayShut S (cleanQueue S f) = true := hm
  have hjs : ∀ j, j ∈ ((List.range S.channel.devices.length).filter fun j =>
    match S.channel.devices[j]? with
    | some d => decide (d.outType = .file)
    | none => false) ↔ ∃ d, S.channel.devices[j]? = some d ∧ d.outType = .file := by
    intro j
    rw [List.mem_filter, List.mem_range]
    constructor
    · rintro ⟨h1, h2⟩
      cases hd : S.channel.devices[j]? with
      | none => rw [hd] at h2; cases h2
      | some d => rw [hd] at h2; exact ⟨d, rfl, by simpa using h2⟩
    · rintro ⟨d, h1, h2⟩
      exact ⟨(List.getElem?_eq_some_iff.mp h1).1, by rw [h1]; simpa using h2⟩
  obtain ⟨f', b1, b2, b3, b4, b5, b6, b7, b7', b8, b9, b10⟩ := shuts_end (S := S) (B := B) _ hm1 h.buf
    (fun j hj p hp => by
      obtain ⟨d, h1, h2⟩ := (hjs j).mp hj
      exact h.live j d h1 h2 p hp)
  refine ⟨f', ?_, ?_, b7', b8, b9⟩
  · show (some (if mayShut S f then cleanQueue S f else f)).bind _ = _
    rw [if_pos hm]
    exact b1
  · refine ⟨by rw [b2]; rfl, by rw [b2]; rfl, by rw [b2]; rfl, by rw [b2]; rfl, fun i => ?_, fun t ht => ?_, fun t => ?_, b7,
      fun j d h1 h2 => (b10 j).2 ((hjs j).mpr ⟨d, h1, h2⟩)⟩
    · rw [b2]
      show cleanMarks S.cfg.L S.cfg.L f.crew.ring.R f.crew.ring.W f.crew.ring.mark _ = _
      rw [h.R, cleanMarks_id]
      exact h.mark i
    · rw [b2, b4, b5, b6]
      exact h.thread t ht
    · rw [b3]
      exact h.caches t

/-! ## One session -/

theorem marks_free {c : Cfg Piece} {s : St Piece} (hi : Inv c s) (hL : 0 < c.L) (hR : s.R = s.H) (k : Nat) :
    s.mark (k % c.L) = .invalid := by
  have h1 : ∃ j, s.H ≤ j ∧ j < s.H + c.L ∧ j % c.L = k % c.L := by
    refine ⟨s.H + (k % c.L + c.L - s.H % c.L) % c.L, by omega, ?_, ?_⟩
    · have := Nat.mod_lt (k % c.L + c.L - s.H % c.L) hL; omega
    · have h2 := Nat.mod_lt s.H hL
      have h4 := Nat.mod_lt k hL
      rw [Nat.add_mod, Nat.mod_mod]
      by_cases hc : s.H % c.L ≤ k % c.L
      · have : k % c.L + c.L - s.H % c.L = (k % c.L - s.H % c.L) + c.L := by omega
        rw [this, Nat.add_mod_right, Nat.mod_eq_of_lt (a := k % c.L - s.H % c.L) (by omega)]
        have : s.H % c.L + (k % c.L - s.H % c.L) = k % c.L := by omega
        rw [this, Nat.mod_mod]
      · rw [Nat.mod_eq_of_lt (a := k % c.L + c.L - s.H % c.L) (by omega)]
        have : s.H % c.L + (k % c.L + c.L - s.H % c.L) = k % c.L + c.L := by omega
        rw [this, Nat.add_mod_right, Nat.mod_mod]
  obtain ⟨j, h2, h3, h4⟩ := h1
  rw [← h4]
  exact hi.mFree j h2 (by omega)

theorem users_below : ∀ (es : List Act), ∃ n, ∀ e ∈ es, ∀ t, e.user = some t → t < n := by
  intro es
  induction es with
  | nil => exact ⟨0, nofun⟩
  | cons e es ih =>
    obtain ⟨n, hn⟩ := ih
    refine ⟨max n ((e.user.getD 0) + 1), fun x hx t ht => ?_⟩
    rcases List.mem_cons.mp hx with rfl | hx
    · rw [ht]; simp only [Option.getD_some]; omega
    · have := hn x hx t ht; omega

/-- What the devices have done. -/
structure Settled (S : Setup) (o : OutSt) (recs : List (Head × List Char)) (o' : OutSt) : Prop where
  file : ∀ (j : Nat) (d : Device), S.channel.devices[j]? = some d → d.outType = .file →
    ∃ taken t, Runs S.fenv S.channel.id d (view o j) (handed S.os j d 0 recs) taken t ∧
      (∀ p, FilesOf S.fenv S.channel.id d p → bytesOf o'.fs p = bytesOf t.fs p) ∧ (o'.dev j).logs = t.logs
  foreign : ∀ p, Foreign S.fenv S.channel.id S.channel.devices p → bytesOf o'.fs p = bytesOf o.fs p
  screen : o'.screen = o.screen ++ screenLines S.channel.devices recs

theorem FInvFrom.settled {S : Setup} {B : Stdio} {o : OutSt} {f : FCrew} {s : Crew} (h6 : FInv S B o f s)
    {recs : List (Head × List Char)} (hf : FilesAfter S o s fun _ => recs) (hbuf : ∀ j, f.buf j = [])
    (hs : s.out.screen = o.screen ++ screenLines S.channel.devices recs) : Settled S o recs f.crew.out where
  file := by
    intro j d hj hd
    obtain ⟨taken, t, q1, _, q3, q4⟩ := hf.device j d hj hd
    refine ⟨taken, t, q1, fun p hp => ?_, ?_⟩
    · have hb := (h6.rel.files j d hj hd).files p hp
      have : pendingAt (f.file j) p = [] := by
        unfold pendingAt
        split
        · show (f.buf j).bytes = []
          rw [hbuf j]; rfl
        · rfl
      rw [this, option_map_append_nil] at hb
      refine Eq.trans hb.symm ?_
      show bytesOf s.out.fs p = bytesOf t.fs p
      unfold bytesOf
      rw [q4 p hp]
    · rw [h6.rel.dev, q3]
  foreign := by
    intro p hp
    unfold bytesOf
    rw [h6.rel.foreign p hp, hf.foreign p hp]
  screen := by rw [h6.rel.screen, hs]

/-- What ends with the threads. -/
theorem FInvFrom.calm {S : Setup} {B : Stdio} {o : OutSt} {f : FCrew} {s : Crew} (h : FInv S B o f s) {t : Nat}
    (ht : f.crew.ring.pc t = .idle) : f.crew.pos t = 0 ∧ f.count t = 0 ∧ f.fl t = .off := by
  refine ⟨?_, ?_, ?_⟩
  · rw [h.rel.pos]
    refine h.crew.posZero t fun k hk => ?_
    rw [← h.rel.ring, ht] at hk
    cases hk
  · refine Classical.byContradiction fun hx => ?_
    have := h.tidy.cnt t hx
    rw [ht] at this
    cases this
  · refine Classical.byContradiction fun hx => ?_
    rcases (h.tidy.look t hx).1 with y | y <;> rw [ht] at y <;> cases y

theorem FInvFrom.live' {S : Setup} {B : Stdio} {o : OutSt} {f : FCrew} {s : Crew} (h : FInv S B o f s) (j : Nat) (d : Device)
    (hj : S.channel.devices[j]? = some d) (hd : d.outType = .file) (p : List Char) (hp : (f.crew.out.dev j).handle = some p) :
    f.crew.out.fs p ≠ none := ((h.rel.files j d hj hd).own p hp).2

theorem cacheActs_ok {S : Setup} {f : FCrew} (h : Rested S f) (n : Nat) :
    ∀ e ∈ cacheActs f n, SoundAct S e ∧ e.noStop ∧ e.thread = none := by
  intro e he
  obtain ⟨t, _, rfl⟩ := List.mem_map.mp he
  exact ⟨h.caches t, trivial, rfl⟩

theorem fOnTime_join {S : Setup} {B : Stdio} : ∀ {es es' : List Act} {f : FCrew}, FOnTime S B es f →
    (∀ f', fActs S B es f = some f' → FOnTime S B es' f') → FOnTime S B (es ++ es') f := by
  intro es
  induction es with
  | nil => intro es' f _ h; exact h f rfl
  | cons e es ih =>
    intro es' f h1 h2
    refine ⟨h1.1, fun f1 hf1 => ih (h1.2 f1 hf1) fun f' hf' => h2 f' ?_⟩
    show (fAct S B f e).bind _ = _
    rw [hf1]; exact hf'

theorem session_async {S : Setup} (hS : Ready S) (hA : S.cfg.async = true) (hap : FilesApart S.fenv S.channel.id S.channel.devices)
    {f : FCrew} (h : Rested S f) {x : Session} (ho : Orderly S x (fStart S f)) :
    ∃ f1 f2 recs, fActs S x.stdio x.log (fStart S f) = some f1 ∧
      fActs S x.stdio (x.log ++ .closing :: .stop :: x.rest) (fStart S f) = some f2 ∧
      InOrder S f1.crew.made recs ∧ Settled S f.crew.out recs f2.crew.out ∧ Ended S f2 := by
  have hL : 0 < S.cfg.L := Nat.lt_of_lt_of_le (by decide) hS.slots
  obtain ⟨n, hn⟩ := users_below (x.log ++ .closing :: .stop :: x.rest)
  obtain ⟨g, k1, k2, _, k4⟩ := h.start (B := x.stdio) hL n
  obtain ⟨o1, o2, o3⟩ := ho.async hA
  have hown : Spec.Own S.fenv S.channel.id S.channel.devices f.crew.out := by
    intro j d p hj hd hp
    rw [h.handle j d hj hd] at hp
    cases hp
  have hex : ∀ (j : Nat) (d : Device) (p : List Char), S.channel.devices[j]? = some d → d.outType = .file →
      (f.crew.out.dev j).handle = some p → f.crew.out.fs p ≠ none := by
    intro j d p hj hd hp
    rw [h.handle j d hj hd] at hp
    cases hp
  have hg1 := k4.onTime hn o1
  have hall : FOnTime S x.stdio (cacheActs f n ++ (x.log ++ .closing :: .stop :: x.rest)) (fCrew S f.crew.out) := by
    refine fOnTime_join k2 fun g' hg' => ?_
    rw [k1] at hg'
    obtain rfl := Option.some.inj hg'
    exact hg1
  have hsound : ∀ e ∈ cacheActs f n ++ (x.log ++ .closing :: .stop :: x.rest), SoundAct S e := by
    intro e he
    rcases List.mem_append.mp he with he | he
    · exact (cacheActs_ok h n e he).1
    · rcases List.mem_append.mp he with he | he
      · exact ho.sound e (List.mem_append.mpr (Or.inl he))
      · rcases List.mem_cons.mp he with rfl | he
        · trivial
        · rcases List.mem_cons.mp he with rfl | he
          · trivial
          · exact ho.sound e (List.mem_append.mpr (Or.inr he))
  -- up to the call of StopLogger
  obtain ⟨q1, _⟩ := fOnTime_append hall
  have hinv0 := FInv.init x.stdio hS hown hex
  obtain ⟨g0, _, _, r1, _, _, _, _, r6⟩ := hinv0.acts hS hap (Or.inl (Or.inl hA)) (fun e he => hsound e (List.mem_append.mpr (Or.inl he))) q1
  rw [k1] at r1
  obtain rfl := Option.some.inj r1
  obtain ⟨gl, _⟩ := fOnTime_append hg1
  obtain ⟨g1, _, s1, t1, _, _, _, _, t6⟩ := r6.acts hS hap (Or.inl (Or.inl hA))
    (fun e he => hsound e (List.mem_append.mpr (Or.inr (List.mem_append.mpr (Or.inl he))))) gl
  obtain ⟨f1, u1, u2⟩ := k4.fActs (fun e he => hn e (List.mem_append.mpr (Or.inl he))) gl t1
  obtain ⟨v1, v2⟩ := o2 f1 u1
  have hes : cacheActs f n ++ (x.log ++ .closing :: .stop :: x.rest) =
      (cacheActs f n ++ x.log ++ [.closing]) ++ .stop :: x.rest := by simp
  have hf1 : fActs S x.stdio (cacheActs f n ++ x.log ++ [.closing]) (fCrew S f.crew.out) =
      some { g1 with crew := { g1.crew with ring := Ring.step S.cfg g1.crew.ring .closing } } := by
    rw [fActs_append, fActs_append, k1, Option.bind_some, t1]
    rfl
  obtain ⟨g2, w1, w2⟩ := async_ends hS hA hap hown hex x.stdio (es := cacheActs f n ++ x.log ++ [.closing]) (es' := x.rest)
    (fun e he => hsound e (by rw [hes]; exact he)) (by rw [← hes]; exact hall)
    (fun e he => by
      rcases List.mem_append.mp he with he | he
      · rcases List.mem_append.mp he with he | he
        · exact (cacheActs_ok h n e he).2.1
        · exact ho.noStop e he
      · rw [List.mem_singleton.mp he]; trivial)
    hf1 (by
      show g1.crew.ring.state = _
      rw [← u2.ring.state]; exact v1) rfl (fun t ht => by
      show g1.crew.ring.pc t = _
      rw [← u2.ring.pc]; exact v2 t ht)
  rw [← hes, fActs_append, k1, Option.bind_some] at w1
  obtain ⟨f2, x1, x2⟩ := k4.fActs hn hg1 w1
  have hdone := o3 f2 x1
  obtain ⟨y1, y2, y3, y4, y5, recs, s', y6, y7, y8, y9⟩ := w2 (by rw [← x2.ring.pc]; exact hdone)
  obtain ⟨z1, z2⟩ := y8.over y1 y2 (Or.inl ⟨hA, by rw [← x2.ring.pc]; exact hdone⟩)
  refine ⟨f1, f2, recs.map Prod.snd, u1, x1, ?_, ?_, ?_⟩
  · unfold InOrder
    rw [if_pos hA, u2.made]
    exact ⟨recs, rfl, y6⟩
  · rw [x2.out]
    exact y8.settled y7 z2 y9
  · refine ⟨by rw [x2.ring.lg]; exact y1, fun _ => hdone, ?_, fun i => ?_, fun t ht => ?_, fun t => ?_, fun j => ?_, ?_⟩
    · rw [x2.ring.R, x2.ring.W, y4, y5]
    · exact marks_free x2.invF hL (by rw [x2.ring.R, x2.ring.H]; exact y4) i
    · have hp := y3 t fun e => ht ⟨hA, e⟩
      obtain ⟨p1, p2, p3⟩ := y8.calm hp
      refine ⟨by rw [x2.ring.pc]; exact hp, by rw [x2.pos]; exact p1, by rw [x2.count]; exact p2, ?_⟩
      rw [x2.fl, p3]; rfl
    · by_cases htn : t < n
      · rw [x2.caches t htn, y8.rel.caches]
        exact y8.crew.caches t
      · rw [fActs_caches x1 fun e he hu => htn (hn e he t hu)]
        exact h.caches t
    · rw [x2.buf]; exact z2 j
    · rw [x2.out]
      exact fun j d hj hd p hp => y8.live' j d hj hd p hp

theorem session_sync {S : Setup} (hS : Ready S) (hA : S.cfg.async = false) (hap : FilesApart S.fenv S.channel.id S.channel.devices)
    {f : FCrew} (h : Rested S f) {x : Session} (ho : Orderly S x (fStart S f)) :
    ∃ f1 f2 recs, fActs S x.stdio x.log (fStart S f) = some f1 ∧
      fActs S x.stdio (x.log ++ .closing :: .stop :: x.rest) (fStart S f) = some f2 ∧
      InOrder S f1.crew.made recs ∧ Settled S f.crew.out recs f2.crew.out ∧ Ended S f2 := by
  have hL : 0 < S.cfg.L := Nat.lt_of_lt_of_le (by decide) hS.slots
  obtain ⟨n, hn⟩ := users_below (x.log ++ .closing :: .stop :: x.rest)
  have hnl : ∀ e ∈ x.log, ∀ t, e.user = some t → t < n := fun e he => hn e (List.mem_append.mpr (Or.inl he))
  obtain ⟨g, k1, k2, k3, k4⟩ := h.start (B := x.stdio) hL n
  obtain ⟨o1, o2⟩ := ho.sync hA
  have hown : Spec.Own S.fenv S.channel.id S.channel.devices f.crew.out := by
    intro j d p hj hd hp
    rw [h.handle j d hj hd] at hp
    cases hp
  have hex : ∀ (j : Nat) (d : Device) (p : List Char), S.channel.devices[j]? = some d → d.outType = .file →
      (f.crew.out.dev j).handle = some p → f.crew.out.fs p ≠ none := by
    intro j d p hj hd hp
    rw [h.handle j d hj hd] at hp
    cases hp
  have hs0 : ∀ e ∈ cacheActs f n, SoundAct S e := fun e he => (cacheActs_ok h n e he).1
  have hs1 : ∀ e ∈ x.log, SoundAct S e := fun e he => ho.sound e (List.mem_append.mpr (Or.inl he))
  obtain ⟨_, g0, _, s0, r1, _, _, _, r5, r6⟩ := serial_after hS hA hap hown hex x.stdio k3 hs0
  rw [k1] at r1
  obtain rfl := Option.some.inj r1
  have hgs : Serial S x.stdio x.log g := serial_like hA hS hap k4 r5 r6 hnl o1 hs1
  have hser : Serial S x.stdio (cacheActs f n ++ x.log) (fCrew S f.crew.out) := by
    refine serial_append k3 fun g' hg' => ?_
    rw [k1] at hg'
    obtain rfl := Option.some.inj hg'
    exact hgs
  obtain ⟨m0, g1, rs, s, m1, m2, m3, m4, m5, t0, m6⟩ := serial_after hS hA hap hown hex x.stdio hser (fun e he => by
    rcases List.mem_append.mp he with he | he
    · exact hs0 e he
    · exact hs1 e he)
  have m1' := m1
  rw [fActs_append, k1, Option.bind_some] at m1'
  obtain ⟨f1, u1, u2⟩ := k4.fActs hnl ((fOnTime_append m0).2 g k1) m1'
  have hidle : ∀ t, g1.crew.ring.pc t = .idle := by
    refine all_idle hA m2 m4 m5 fun e he t ht => ?_
    rcases List.mem_append.mp he with he | he
    · rw [(cacheActs_ok h n e he).2.2] at ht; cases ht
    · rw [← u2.ring.pc]; exact o2 f1 u1 e he t ht
  have hnoStop : ∀ e ∈ rs, e.noStop := by
    intro e he
    rcases List.mem_append.mp (m2.subset he) with he | he
    · exact (cacheActs_ok h n e he).2.1
    · exact ho.noStop e he
  have hsound : ∀ e ∈ rs, SoundAct S e := by
    intro e he
    rcases List.mem_append.mp (m2.subset he) with he | he
    · exact hs0 e he
    · exact hs1 e he
  obtain ⟨hR, _, recs, c1, c2, _, c4, _⟩ := serial_end hA hS hap hown hsound m3 hnoStop m4 m6
    (fun u => by rw [← m5.rel.ring]; exact hidle u)
  have hbuf : ∀ j, g1.buf j = [] := fun j => lagOf_all fun t => m5.rest (Or.inl (hidle t)) j
  have hpf : ∀ t, f1.crew.ring.pc t = .idle := fun t => by rw [u2.ring.pc]; exact hidle t
  have hff : ∀ t, f1.fl t = .off := fun t => by rw [u2.fl, (m5.calm (hidle t)).2.2]; rfl
  obtain ⟨f2, d1, d2, d3, d4⟩ := sync_stops (B := x.stdio) hA hpf hff x.rest
  have hRf : f1.crew.ring.R = f1.crew.ring.H := by rw [u2.ring.R, u2.ring.H, m5.rel.ring]; exact hR
  have hplay : fActs S x.stdio (x.log ++ .closing :: .stop :: x.rest) (fStart S f) = some f2 := by
    rw [fActs_append, u1]; exact d1
  refine ⟨f1, f2, recs, u1, hplay, ?_, ?_, ?_⟩
  · unfold InOrder
    rw [if_neg (by rw [hA]; decide), u2.made, m5.rel.made]
    exact c1
  · rw [d3.out, u2.out]
    exact m5.settled c2 hbuf c4
  · refine ⟨d2.lg, fun e => absurd e (by rw [hA]; decide), ?_, fun i => ?_, fun t _ => ?_, fun t => ?_, fun j => ?_, ?_⟩
    · have e1 := u2.invF.leRP
      have e2 := u2.invF.lePW
      have e3 := u2.invF.leWH
      rw [d3.R, d3.W]; omega
    · rw [d3.mark]
      exact marks_free u2.invF hL hRf i
    · obtain ⟨p1, p2, p3⟩ := m5.calm (hidle t)
      exact ⟨d2.pc t, by rw [d3.pos, u2.pos]; exact p1, by rw [d3.count, u2.count]; exact p2, d2.fl t⟩
    · refine d4 (fun e he => ho.sound e (List.mem_append.mpr (Or.inr he))) (fun t => ?_) t
      by_cases htn : t < n
      · rw [u2.caches t htn, m5.rel.caches]
        exact m5.crew.caches t
      · rw [fActs_caches u1 fun e he hu => htn (hnl e he t hu)]
        exact h.caches t
    · rw [d3.buf, u2.buf]; exact hbuf j
    · rw [d3.out, u2.out]
      exact fun j d hj hd p hp => m5.live' j d hj hd p hp

theorem logged_on {S : Setup} {os : Nat → Nat → Os} {l : List (Call × List StreamOp)} {recs : List (Head × List Char)}
    (h : Logged { S with os := os } l recs) : Logged S l recs := by
  induction h with
  | nil => exact .nil
  | refused h1 _ ih => exact .refused h1 ih
  | admitted h1 h2 h3 _ ih => exact .admitted h1 h2 h3 ih

theorem inOrder_on {S : Setup} {x : Session} {made : List (Nat × Call × List StreamOp)} {recs : List (Head × List Char)}
    (h : InOrder (x.on S) made recs) : InOrder S made recs := by
  unfold InOrder at h ⊢
  have e : (x.on S).cfg.async = S.cfg.async := rfl
  rw [e] at h
  split
  · rename_i hA
    rw [if_pos hA] at h
    obtain ⟨own, h1, h2⟩ := h
    exact ⟨own, h1, fun t => logged_on (h2 t)⟩
  · rename_i hA
    rw [if_neg hA] at h
    exact logged_on h

/-- A session. -/
theorem session {S : Setup} (hS : Ready S) (hap : FilesApart S.fenv S.channel.id S.channel.devices) {f : FCrew} (h : Rested S f)
    {x : Session} (ho : Orderly (x.on S) x (fStart S f)) :
    ∃ f1 f2 recs, fActs (x.on S) x.stdio x.log (fStart S f) = some f1 ∧ playSession S x f = some f2 ∧
      InOrder S f1.crew.made recs ∧ SessionKept S x f.crew.out recs f2.crew.out ∧ Rested S f2 := by
  have hS' : Ready (x.on S) := ⟨hS.lib, hS.zone, hS.slots, hS.nl, hS.id, hS.channel, hS.hook, hS.named⟩
  have h' : Rested (x.on S) f := ⟨h.H, h.W, h.P, h.R, h.mark, h.thread, h.caches, h.buf, h.handle⟩
  have key : ∃ f1 f2 recs, fActs (x.on S) x.stdio x.log (fStart (x.on S) f) = some f1 ∧
      fActs (x.on S) x.stdio (x.log ++ .closing :: .stop :: x.rest) (fStart (x.on S) f) = some f2 ∧
      InOrder (x.on S) f1.crew.made recs ∧ Settled (x.on S) f.crew.out recs f2.crew.out ∧ Ended (x.on S) f2 := by
    cases hA : S.cfg.async with
    | true => exact session_async hS' hA hap h' ho
    | false => exact session_sync hS' hA hap h' ho
  obtain ⟨f1, f2, recs, a1, a2, a3, a4, a5⟩ := key
  obtain ⟨f3, b1, b2, b3, b4, b5⟩ := a5.close (B := x.stdio)
  refine ⟨f1, f3, recs, a1, ?_, inOrder_on a3, ?_, ⟨b2.H, b2.W, b2.P, b2.R, b2.mark, b2.thread, b2.caches, b2.buf, b2.handle⟩⟩
  · show (fActs (x.on S) x.stdio (x.log ++ .closing :: .stop :: x.rest) (fStart (x.on S) f)).bind _ = _
    rw [a2]; exact b1
  · refine ⟨fun j d hj hd => ?_, fun p hp => ?_, ?_⟩
    · obtain ⟨taken, t, c1, c2, c3⟩ := a4.file j d hj hd
      exact ⟨taken, t, c1, fun p hp => by rw [b4]; exact c2 p hp, by rw [b5]; exact c3, b2.handle j d hj hd⟩
    · rw [b4]; exact a4.foreign p hp
    · rw [b3]; exact a4.screen

theorem sessions {S : Setup} (hS : Ready S) (hap : FilesApart S.fenv S.channel.id S.channel.devices) : ∀ (xs : List Session) {f : FCrew},
    Rested S f → OrderlyAll S xs f → ∃ hist f', playAll S xs f = some f' ∧ Went S xs f hist f' ∧ Rested S f' := by
  intro xs
  induction xs with
  | nil => intro f h _; exact ⟨[], f, rfl, .nil f, h⟩
  | cons x xs ih =>
    intro f h ho
    obtain ⟨f1, f2, recs, a1, a2, a3, a4, a5⟩ := session hS hap h ho.1
    obtain ⟨hist, f', b1, b2, b3⟩ := ih a5 (ho.2 f2 a2)
    refine ⟨recs :: hist, f', ?_, .cons a1 a2 a3 a4 b2, b3⟩
    show (playSession S x f).bind _ = _
    rw [a2]; exact b1

end FNLog
