import Verif.Proof.Serial
import Verif.Proof.Reach
import Verif.Proof.Capstone

/-! # The end of the log statements of a sync channel, one at a time -/

namespace FNLog
open Spec Ring

/-! ## A statement returns -/

/-- Steps left of a flush loop. -/
def flRank (D : Nat) : FlushPc → Nat
  | .off => 0
  | .look j => 2 * (D - j) + 1
  | .call j _ => 2 * (D - j)

/-- Steps left of thread `t` (an upper bound). -/
def homeRank (S : Setup) (t : Nat) (f : FCrew) : Nat :=
  (3 * S.channel.devices.length + 4) * aloneMeasure f.crew.ring t + (S.channel.devices.length - f.crew.pos t) +
    flRank S.channel.devices.length (f.fl t)

theorem flushAfter_rank (B : Stdio) (n D : Nat) (p q : PC Piece) : flRank D (flushAfter B n p q).2 ≤ 2 * D + 1 := by
  unfold flushAfter
  (repeat' split) <;> simp [flRank]

theorem home_step {S : Setup} {B : Stdio} {o : OutSt} {f f' : FCrew} {s : Crew} {s0 : St Piece} {t : Nat} {b : List Piece}
    (hroom : s0.H + 1 < s0.R + S.cfg.L) (h : FInv S B o f s) (ha : Alone S.cfg s0 t b f.crew.ring)
    (hp : f.crew.ring.pc t ≠ .idle) (hf : fRunThread S B t f = some f') :
    Alone S.cfg s0 t b f'.crew.ring ∧ homeRank S t f' < homeRank S t f := by
  have hpl := h.crew.posLe t
  rw [← h.rel.pos] at hpl
  have hinv := h.crew.ring
  rw [← h.rel.ring] at hinv
  rcases fRun_cases hf with ⟨c1, c2, c3, _, _, c4⟩ | ⟨c1, ⟨k, d, _, c2⟩, c3, c4, _, c5⟩ | ⟨c1, _, c3, _, _, c5, _⟩
  · rw [c2]
    refine ⟨ha, ?_⟩
    unfold homeRank
    rw [c2, c3]
    cases hl : f.fl t with
    | off => exact absurd hl c1
    | look j =>
      rw [hl] at c4
      simp only [flushGoes] at c4
      rcases c4 with ⟨_, e⟩ | ⟨hj, ⟨g, e⟩ | e⟩ <;> rw [e] <;> simp only [flRank] <;> omega
    | call j g =>
      obtain ⟨d, hd, _⟩ := h.dev t j g hl
      have hj := (List.getElem?_eq_some_iff.mp hd).1
      rw [hl] at c4
      simp only [flushGoes] at c4
      rw [c4]
      simp only [flRank]
      omega
  · rw [c3]
    refine ⟨ha, ?_⟩
    have hj := (List.getElem?_eq_some_iff.mp c2).1
    unfold homeRank
    rw [c3, c4, c5, upd_same]
    omega
  · rw [c3]
    obtain ⟨g1, g2⟩ := ha.stepT hinv hroom
    refine ⟨g1, ?_⟩
    rcases g2 with g2 | g2
    · exact absurd g2 hp
    have hr := flushAfter_rank B (f.count t) S.channel.devices.length (f.crew.ring.pc t) (f'.crew.ring.pc t)
    rw [← c5] at hr
    unfold homeRank
    rw [c3]
    have h1 : (3 * S.channel.devices.length + 4) * (aloneMeasure (Ring.stepT S.cfg f.crew.ring t) t + 1) ≤
        (3 * S.channel.devices.length + 4) * aloneMeasure f.crew.ring t := Nat.mul_le_mul_left _ g2
    rw [Nat.mul_add] at h1
    omega

theorem alone_zero {c : Cfg Piece} {s0 s : St Piece} {t : Nat} {b : List Piece} (h : Alone c s0 t b s)
    (h0 : aloneMeasure s t = 0) : s.pc t = .idle := by
  have hn := h.nf
  unfold aloneMeasure at h0
  cases hp : s.pc t <;> rw [hp] at hn h0 <;> simp only [smooth, aloneRank, reduceCtorEq, Bool.false_eq_true] at hn h0 <;>
    first
    | rfl
    | omega

theorem run_made {S : Setup} {t : Nat} {s s' : Crew} (h : FNLog.act S s (.run t) = some s') : s'.made = s.made := by
  simp only [FNLog.act, runThread] at h
  split at h
  · split at h
    · exact (dispatchNext_keeps h).2
    · obtain rfl := Option.some.inj h; rfl
  · obtain rfl := Option.some.inj h; rfl

theorem serial_home {S : Setup} {B : Stdio} (hS : Ready S) (hap : FilesApart S.fenv S.channel.id S.channel.devices) {o : OutSt}
    {s0 : St Piece} {t : Nat} {b : List Piece} (hroom : s0.H + 1 < s0.R + S.cfg.L) (h0 : ∀ u, u ≠ t → s0.pc u = .idle) :
    ∀ (n : Nat) {f : FCrew} {s : Crew}, FInv S B o f s → Alone S.cfg s0 t b f.crew.ring →
    homeRank S t f ≤ n ∨ f.crew.ring.pc t = .idle → Serial S B (List.replicate n (.run t)) f ∧
    ∃ f', fActs S B (List.replicate n (.run t)) f = some f' ∧ (∀ u, f'.crew.ring.pc u = .idle) ∧
      f'.crew.ring.lgRunning = f.crew.ring.lgRunning ∧ f'.crew.made = f.crew.made := by
  intro n
  induction n with
  | zero =>
    intro f s h ha hm
    refine ⟨trivial, f, rfl, fun u => ?_, rfl, rfl⟩
    by_cases e : u = t
    · subst e
      rcases hm with hm | hm
      · refine alone_zero ha ?_
        unfold homeRank at hm
        have : (3 * S.channel.devices.length + 4) * aloneMeasure f.crew.ring u = 0 := by omega
        rcases Nat.mul_eq_zero.mp this with h | h
        · omega
        · exact h
      · exact hm
    · rw [ha.oth u e]; exact h0 u e
  | succ n ih =>
    intro f s h ha hm
    have hoth : ∀ u, u ≠ t → f.crew.ring.pc u = .idle := fun u hu => by rw [ha.oth u hu]; exact h0 u hu
    obtain ⟨f1, g1, g2⟩ := h.act hS hap (e := .run t)
      (Or.inr fun v hv u hu => hoth u (by cases hv; exact hu)) trivial
      (fun v hv _ => by cases hv; exact timelyAt_of_exact ha.ex)
    have hF : ∃ s', FInv S B o f1 s' := by
      rcases g2 with ⟨_, _, g2⟩ | ⟨_, s', _, g2⟩
      · exact ⟨s, g2⟩
      · exact ⟨s', g2⟩
    obtain ⟨s', hF⟩ := hF
    have hstep : Alone S.cfg s0 t b f1.crew.ring ∧ (homeRank S t f1 ≤ n ∨ f1.crew.ring.pc t = .idle) := by
      by_cases hp : f.crew.ring.pc t = .idle
      · have e : f1.crew.ring = f.crew.ring := by
          rcases fRun_cases (g1 : fRunThread S B t f = some f1) with ⟨_, c2, _⟩ | ⟨_, _, c3, _⟩ | ⟨_, _, c3, _⟩
          · exact c2
          · exact c3
          · rw [c3]; unfold Ring.stepT; rw [hp]
        rw [e]
        exact ⟨ha, Or.inr hp⟩
      · obtain ⟨a1, a2⟩ := home_step hroom h ha hp (g1 : fRunThread S B t f = some f1)
        refine ⟨a1, Or.inl ?_⟩
        rcases hm with hm | hm
        · omega
        · exact absurd hm hp
    obtain ⟨i1, f', i2, i3, i4, i5⟩ := ih hF hstep.1 hstep.2
    rw [List.replicate_succ]
    refine ⟨⟨fun v hv u hu => hoth u (by cases hv; exact hu), fun f2 h2 => ?_⟩, f', ?_, i3, ?_, ?_⟩
    · rw [g1] at h2
      obtain rfl := Option.some.inj h2
      exact i1
    · show (fAct S B f (.run t)).bind _ = _
      rw [g1]; exact i2
    · rw [i4, hstep.1.lg, ha.lg]
    · rw [i5]
      have hm1 : f1.crew.made = f.crew.made := by
        rcases g2 with ⟨_, _, g2⟩ | ⟨_, s', g3, g4⟩
        · rw [g2.rel.made, h.rel.made]
        · rw [g4.rel.made, h.rel.made]
          exact (run_made g3)
      exact hm1

/-- A thread outside of the log statements makes no steps. -/
theorem serial_idle {S : Setup} {B : Stdio} (hS : Ready S) (hap : FilesApart S.fenv S.channel.id S.channel.devices) {o : OutSt}
    {t : Nat} : ∀ (n : Nat) {f : FCrew} {s : Crew}, FInv S B o f s → (∀ u, f.crew.ring.pc u = .idle) →
    Serial S B (List.replicate n (.run t)) f ∧
    ∃ f', fActs S B (List.replicate n (.run t)) f = some f' ∧ (∀ u, f'.crew.ring.pc u = .idle) ∧
      f'.crew.ring.lgRunning = f.crew.ring.lgRunning ∧ f'.crew.made = f.crew.made := by
  intro n
  induction n with
  | zero => intro f s h hi; exact ⟨trivial, f, rfl, hi, rfl, rfl⟩
  | succ n ih =>
    intro f s h hi
    obtain ⟨f1, g1, g2⟩ := h.act hS hap (e := .run t) (Or.inr fun _ _ u _ => hi u) trivial
      (fun v _ _ => timelyAt_of_exact (by rw [hi v]; trivial))
    have hF : ∃ s', FInv S B o f1 s' ∧ f1.crew.made = f.crew.made := by
      rcases g2 with ⟨_, _, g2⟩ | ⟨_, s', g3, g2⟩
      · exact ⟨s, g2, by rw [g2.rel.made, h.rel.made]⟩
      · exact ⟨s', g2, by rw [g2.rel.made, h.rel.made]; exact run_made g3⟩
    obtain ⟨s', hF, hm⟩ := hF
    have e : f1.crew.ring = f.crew.ring := by
      rcases fRun_cases (g1 : fRunThread S B t f = some f1) with ⟨_, c2, _⟩ | ⟨_, _, c3, _⟩ | ⟨_, _, c3, _⟩
      · exact c2
      · exact c3
      · rw [c3]; unfold Ring.stepT; rw [hi t]
    obtain ⟨i1, f', i2, i3, i4, i5⟩ := ih hF (fun u => by rw [e]; exact hi u)
    rw [List.replicate_succ]
    refine ⟨⟨fun _ _ u _ => hi u, fun f2 h2 => ?_⟩, f', ?_, i3, by rw [i4, e], by rw [i5, hm]⟩
    · rw [g1] at h2
      obtain rfl := Option.some.inj h2
      exact i1
    · show (fAct S B f (.run t)).bind _ = _
      rw [g1]; exact i2

theorem fAct_pc_other {S : Setup} {B : Stdio} {f f' : FCrew} {e : Act} {u : Nat} (h : fAct S B f e = some f')
    (hu : e.thread ≠ some u) : f'.crew.ring.pc u = f.crew.ring.pc u := by
  have other : ∀ {e : Act}, (FNLog.act S f.crew e).map (fun c => { f with crew := c }) = some f' → e.thread ≠ some u →
      f'.crew.ring.pc u = f.crew.ring.pc u := by
    intro e h hu
    rw [Option.map_eq_some_iff] at h
    obtain ⟨c, h1, rfl⟩ := h
    exact acts_pc_other [e] (by show (FNLog.act S f.crew e).bind _ = _; rw [h1]; rfl)
      fun x hx => by rw [List.mem_singleton.mp hx]; exact hu
  cases e with
  | run t =>
    have hut : u ≠ t := fun e => hu (by rw [e]; rfl)
    rcases fRun_cases (h : fRunThread S B t f = some f') with ⟨_, c2, _⟩ | ⟨_, _, c3, _⟩ | ⟨_, _, c3, _⟩
    · rw [c2]
    · rw [c3]
    · rw [c3, stepT_pc_other S.cfg _ hut]
  | log t a ops => exact other (e := .log t a ops) h hu
  | dates t c => exact other (e := .dates t c) h hu
  | started => exact other (e := .started) h hu
  | closing => exact other (e := .closing) h hu
  | stop => exact other (e := .stop) h hu

theorem fActs_pc_other {S : Setup} {B : Stdio} {u : Nat} : ∀ {es : List Act} {f f' : FCrew}, fActs S B es f = some f' →
    (∀ e ∈ es, e.thread ≠ some u) → f'.crew.ring.pc u = f.crew.ring.pc u := by
  intro es
  induction es with
  | nil => intro f f' h _; obtain rfl := Option.some.inj h; rfl
  | cons e es ih =>
    intro f f' h hu
    simp only [fActs, Option.bind_eq_bind, Option.bind_eq_some_iff] at h
    obtain ⟨f1, h1, h2⟩ := h
    rw [ih h2 fun x hx => hu x (List.mem_cons_of_mem _ hx), fAct_pc_other h1 (hu e (List.mem_cons_self ..))]

/-! ## All records, in the order of the statements -/

theorem said_logged_all {S : Setup} {made : List (Nat × Call × List StreamOp)} {recs : List (Nat × Head × List Char)}
    (h : Said S made recs) : Logged S (made.map Prod.snd) (recs.map Prod.snd) := by
  induction h with
  | nil => exact .nil
  | @refused made recs u a ops _ h1 ih =>
    rw [List.map_append]
    have := logged_append ih (Logged.refused (ops := ops) h1 .nil)
    simpa using this
  | @admitted made recs u a ops file text _ h1 h2 h3 ih =>
    rw [List.map_append, List.map_append]
    exact logged_append ih (Logged.admitted h1 h2 h3 .nil)

/-- No thread is inside of a log statement: the devices have got the records of all statements, in their order. -/
theorem serial_end {S : Setup} (hA : S.cfg.async = false) (hS : Ready S) (hap : FilesApart S.fenv S.channel.id S.channel.devices)
    {o : OutSt} (ho : Spec.Own S.fenv S.channel.id S.channel.devices o) {rs : List Act} (he : ∀ e ∈ rs, SoundAct S e)
    (ht : OnTime S rs (FNLog.crew S o)) (hn : ∀ e ∈ rs, e.noStop) {s : Crew} (hs : FNLog.acts S rs (FNLog.crew S o) = some s)
    {t : Nat} (hx : SerAt S t s) (hidle : ∀ u, s.ring.pc u = .idle) :
    s.ring.R = s.ring.H ∧ s.ring.state = .running ∧
    ∃ recs, Logged S (s.made.map Prod.snd) recs ∧ FilesAfter S o s (fun _ => recs) ∧ DevicesAfter S o s (fun _ => recs) ∧
      s.out.screen = o.screen ++ screenLines S.channel.devices recs ∧
      ∃ sent, s.out.net = o.net ++ sent ∧ sent.Sublist (datagrams S.channel.devices recs) ∧
        ((∀ (j : Nat) (d : Device), S.channel.devices[j]? = some d → d.outType = .udp → (o.dev j).sock = true) →
          sent = datagrams S.channel.devices recs) := by
  have hL : 0 < S.cfg.L := Nat.lt_of_lt_of_le (by decide) hS.slots
  obtain ⟨s0, es, a1, a2, a3, a4, a5, _⟩ := acts_after hS hap ho he ht
  rw [hs] at a1
  obtain rfl := Option.some.inj a1
  have hno := a5 hn
  have hidle' : ∀ t, (after S.cfg es).pc t = .idle := by rw [← a3]; exact hidle
  obtain ⟨g1, g2⟩ := ns_after hL a4 hno
  obtain ⟨hR, hP, _⟩ := all_processed hA (inv_after hL a4) g1 g2 hidle'
  have hst := g1.sync hA
  rw [← a3] at hP hR hst
  obtain ⟨said, m1, _, m3⟩ := a2.spoken
  rw [List.nil_append] at m3
  -- what was acquired
  have hcalls : s.ring.acquired = s.ring.calls.map (sealedCall S.cfg) := by
    have h1 := hx.lone.calls
    rw [hidle t] at h1
    simp only [pending, Option.toList_none, List.map_nil, List.append_nil] at h1
    refine h1.eq_of_length_le ?_
    rw [List.length_map]
    refine length_by_thread _ _ fun u => ?_
    have hpub := (C10_all_published S.cfg hL es a4 hno (fun u => Or.inl (hidle' u))).2 u
    rw [← a3] at hpub
    have := congrArg List.length hpub
    simp only [linesOf, List.length_map] at this
    omega
  have hr : s.ring.acquired = said.map fun r => (r.1, cellOf r.2.1 r.2.2) := by rw [hcalls, ← m3]; rfl
  have hlen : said.length = s.ring.H := by rw [← a2.ring.len, hr, List.length_map]
  have hpairs : s.visits.map (fun v => (v.device, v.number)) = (List.range said.length).flatMap
      fun k => (List.range S.channel.devices.length).map fun j => (j, k) := by
    have hcur : currentOf t s = [] := by unfold currentOf; rw [hidle t]
    have hout := hx.lone.ord.out
    rw [hidle t, a2.base, Nat.sub_zero, hP] at hout
    rw [hx.turn, hcur, List.append_nil, hout, hlen, ← List.range_eq_range']
  have hseen : ∀ j, j < S.channel.devices.length → (visitsOf j s.visits).map Visit.record = said.map Prod.snd := by
    intro j hj
    have hp := a2.positions hr j
    have hm : (visitsOf j s.visits).map Visit.number = List.range said.length := by
      rw [numbers_pairs, hpairs, filter_turn _ _ hj]
    rw [hm] at hp
    have := (prefix_of_range hp).1
    rw [this, List.take_of_length_le (by rw [List.length_map]; exact Nat.le_refl _)]
  refine ⟨hR, hst, said.map Prod.snd, said_logged_all m1, a2.filesAfter.congr hseen, a2.devicesAfter.congr hseen, ?_, ?_⟩
  · rw [a2.screenPairs hr, hpairs]
    congr 1
    have := screen_all S.channel.devices (said.map Prod.snd)
    rw [List.length_map] at this
    exact this
  · obtain ⟨grams, hg⟩ := a2.gave
    have e : s.visits.flatMap (gramOf S) = datagrams S.channel.devices (said.map Prod.snd) := by
      have := gram_all S.channel.devices (said.map Prod.snd)
      rw [List.length_map] at this
      rw [← this, ← hpairs]
      exact a2.emitPairs hr .udp fun d r => datagram d r.2
    exact ⟨_, hg.net, by rw [← e]; exact hg.sub, fun hs => by rw [← e]; exact hg.all hs⟩

end FNLog
