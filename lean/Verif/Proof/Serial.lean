import Verif.Proof.FlushRun
import Verif.Proof.ThreadsEnd
import Verif.Props.Threads

/-! # One log statement at a time on a sync channel -/

namespace FNLog.Ring
open FNLog

variable {α : Type}

/-- A line with its end, and its thread. -/
def sealedCall (c : Cfg α) (e : Nat × List α) : Nat × List α := (e.1, e.2 ++ [c.nl])

/-- Only thread `t` is inside of a log statement. -/
structure Lone (c : Cfg α) (t : Nat) (s : St α) : Prop where
  idle : ∀ u, u ≠ t → s.pc u = .idle
  exact : Exact s (s.pc t)
  ord : SyncOrd c t s
  calls : (s.acquired ++ (pending (s.pc t)).toList.map fun b => sealedCall c (t, b)).Sublist (s.calls.map (sealedCall c))

theorem Lone.init (c : Cfg α) (hA : c.async = false) (t : Nat) : Lone c t (init c) := by
  have hp : ∀ u, (Ring.init c).pc u = .idle := fun u => by simp [Ring.init, hA]
  refine ⟨fun u _ => hp u, by rw [hp]; trivial, SyncOrd.init c hA t, ?_⟩
  rw [hp]
  simp [Ring.init, pending]

/-- Another thread begins. -/
theorem Lone.switch {c : Cfg α} {t u : Nat} {s : St α} (h : Lone c t s) (hu : ∀ v, v ≠ u → s.pc v = .idle) : Lone c u s := by
  by_cases e : u = t
  · subst e; exact h
  have h1 : s.pc t = .idle := hu t fun x => e x.symm
  have h2 : s.pc u = .idle := h.idle u e
  refine ⟨hu, by rw [h2]; trivial, ⟨?_, ?_⟩, ?_⟩
  · have := h.ord.pct
    rw [h1] at this
    rw [h2]; exact this
  · have := h.ord.out
    rw [h1] at this
    rw [h2]; exact this
  · have := h.calls
    rw [h1] at this
    rw [h2]; exact this

theorem sub_keep {c : Cfg α} {t : Nat} {s s' : St α}
    (h : (s.acquired ++ (pending (s.pc t)).toList.map fun b => sealedCall c (t, b)).Sublist (s.calls.map (sealedCall c)))
    (h1 : s'.acquired = s.acquired) (h2 : s'.calls = s.calls) (h3 : pending (s'.pc t) = pending (s.pc t) ∨ pending (s'.pc t) = none) :
    (s'.acquired ++ (pending (s'.pc t)).toList.map fun b => sealedCall c (t, b)).Sublist (s'.calls.map (sealedCall c)) := by
  rw [h1, h2]
  rcases h3 with h3 | h3 <;> rw [h3]
  · exact h
  · refine List.Sublist.trans ?_ h
    simp

theorem calls_stepT {c : Cfg α} {t : Nat} {s : St α}
    (h : (s.acquired ++ (pending (s.pc t)).toList.map fun b => sealedCall c (t, b)).Sublist (s.calls.map (sealedCall c))) :
    ((stepT c s t).acquired ++ (pending ((stepT c s t).pc t)).toList.map fun b => sealedCall c (t, b)).Sublist
      ((stepT c s t).calls.map (sealedCall c)) := by
  unfold Ring.stepT
  split <;> rename_i hpc
  case h_5 i tk b =>
    rw [hpc] at h
    split
    · simpa [pending, sealedCall] using h
    · split <;> simpa [pending, hpc] using h
  all_goals repeat' split
  all_goals first
    | exact h
    | (refine sub_keep h rfl rfl ?_; simp [pending, hpc]; done)

theorem Lone.stepT {c : Cfg α} (hA : c.async = false) {t : Nat} {s : St α} (hi : Inv c s) (h : Lone c t s) :
    Lone c t (stepT c s t) where
  idle := fun u hu => by rw [stepT_pc_other c s hu]; exact h.idle u hu
  exact := exact_stepT c s h.exact
  ord := h.ord.stepT hA hi
  calls := calls_stepT h.calls

/-- Other events. -/
theorem Lone.step {c : Cfg α} (hA : c.async = false) {t : Nat} {s : St α} (hi : Inv c s) (h : Lone c t s) (e : Ev α)
    (he : match e with | .call u _ => u = t | .run u => u = t | _ => True) : Lone c t (step c s e) := by
  have hs : Solo c t s := ⟨fun u hu _ => h.idle u hu, fun u => by
    by_cases e : u = t
    · subst e; exact h.exact
    · rw [h.idle u e]; trivial⟩
  have he' : match (generalizing := false) e with | .call u _ => u = t | _ => True := by cases e <;> first | exact he | trivial
  have h1 : Solo c t (Ring.step c s e) := hs.step hi (fun h => by rw [hA] at h; cases h) e he'
  refine ⟨fun u hu => h1.1 u hu (fun h => by rw [hA] at h; cases h), h1.2 t, h.ord.step hA hi hs e he', ?_⟩
  cases e with
  | run u => obtain rfl := he; exact calls_stepT h.calls
  | call u b =>
    obtain rfl := he
    unfold Ring.step
    simp only
    split
    · rename_i hpc
      have hc := h.calls
      split
      · rw [hpc] at hc
        have : s.acquired.Sublist (s.calls.map (sealedCall c)) := by simpa [pending] using hc
        simpa [pending] using this
      · exact hc
    · exact h.calls
  | started => unfold Ring.step; simp only; split <;> exact sub_keep h.calls rfl rfl (Or.inl rfl)
  | closing => exact sub_keep h.calls rfl rfl (Or.inl rfl)
  | stop => unfold Ring.step; simp only; (repeat' split) <;> exact sub_keep h.calls rfl rfl (Or.inl rfl)

end FNLog.Ring

namespace FNLog
open Spec Ring

/-! ## The devices -/

/-- The devices reached by a thread for its current record. -/
def currentOf (t : Nat) (s : Crew) : List (Nat × Nat) :=
  match s.ring.pc t with
  | .cDisp k => (List.range (s.pos t)).map fun j => (j, k)
  | _ => []

theorem currentOf_nil {t : Nat} {s : Crew} (h : s.pos t = 0) : currentOf t s = [] := by
  unfold currentOf
  split
  · rw [h]; rfl
  · rfl

/-- Only thread `t` is inside of a log statement; the devices have been reached record by record, in order. -/
structure SerAt (S : Setup) (t : Nat) (s : Crew) : Prop where
  lone : Lone S.cfg t s.ring
  turn : s.visits.map (fun v => (v.device, v.number)) =
    (s.ring.out.map Prod.fst).flatMap (fun k => (List.range S.channel.devices.length).map fun j => (j, k)) ++ currentOf t s

theorem SerAt.switch {S : Setup} {t u : Nat} {s : Crew} (h : SerAt S t s) (hu : ∀ v, v ≠ u → s.ring.pc v = .idle) : SerAt S u s := by
  by_cases e : u = t
  · subst e; exact h
  refine ⟨h.lone.switch hu, ?_⟩
  have h1 : currentOf t s = [] := by
    unfold currentOf
    rw [hu t fun x => e x.symm]
  have h2 : currentOf u s = [] := by
    unfold currentOf
    rw [h.lone.idle u e]
  rw [h.turn, h1, h2]

theorem SerAt.act {S : Setup} (hA : S.cfg.async = false) (hS : Ready S)
    (hap : FilesApart S.fenv S.channel.id S.channel.devices) {o : OutSt} {s s' : Crew} {t : Nat}
    (h : CrewInv S o s) (ho : SerAt S t s) {e : Act} (he : ∀ u, e.thread = some u → u = t) (hs : act S s e = some s') :
    SerAt S t s' := by
  have hcur : ∀ {r : St Piece} {ca : Nat → DateCache} {made : List (Nat × Call × List StreamOp)},
      (∀ k, r.pc t = .cDisp k ↔ s.ring.pc t = .cDisp k) →
      currentOf t { s with ring := r, caches := ca, made := made } = currentOf t s := by
    intro r ca made hr
    by_cases hx : ∃ k, s.ring.pc t = .cDisp k
    · obtain ⟨k, hk⟩ := hx
      simp only [currentOf]
      rw [hk, (hr k).mpr hk]
    · have h1 : s.pos t = 0 := h.posZero t fun k hk => hx ⟨k, hk⟩
      rw [currentOf_nil (s := s) h1, currentOf_nil]
      exact h1
  have hkeep : ∀ {r : St Piece} {ca : Nat → DateCache} {made : List (Nat × Call × List StreamOp)}, Lone S.cfg t r →
      r.out = s.ring.out → (∀ k, r.pc t = .cDisp k ↔ s.ring.pc t = .cDisp k) →
      SerAt S t { s with ring := r, caches := ca, made := made } := by
    intro r ca made h0 h1 h2
    refine ⟨h0, ?_⟩
    rw [hcur h2]
    simp only [h1]
    exact ho.turn
  cases e with
  | started =>
    obtain rfl := Option.some.inj hs
    obtain ⟨h2, _, _, h5⟩ := step_quiet S.cfg s.ring .started (by nofun)
    exact hkeep (ho.lone.step hA h.ring .started trivial) h2 (h5 t)
  | closing =>
    obtain rfl := Option.some.inj hs
    obtain ⟨h2, _, _, h5⟩ := step_quiet S.cfg s.ring .closing (by nofun)
    exact hkeep (ho.lone.step hA h.ring .closing trivial) h2 (h5 t)
  | stop =>
    obtain rfl := Option.some.inj hs
    obtain ⟨h2, _, _, h5⟩ := step_quiet S.cfg s.ring .stop (by nofun)
    exact hkeep (ho.lone.step hA h.ring .stop trivial) h2 (h5 t)
  | dates u c =>
    obtain rfl := Option.some.inj hs
    exact hkeep ho.lone rfl fun _ => Iff.rfl
  | log u a ops =>
    obtain rfl := he u rfl
    simp only [FNLog.act, beginLog] at hs
    split at hs
    · split at hs
      · cases hf : formed S a ops (s.caches u) with
        | none => rw [hf] at hs; exact absurd hs (by simp)
        | some x =>
          rw [hf] at hs
          simp only [Option.bind_eq_bind, Option.bind_some] at hs
          obtain rfl := Option.some.inj hs
          cases hb : x.1 with
          | none => exact hkeep ho.lone rfl fun _ => Iff.rfl
          | some b =>
            obtain ⟨h2, _, _, h5⟩ := step_quiet S.cfg s.ring (.call u b) (by nofun)
            exact hkeep (ho.lone.step hA h.ring (.call u b) rfl) h2 (h5 u)
      · obtain rfl := Option.some.inj hs; exact ho
    · obtain rfl := Option.some.inj hs; exact ho
  | run u =>
    obtain rfl := he u rfl
    have hl := ho.lone.stepT hA h.ring
    have hturn := ho.turn
    simp only [FNLog.act, runThread] at hs
    split at hs
    · rename_i k hpc
      split at hs
      · rename_i d hd
        obtain ⟨s1, e1, _, e3, e4, hdr, line, e5, _⟩ := h.visit hS hap hpc hd
        rw [e1] at hs
        obtain rfl := Option.some.inj hs
        refine ⟨by rw [e3]; exact ho.lone, ?_⟩
        rw [e5, List.map_append, hturn, e3]
        simp only [currentOf, e3, hpc, e4, upd_same, List.range_succ, List.map_append, List.append_assoc, List.map_cons,
          List.map_nil]
      · rename_i hd
        obtain rfl := Option.some.inj hs
        have hlen : s.pos u = S.channel.devices.length :=
          Nat.le_antisymm (h.posLe u) (List.getElem?_eq_none_iff.mp hd)
        have e : Ring.stepT S.cfg s.ring u =
            { s.ring with out := s.ring.out ++ [(k, s.ring.cell (k % S.cfg.L))] }.go u (.cClear k) := by
          unfold Ring.stepT
          rw [hpc]
        refine ⟨hl, ?_⟩
        rw [currentOf_nil (show upd s.pos u 0 u = 0 from upd_same _ _ _), List.append_nil]
        simp only [hturn, currentOf, hpc, hlen, e, Ring.St.go, List.map_append, List.flatMap_append, List.map_cons, List.map_nil,
          List.flatMap_cons, List.flatMap_nil, List.append_nil]
    · rename_i hne
      obtain rfl := Option.some.inj hs
      have hp : ∀ k, s.ring.pc u ≠ .cDisp k := fun k hk => hne k hk
      refine ⟨hl, ?_⟩
      have h1 : s.pos u = 0 := h.posZero u hp
      rw [currentOf_nil (s := { s with ring := Ring.stepT S.cfg s.ring u }) h1]
      rw [currentOf_nil h1] at hturn
      simp only [stepT_out _ _ _ hp]
      exact hturn

/-- The beginning. -/
theorem SerAt.init {S : Setup} (hA : S.cfg.async = false) (o : OutSt) (t : Nat) : SerAt S t (FNLog.crew S o) where
  lone := Lone.init S.cfg hA t
  turn := by
    rw [currentOf_nil rfl]
    rfl

/-- A sequence of events, with streams: nothing is undefined, every compare-and-swap is timely. -/
theorem serial_acts {S : Setup} {B : Stdio} (hA : S.cfg.async = false) (hS : Ready S)
    (hap : FilesApart S.fenv S.channel.id S.channel.devices) {o : OutSt} : ∀ {es : List Act} {f : FCrew} {s : Crew},
    FInv S B o f s → (∃ t, SerAt S t s) → Serial S B es f → (∀ e ∈ es, SoundAct S e) →
    FOnTime S B es f ∧ ∃ (f' : FCrew) (rs : List Act) (s' : Crew), fActs S B es f = some f' ∧ rs.Sublist es ∧
      OnTime S rs s ∧ FNLog.acts S rs s = some s' ∧ FInv S B o f' s' ∧ ∃ t, SerAt S t s' := by
  intro es
  induction es with
  | nil => intro f s h hx _ _; exact ⟨trivial, f, [], s, rfl, List.Sublist.refl _, trivial, rfl, h, hx⟩
  | cons e es ih =>
    intro f s h ⟨t0, hx⟩ hser he
    have hser1 := hser.1
    rw [h.rel.ring] at hser1
    obtain ⟨t, hx, ht⟩ : ∃ t, SerAt S t s ∧ ∀ u, e.thread = some u → u = t := by
      cases hth : e.thread with
      | none => exact ⟨t0, hx, nofun⟩
      | some u => exact ⟨u, hx.switch (hser1 u hth), fun v hv => (Option.some.inj hv).symm⟩
    have htim : ∀ u, e = .run u → f.fl u = .off → timelyAt S.cfg f.crew.ring u := by
      rintro u rfl _
      rw [h.rel.ring, ht u rfl]
      exact timelyAt_of_exact hx.lone.exact
    obtain ⟨f1, g1, g2⟩ := h.act hS hap (Or.inr hser.1) (he e (List.mem_cons_self ..)) htim
    have he' : ∀ x ∈ es, SoundAct S x := fun x hx => he x (List.mem_cons_of_mem _ hx)
    have hon : FOnTime S B es f1 → FOnTime S B (e :: es) f := by
      intro hf
      refine ⟨htim, fun f2 h2 => ?_⟩
      rw [g1] at h2
      obtain rfl := Option.some.inj h2
      exact hf
    rcases g2 with ⟨u, rfl, g2⟩ | ⟨g2, s1, g3, g4⟩
    · obtain ⟨a0, f', rs, s', a1, a2, a4, a5, a6, a7⟩ := ih g2 ⟨t, hx⟩ (hser.2 f1 g1) he'
      refine ⟨hon a0, f', rs, s', ?_, a2.cons _, a4, a5, a6, a7⟩
      show (fAct S B f (.run u)).bind _ = _
      rw [g1]; exact a1
    · obtain ⟨a0, f', rs, s', a1, a2, a4, a5, a6, a7⟩ := ih g4 ⟨t, hx.act hA hS hap h.crew ht g3⟩ (hser.2 f1 g1) he'
      refine ⟨hon a0, f', e :: rs, s', ?_, a2.cons_cons _, ⟨g2, ?_⟩, ?_, a6, a7⟩
      · show (fAct S B f e).bind _ = _
        rw [g1]; exact a1
      · intro s2 hs2
        rw [g3] at hs2
        obtain rfl := Option.some.inj hs2
        exact a4
      · show (FNLog.act S s e).bind _ = _
        rw [g3]; exact a5

end FNLog
