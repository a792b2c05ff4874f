import Verif.Proof.Hook

/-! # The hook is called before any device sees the record -/

namespace FNLog
open Spec Ring

/-- The text of a statement that has no slot yet. -/
def bodyOf : PC Piece → Option (List Piece)
  | .hChk _ b | .hLoad _ b | .hRead _ _ b | .hCas _ _ b | .hOut b | .hSleep b => some b
  | _ => none

/-- The slot of a statement before its destructor. -/
def slotOf : PC Piece → Option Nat
  | .hInc k _ | .hMark k _ | .fInit k _ | .fill k _ => some k
  | _ => none

/-- The hook has been asked about every record in the channel, except those of statements before their destructor. -/
structure Asked (S : Setup) (r : St Piece) (held : Nat → Option (Head × Rec)) (hooked : List (Nat × Head × List Char)) :
    Prop where
  body : ∀ t b, bodyOf (r.pc t) = some b → ∃ h d, held t = some (h, d) ∧
    b ++ [S.cfg.nl] = cellOf h (lineOf S.env.N (d.content.take d.len))
  slot : ∀ t k, slotOf (r.pc t) = some k → ∃ h d, held t = some (h, d) ∧
    r.acquired[k]? = some (t, cellOf h (lineOf S.env.N (d.content.take d.len)))
  told : ∀ k t x, r.acquired[k]? = some (t, x) → slotOf (r.pc t) ≠ some k → ∀ h l, x = cellOf h l → HookTakes S h →
    ∃ text, l = lineOf S.env.N text ∧ (t, h, hookText S.env.N text) ∈ hooked

/-- One step of a thread. -/
theorem stepT_slot (c : Cfg Piece) (s : St Piece) (t : Nat) :
    ((∀ k, s.pc t ≠ .fill k []) ∧ (stepT c s t).acquired = s.acquired ∧ (slotOf ((stepT c s t).pc t) = slotOf (s.pc t)) ∧
      ∀ b, bodyOf ((stepT c s t).pc t) = some b → bodyOf (s.pc t) = some b) ∨
    (∃ b, bodyOf (s.pc t) = some b ∧ slotOf (s.pc t) = none ∧ (∀ k, s.pc t ≠ .fill k []) ∧
      (stepT c s t).acquired = s.acquired ++ [(t, b ++ [c.nl])] ∧
      slotOf ((stepT c s t).pc t) = some s.H ∧ bodyOf ((stepT c s t).pc t) = none) ∨
    (∃ k, s.pc t = .fill k [] ∧ (stepT c s t).acquired = s.acquired ∧ slotOf ((stepT c s t).pc t) = none ∧
      bodyOf ((stepT c s t).pc t) = none) := by
  unfold Ring.stepT
  split <;> rename_i hpc <;> rw [hpc]
  all_goals first
    | (refine Or.inr (Or.inr ⟨_, rfl, rfl, ?_, ?_⟩) <;> simp [St.go, slotOf, bodyOf]; done)
    | ((repeat' split) <;> first
        | (refine Or.inl ⟨by nofun, rfl, ?_, ?_⟩ <;> simp [St.go, slotOf, bodyOf]; done)
        | (refine Or.inr (Or.inl ⟨_, rfl, rfl, by nofun, rfl, ?_, ?_⟩) <;> simp [St.go, slotOf, bodyOf]; done))

theorem Asked.same {S : Setup} {r r' : St Piece} {held held' : Nat → Option (Head × Rec)}
    {hooked : List (Nat × Head × List Char)} (h : Asked S r held hooked) (h1 : r'.pc = r.pc) (h2 : r'.acquired = r.acquired)
    (h3 : ∀ t, r.pc t = .idle ∨ held' t = held t) : Asked S r' held' hooked where
  body := by
    intro t b hb
    rw [h1] at hb
    rcases h3 t with h4 | h4
    · rw [h4] at hb; cases hb
    · rw [h4]; exact h.body t b hb
  slot := by
    intro t k hk
    rw [h1] at hk
    rcases h3 t with h4 | h4
    · rw [h4] at hk; cases hk
    · rw [h4, h2]; exact h.slot t k hk
  told := by
    rw [h1, h2]
    exact h.told

theorem Asked.call {S : Setup} {r : St Piece} {held : Nat → Option (Head × Rec)} {hooked : List (Nat × Head × List Char)}
    (h : Asked S r held hooked) {t : Nat} (hpc : r.pc t = .idle) {b : List Piece} {hd : Head} {d : Rec}
    (hb : b ++ [S.cfg.nl] = cellOf hd (lineOf S.env.N (d.content.take d.len))) {r' : St Piece}
    (h1 : r'.pc = upd r.pc t (.hChk 0 b)) (h2 : r'.acquired = r.acquired) :
    Asked S r' (upd held t (some (hd, d))) hooked where
  body := by
    intro u b' hu
    rw [h1] at hu
    by_cases e : u = t
    · subst e
      rw [upd_same] at hu
      obtain rfl := Option.some.inj hu
      exact ⟨hd, d, upd_same _ _ _, hb⟩
    · rw [upd_ne _ _ e] at hu ⊢
      exact h.body u b' hu
  slot := by
    intro u k hk
    rw [h1] at hk
    by_cases e : u = t
    · subst e
      rw [upd_same] at hk
      cases hk
    · rw [upd_ne _ _ e] at hk ⊢
      rw [h2]
      exact h.slot u k hk
  told := by
    intro k u x hx hs
    rw [h2] at hx
    refine h.told k u x hx fun hs' => hs ?_
    rw [h1]
    by_cases e : u = t
    · subst e; rw [hpc] at hs'; cases hs'
    · rw [upd_ne _ _ e]; exact hs'

theorem Asked.step {S : Setup} {r : St Piece} {held : Nat → Option (Head × Rec)} {hooked : List (Nat × Head × List Char)}
    (h : Asked S r held hooked) (hi : Inv S.cfg r) (t : Nat) {new : List (Nat × Head × List Char)}
    (hn : ∀ k, r.pc t = .fill k [] → ∀ hd d, held t = some (hd, d) → HookTakes S hd →
      (t, hd, hookText S.env.N (d.content.take d.len)) ∈ new) :
    Asked S (stepT S.cfg r t) held (hooked ++ new) := by
  have hoth : ∀ u, u ≠ t → (stepT S.cfg r t).pc u = r.pc u := fun u hu => stepT_pc_other _ _ hu
  have hlen : ∀ k x, r.acquired[k]? = some x → k < r.H := fun k x hx => by
    rw [← hi.len]; exact (List.getElem?_eq_some_iff.mp hx).1
  rcases stepT_slot S.cfg r t with ⟨_, e1, e2, e3⟩ | ⟨b, e1, e2, _, e4, e5, e6⟩ | ⟨k, e1, e2, e3, e4⟩
  · refine ⟨fun u b hb => ?_, fun u k hk => ?_, fun k u x hx hs hd l hxe ht => ?_⟩
    · by_cases e : u = t
      · subst e; exact h.body u b (e3 b hb)
      · rw [hoth u e] at hb; exact h.body u b hb
    · rw [e1]
      by_cases e : u = t
      · subst e; rw [e2] at hk; exact h.slot u k hk
      · rw [hoth u e] at hk; exact h.slot u k hk
    · rw [e1] at hx
      obtain ⟨text, g1, g2⟩ := h.told k u x hx (fun hs' => hs (by
        by_cases e : u = t
        · subst e; rw [e2]; exact hs'
        · rw [hoth u e]; exact hs')) hd l hxe ht
      exact ⟨text, g1, List.mem_append_left _ g2⟩
  · obtain ⟨hd, d, g1, g2⟩ := h.body t b e1
    have hnew : (stepT S.cfg r t).acquired[r.H]? = some (t, b ++ [S.cfg.nl]) := by
      rw [e4, ← hi.len, List.getElem?_append_right (Nat.le_refl _), Nat.sub_self]
      rfl
    have hold : ∀ k, k < r.H → (stepT S.cfg r t).acquired[k]? = r.acquired[k]? := fun k hk => by
      rw [e4, List.getElem?_append_left (by rw [hi.len]; exact hk)]
    refine ⟨fun u b' hb => ?_, fun u k hk => ?_, fun k u x hx hs hd' l hxe ht => ?_⟩
    · by_cases e : u = t
      · subst e; rw [e6] at hb; cases hb
      · rw [hoth u e] at hb; exact h.body u b' hb
    · by_cases e : u = t
      · subst e
        rw [e5] at hk
        obtain rfl := Option.some.inj hk
        exact ⟨hd, d, g1, by rw [hnew, g2]⟩
      · rw [hoth u e] at hk
        obtain ⟨hd', d', k1, k2⟩ := h.slot u k hk
        exact ⟨hd', d', k1, by rw [hold k (hlen k _ k2)]; exact k2⟩
    · by_cases hk : k < r.H
      · rw [hold k hk] at hx
        obtain ⟨text, g1, g2⟩ := h.told k u x hx (fun hs' => hs (by
          by_cases e : u = t
          · subst e; rw [e2] at hs'; cases hs'
          · rw [hoth u e]; exact hs')) hd' l hxe ht
        exact ⟨text, g1, List.mem_append_left _ g2⟩
      · have hk' : k < (stepT S.cfg r t).acquired.length := (List.getElem?_eq_some_iff.mp hx).1
        rw [e4, List.length_append, hi.len] at hk'
        simp only [List.length_cons, List.length_nil] at hk'
        have : k = r.H := by omega
        subst this
        rw [hnew] at hx
        obtain ⟨rfl, rfl⟩ := Prod.mk.inj (Option.some.inj hx)
        exact absurd e5 hs
  · obtain ⟨hd, d, g1, g2⟩ := h.slot t k (by rw [e1]; rfl)
    refine ⟨fun u b' hb => ?_, fun u j hk => ?_, fun j u x hx hs hd' l hxe ht => ?_⟩
    · by_cases e : u = t
      · subst e; rw [e4] at hb; cases hb
      · rw [hoth u e] at hb; exact h.body u b' hb
    · rw [e2]
      by_cases e : u = t
      · subst e; rw [e3] at hk; cases hk
      · rw [hoth u e] at hk; exact h.slot u j hk
    · rw [e2] at hx
      by_cases e : u = t ∧ j = k
      · obtain ⟨rfl, rfl⟩ := e
        rw [g2] at hx
        obtain ⟨_, hx⟩ := Prod.mk.inj (Option.some.inj hx)
        have hc : cellOf hd (lineOf S.env.N (d.content.take d.len)) = cellOf hd' l := hx.trans hxe
        have hc' := congrArg decode hc
        rw [decode_cell, decode_cell] at hc'
        obtain ⟨rfl, rfl⟩ := Prod.mk.inj (Option.some.inj hc')
        exact ⟨_, rfl, List.mem_append_right _ (hn j e1 _ _ g1 ht)⟩
      · obtain ⟨text, g1, g2⟩ := h.told j u x hx (fun hs' => by
          by_cases e' : u = t
          · subst e'
            rw [e1] at hs'
            exact e ⟨rfl, (Option.some.inj hs').symm⟩
          · exact hs (by rw [hoth u e']; exact hs')) hd' l hxe ht
        exact ⟨text, g1, List.mem_append_left _ g2⟩

/-- One event. -/
theorem PostInv.asked {b : Bool} {S : Setup} (hS : Ready S) {o : OutSt} {p p' : Post} {s s' : Crew}
    (hi : PostInv b S o p s) (h : Asked S s.ring p.held p.hooked) {e : Act} (he : SoundAct S e)
    (hp : postAct S p e = some p') (hs : act S s e = some s') : Asked S s'.ring p'.held p'.hooked := by
  obtain ⟨x, tw, _⟩ := hi.twin
  have hpc : p.crew.ring = s.ring := tw.ring
  unfold postAct at hp
  simp only [Option.bind_eq_bind, Option.bind_eq_some_iff] at hp
  obtain ⟨p1, h1, c, _, hp⟩ := hp
  obtain rfl := Option.some.inj hp
  show Asked S s'.ring p1.held p1.hooked
  by_cases hl : ∃ t a ops, e = .log t a ops
  · obtain ⟨t, a, ops, rfl⟩ := hl
    simp only [act, beginLog] at hs
    simp only [postBefore, holdRecord, hpc] at h1
    split at hs
    · rename_i hidle
      rw [hidle] at h1
      simp only at h1
      split at hs
      · rename_i hrun
        rw [if_pos hrun, tw.caches] at h1
        rcases recordOf_ok hS he (hi.crew.caches t) with ⟨_, h2, h3⟩ | ⟨_, file, r, c', _, _, h4, h5, body, h6, h7⟩
        · rw [h3] at hs
          obtain rfl := Option.some.inj hs
          rw [h2] at h1
          obtain rfl := Option.some.inj h1
          refine h.same rfl rfl fun u => ?_
          by_cases e : u = t
          · subst e; exact Or.inl hidle
          · exact Or.inr (upd_ne _ _ e)
        · rw [h6] at hs
          obtain rfl := Option.some.inj hs
          rw [h5] at h1
          obtain rfl := Option.some.inj h1
          have hring : Ring.step S.cfg s.ring (.call t body) =
              { s.ring with pc := upd s.ring.pc t (.hChk 0 body), calls := s.ring.calls ++ [(t, body)] } := by
            simp only [Ring.step]
            simp only [hidle]
            rw [if_pos (by simp [hrun.1, hrun.2])]
            rfl
          have hr1 : (Ring.step S.cfg s.ring (.call t body)).pc = upd s.ring.pc t (.hChk 0 body) := by rw [hring]
          have hr2 : (Ring.step S.cfg s.ring (.call t body)).acquired = s.ring.acquired := by rw [hring]
          exact h.call hidle h7 hr1 hr2
      · rename_i hrun
        obtain rfl := Option.some.inj hs
        rw [if_neg hrun] at h1
        obtain rfl := Option.some.inj h1
        exact h
    · rename_i hne
      obtain rfl := Option.some.inj hs
      split at h1
      · rename_i hidle
        exact absurd hidle hne
      · obtain rfl := Option.some.inj h1
        exact h
  · obtain ⟨_, _, m3⟩ := act_pcs hs fun t a ops h => hl ⟨t, a, ops, h⟩
    rcases m3 with ⟨m3, m4⟩ | ⟨t, rfl, m3⟩
    · have hbef : postBefore S p e = some p := by
        cases e with
        | log t a ops => exact absurd ⟨t, a, ops, rfl⟩ hl
        | run t =>
          simp only [postBefore, beforePush, hpc]
          split
          · rename_i k hk
            exact absurd hk (m4 t k rfl)
          · rfl
        | _ => rfl
      rw [hbef] at h1
      obtain rfl := Option.some.inj h1
      refine h.same m3 ?_ fun _ => Or.inr rfl
      cases e with
      | log t a ops => exact absurd ⟨t, a, ops, rfl⟩ hl
      | started => obtain rfl := Option.some.inj hs; exact (step_quiet _ _ _ (by nofun)).2.1
      | closing => obtain rfl := Option.some.inj hs; exact (step_quiet _ _ _ (by nofun)).2.1
      | stop => obtain rfl := Option.some.inj hs; exact (step_quiet _ _ _ (by nofun)).2.1
      | dates t c => obtain rfl := Option.some.inj hs; rfl
      | run t =>
        simp only [act, runThread] at hs
        have key : s'.ring = stepT S.cfg s.ring t → s'.ring.acquired = s.ring.acquired := by
          intro hst
          rcases stepT_slot S.cfg s.ring t with ⟨_, e1, _⟩ | ⟨b, e1, e2, _, e4, e5, e6⟩ | ⟨k, e1, e2, _⟩
          · rw [hst]; exact e1
          · rw [← hst, m3, e2] at e5; cases e5
          · rw [hst]; exact e2
        split at hs
        · split at hs
          · unfold dispatchNext at hs
            simp only [Option.bind_eq_bind, Option.bind_eq_some_iff] at hs
            obtain ⟨_, _, _, _, _, _, hs⟩ := hs
            obtain rfl := Option.some.inj hs
            rfl
          · obtain rfl := Option.some.inj hs
            exact key rfl
        · obtain rfl := Option.some.inj hs
          exact key rfl
    · rw [m3]
      simp only [postBefore, beforePush, hpc] at h1
      obtain ⟨recs, calls, _, _, g3⟩ := hi.heard
      have hgt := g3 t
      by_cases hf : ∃ k, s.ring.pc t = .fill k []
      · obtain ⟨k, hk⟩ := hf
        unfold Told at hgt
        rw [if_pos (by rw [hk]; rfl)] at hgt
        obtain ⟨hd, r, l, t1, t2, _⟩ := hgt
        rw [hk] at h1
        simp only [t1] at h1
        obtain ⟨p2, d1, d2, d3, _⟩ := hi.hook hS (t := t) t2
        rw [h1] at d1
        obtain rfl := Option.some.inj d1
        rw [d2, d3]
        refine h.step hi.crew.ring t fun j hj hd' r' hh ht => ?_
        rw [t1] at hh
        obtain ⟨rfl, rfl⟩ := Prod.mk.inj (Option.some.inj hh)
        unfold hookCall
        rw [if_pos ht]
        simp
      · have : p1 = p := by
          split at h1
          · rename_i k hk
            exact absurd ⟨k, hk⟩ hf
          · exact (Option.some.inj h1).symm
        subst this
        have := h.step hi.crew.ring t (new := []) fun k hk => absurd ⟨k, hk⟩ hf
        rw [List.append_nil] at this
        exact this

/-- Any schedule. -/
theorem post_asked {b : Bool} {S : Setup} (hS : Ready S) (hap : FilesApart S.fenv S.channel.id S.channel.devices)
    {o : OutSt} : ∀ {es : List Act} {p : Post} {s : Crew}, PostInv b S o p s → Asked S s.ring p.held p.hooked →
    (∀ e ∈ es, SoundAct S e) → OnTime S es s → (b = true → ∀ e ∈ es, e.noStop) →
    ∃ p' s', postActs S es p = some p' ∧ acts S es s = some s' ∧ PostInv b S o p' s' ∧ Asked S s'.ring p'.held p'.hooked := by
  intro es
  induction es with
  | nil => intro p s h ha _ _ _; exact ⟨p, s, rfl, rfl, h, ha⟩
  | cons e es ih =>
    intro p s h ha he ht hb
    obtain ⟨p1, s1, h1, h2, h3⟩ := h.step hS hap (he e (by simp)) ht.1 fun hb' => hb hb' e (by simp)
    have ha1 := h.asked hS ha (he e (by simp)) h1 h2
    obtain ⟨p2, s2, k1, k2, k3⟩ := ih h3 ha1 (fun x hx => he x (by simp [hx])) (ht.2 s1 h2) fun hb' x hx => hb hb' x (by simp [hx])
    refine ⟨p2, s2, ?_, ?_, k3⟩
    · unfold postActs
      rw [h1]
      exact k1
    · unfold acts
      rw [h2]
      exact k2

theorem asked_start (S : Setup) (o : OutSt) : Asked S (crew S o).ring (post S o).held (post S o).hooked where
  body := by
    intro t b hb
    simp only [crew, Ring.init] at hb
    split at hb <;> cases hb
  slot := by
    intro t b hb
    simp only [crew, Ring.init] at hb
    split at hb <;> cases hb
  told := by
    intro k t x hx
    exact absurd hx (by simp [crew, Ring.init])

/-- Records seen by devices. -/
theorem Asked.seen {S : Setup} {o : OutSt} {s : Crew} (hi : CrewInv S o s) {held : Nat → Option (Head × Rec)}
    {hooked : List (Nat × Head × List Char)} (h : Asked S s.ring held hooked) {v : Visit} (hv : v ∈ s.visits)
    (ht : HookTakes S v.head) :
    ∃ t text, v.text = lineOf S.env.N text ∧ (t, v.head, hookText S.env.N text) ∈ hooked := by
  have hval := hi.visitVal v hv
  have hlt : v.number < s.ring.P := by
    have hm : v.number ∈ (visitsOf v.device s.visits).map Visit.number :=
      List.mem_map.mpr ⟨v, List.mem_filter.mpr ⟨hv, by simp⟩, rfl⟩
    rcases (hi.visitMem v.device (hi.visitDev v hv) v.number).mp hm with h1 | ⟨t, h1, _⟩
    · exact ((hi.ring.outMem _).mp h1).2.1
    · have := hi.ring.ti t
      rw [h1] at this
      exact this.2.1
  cases ha : s.ring.acquired[v.number]? with
  | none => rw [ha] at hval; cases hval
  | some y =>
    obtain ⟨t, x⟩ := y
    rw [ha] at hval
    have hx : x = cellOf v.head v.text := Option.some.inj hval
    have hle := hi.ring.lePW
    obtain ⟨text, g1, g2⟩ := h.told v.number t x ha (fun hs => by
      have hti := hi.ring.ti t
      have : s.ring.W ≤ v.number := by
        revert hs hti
        cases s.ring.pc t <;> intro hs hti <;> simp only [slotOf] at hs <;> first
          | (obtain rfl := Option.some.inj hs; exact hti.1.1)
          | cases hs
      omega) v.head v.text hx ht
    exact ⟨t, text, g1, g2⟩

end FNLog
