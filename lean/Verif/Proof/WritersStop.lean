import Verif.Proof.Writers
import Verif.Proof.RingResp

/-! # Several writer threads on one queue: the stop -/

namespace FNLog.Ring
open FNLog

variable {α : Type}

/-- The writers of a channel that was never stopped do not leave their loops. -/
def wkM (s : St α) : PC α → Prop
  | .cLoop => s.state = .running
  | .cLoopW | .cLoopR _ | .cFin | .done => False
  | _ => True

/-- Facts of a channel that was never stopped; the writers are `ws`. -/
structure NSM (ws : List Nat) (s : St α) : Prop where
  st : s.state = .running ∨ s.state = .null
  act : ∀ t, s.pc t ≠ .idle → isCons (s.pc t) = false → s.state = .running
  wk : ∀ t, wkM s (s.pc t)
  lost : s.lost = []
  who : ∀ t, isCons (s.pc t) = true ↔ t ∈ ws

/-- A held and ready line has a thread that will move `write_idx_`. -/
def RespM (c : Cfg α) (s : St α) : Prop := s.W < s.H → s.mark (s.W % c.L) = .ready → ∃ t, respW s (s.pc t)

theorem NSM.keep {ws : List Nat} {s s' : St α} (h : NSM ws s) {t : Nat} {p : PC α}
    (hpc : s'.pc = fun u => if u = t then p else s.pc u) (hst : s'.state = s.state)
    (hl : s'.lost = s.lost) (ha : p ≠ .idle → isCons p = false → s.state = .running)
    (hw : wkM s p) (hic : isCons p = isCons (s.pc t)) : NSM ws s' := by
  constructor
  · rw [hst]; exact h.st
  · intro u
    rw [hpc, hst]; simp only; split
    · exact ha
    · exact h.act u
  · intro u
    have key : ∀ q, wkM s q → wkM s' q := by
      intro q hq
      cases q <;> simp_all [wkM]
    apply key
    rw [hpc]; simp only; split
    · exact hw
    · exact h.wk u
  · rw [hl]; exact h.lost
  · intro u
    rw [hpc]; simp only; split
    · rename_i e; rw [hic, e]; exact h.who t
    · exact h.who u

theorem NSM.stepT {c : Cfg α} (hA : c.async = true) {ws : List Nat} {s : St α} (h : NSM ws s) (t : Nat) :
    NSM ws (stepT c s t) := by
  have hact := h.act t
  have hwk := h.wk t
  unfold Ring.stepT
  cases hpc : s.pc t <;> rw [hpc] at hwk hact <;> simp only [hA] <;>
    simp only [reduceCtorEq, ne_eq, not_false_eq_true, true_implies, isCons] at hact
  case cSet =>
    refine ⟨Or.inl rfl, fun u _ _ => rfl, ?_, h.lost, ?_⟩
    · intro u
      have hu := h.wk u
      simp only [go_pc]; split
      · exact rfl
      · revert hu; cases s.pc u <;> simp [wkM]
    · intro u
      simp only [go_pc]; split
      · rename_i e; rw [e]; have := h.who t; rw [hpc] at this; exact this
      · exact h.who u
  case fill k b => cases b <;> exact h.keep rfl rfl rfl (fun _ _ => hact) trivial (by rw [hpc]; rfl)
  all_goals (try exact absurd hwk id)
  all_goals (try exact h)
  all_goals repeat' split
  all_goals first
    | exact h.keep rfl rfl rfl (fun _ _ => hact) trivial (by rw [hpc]; rfl)
    | exact h.keep rfl rfl rfl (fun he => absurd rfl he) trivial (by rw [hpc]; rfl)
    | exact h.keep rfl rfl rfl (fun _ he => by simp [isCons] at he) trivial (by rw [hpc]; rfl)
    | (refine h.keep rfl rfl rfl (fun _ he => by simp [isCons] at he) ?_ (by rw [hpc]; rfl)
       simp only [wkM]
       rcases h.st with h1 | h1
       · exact h1
       · contradiction)
    | (exfalso; simp_all [wkM]; done)

theorem NSM.step {c : Cfg α} (hA : c.async = true) {ws : List Nat} {s : St α} (h : NSM ws s) (e : Ev α) (he : e.noStop) :
    NSM ws (stepM c s (.ev e)) := by
  cases e with
  | run t => exact h.stepT hA t
  | call t b =>
    simp only [stepM]
    split
    · rename_i hpc
      split
      · rename_i hr
        exact h.keep (t := t) rfl rfl rfl (fun _ _ => hr) trivial (by rw [hpc]; rfl)
      · exact h
    · exact h
  | started =>
    simp only [stepM, Ring.step]; split
    · exact ⟨h.st, h.act, fun t => by have := h.wk t; revert this; cases s.pc t <;> simp [wkM], h.lost, h.who⟩
    · exact h
  | closing =>
    exact ⟨h.st, h.act, fun t => by
      have := h.wk t; revert this; simp only [stepM, Ring.step]; cases s.pc t <;> simp [wkM], h.lost, h.who⟩
  | stop => exact absurd he id

theorem RespM.go {c : Cfg α} {s s' : St α} (h : RespM c s) {t : Nat} {p : PC α}
    (hpc : s'.pc = fun u => if u = t then p else s.pc u)
    (hw : s'.W < s'.H → s'.mark (s'.W % c.L) = .ready → respW s' p ∨
      (s'.W = s.W ∧ s.W < s.H ∧ s.mark (s.W % c.L) = .ready ∧ (respW s (s.pc t) → respW s p))) :
    RespM c s' := by
  have hpt : s'.pc t = p := by rw [hpc]; simp
  have hpo : ∀ u, u ≠ t → s'.pc u = s.pc u := by intro u hu; rw [hpc]; simp [hu]
  intro h1 h2
  rcases hw h1 h2 with h3 | ⟨e, h3, h4, h5⟩
  · exact ⟨t, by rw [hpt]; exact h3⟩
  · obtain ⟨u, hu⟩ := h h3 h4
    have key : ∀ q, respW s q → respW s' q := by intro q; cases q <;> simp [respW, e]
    by_cases hut : u = t
    · subst hut
      exact ⟨u, by rw [hpt]; exact key _ (h5 hu)⟩
    · exact ⟨u, by rw [hpo u hut]; exact key _ hu⟩

theorem RespM.stepT {c : Cfg α} {ws : List Nat} {s : St α} {t : Nat} (hi : InvM c s) (hn : NSM ws s) (h : RespM c s)
    (_ht : timelyAt c s t) : RespM c (stepT c s t) := by
  have h1 := hi.leRP
  have h2 := hi.lePW
  have h3 := hi.leWH
  have h4 : s.H < s.R + c.L := hi.cap
  have hti : TI c s t (s.pc t) := hi.ti t
  have hact := hn.act t
  have hne : ∀ a b, a < b → b < a + c.L → a % c.L ≠ b % c.L := by
    intro a b h5 h6 h7
    have := mod_inj h7 (by omega) h6
    omega
  have hfree : s.mark (s.H % c.L) = .invalid := hi.mFree s.H (by omega) (by show s.H < s.R + c.L; omega)
  have hWH : s.W < s.H → s.W % c.L ≠ s.H % c.L := fun h5 => hne _ _ h5 (by omega)
  have hPW : s.P < s.W → s.P % c.L ≠ s.W % c.L := fun h5 => hne _ _ h5 (by omega)
  unfold Ring.stepT
  split <;> rename_i hpc <;> rw [hpc] at hti hact <;>
    simp only [TI, Own, isCons, reduceCtorEq, ne_eq, not_false_eq_true, true_implies] at hti hact
  all_goals (try exact h)
  all_goals repeat' split
  all_goals
    refine h.go (t := t) rfl ?_ <;>
    simp only [go_W, go_H, go_mark, respW, hpc] <;>
    first
    | (simp; done)
    | grind [upd]

theorem RespM.step {c : Cfg α} {ws : List Nat} {s : St α} (hi : InvM c s) (hn : NSM ws s) (h : RespM c s) (e : Ev α)
    (ht : timelyEv c s e) : RespM c (stepM c s (.ev e)) := by
  have same : ∀ s' : St α, s'.pc = s.pc → s'.W = s.W → s'.H = s.H → s'.mark = s.mark → RespM c s' := by
    intro s' e1 e2 e3 e4
    refine h.go (t := 0) (p := s.pc 0) ?_ ?_
    · rw [e1]; funext u; split
      · rename_i e; rw [e]
      · rfl
    · rw [e2, e3, e4]; intro h1 h2; exact Or.inr ⟨rfl, h1, h2, id⟩
  cases e with
  | run t => exact RespM.stepT hi hn h ht
  | call t b =>
    simp only [stepM]
    split
    · rename_i hpc
      split
      · refine h.go (t := t) rfl ?_
        simp only [go_W, go_H, go_mark, respW, hpc]; grind
      · exact h
    · exact h
  | started => simp only [stepM, Ring.step]; split <;> exact same _ rfl rfl rfl rfl
  | closing => exact same _ rfl rfl rfl rfl
  | stop => simp only [stepM, Ring.step]; (repeat' split) <;> exact same _ rfl rfl rfl rfl

theorem respM_run {c : Cfg α} (hA : c.async = true) {ws : List Nat} : ∀ {es : List (Ev α)} {s : St α}, InvM c s → NSM ws s →
    RespM c s → TimelyM c s (es.map .ev) → (∀ e ∈ es, e.noStop) →
    NSM ws (runM c s (es.map .ev)) ∧ RespM c (runM c s (es.map .ev)) := by
  intro es
  induction es with
  | nil => intro s _ h1 h2 _ _; exact ⟨h1, h2⟩
  | cons e es ih =>
    intro s h h1 h2 ht hn
    exact ih (InvM.step h ht.1) (h1.step hA e (hn e (by simp))) (RespM.step h h1 h2 e ht.1) ht.2
      (fun e' he' => hn e' (by simp [he']))

/-! ## The processes come -/

/-- After the processes of the writers `ws` came to the empty segment. -/
structure Come (ws : List Nat) (s : St α) : Prop where
  pc : ∀ t, s.pc t = if t ∈ ws then .cLoad else .idle
  st : s.state = .null
  lost : s.lost = []
  R : s.R = s.H
  W : s.W = s.H

theorem come (c : Cfg α) : ∀ (ws vs : List Nat) (s : St α), Come vs s → Come (vs ++ ws) (runM c s (ws.map .join)) := by
  intro ws
  induction ws with
  | nil => intro vs s h; rw [List.append_nil]; exact h
  | cons w ws ih =>
    intro vs s h
    have : Come (vs ++ [w]) (stepM c s (.join w)) := by
      by_cases hw : w ∈ vs
      · have hp : s.pc w = .cLoad := by rw [h.pc, if_pos hw]
        have e : stepM c s (.join w) = s := by simp only [stepM]; rw [hp]
        rw [e]
        refine ⟨fun t => ?_, h.st, h.lost, h.R, h.W⟩
        rw [h.pc]
        have : t ∈ vs ++ [w] ↔ t ∈ vs := by
          rw [List.mem_append, List.mem_singleton]
          exact ⟨fun h => h.elim id (fun e => e ▸ hw), Or.inl⟩
        simp only [this]
      · have hp : s.pc w = .idle := by rw [h.pc, if_neg hw]
        have e : stepM c s (.join w) = { s with state := .null }.go w .cLoad := by
          simp only [stepM]; rw [hp]; simp only; rw [if_pos h.R]
        rw [e]
        refine ⟨fun t => ?_, rfl, h.lost, h.R, h.W⟩
        rw [go_pc]
        simp only [h.pc, List.mem_append, List.mem_singleton]
        by_cases ht : t = w
        · simp [ht]
        · simp [ht]
    have := ih _ _ this
    rw [List.append_assoc] at this
    exact this

theorem come_blank (c : Cfg α) (ws : List Nat) : Come ws (runM c (blank c) (ws.map .join)) := by
  have := come c ws [] (blank c) ⟨fun t => rfl, rfl, rfl, rfl, rfl⟩
  exact this

theorem Come.nsm {ws : List Nat} {s : St α} (h : Come ws s) : NSM ws s := by
  refine ⟨Or.inr h.st, fun t => ?_, fun t => ?_, h.lost, fun t => ?_⟩
  · rw [h.pc]; split
    · intro _ h; cases h
    · intro h; exact absurd rfl h
  · rw [h.pc]; split <;> trivial
  · rw [h.pc]; split
    · rename_i h; simp [isCons, h]
    · rename_i h; simp [isCons, h]

theorem Come.resp {c : Cfg α} {ws : List Nat} {s : St α} (h : Come ws s) : RespM c s := by
  intro h1; have := h.W; omega

/-! ## The stop -/

/-- After the stop, when every statement had returned. -/
structure DrainM (n : Nat) (a : List (Nat × List α)) (s : St α) : Prop where
  idle : ∀ t, isCons (s.pc t) = false → s.pc t = .idle
  st : s.state = .waitingFinish ∨ s.state = .finish
  pcw : ∀ t, match s.pc t with
    | .cSet => False
    | .cLoopR w => w = n
    | .cFin | .done => s.R = n
    | _ => True
  W : s.W = n
  H : s.H = n
  acq : s.acquired = a

theorem DrainM.stepT {c : Cfg α} (hA : c.async = true) {n : Nat} {a : List (Nat × List α)} {s : St α} (hi : InvM c s)
    (h : DrainM n a s) (t : Nat) (ht : timelyAt c s t) : DrainM n a (stepT c s t) := by
  have h1 := hi.leRP
  have h2 := hi.lePW
  have h4 : s.H < s.R + c.L := hi.cap
  have hti : TI c s t (s.pc t) := hi.ti t
  have hidle := h.idle t
  have hp := h.pcw t
  have hst : s.state ≠ .running ∧ s.state ≠ .null := by rcases h.st with h | h <;> rw [h] <;> simp
  have hW := h.W
  have hH := h.H
  have hmod : ∀ r, r ≤ n → n < r + c.L → n % c.L = r % c.L → r = n := by
    intro r a1 a2 a3; exact mod_inj a3.symm a1 a2
  have others : ∀ (s' : St α) (p : PC α), s'.pc = (fun u => if u = t then p else s.pc u) → isCons p = true →
      (s'.state = s.state ∨ s'.state = .finish) → s'.W = s.W → s'.H = s.H → s'.acquired = s.acquired →
      (s'.R = s.R ∨ s.R < n) →
      (match p with | .cSet => False | .cLoopR w => w = n | .cFin | .done => s'.R = n | _ => True) → DrainM n a s' := by
    intro s' p e1 e2 e3 e4 e5 e6 e7 e8
    refine ⟨fun u => ?_, ?_, fun u => ?_, e4.trans hW, e5.trans hH, e6.trans h.acq⟩
    · rw [e1]; simp only; split
      · intro e; rw [e2] at e; cases e
      · exact h.idle u
    · rcases e3 with e3 | e3
      · rw [e3]; exact h.st
      · exact Or.inr e3
    · have hu := h.pcw u
      rw [e1]; simp only
      by_cases hut : u = t
      · rw [if_pos hut]; exact e8
      · rw [if_neg hut]
        have : s.R = n → s'.R = n := by rcases e7 with e7 | e7 <;> omega
        revert hu
        cases s.pc u <;> simp only <;> (try exact id)
        all_goals exact this
  unfold timelyAt at ht
  unfold Ring.stepT
  cases hpc : s.pc t <;> rw [hpc] at hti hidle hp ht <;> simp only [isCons, reduceCtorEq, imp_false, not_true_eq_false] at hidle <;>
    (try simp only [TI] at hti) <;> (try simp only at hp) <;> (try simp only [hA, hst.1, hst.2, if_false, Bool.true_eq_false]) <;>
    (try exact h) <;> (repeat' split)
  all_goals
    refine others _ _ rfl rfl ?_ rfl rfl rfl ?_ ?_ <;>
    first
    | trivial
    | exact Or.inl rfl
    | exact Or.inr rfl
    | (simp only [go_R]; grind)
    | grind

theorem DrainM.step {c : Cfg α} (hA : c.async = true) {n : Nat} {a : List (Nat × List α)} {s : St α} (hi : InvM c s)
    (h : DrainM n a s) (e : Ev α) (ht : timelyEv c s e) : DrainM n a (stepM c s (.ev e)) := by
  have hst : s.state ≠ .running ∧ s.state ≠ .null := by rcases h.st with h | h <;> rw [h] <;> simp
  cases e with
  | run t => exact h.stepT hA hi t ht
  | call t b =>
    simp only [stepM, hst.1, if_false]
    split <;> exact h
  | started => simp only [stepM, Ring.step, hst.1, if_false]; exact h
  | closing => exact ⟨h.idle, h.st, h.pcw, h.W, h.H, h.acq⟩
  | stop => simp only [stepM, Ring.step, hst.1, hA, if_true, if_false]; exact h

theorem DrainM.run {c : Cfg α} (hA : c.async = true) {n : Nat} {a : List (Nat × List α)} : ∀ {es : List (Ev α)} {s : St α},
    InvM c s → TimelyM c s (es.map .ev) → DrainM n a s → DrainM n a (runM c s (es.map .ev)) := by
  intro es
  induction es with
  | nil => intro s _ _ h; exact h
  | cons e es ih => intro s hi ht h; exact ih (InvM.step hi ht.1) ht.2 (h.step hA hi e ht.1)

theorem DrainM.enter {c : Cfg α} (hA : c.async = true) {ws : List Nat} {s : St α} (hi : InvM c s) (hn : NSM ws s)
    (hr : RespM c s) (hst : s.state = .running) (hidle : ∀ t, t ∉ ws → s.pc t = .idle) (hset : ∀ t, s.pc t ≠ .cSet) :
    DrainM s.H s.acquired (stepM c s (.ev .stop)) := by
  have hcons : ∀ t, isCons (s.pc t) = false → s.pc t = .idle := by
    intro t h
    apply hidle
    intro ht
    rw [(hn.who t).mpr ht] at h; cases h
  have hW : s.W = s.H := by
    apply Classical.byContradiction
    intro hne
    have hlt : s.W < s.H := by have := hi.leWH; omega
    rcases hi.mWH s.W (Nat.le_refl _) hlt with h1 | ⟨t, h1⟩ | ⟨_, h1⟩
    · obtain ⟨t, ht⟩ := hr hlt h1
      cases hc : isCons (s.pc t) with
      | false => rw [hcons t hc] at ht; exact ht
      | true => revert hc ht; cases s.pc t <;> simp [isCons, respW]
    · cases hc : isCons (s.pc t) with
      | false => rw [hcons t hc] at h1; cases h1
      | true => revert hc h1; cases s.pc t <;> simp [isCons, pown]
    · rw [hn.lost] at h1; cases h1
  simp only [stepM, Ring.step, hA, hst, if_true]
  refine ⟨hcons, Or.inl rfl, fun t => ?_, hW, rfl, rfl⟩
  have h1 := hn.wk t
  have h2 := hset t
  revert h1 h2
  simp only
  cases s.pc t <;> simp [wkM]

end FNLog.Ring
