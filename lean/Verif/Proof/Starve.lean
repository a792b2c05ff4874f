import Verif.Proof.Live

/-! # Periodic executions -/

namespace FNLog
open Ring Spec

variable {α : Type}

/-- The same program counter, all positions `d` higher. -/
def shiftPC (d : Nat) : PC α → PC α
  | .hRead i tk b => .hRead i (tk + d) b
  | .hCas i tk b => .hCas i (tk + d) b
  | .hInc k b => .hInc (k + d) b
  | .hMark k b => .hMark (k + d) b
  | .fInit k b => .fInit (k + d) b
  | .fill k b => .fill (k + d) b
  | .pChk k => .pChk (k + d)
  | .pSeal k => .pSeal (k + d)
  | .pMark k => .pMark (k + d)
  | .wHold k => .wHold (k + d)
  | .wMark k => .wMark (k + d)
  | .wCas k => .wCas (k + d)
  | .cWrite k => .cWrite (k + d)
  | .cCas k => .cCas (k + d)
  | .cDisp k => .cDisp (k + d)
  | .cClear k => .cClear (k + d)
  | .cStat k => .cStat (k + d)
  | .cBytes k => .cBytes (k + d)
  | .rProc k => .rProc (k + d)
  | .rMark k => .rMark (k + d)
  | .rCas k => .rCas (k + d)
  | .cLoopR k => .cLoopR (k + d)
  | p => p

/-- The same state, `d` positions later; texts and histories may differ. -/
structure Shift (c : Cfg α) (d : Nat) (s s' : St α) : Prop where
  H : s'.H = s.H + d
  W : s'.W = s.W + d
  P : s'.P = s.P + d
  R : s'.R = s.R + d
  mark : ∀ i, i < c.L → s'.mark i = s.mark i
  state : s'.state = s.state
  lg : s'.lgRunning = s.lgRunning
  pc : ∀ t, s'.pc t = shiftPC d (s.pc t)

theorem Shift.go {c : Cfg α} {d : Nat} {s s' x x' : St α} (h : Shift c d s s') {t : Nat} {p p' : PC α}
    (hp : p' = shiftPC d p) (hx : x.pc = fun u => if u = t then p else s.pc u)
    (hx' : x'.pc = fun u => if u = t then p' else s'.pc u)
    (hH : x'.H = x.H + d) (hW : x'.W = x.W + d) (hP : x'.P = x.P + d) (hR : x'.R = x.R + d)
    (hm : ∀ i, i < c.L → x'.mark i = x.mark i) (hs : x'.state = x.state) (hl : x'.lgRunning = x.lgRunning) :
    Shift c d x x' := by
  refine ⟨hH, hW, hP, hR, hm, hs, hl, fun u => ?_⟩
  rw [hx, hx']
  simp only
  split
  · exact hp
  · exact h.pc u

theorem upd_mark {L : Nat} {f g : Nat → Mark} (h : ∀ i, i < L → f i = g i) (k : Nat) (m : Mark) :
    ∀ i, i < L → upd f k m i = upd g k m i := by
  intro i hi
  unfold upd
  split
  · rfl
  · exact h i hi

theorem Shift.stepT {c : Cfg α} (hL : 0 < c.L) {d : Nat} (hd : d % c.L = 0) {s s' : St α} (h : Shift c d s s') (t : Nat) :
    Shift c d (stepT c s t) (stepT c s' t) := by
  have hmod : ∀ k, (k + d) % c.L = k % c.L := fun k => by rw [Nat.add_mod, hd]; simp
  have hmod1 : ∀ k, (k + d + 1) % c.L = (k + 1) % c.L := fun k => by
    rw [show k + d + 1 = k + 1 + d by omega, hmod]
  have hmk : ∀ k, s'.mark (k % c.L) = s.mark (k % c.L) := fun k => h.mark _ (Nat.mod_lt _ hL)
  have hpc := h.pc t
  unfold Ring.stepT
  cases he : s.pc t <;> rw [he] at hpc <;> simp only [shiftPC] at hpc <;> rw [hpc] <;>
    simp only [h.state, h.H, h.W, h.P, h.R, hmod, hmod1, hmk]
  case fill k b =>
    cases b <;> dsimp only <;>
      (refine h.go (t := t) rfl rfl rfl ?_ ?_ ?_ ?_ ?_ ?_ ?_
       all_goals first
        | rfl
        | exact h.H
        | exact h.W
        | exact h.P
        | exact h.R
        | exact h.mark
        | exact upd_mark h.mark _ _
        | exact h.state
        | exact h.lg
        | (simp only [go_H, go_W, go_P, go_R]; omega))
  all_goals (repeat' split)
  all_goals first
    | exact h
    | (refine h.go (t := t) rfl rfl rfl ?_ ?_ ?_ ?_ ?_ ?_ ?_
       all_goals first
        | rfl
        | exact h.H
        | exact h.W
        | exact h.P
        | exact h.R
        | exact h.mark
        | exact upd_mark h.mark _ _
        | exact h.state
        | exact h.lg
        | (simp only [go_H, go_W, go_P, go_R]; omega))

theorem Shift.step {c : Cfg α} (hL : 0 < c.L) {d : Nat} (hd : d % c.L = 0) {s s' : St α} (h : Shift c d s s') (e : Ev α) :
    Shift c d (step c s e) (step c s' e) := by
  cases e with
  | run t => exact h.stepT hL hd t
  | call t b =>
    have hpc := h.pc t
    simp only [Ring.step]
    cases he : s.pc t <;> rw [he] at hpc <;> simp only [shiftPC] at hpc <;> rw [hpc] <;> (try exact h)
    simp only [h.state, h.lg]
    split
    · exact h.go (t := t) rfl rfl rfl h.H h.W h.P h.R h.mark rfl rfl
    · exact h
  | started =>
    simp only [Ring.step, h.state]
    split
    · exact ⟨h.H, h.W, h.P, h.R, h.mark, rfl, rfl, h.pc⟩
    · exact h
  | closing => exact ⟨h.H, h.W, h.P, h.R, h.mark, h.state, rfl, h.pc⟩
  | stop =>
    simp only [Ring.step, h.state]
    (repeat' split)
    · exact ⟨h.H, h.W, h.P, h.R, h.mark, rfl, h.lg, h.pc⟩
    · exact h
    · exact ⟨h.H, h.W, h.P, h.R, h.mark, rfl, h.lg, h.pc⟩

theorem Shift.timely {c : Cfg α} {d : Nat} (hd : d % c.L = 0) {s s' : St α} (h : Shift c d s s') (e : Ev α)
    (ht : timelyEv c s e) : timelyEv c s' e := by
  have hmod : ∀ k, (k + d) % c.L = k % c.L := fun k => by rw [Nat.add_mod, hd]; simp
  cases e with
  | run t =>
    unfold timelyEv timelyAt at ht ⊢
    have hpc := h.pc t
    cases he : s.pc t <;> rw [he] at hpc <;> simp only [he] at ht <;> simp only [shiftPC] at hpc <;>
      simp only [hpc, h.H, h.W, h.P, h.R, hmod] <;> intro h1 <;> rw [ht h1]
  | _ => trivial

/-- `pre` once, then `per` for ever. -/
def periodic (pre per : List (Ev α)) (n : Nat) : Ev α :=
  if n < pre.length then pre.getD n .closing else per.getD ((n - pre.length) % per.length) .closing

theorem periodic_mem {pre per : List (Ev α)} (hp : per ≠ []) (n : Nat) : periodic pre per n ∈ pre ++ per := by
  unfold periodic
  split
  · rename_i h
    rw [List.getD_eq_getElem?_getD, List.getElem?_eq_getElem h]
    exact List.mem_append_left _ (List.getElem_mem h)
  · have h : (n - pre.length) % per.length < per.length := Nat.mod_lt _ (List.length_pos_iff.mpr hp)
    rw [List.getD_eq_getElem?_getD, List.getElem?_eq_getElem h]
    exact List.mem_append_right _ (List.getElem_mem h)

theorem periodic_again (pre per : List (Ev α)) {n : Nat} (h : pre.length ≤ n) :
    periodic pre per (n + per.length) = periodic pre per n := by
  unfold periodic
  rw [if_neg (by omega), if_neg (by omega), show n + per.length - pre.length = n - pre.length + per.length by omega,
    Nat.add_mod_right]

theorem upTo_periodic (pre per : List (Ev α)) : ∀ n, n ≤ pre.length + per.length → upTo (periodic pre per) n = (pre ++ per).take n := by
  intro n hn
  unfold upTo
  apply List.ext_getElem
  · simp; omega
  · intro i h1 h2
    simp only [List.length_map, List.length_range] at h1
    simp only [List.getElem_map, List.getElem_range, List.getElem_take]
    unfold periodic
    split
    · rename_i h
      rw [List.getElem_append_left h, List.getD_eq_getElem?_getD, List.getElem?_eq_getElem h]
      rfl
    · rename_i h
      have h3 : (i - pre.length) % per.length = i - pre.length := Nat.mod_eq_of_lt (by omega)
      rw [List.getElem_append_right (by omega), h3, List.getD_eq_getElem?_getD,
        List.getElem?_eq_getElem (by omega)]
      rfl

/-- What holds at every state and event of a finite schedule. -/
def alongRun (c : Cfg α) (f : St α → Ev α → Bool) : St α → List (Ev α) → Bool
  | _, [] => true
  | s, e :: es => f s e && alongRun c f (step c s e) es

theorem alongRun_at {c : Cfg α} {f : St α → Ev α → Bool} : ∀ {es : List (Ev α)} {s : St α}, alongRun c f s es = true →
    ∀ (n : Nat) (h : n < es.length), f (run c s (es.take n)) es[n] = true := by
  intro es
  induction es with
  | nil => intro s _ n h; exact absurd h (by simp)
  | cons e es ih =>
    intro s hr n h
    simp only [alongRun, Bool.and_eq_true] at hr
    cases n with
    | zero => exact hr.1
    | succ n => exact ih hr.2 n (by simpa using h)

/-- Each round is the one before, `d` positions later. -/
theorem periodic_shift {c : Cfg α} (hL : 0 < c.L) {d : Nat} (hd : d % c.L = 0) {pre per : List (Ev α)}
    (hsh : Shift c d (run c (init c) pre) (run c (init c) (pre ++ per))) : ∀ n, pre.length ≤ n →
    Shift c d (stateAt c (periodic pre per) n) (stateAt c (periodic pre per) (n + per.length)) := by
  intro n hn
  obtain ⟨k, rfl⟩ := Nat.le.dest hn
  clear hn
  induction k with
  | zero =>
    unfold stateAt
    rw [upTo_periodic _ _ _ (by omega), upTo_periodic _ _ _ (by omega)]
    rw [Nat.add_zero, List.take_left, ← List.length_append, List.take_length]
    exact hsh
  | succ k ih =>
    rw [← Nat.add_assoc, stateAt_succ, show pre.length + k + 1 + per.length = pre.length + k + per.length + 1 by omega,
      stateAt_succ, periodic_again pre per (by omega)]
    exact ih.step hL hd _

/-- A check of the first round transfers to the whole execution. -/
theorem periodic_all {c : Cfg α} (hL : 0 < c.L) {d : Nat} (hd : d % c.L = 0) {pre per : List (Ev α)} (hper : per ≠ [])
    (hsh : Shift c d (run c (init c) pre) (run c (init c) (pre ++ per))) {Q : St α → Ev α → Prop}
    (hQ : ∀ s s' e, Shift c d s s' → Q s e → Q s' e)
    (hfin : ∀ n, n < pre.length + per.length → Q (stateAt c (periodic pre per) n) (periodic pre per n)) :
    ∀ n, Q (stateAt c (periodic pre per) n) (periodic pre per n) := by
  have hpos : 0 < per.length := List.length_pos_iff.mpr hper
  have hshift := periodic_shift (c := c) hL hd hsh
  intro n
  induction n using Nat.strongRecOn with
  | ind n ih =>
    by_cases hn : n < pre.length + per.length
    · exact hfin n hn
    · have h1 := ih (n - per.length) (by omega)
      have h2 := hshift (n - per.length) (by omega)
      have h3 := periodic_again pre per (n := n - per.length) (by omega)
      rw [show n - per.length + per.length = n by omega] at h2 h3
      rw [h3]
      exact hQ _ _ _ h2 h1

theorem timely_pointwise {c : Cfg α} {σ : Nat → Ev α} (h : ∀ n, timelyEv c (stateAt c σ n) (σ n)) (n : Nat) :
    Timely c (init c) (upTo σ n) := by
  induction n with
  | zero => trivial
  | succ n ih =>
    unfold upTo
    rw [List.range_succ, List.map_append, timely_append]
    exact ⟨ih, h n, trivial⟩

/-- Only threads below `K` make statements. -/
def evBelow (K : Nat) : Ev α → Bool
  | .call t _ => t < K
  | _ => true

/-- Nobody stops. -/
def evGoes : Ev α → Bool
  | .stop => false
  | _ => true

theorem others_idle {c : Cfg α} {K t : Nat} (ht : K ≤ t) : ∀ (es : List (Ev α)) (s : St α),
    s.pc t = .idle → (∀ e ∈ es, evBelow K e = true) → (run c s es).pc t = .idle := by
  intro es
  induction es with
  | nil => intro s h _; exact h
  | cons e es ih =>
    intro s h he
    refine ih _ (idle_stays ?_ h) (fun e' h' => he e' (by simp [h']))
    rintro b rfl
    have := he (.call t b) (by simp)
    simp only [evBelow, decide_eq_true_eq] at this
    omega

theorem init_idle (c : Cfg α) {t : Nat} (ht : 0 < t) : (init c).pc t = .idle := by
  show (if c.async = true ∧ t = worker then PC.cLoad else PC.idle) = PC.idle
  rw [if_neg]
  rintro ⟨_, rfl⟩
  exact absurd ht (by decide)

/-- An execution that repeats is timely if it is in the first round. -/
theorem periodic_timely {c : Cfg α} (hL : 0 < c.L) {d : Nat} (hd : d % c.L = 0) {pre per : List (Ev α)} (hper : per ≠ [])
    (hsh : Shift c d (run c (init c) pre) (run c (init c) (pre ++ per)))
    (hchk : alongRun c (fun s e => decide (timelyEv c s e)) (init c) (pre ++ per) = true) (n : Nat) :
    Timely c (init c) (upTo (periodic pre per) n) := by
  refine timely_pointwise ?_ n
  refine periodic_all hL hd hper hsh (Q := fun s e => timelyEv c s e) (fun s s' e h hq => h.timely hd e hq) ?_
  intro n hn
  have h1 := alongRun_at hchk n (by rw [List.length_append]; exact hn)
  have h2 : periodic pre per n = (pre ++ per)[n]'(by rw [List.length_append]; exact hn) := by
    unfold periodic
    split
    · rename_i h
      rw [List.getElem_append_left h, List.getD_eq_getElem?_getD, List.getElem?_eq_getElem h]
      rfl
    · rename_i h
      have h3 : (n - pre.length) % per.length = n - pre.length := Nat.mod_eq_of_lt (by omega)
      rw [List.getElem_append_right (by omega), h3, List.getD_eq_getElem?_getD, List.getElem?_eq_getElem (by omega)]
      rfl
  unfold stateAt
  rw [upTo_periodic _ _ _ (by omega), h2]
  exact of_decide_eq_true h1

/-- It is fair if all threads occur in a round. -/
theorem periodic_fair {c : Cfg α} {pre per : List (Ev α)} {K : Nat} (hK : 0 < K) (hrun : ∀ t, t < K → .run t ∈ per)
    (hev : ∀ e ∈ pre ++ per, evBelow K e = true) : Fair c (periodic pre per) := by
  have hper : per ≠ [] := by
    intro h
    have := hrun 0 hK
    rw [h] at this
    cases this
  have hmem : ∀ n, evBelow K (periodic pre per n) = true := fun n => hev _ (periodic_mem hper n)
  intro t n hp
  have ht : t < K := by
    apply Classical.byContradiction
    intro hc
    refine hp (others_idle (K := K) (by omega) (upTo (periodic pre per) n) (init c) (init_idle c (by omega)) ?_)
    intro e he
    obtain ⟨i, _, rfl⟩ := List.mem_map.mp he
    exact hmem i
  obtain ⟨i, hi, he⟩ := List.mem_iff_getElem.mp (hrun t ht)
  refine ⟨pre.length + i + per.length * n, ?_, ?_⟩
  · have : 1 * n ≤ per.length * n := Nat.mul_le_mul_right _ (by omega)
    omega
  · unfold periodic
    rw [if_neg (by omega), show pre.length + i + per.length * n - pre.length = i + per.length * n by omega,
      Nat.add_mul_mod_self_left, Nat.mod_eq_of_lt hi, List.getD_eq_getElem?_getD, List.getElem?_eq_getElem hi, he]
    rfl

/-- An execution that repeats is endless in the sense of C100. -/
theorem periodic_endless {c : Cfg α} (hL : 2 ≤ c.L) {d : Nat} (hd : d % c.L = 0) {pre per : List (Ev α)} {K : Nat} (hK : 0 < K)
    (hrun : ∀ t, t < K → .run t ∈ per)
    (hev : ∀ e ∈ pre ++ per, evBelow K e = true) (hgo : ∀ e ∈ pre ++ per, evGoes e = true)
    (hsh : Shift c d (run c (init c) pre) (run c (init c) (pre ++ per)))
    (hchk : alongRun c (fun s e => decide (timelyEv c s e)) (init c) (pre ++ per) = true) :
    Endless c (periodic pre per) := by
  have hper : per ≠ [] := by
    intro h
    have := hrun 0 hK
    rw [h] at this
    cases this
  refine ⟨hL, periodic_timely (by omega) hd hper hsh hchk, ?_, periodic_fair hK hrun hev⟩
  intro n
  have := hgo _ (periodic_mem hper n)
  revert this
  cases periodic pre per n <;> simp [evGoes, Ev.noStop]

/-- What holds for the states of the first round, and does not depend on the position, holds for ever. -/
theorem periodic_states {c : Cfg α} (hL : 0 < c.L) {d : Nat} (hd : d % c.L = 0) {pre per : List (Ev α)} (hper : per ≠ [])
    (hsh : Shift c d (run c (init c) pre) (run c (init c) (pre ++ per))) {Q : St α → Prop}
    (hQ : ∀ s s', Shift c d s s' → Q s → Q s')
    (hfin : ∀ n, n < per.length → Q (run c (init c) (pre ++ per.take n))) :
    ∀ n, pre.length ≤ n → Q (stateAt c (periodic pre per) n) := by
  have hpos : 0 < per.length := List.length_pos_iff.mpr hper
  have h0 : ∀ n, pre.length ≤ n → n < pre.length + per.length → Q (stateAt c (periodic pre per) n) := by
    intro n h1 h2
    unfold stateAt
    rw [upTo_periodic _ _ _ (by omega), List.take_append, List.take_of_length_le h1]
    exact hfin _ (by omega)
  have hshift : ∀ n, pre.length ≤ n → Shift c d (stateAt c (periodic pre per) n) (stateAt c (periodic pre per) (n + per.length)) :=
    periodic_shift hL hd hsh
  intro n
  induction n using Nat.strongRecOn with
  | ind n ih =>
    intro hn
    by_cases hlt : n < pre.length + per.length
    · exact h0 n hn hlt
    · have h1 := ih (n - per.length) (by omega) (by omega)
      have h2 := hshift (n - per.length) (by omega)
      rw [show n - per.length + per.length = n by omega] at h2
      exact hQ _ _ h2 h1

/-- Two states that agree on the threads below `K`. -/
theorem shift_of {c : Cfg α} {d K : Nat} (hK : 0 < K) {es es' : List (Ev α)}
    (hev : ∀ e ∈ es ++ es', evBelow K e = true)
    (hnum : (let s := run c (init c) es; let s' := run c (init c) (es ++ es');
      (s'.H == s.H + d) && (s'.W == s.W + d) && (s'.P == s.P + d) && (s'.R == s.R + d) &&
      (List.range c.L).all (fun i => decide (s'.mark i = s.mark i)) && decide (s'.state = s.state) &&
      (s'.lgRunning == s.lgRunning)) = true)
    (hpc : ∀ t, t < K → (run c (init c) (es ++ es')).pc t = shiftPC d ((run c (init c) es).pc t)) :
    Shift c d (run c (init c) es) (run c (init c) (es ++ es')) := by
  simp only [Bool.and_eq_true, beq_iff_eq, decide_eq_true_eq, List.all_eq_true, List.mem_range] at hnum
  obtain ⟨⟨⟨⟨⟨⟨h1, h2⟩, h3⟩, h4⟩, h5⟩, h6⟩, h7⟩ := hnum
  refine ⟨h1, h2, h3, h4, h5, h6, h7, fun t => ?_⟩
  by_cases ht : t < K
  · exact hpc t ht
  · rw [others_idle (K := K) (by omega) _ _ (init_idle c (by omega)) hev,
      others_idle (K := K) (by omega) es _ (init_idle c (by omega)) (fun e he => hev e (by simp [he]))]
    rfl

end FNLog
