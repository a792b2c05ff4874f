import Verif.Proof.RingAlone

/-! # The channel counters -/

namespace FNLog.Ring
open FNLog

variable {α : Type}

/-- Number of threads below `n` whose program counter satisfies `f`. -/
def cnt (f : PC α → Bool) (s : St α) (n : Nat) : Nat := (List.range n).countP (fun t => f (s.pc t))

/-- About to count its slot in CHANNEL_LOG_HOLD. -/
def atHInc : PC α → Bool
  | .hInc _ _ => true
  | _ => false

/-- About to count a publication in CHANNEL_LOG_PUSH. -/
def atWInc : PC α → Bool
  | .wInc => true
  | _ => false

/-- Has claimed a record and not yet counted it in CHANNEL_LOG_PROCESSED. -/
def atProc : PC α → Bool
  | .cDisp _ | .cClear _ | .cStat _ => true
  | _ => false

def b2n (b : Bool) : Nat := if b then 1 else 0

theorem countP_update {p : PC α} (f : PC α → Bool) (g g' : Nat → PC α) (t : Nat)
    (hg : g' = fun u => if u = t then p else g u) : ∀ (n : Nat),
    (List.range n).countP (fun u => f (g' u)) + (if t < n then b2n (f (g t)) else 0)
      = (List.range n).countP (fun u => f (g u)) + (if t < n then b2n (f p) else 0) := by
  intro n
  induction n with
  | zero => simp
  | succ n ih =>
    rw [List.range_succ, List.countP_append, List.countP_append]
    simp only [List.countP_cons, List.countP_nil]
    rw [hg] at ih ⊢
    simp only at ih ⊢
    by_cases h : n = t
    · subst h
      simp only [Nat.lt_irrefl, if_false, if_true, Nat.lt_succ_self, b2n] at ih ⊢
      omega
    · simp only [h, if_false]
      have : (t < n + 1) = (t < n) := by simp only [eq_iff_iff]; omega
      simp only [this]
      omega

/-- The counters, up to the increments pending in threads below `n`. -/
structure Cnt (n : Nat) (s : St α) : Prop where
  hold : s.nHold + cnt atHInc s n = s.H
  push : s.nPush + cnt atWInc s n = s.W
  proc : s.nProc + cnt atProc s n = s.P

/-- An event of a thread below `n`, or of the controlling thread. -/
def Ev.below (n : Nat) : Ev α → Prop
  | .call t _ | .run t => t < n
  | _ => True

theorem cnt_go {s s' : St α} {t n : Nat} {p : PC α} (ht : t < n)
    (hpc : s'.pc = fun u => if u = t then p else s.pc u) (f : PC α → Bool) :
    cnt f s' n + b2n (f (s.pc t)) = cnt f s n + b2n (f p) := by
  have := countP_update f s.pc s'.pc t hpc n
  simpa [ht, cnt] using this

theorem Cnt.go {n : Nat} {s s' : St α} (h : Cnt n s) {t : Nat} {p : PC α} (ht : t < n)
    (hpc : s'.pc = fun u => if u = t then p else s.pc u)
    (h1 : s'.nHold + s.H + b2n (atHInc p) = s.nHold + s'.H + b2n (atHInc (s.pc t)))
    (h2 : s'.nPush + s.W + b2n (atWInc p) = s.nPush + s'.W + b2n (atWInc (s.pc t)))
    (h3 : s'.nProc + s.P + b2n (atProc p) = s.nProc + s'.P + b2n (atProc (s.pc t))) : Cnt n s' := by
  have e1 := cnt_go ht hpc atHInc
  have e2 := cnt_go ht hpc atWInc
  have e3 := cnt_go ht hpc atProc
  have g1 := h.hold
  have g2 := h.push
  have g3 := h.proc
  constructor <;> omega

theorem Cnt.stepT {c : Cfg α} {n : Nat} {s : St α} (h : Cnt n s) {t : Nat} (ht : t < n) :
    Cnt n (stepT c s t) := by
  unfold Ring.stepT
  split <;> rename_i hpc
  all_goals (repeat' split)
  all_goals first
    | exact h
    | (refine h.go ht rfl ?_ ?_ ?_ <;> rw [hpc] <;>
        simp only [go_H, go_W, go_P, go_nHold, go_nPush, go_nProc, atHInc, atWInc, atProc, b2n,
          if_true, Bool.false_eq_true, if_false] <;> omega)

theorem Cnt.step {c : Cfg α} {n : Nat} {s : St α} (h : Cnt n s) {e : Ev α} (he : e.below n) :
    Cnt n (step c s e) := by
  cases e with
  | run t => exact h.stepT he
  | call t b =>
    unfold Ring.step; simp only; split
    · rename_i hpc
      split
      · refine h.go (t := t) he rfl ?_ ?_ ?_ <;> rw [hpc] <;>
        simp only [go_H, go_W, go_P, go_nHold, go_nPush, go_nProc, atHInc, atWInc, atProc, b2n,
          Bool.false_eq_true, if_false]
      · exact h
    · exact h
  | started => unfold Ring.step; simp only; split <;> exact ⟨h.hold, h.push, h.proc⟩
  | closing => exact ⟨h.hold, h.push, h.proc⟩
  | stop => unfold Ring.step; simp only; (repeat' split) <;> exact ⟨h.hold, h.push, h.proc⟩

theorem Cnt.run {c : Cfg α} {n : Nat} : ∀ {es : List (Ev α)} {s : St α}, Cnt n s →
    (∀ e ∈ es, e.below n) → Cnt n (run c s es) := by
  intro es
  induction es with
  | nil => intro s h _; exact h
  | cons e es ih =>
    intro s h he
    exact ih (h.step (he e (by simp))) (fun e' h' => he e' (by simp [h']))

theorem Cnt.init (c : Cfg α) (n : Nat) : Cnt n (init c) := by
  have key : ∀ f : PC α → Bool, f .idle = false → f .cLoad = false → cnt f (Ring.init c) n = 0 := by
    intro f h1 h2
    unfold cnt
    rw [List.countP_eq_zero]
    intro t _
    simp only [Ring.init]
    by_cases h : c.async = true ∧ t = worker
    · rw [if_pos h]; simp [h2]
    · rw [if_neg h]; simp [h1]
  constructor
  · rw [key _ rfl rfl]; rfl
  · rw [key _ rfl rfl]; rfl
  · rw [key _ rfl rfl]; rfl

/-- Distinct numbers in an interval. -/
theorem nodup_interval : ∀ (n a : Nat) (l : List Nat), l.Nodup → (∀ x ∈ l, a ≤ x ∧ x < a + n) →
    l.length ≤ n := by
  intro n
  induction n with
  | zero =>
    intro a l _ h
    cases l with
    | nil => simp
    | cons x xs => have := h x (by simp); omega
  | succ n ih =>
    intro a l hnd h
    have h1 := ih a (l.erase (a + n)) (hnd.erase _) (by
      intro x hx
      rw [hnd.mem_erase_iff] at hx
      have := h x hx.2
      omega)
    have h2 := List.length_erase (a := a + n) (l := l)
    split at h2 <;> omega

/-- A slot counted as published was counted as held. -/
theorem cnt_hold_le {c : Cfg α} {s : St α} (hi : Inv c s) (n : Nat) : cnt atHInc s n ≤ s.H - s.W := by
  unfold cnt
  rw [List.countP_eq_length_filter]
  have hlen := List.length_map (as := (List.range n).filter (fun t => atHInc (s.pc t)))
    (fun t => (pown (s.pc t)).getD 0)
  rw [← hlen]
  apply nodup_interval _ s.W
  · rw [List.nodup_iff_pairwise_ne, List.pairwise_map]
    have hnd : ((List.range n).filter (fun t => atHInc (s.pc t))).Nodup :=
      List.nodup_range.filter _
    rw [List.nodup_iff_pairwise_ne] at hnd
    refine hnd.imp_of_mem ?_
    intro a b ha hb hab he
    rw [List.mem_filter] at ha hb
    have h2 := ha.2
    have h3 := hb.2
    apply hab
    cases hpa : s.pc a <;> rw [hpa] at h2 he <;> simp [atHInc] at h2
    cases hpb : s.pc b <;> rw [hpb] at h3 he <;> simp [atHInc] at h3
    simp only [pown, Option.getD_some] at he
    exact pown_uniq hi (by rw [hpa]; rfl) (by rw [hpb, he]; rfl)
  · intro x hx
    rw [List.mem_map] at hx
    obtain ⟨t, ht, rfl⟩ := hx
    rw [List.mem_filter] at ht
    have h2 := ht.2
    have h3 := hi.leWH
    cases hp : s.pc t <;> rw [hp] at h2 <;> simp [atHInc] at h2
    rename_i k b
    have := hi.ti t
    rw [hp] at this
    simp only [TI, Own] at this
    simp only [pown, Option.getD_some]
    omega

/-! ## Bytes -/

/-- Bytes output by the worker and not yet counted. -/
def pendB (acq : List (Nat × List α)) : PC α → Nat
  | .cClear k | .cStat k | .cBytes k => ((acq[k]?.map Prod.snd).getD []).length
  | _ => 0

def pendBytes (s : St α) : Nat := pendB s.acquired (s.pc worker)

def Bytes (s : St α) : Prop := s.nBytes + pendBytes s = (s.out.map (fun e => e.2.length)).sum

theorem Bytes.step {c : Cfg α} {s : St α} (hA : c.async = true) (hi : Inv c s) (ho : Ord c s)
    (h : Bytes s) (e : Ev α) : Bytes (step c s e) := by
  have hpcw := ho.pcw
  have hle1 := hi.leRP
  have hle2 := hi.lePW
  have hle3 := hi.leWH
  have same : ∀ s' : St α, s'.pc worker = s.pc worker → s'.nBytes = s.nBytes → s'.out = s.out →
      (∀ k, k < s.P → s'.acquired[k]? = s.acquired[k]?) → Bytes s' := by
    intro s' h1 h2 h3 h4
    unfold Bytes at h ⊢
    have : pendBytes s' = pendBytes s := by
      unfold pendBytes
      rw [h1]
      cases hp : s.pc worker <;> rw [hp] at hpcw <;> simp only [OrdPC, pendB] at hpcw ⊢ <;>
        rw [h4 _ (by omega)]
    rw [h2, h3, this]; exact h
  cases e with
  | run t =>
    by_cases ht : t = worker
    · subst ht
      have hs : ∀ k, s.R ≤ k → k < s.W → (s.acquired[k]?.map Prod.snd) = some (s.cell (k % c.L)) :=
        hi.sealedW
      unfold Bytes pendBytes at h ⊢
      simp only [Ring.step]
      unfold stepT
      cases hpc : s.pc worker <;> rw [hpc] at hpcw h <;> simp only [OrdPC, pendB] at hpcw h <;>
        (try contradiction) <;> simp only <;> (repeat' split) <;>
        simp only [go_pc, if_true, pendB, go_nBytes, go_out, go_acquired, hpc, List.map_append, List.map_cons,
          List.map_nil, List.sum_append, List.sum_cons, List.sum_nil] <;>
        (try exact h)
      case cDisp k =>
        rw [hs _ (by omega) (by omega)]
        simp only [Option.getD_some]
        omega
      case cBytes k =>
        rw [hs _ (by omega) (by omega)] at h
        simp only [Option.getD_some] at h
        omega
    · have hnc : isCons (s.pc t) = false := by
        by_cases hc : isCons (s.pc t) = true
        · exact absurd (hi.consTid hA t hc) ht
        · simpa using hc
      have hf := frame_stepT hi hnc
      refine same _ (hf.pc worker (Ne.symm ht)) ?_ hf.out ?_
      · simp only [Ring.step]; unfold stepT
        split <;> rename_i hpc <;> rw [hpc] at hnc <;> simp [isCons] at hnc <;> (repeat' split) <;> simp
      · intro k hk
        simp only [Ring.step]; unfold stepT
        split <;> (repeat' split) <;> (try rfl)
        simp only [go_acquired]
        rw [List.getElem?_append_left]
        rw [hi.len]; omega
  | call t b =>
    unfold Ring.step; simp only; split
    · rename_i hpc
      split
      · refine same _ ?_ rfl rfl (fun _ _ => rfl)
        simp only [go_pc]; rw [if_neg]
        rintro rfl; rw [hpc] at hpcw; exact hpcw
      · exact h
    · exact h
  | started => unfold Ring.step; simp only; split <;> exact same _ rfl rfl rfl (fun _ _ => rfl)
  | closing => exact same _ rfl rfl rfl (fun _ _ => rfl)
  | stop => unfold Ring.step; simp only; (repeat' split) <;> exact same _ rfl rfl rfl (fun _ _ => rfl)

theorem Bytes.init (c : Cfg α) : Bytes (init c) := by
  simp only [Bytes, pendBytes, Ring.init]
  split <;> rfl

end FNLog.Ring
