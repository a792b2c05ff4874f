import Verif.Proof.RecoverMem
import Verif.Model.Reload
import Verif.Spec.Reload

/-! # Proofs about processes killed inside LoadSharedMemory -/

namespace FNLog

open Ring Spec

/-- The text of a slot. -/
def Slot.text (s : Slot) : List Char := s.content.take s.len.toNat

/-- A slot whose length fits. -/
def Slot.Fine (N : Nat) (s : Slot) : Prop := s.content.length = N ∧ 0 ≤ s.len ∧ s.len ≤ N

theorem recoveredLine_cut {N : Nat} {t u : List Char} (h : t.take (N - 20) = u.take (N - 20)) :
    recoveredLine N t = recoveredLine N u := by
  unfold recoveredLine; rw [h]

theorem Marked.line {N : Nat} {t t' : List Char} (h : Marked N t t') : Marked N t (recoveredLine N t') :=
  .more (tail := ['\n']) h (by decide)

theorem Marked.keeps {N : Nat} {t t' : List Char} (h : Marked N t t') :
    ∃ rest, t'.take (N - 20) = t.take (N - 20) ++ rest := by
  induction h with
  | none => exact ⟨[], (List.append_nil _).symm⟩
  | @more t' tail h ht ih =>
    obtain ⟨rest, e⟩ := ih
    rw [e, List.append_assoc, List.append_assoc, List.take_append]
    exact ⟨_, congrArg (· ++ _)
      (List.take_of_length_le (l := t.take (N - 20)) (by simp only [List.length_take]; omega))⟩

theorem slotLen_eq {N : Nat} (hN : 20 ≤ N) {s : Slot} (h : s.Fine N) :
    slotLen N s = ((min s.len.toNat (N - 20) : Nat) : Int) := by
  obtain ⟨_, h1, h2⟩ := h
  unfold slotLen
  rw [coreDesc_length]
  omega

theorem MidCopy.take {off : Nat} {src b b' : List Char} (h : MidCopy off src b b') : b'.take off = b.take off := by
  apply List.ext_getElem?
  intro i
  by_cases hi : i < off
  · rw [List.getElem?_take_of_lt hi, List.getElem?_take_of_lt hi]
    rcases h.2 i with e | ⟨j, _, e, _⟩
    · exact e
    · omega
  · rw [List.getElem?_take_eq_none (by omega), List.getElem?_take_eq_none (by omega)]

/-- A slot left behind by a killed process is well-formed, and its text is the old one (up to what is cut
off anyway), or the old one with the marker. -/
theorem SlotCut.spec {N : Nat} (hN : 20 ≤ N) {s s' : Slot} (h : SlotCut N s s') (hf : s.Fine N) :
    s'.Fine N ∧ (s'.text.take (N - 20) = s.text.take (N - 20) ∨
      ∃ tail, tail.length ≤ 1 ∧ s'.text = s.text.take (N - 20) ++ coreDesc ++ tail) := by
  have hl := slotLen_eq hN hf
  obtain ⟨f1, f2, f3⟩ := hf
  have hcut : ∀ n, n = min s.len.toNat (N - 20) → s.content.take n = s.text.take (N - 20) := by
    intro n hn
    unfold Slot.text
    rw [List.take_take, hn, Nat.min_comm]
  generalize hn : min s.len.toNat (N - 20) = n at *
  have hc := hcut n rfl
  have hn20 : n + 20 ≤ N := by omega
  cases h with
  | start => exact ⟨⟨f1, f2, f3⟩, .inl rfl⟩
  | mark => exact ⟨⟨f1, f2, f3⟩, .inl rfl⟩
  | priority => exact ⟨⟨f1, f2, f3⟩, .inl rfl⟩
  | copy b _ hm =>
    rw [hl] at hm
    refine ⟨⟨by rw [← f1]; exact hm.1, by simp only; omega, by simp only; omega⟩, .inl ?_⟩
    have hm' := hm.take
    rw [Int.toNat_natCast] at hm'
    unfold Slot.text at hc ⊢
    simp only
    rw [hl, Int.toNat_natCast, List.take_take, Nat.min_eq_right (by omega), hm']
    exact hc
  | copied b _ e =>
    rw [hl, Int.toNat_natCast] at e
    have l1 := writeAt_length e
    have t1 := writeAt_take e
    rw [coreDesc_length] at t1
    refine ⟨⟨by simp only; omega, by simp only [coreDesc_length]; omega, by simp only [coreDesc_length]; omega⟩,
      .inr ⟨[], by decide, ?_⟩⟩
    unfold Slot.text at hc ⊢
    simp only
    rw [hl, coreDesc_length, show ((n : Int) + ((18 : Nat) : Int)).toNat = n + 18 by omega, t1, hc, List.append_nil]
  | feed b b' _ e e' =>
    rw [hl, Int.toNat_natCast] at e e'
    have l1 := writeAt_length e
    have t1 := writeAt_take e
    have l2 := writeAt_length e'
    have t2 := writeAt_take e'
    rw [coreDesc_length] at t1 t2
    refine ⟨⟨by simp only; omega, by simp only [coreDesc_length]; omega, by simp only [coreDesc_length]; omega⟩,
      .inr ⟨[], by decide, ?_⟩⟩
    unfold Slot.text at hc ⊢
    simp only
    rw [hl, coreDesc_length, show ((n : Int) + ((18 : Nat) : Int)).toNat = n + 18 by omega]
    have h4 := congrArg (List.take (n + 18)) t2
    simp only [List.length_cons, List.length_nil] at h4
    rw [List.take_take, List.take_append_of_le_length (by simp only [List.length_take]; omega), List.take_take,
      Nat.min_eq_left (by omega), Nat.min_self] at h4
    rw [h4, t1, hc, List.append_nil]
  | longer b _ e =>
    rw [hl, Int.toNat_natCast] at e
    have l1 := writeAt_length e
    have t1 := writeAt_take e
    rw [coreDesc_length] at t1
    refine ⟨⟨by simp only; omega, by simp only [coreDesc_length]; omega, by simp only [coreDesc_length]; omega⟩,
      .inr ⟨(b.drop (n + 18)).take 1, by simp only [List.length_take]; omega, ?_⟩⟩
    unfold Slot.text at hc ⊢
    simp only
    rw [hl, coreDesc_length, show ((n : Int) + ((18 : Nat) : Int) + 1).toNat = n + 18 + 1 by omega, List.take_add,
      t1, hc]
  | fed b b' _ e e' =>
    rw [hl, Int.toNat_natCast] at e e'
    have l1 := writeAt_length e
    have t1 := writeAt_take e
    have l2 := writeAt_length e'
    have t2 := writeAt_take e'
    rw [coreDesc_length] at t1 t2
    refine ⟨⟨by simp only; omega, by simp only [coreDesc_length]; omega, by simp only [coreDesc_length]; omega⟩,
      .inr ⟨['\n'], by decide, ?_⟩⟩
    unfold Slot.text at hc ⊢
    simp only
    rw [hl, coreDesc_length, show ((n : Int) + ((18 : Nat) : Int) + 1).toNat = n + 18 + 1 by omega]
    simp only [List.length_cons, List.length_nil] at t2
    rw [t2, t1, hc]
  | done s' e =>
    obtain ⟨r, e', _, _, r1, r2, r3, r4, _⟩ := recoverSlot_spec N hN s f1 f2 f3
    rw [e] at e'
    cases e'
    exact ⟨⟨r1, r2, by omega⟩, .inr ⟨['\n'], by decide, r4⟩⟩

/-- A slot that has been completed, by whichever process. -/
def Completed (N : Nat) (s0 s : Slot) : Prop :=
  s.mark = 2 ∧ s.priority = PRIORITY_FATAL ∧ ∃ t, Marked N s0.text t ∧ s.text = recoveredLine N t

/-- The ring `m` is what killed processes have made of the ring `m0`: `d` slots were unfinished in `m0`,
`p` of them are completed. -/
structure Resumed (L N : Nat) (m0 : RingMem) (w d p : Nat) (m : RingMem) : Prop where
  dL : d < L
  pd : p ≤ d
  write : m.write = (((w + p) % L : Nat) : Int)
  hold : m.hold = (((w + d) % L : Nat) : Int)
  read : m.read = m0.read
  fine : ∀ i, i < L → (m.buffer i).Fine N
  done : ∀ q, q < p → Completed N (m0.buffer ((w + q) % L)) (m.buffer ((w + q) % L))
  todo : ∀ q, p ≤ q → q < d → ∃ t, Marked N (m0.buffer ((w + q) % L)).text t ∧
    (m.buffer ((w + q) % L)).text.take (N - 20) = t.take (N - 20)
  rest : ∀ i, i < L → (∀ q, q < d → i ≠ (w + q) % L) → m.buffer i = m0.buffer i

theorem mod_inj {L w p q : Nat} (hp : p < L) (hq : q < L) (h : (w + p) % L = (w + q) % L) : p = q := by
  have h1 := Nat.div_add_mod (w + p) L
  have h2 := Nat.div_add_mod (w + q) L
  rw [h] at h1
  rcases Nat.lt_trichotomy ((w + p) / L) ((w + q) / L) with h3 | h3 | h3
  · have := Nat.mul_le_mul_left L (show (w + p) / L + 1 ≤ (w + q) / L from h3)
    rw [Nat.mul_add] at this; omega
  · rw [h3] at h1; omega
  · have := Nat.mul_le_mul_left L (show (w + q) / L + 1 ≤ (w + p) / L from h3)
    rw [Nat.mul_add] at this; omega

theorem Resumed.more {L N : Nat} {m0 m : RingMem} {w d p : Nat} (h : Resumed L N m0 w d p m) :
    m.write ≠ m.hold ↔ p < d := by
  rw [h.write, h.hold]
  constructor
  · intro hne
    rcases Nat.lt_or_ge p d with h1 | h1
    · exact h1
    · have := h.pd
      rw [show p = d by omega] at hne
      exact absurd rfl hne
  · intro hlt he
    have := mod_inj (w := w) (by have := h.dL; omega) h.dL (Int.ofNat_inj.1 he)
    omega

theorem Resumed.at {L N : Nat} {m0 m : RingMem} {w d p : Nat} (h : Resumed L N m0 w d p m) :
    m.write.toNat = (w + p) % L := by rw [h.write, Int.toNat_natCast]

/-- Killed inside the completion of a slot. -/
theorem Resumed.slot {L N : Nat} (hN : 20 ≤ N) {m0 m : RingMem} {w d p : Nat} (h : Resumed L N m0 w d p m) (hp : p < d)
    {s : Slot} (hs : SlotCut N (m.buffer m.write.toNat) s) :
    Resumed L N m0 w d p { m with buffer := upd m.buffer m.write.toNat s } := by
  rw [h.at] at hs ⊢
  have hL : 0 < L := Nat.lt_of_le_of_lt (Nat.zero_le _) h.dL
  have hi : (w + p) % L < L := Nat.mod_lt _ hL
  obtain ⟨g1, g2⟩ := hs.spec hN (h.fine _ hi)
  refine ⟨h.dL, h.pd, h.write, h.hold, h.read, ?_, ?_, ?_, ?_⟩
  · intro i hi'
    simp only [upd]
    split
    · exact g1
    · exact h.fine i hi'
  · intro q hq
    simp only [upd]
    rw [if_neg]
    · exact h.done q hq
    · intro he
      have := mod_inj (w := w) (by have := h.dL; omega) (by have := h.dL; omega) he
      omega
  · intro q hq1 hq2
    simp only [upd]
    split
    · rename_i he
      have := mod_inj (w := w) (by have := h.dL; omega) (by have := h.dL; omega) he
      subst this
      obtain ⟨t, ht, ht'⟩ := h.todo q hq1 hq2
      rcases g2 with e | ⟨tail, e1, e2⟩
      · exact ⟨t, ht, e.trans ht'⟩
      · refine ⟨_, .more ht e1, ?_⟩
        rw [e2, ht']
        rfl
    · exact h.todo q hq1 hq2
  · intro i hi' hr
    simp only [upd]
    rw [if_neg (hr p hp)]
    exact h.rest i hi' hr

/-- A complete round. -/
theorem Resumed.round {L N : Nat} (hN : 20 ≤ N) {m0 m : RingMem} {w d p : Nat} (h : Resumed L N m0 w d p m) (hp : p < d)
    {s : Slot} (hs : recoverSlot N (m.buffer m.write.toNat) = some s) :
    Resumed L N m0 w d (p + 1)
      { m with buffer := upd m.buffer m.write.toNat s, write := (m.write + 1) % (L : Int) } := by
  have hd := h.dL
  have hc := h.slot hN hp (.done s hs)
  have hL : 0 < L := Nat.lt_of_le_of_lt (Nat.zero_le _) h.dL
  have hi : (w + p) % L < L := Nat.mod_lt _ hL
  rw [h.at] at hs hc ⊢
  obtain ⟨f1, f2, f3⟩ := h.fine _ hi
  obtain ⟨r, e', r1, r2, _, _, _, r3, _⟩ := recoverSlot_spec N hN _ f1 f2 f3
  rw [hs] at e'
  cases e'
  refine ⟨h.dL, hp, ?_, h.hold, h.read, hc.fine, ?_, fun q hq1 hq2 => hc.todo q (by omega) hq2, hc.rest⟩
  · simp only
    rw [h.write]
    rw [show ((((w + p) % L : Nat) : Int) + 1) = (((w + p) % L + 1 : Nat) : Int) by omega, ← Int.natCast_emod,
      Nat.mod_add_mod, Nat.add_assoc]
  · intro q hq
    by_cases hqp : q = p
    · subst hqp
      simp only [upd, if_pos]
      obtain ⟨t, ht, ht'⟩ := h.todo q (Nat.le_refl _) hp
      exact ⟨r1, r2, t, ht, r3.trans (recoveredLine_cut ht')⟩
    · exact hc.done q (by omega)

theorem Resumed.rounds {L N : Nat} (hN : 20 ≤ N) {m0 m m' : RingMem} {w d p : Nat} (h : Resumed L N m0 w d p m)
    (hr : Rounds L N m m') : ∃ p', Resumed L N m0 w d p' m' := by
  induction hr with
  | refl => exact ⟨p, h⟩
  | step s _ hne hs ih =>
    obtain ⟨p', h'⟩ := ih
    exact ⟨p' + 1, h'.round hN (h'.more.1 hne) hs⟩

theorem Resumed.same {L N : Nat} {m0 m m' : RingMem} {w d p : Nat} (h : Resumed L N m0 w d p m)
    (h1 : m'.write = m.write) (h2 : m'.hold = m.hold) (h3 : m'.read = m.read) (h4 : m'.buffer = m.buffer) :
    Resumed L N m0 w d p m' := by
  refine ⟨h.dL, h.pd, h1.trans h.write, h2.trans h.hold, h3.trans h.read, ?_, ?_, ?_, ?_⟩ <;> rw [h4]
  · exact h.fine
  · exact h.done
  · exact h.todo
  · exact h.rest

/-- Killed anywhere in the work on one ring. -/
theorem Resumed.cut {L N : Nat} (hN : 20 ≤ N) {m0 m m' : RingMem} {w d p : Nat} (h : Resumed L N m0 w d p m)
    (hr : RingCut L N m m') : ∃ p', Resumed L N m0 w d p' m' := by
  cases hr with
  | start => exact ⟨p, h⟩
  | slot m1 s _ _ hr hne hs =>
    obtain ⟨p', h'⟩ := h.rounds hN hr
    exact ⟨p', h'.slot hN (h'.more.1 hne) hs⟩
  | held m1 _ _ hr he =>
    obtain ⟨p', h'⟩ := h.rounds hN hr
    exact ⟨p', h'.same rfl he rfl rfl⟩
  | proc m1 _ _ hr he =>
    obtain ⟨p', h'⟩ := h.rounds hN hr
    exact ⟨p', h'.same rfl he rfl rfl⟩

/-- The loop completes what is left. -/
theorem Resumed.loop {L N : Nat} (hN : 20 ≤ N) {m0 : RingMem} {w d : Nat} : ∀ (n fuel : Nat) {m : RingMem} {p : Nat},
    Resumed L N m0 w d p m → d = p + n → n ≤ fuel →
    ∃ m', recoverLoop L N fuel m = .val m' ∧ Resumed L N m0 w d d m' := by
  intro n
  induction n with
  | zero =>
    intro fuel m p h hd _
    have hw : m.write = m.hold := by
      refine Classical.byContradiction fun hne => ?_
      have := h.more.1 hne
      omega
    refine ⟨m, ?_, ?_⟩
    · cases fuel <;> simp only [recoverLoop, if_pos hw]
    · have : p = d := by omega
      exact this ▸ h
  | succ n ih =>
    intro fuel m p h hd hf
    obtain ⟨fuel, rfl⟩ : ∃ k, fuel = k + 1 := ⟨fuel - 1, by omega⟩
    have hne := h.more.2 (show p < d by omega)
    have hL : 0 < L := Nat.lt_of_le_of_lt (Nat.zero_le _) h.dL
    have hi : (w + p) % L < L := Nat.mod_lt _ hL
    obtain ⟨f1, f2, f3⟩ := h.fine _ hi
    obtain ⟨r, e', _⟩ := recoverSlot_spec N hN _ f1 f2 f3
    rw [← h.at] at e'
    simp only [recoverLoop, if_neg hne, e']
    exact ih fuel (h.round hN (by omega) e') (by omega) (by omega)

/-- LoadSharedMemory on a ring killed processes have worked on. -/
theorem Resumed.ring {L N fuel : Nat} (hN : 20 ≤ N) (hf : L ≤ fuel) {m0 m : RingMem} {w d p : Nat} (hw : w < L)
    (h : Resumed L N m0 w d p m) (hr : 0 ≤ m0.read ∧ m0.read < (L : Int)) :
    ∃ m', recoverRing L N fuel m = .val (.ok, m') ∧ Resumed L N m0 w d d m' ∧ m'.proc = m0.read := by
  have hL : 0 < L := by omega
  have h1 := h.write
  have h2 := Nat.mod_lt (w + p) hL
  obtain ⟨m1, e1, g⟩ := h.loop hN (d - p) fuel (by have := h.pd; omega) (by have := h.dL; omega)
  have h3 := g.read
  have g1 : m1.write = m1.hold := by rw [g.write, g.hold]
  refine ⟨{ m1 with hold := m1.write, proc := m1.read }, ?_, g.same rfl g1 rfl rfl, h3⟩
  unfold recoverRing
  rw [if_neg (by omega), e1]
  simp only
  rw [if_neg (by rw [h3]; omega)]

/-- A ring whose indices are in range is one no process has worked on yet. -/
theorem Resumed.init {L N : Nat} {m : RingMem} (hw : 0 ≤ m.write ∧ m.write < (L : Int))
    (hh : 0 ≤ m.hold ∧ m.hold < (L : Int)) (hf : ∀ i, i < L → (m.buffer i).Fine N) :
    Resumed L N m m.write.toNat (((m.hold - m.write) % (L : Int)).toNat) 0 m := by
  have hL : (0 : Int) < L := by omega
  have a1 := Int.emod_nonneg (m.hold - m.write) (show (L : Int) ≠ 0 by omega)
  have a2 := Int.emod_lt_of_pos (m.hold - m.write) hL
  refine ⟨by omega, Nat.zero_le _, ?_, ?_, rfl, hf, fun q hq => absurd hq (Nat.not_lt_zero _),
    fun q _ _ => ⟨_, .none, rfl⟩, fun _ _ _ => rfl⟩
  · rw [Nat.add_zero, Nat.mod_eq_of_lt (by omega)]; omega
  · rw [Int.natCast_emod]
    push_cast
    rw [Int.toNat_of_nonneg hw.1, Int.toNat_of_nonneg a1, Int.add_emod_emod,
      show m.write + (m.hold - m.write) = m.hold by omega, Int.emod_eq_of_lt hh.1 hh.2]

/-- The segment `s` is what killed processes have made of `s0`. -/
structure SegResumed (L N : Nat) (s0 s : Shm) : Prop where
  id : s.id = s0.id
  size : s.size = s0.size
  channelSize : s.channelSize = s0.channelSize
  rings : ∀ i, i < s0.channelSize.toNat → ∃ p, Resumed L N (s0.rings i) (s0.rings i).write.toNat
    ((((s0.rings i).hold - (s0.rings i).write) % (L : Int)).toNat) p (s.rings i)
  rest : ∀ i, s0.channelSize.toNat ≤ i → s.rings i = s0.rings i

theorem SegResumed.set {L N : Nat} {s0 s : Shm} (h : SegResumed L N s0 s) {i : Nat} {m : RingMem}
    (hi : i < s0.channelSize.toNat)
    (hm : ∃ p, Resumed L N (s0.rings i) (s0.rings i).write.toNat
      ((((s0.rings i).hold - (s0.rings i).write) % (L : Int)).toNat) p m) :
    SegResumed L N s0 { s with rings := upd s.rings i m } := by
  refine ⟨h.id, h.size, h.channelSize, ?_, ?_⟩
  · intro j hj
    simp only [upd]
    split
    · rename_i e; subst e; exact hm
    · exact h.rings j hj
  · intro j hj
    simp only [upd]
    rw [if_neg (by omega)]
    exact h.rest j hj

/-- LoadSharedMemory on some of the rings of such a segment. -/
theorem SegResumed.load {L N maxCh fuel : Nat} (hN : 20 ≤ N) (hf : L ≤ fuel) {s0 : Shm}
    (hmax : s0.channelSize ≤ (maxCh : Int))
    (hs : ∀ i, i < s0.channelSize.toNat → 0 ≤ (s0.rings i).write ∧ (s0.rings i).write < (L : Int) ∧
      0 ≤ (s0.rings i).read ∧ (s0.rings i).read < (L : Int)) :
    ∀ (n i : Nat) {s : Shm}, SegResumed L N s0 s → i + n ≤ s0.channelSize.toNat →
    ∃ s', recoverRings L N maxCh fuel n i s = .val (.ok, s') ∧ SegResumed L N s0 s' ∧
      (∀ j, i ≤ j → j < i + n → Resumed L N (s0.rings j) (s0.rings j).write.toNat
        ((((s0.rings j).hold - (s0.rings j).write) % (L : Int)).toNat)
        ((((s0.rings j).hold - (s0.rings j).write) % (L : Int)).toNat) (s'.rings j) ∧
        (s'.rings j).proc = (s0.rings j).read) ∧ (∀ j, j < i → s'.rings j = s.rings j) := by
  intro n
  induction n with
  | zero => intro i s h _; exact ⟨s, rfl, h, fun j h1 h2 => absurd h2 (by omega), fun _ _ => rfl⟩
  | succ n ih =>
    intro i s h hi
    obtain ⟨p, hp⟩ := h.rings i (by omega)
    obtain ⟨a1, a2, a3, a4⟩ := hs i (by omega)
    obtain ⟨m', e, g, gp⟩ := hp.ring hN hf (by omega) ⟨a3, a4⟩
    obtain ⟨s', e', g', g1, g2⟩ := ih (i + 1) (h.set (m := m') (by omega) ⟨_, g⟩) (by omega)
    refine ⟨s', ?_, g', ?_, ?_⟩
    · simp only [recoverRings]
      rw [if_neg (by omega), e]
      simp only [if_pos]
      exact e'
    · intro j h1 h2
      by_cases hj : j = i
      · subst hj
        rw [g2 j (by omega)]
        simp only [upd, if_pos]
        exact ⟨g, gp⟩
      · exact g1 j (by omega) (by omega)
    · intro j hj
      rw [g2 j (by omega)]
      simp only [upd]
      rw [if_neg (by omega)]

theorem SegResumed.cut {L N maxCh fuel : Nat} {size idx : Int} (hN : 20 ≤ N) (hf : L ≤ fuel) {s0 s s' : Shm}
    (hmax : s0.channelSize ≤ (maxCh : Int))
    (hs : ∀ i, i < s0.channelSize.toNat → 0 ≤ (s0.rings i).write ∧ (s0.rings i).write < (L : Int) ∧
      0 ≤ (s0.rings i).read ∧ (s0.rings i).read < (L : Int))
    (h : SegResumed L N s0 s) (hc : SegCut L N maxCh fuel size idx s s') : SegResumed L N s0 s' := by
  cases hc with
  | start => exact h
  | ring i s1 m _ _ hi _ e hm =>
    rw [h.channelSize] at hi
    obtain ⟨s2, e2, g, _, _⟩ := SegResumed.load hN hf hmax hs i 0 h (by omega)
    rw [e] at e2
    cases e2
    obtain ⟨p, hp⟩ := g.rings i hi
    exact g.set hi (hp.cut hN hm)

theorem SegResumed.killed {L N maxCh fuel : Nat} {size idx : Int} (hN : 20 ≤ N) (hf : L ≤ fuel) {s0 s : Shm}
    (hmax : s0.channelSize ≤ (maxCh : Int))
    (hs : ∀ i, i < s0.channelSize.toNat → 0 ≤ (s0.rings i).write ∧ (s0.rings i).write < (L : Int) ∧
      0 ≤ (s0.rings i).read ∧ (s0.rings i).read < (L : Int))
    (h0 : SegResumed L N s0 s0) (hk : Killed L N maxCh fuel size idx s0 s) : SegResumed L N s0 s := by
  induction hk with
  | none => exact h0
  | more _ hc ih => exact ih.cut hN hf hmax hs hc

theorem Rounds.loop {L N : Nat} {m : RingMem} : ∀ (fuel : Nat) {m1 m' : RingMem}, Rounds L N m m1 →
    recoverLoop L N fuel m1 = .val m' → Rounds L N m m' ∧ m'.write = m'.hold := by
  intro fuel
  induction fuel with
  | zero =>
    intro m1 m' hr h
    simp only [recoverLoop] at h
    split at h
    · rename_i hw; cases h; exact ⟨hr, hw⟩
    · cases h
  | succ n ih =>
    intro m1 m' hr h
    simp only [recoverLoop] at h
    split at h
    · rename_i hw; cases h; exact ⟨hr, hw⟩
    · rename_i hw
      split at h
      · cases h
      · rename_i s e
        exact ih (hr.step s hw e) h

/-- The last of the images of a ring is the one LoadSharedMemory leaves. -/
theorem RingCut.last {L N fuel : Nat} {m m' : RingMem} {c : LoadCode} (h : recoverRing L N fuel m = .val (c, m')) :
    RingCut L N m m' := by
  unfold recoverRing at h
  split at h
  · cases h; exact .start
  · rename_i hw
    split at h
    · cases h
    · cases h
    · rename_i m1 e
      obtain ⟨r, he⟩ := Rounds.loop fuel (.refl m) e
      simp only at h
      split at h
      · cases h; exact .held m1 (by omega) (by omega) r he
      · rename_i hr; cases h; exact .proc m1 (by omega) (by omega) r he (by omega) (by omega)

end FNLog
