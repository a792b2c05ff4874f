import Verif.Proof.Recover

/-! # Crash recovery: the memory image -/

namespace FNLog
open Ring

theorem writeAt_some {b s : List Char} {off : Nat} (h : off + s.length ≤ b.length) :
    writeAt b off s = some (b.take off ++ s ++ b.drop (off + s.length)) := by simp [writeAt, h]

theorem writeAt_length {b s b' : List Char} {off : Nat} (h : writeAt b off s = some b') :
    b'.length = b.length := by
  unfold writeAt at h
  split at h
  · cases h; simp only [List.length_append, List.length_take, List.length_drop]; omega
  · cases h

/-- The text in front of the written piece and the piece itself. -/
theorem writeAt_take {b s b' : List Char} {off : Nat} (h : writeAt b off s = some b') :
    b'.take (off + s.length) = b.take off ++ s := by
  unfold writeAt at h
  split at h
  · cases h
    rw [List.take_append_of_le_length (by simp only [List.length_append, List.length_take]; omega)]
    rw [List.take_of_length_le (by simp only [List.length_append, List.length_take]; omega)]
  · cases h

theorem coreDesc_length : coreDesc.length = 18 := by decide

/-- `recoverSlot` on a well-formed slot: always defined, stays inside the buffer, appends the marker. -/
theorem recoverSlot_spec (N : Nat) (hN : 20 ≤ N) (s : Slot) (hc : s.content.length = N)
    (h0 : 0 ≤ s.len) (h1 : s.len ≤ N) :
    ∃ s', recoverSlot N s = some s' ∧ s'.mark = 2 ∧ s'.priority = PRIORITY_FATAL ∧
      s'.content.length = N ∧ 0 ≤ s'.len ∧ s'.len < N ∧
      s'.content.take s'.len.toNat = Spec.recoveredLine N (s.content.take s.len.toNat) ∧
      s'.content[s'.len.toNat]? = some '\x00' := by
  unfold recoverSlot
  rw [coreDesc_length]
  simp only
  have hlen : min s.len ((N : Int) - (18 : Nat) - 2) = ((min s.len.toNat (N - 20) : Nat) : Int) := by
    omega
  rw [hlen]
  generalize hn : min s.len.toNat (N - 20) = n
  have hn20 : n + 20 ≤ N := by omega
  rw [if_neg (by omega)]
  simp only [Int.toNat_natCast]
  have e1 := writeAt_some (b := s.content) (s := coreDesc) (off := n) (by rw [coreDesc_length]; omega)
  have l1 := writeAt_length e1
  have t1 := writeAt_take e1
  rw [e1]
  simp only [Option.bind_eq_bind, Option.bind_some]
  generalize List.take n s.content ++ coreDesc ++ List.drop (n + coreDesc.length) s.content = b1 at *
  have e2 := writeAt_some (b := b1) (s := ['\n']) (off := n + 18) (by simp only [List.length_cons, List.length_nil]; omega)
  have l2 := writeAt_length e2
  have t2 := writeAt_take e2
  rw [e2]
  simp only [Option.bind_some]
  generalize List.take (n + 18) b1 ++ ['\n'] ++ List.drop (n + 18 + ['\n'].length) b1 = b2 at *
  have e3 := writeAt_some (b := b2) (s := ['\x00']) (off := n + 18 + 1) (by simp only [List.length_cons, List.length_nil]; omega)
  have l3 := writeAt_length e3
  have t3 := writeAt_take e3
  rw [e3]
  simp only [Option.bind_some]
  generalize List.take (n + 18 + 1) b2 ++ ['\x00'] ++ List.drop (n + 18 + 1 + ['\x00'].length) b2 = b3 at *
  rw [coreDesc_length] at t1
  simp only [List.length_cons, List.length_nil] at t2 t3
  refine ⟨_, rfl, rfl, rfl, by simp only; omega, by simp only; omega, by simp only; omega, ?_, ?_⟩
  · simp only
    have : ((n : Int) + ((18 : Nat) : Int) + 1).toNat = n + 18 + 1 := by omega
    rw [this]
    have h4 := congrArg (List.take (n + 18 + 1)) t3
    rw [List.take_take, List.take_append_of_le_length (by simp only [List.length_take]; omega), List.take_take] at h4
    rw [Nat.min_eq_left (by omega), Nat.min_self] at h4
    rw [h4, t2, t1]
    unfold Spec.recoveredLine
    rw [List.take_take, ← hn, Nat.min_comm (N - 20)]
    rfl
  · simp only
    have : ((n : Int) + ((18 : Nat) : Int) + 1).toNat = n + 18 + 1 := by omega
    rw [this]
    have h4 := congrArg (fun l => l[n + 18 + 1]?) t3
    rw [List.getElem?_take_of_lt (by omega), List.getElem?_append_right (by simp only [List.length_take]; omega)] at h4
    rw [h4]
    simp only [List.length_take]
    rw [Nat.min_eq_left (by omega), Nat.sub_self]
    rfl

/-- `int` codes of the marks (fn_data.h 118-123). -/
def markCode : Mark → Int
  | .invalid => 0
  | .hold => 1
  | .ready => 2

/-- The memory image `m` represents the ring state `s`; `N` is LOG_SIZE. -/
structure Repr (c : Cfg Char) (N : Nat) (s : St Char) (m : RingMem) : Prop where
  write : m.write = ((s.W % c.L : Nat) : Int)
  hold : m.hold = ((s.H % c.L : Nat) : Int)
  read : m.read = ((s.R % c.L : Nat) : Int)
  proc : m.proc = ((s.P % c.L : Nat) : Int)
  mark : ∀ i, i < c.L → (m.buffer i).mark = markCode (s.mark i)
  len : ∀ i, i < c.L → (m.buffer i).len = ((s.cell i).length : Nat)
  size : ∀ i, i < c.L → (m.buffer i).content.length = N
  text : ∀ i, i < c.L → (m.buffer i).content.take (s.cell i).length = s.cell i

theorem Repr.len_le {c : Cfg Char} {N : Nat} {s : St Char} {m : RingMem} (h : Repr c N s m) {i : Nat}
    (hi : i < c.L) : (s.cell i).length ≤ N := by
  have h1 := congrArg List.length (h.text i hi)
  rw [List.length_take, h.size i hi] at h1
  omega

/-- The loop, for `n` held slots from position `k` on. -/
theorem recoverLoop_spec (L N : Nat) (hL : 0 < L) (hN : 20 ≤ N) :
    ∀ (n k fuel : Nat) (m : RingMem) (mk : Nat → Mark) (cl : Nat → List Char), n < L → n ≤ fuel →
    m.write = ((k % L : Nat) : Int) → m.hold = (((k + n) % L : Nat) : Int) →
    (∀ i, i < L → (m.buffer i).mark = markCode (mk i)) →
    (∀ i, i < L → (m.buffer i).len = ((cl i).length : Nat)) →
    (∀ i, i < L → (m.buffer i).content.length = N) →
    (∀ i, i < L → (m.buffer i).content.take (cl i).length = cl i) →
    ∃ m', recoverLoop L N fuel m = .val m' ∧ m'.write = m.hold ∧ m'.hold = m.hold ∧ m'.read = m.read ∧
      m'.proc = m.proc ∧
      (∀ i, i < L → (m'.buffer i).mark = markCode (recMarks L n k mk i)) ∧
      (∀ i, i < L → (m'.buffer i).len = ((recCells L (Spec.recoveredLine N) n k cl i).length : Nat)) ∧
      (∀ i, i < L → (m'.buffer i).content.length = N) ∧
      (∀ i, i < L → (m'.buffer i).content.take (recCells L (Spec.recoveredLine N) n k cl i).length =
        recCells L (Spec.recoveredLine N) n k cl i) ∧
      (∀ j, k ≤ j → j < k + n → (m'.buffer (j % L)).priority = PRIORITY_FATAL) ∧
      (∀ j, k + n ≤ j → j < k + L → m'.buffer (j % L) = m.buffer (j % L)) := by
  intro n
  induction n with
  | zero =>
    intro k fuel m mk cl _ _ hw hh h1 h2 h3 h4
    have he : m.write = m.hold := by rw [hw, hh, Nat.add_zero]
    refine ⟨m, ?_, he, rfl, rfl, rfl, h1, h2, h3, h4, fun j h5 h6 => by omega, fun _ _ _ => rfl⟩
    cases fuel <;> simp [recoverLoop, he]
  | succ n ih =>
    intro k fuel m mk cl hn hf hw hh h1 h2 h3 h4
    cases fuel with
    | zero => omega
    | succ fuel =>
      have hne : m.write ≠ m.hold := by
        rw [hw, hh]
        intro he
        have : k % L = (k + (n + 1)) % L := by omega
        have := mod_inj this (by omega) (by omega)
        omega
      have hkL := Nat.mod_lt k hL
      have hwn : m.write.toNat = k % L := by omega
      simp only [recoverLoop]
      rw [if_neg hne, hwn]
      have hcl : (cl (k % L)).length ≤ N := by
        have h5 := congrArg List.length (h4 _ hkL)
        rw [List.length_take, h3 _ hkL] at h5; omega
      obtain ⟨s', e, p1, p2, p3, p4, p5, p6, _⟩ := recoverSlot_spec N hN (m.buffer (k % L)) (h3 _ hkL)
        (by rw [h2 _ hkL]; omega) (by rw [h2 _ hkL]; omega)
      have htx : (m.buffer (k % L)).content.take (m.buffer (k % L)).len.toNat = cl (k % L) := by
        rw [h2 _ hkL, Int.toNat_natCast]; exact h4 _ hkL
      rw [htx] at p6
      have hl : s'.len.toNat = (Spec.recoveredLine N (cl (k % L))).length := by
        have h5 := congrArg List.length p6
        rw [List.length_take, p3] at h5; omega
      rw [e]
      simp only
      have hw' : (m.write + 1) % (L : Int) = (((k + 1) % L : Nat) : Int) := by
        rw [hw]; push_cast; rw [Int.emod_add_emod]
      obtain ⟨m', q1, q2, q3, q4, q5, q6, q7, q8, q9, q10, q11⟩ := ih (k + 1) fuel
        { m with buffer := upd m.buffer (k % L) s', write := (m.write + 1) % (L : Int) }
        (upd mk (k % L) .ready) (upd cl (k % L) (Spec.recoveredLine N (cl (k % L))))
        (by omega) (by omega) hw' (by rw [show k + 1 + n = k + (n + 1) by omega]; exact hh)
        (by intro i hi; simp only [upd]; split
            · rw [p1]; rfl
            · exact h1 i hi)
        (by intro i hi; simp only [upd]; split
            · rw [← hl]; omega
            · exact h2 i hi)
        (by intro i hi; simp only [upd]; split
            · exact p3
            · exact h3 i hi)
        (by intro i hi; simp only [upd]; split
            · rw [← hl]; exact p6
            · exact h4 i hi)
      refine ⟨m', q1, q2, q3, q4, q5, q6, q7, q8, q9, ?_, ?_⟩
      · intro j hj1 hj2
        by_cases hj : j = k
        · subst hj
          have := q11 (j + L) (by omega) (by omega)
          rw [Nat.add_mod_right] at this
          rw [this]
          simp only [upd_same]
          exact p2
        · exact q10 j (by omega) (by omega)
      · intro j hj1 hj2
        rw [q11 j (by omega) (by omega)]
        simp only
        rw [upd_ne]
        intro he
        have := mod_inj he.symm (by omega) hj2
        omega

/-- LoadSharedMemory does to the memory image what `Ring.recover` does to the ring state. -/
theorem recover_refines (c : Cfg Char) (N fuel : Nat) (hN : 20 ≤ N) (s : St Char) (hi : Inv c s)
    (m : RingMem) (hm : Repr c N s m) (hf : c.L ≤ fuel) :
    ∃ m', recoverRing c.L N fuel m = .val (.ok, m') ∧
      Repr c N (recover c (Spec.recoveredLine N) s) m' ∧
      (∀ k, s.W ≤ k → k < s.H → (m'.buffer (k % c.L)).priority = PRIORITY_FATAL) ∧
      (∀ k, s.R ≤ k → k < s.W → m'.buffer (k % c.L) = m.buffer (k % c.L)) := by
  have h1 := hi.leRP
  have h2 := hi.lePW
  have h3 := hi.leWH
  have h4 := hi.cap
  have hL : 0 < c.L := by omega
  have hwr := Nat.mod_lt s.W hL
  have hrr := Nat.mod_lt s.R hL
  have hHW : s.W + (s.H - s.W) = s.H := by omega
  obtain ⟨m', q1, q2, q3, q4, q5, q6, q7, q8, q9, q10, q11⟩ := recoverLoop_spec c.L N hL hN (s.H - s.W) s.W
    fuel m s.mark s.cell (by omega) (by omega) hm.write (by rw [hHW]; exact hm.hold) hm.mark hm.len hm.size
    hm.text
  rw [hHW] at q10 q11
  unfold recoverRing
  rw [if_neg (by rw [hm.write]; omega), q1]
  simp only
  rw [if_neg (by rw [q4, hm.read]; omega)]
  refine ⟨_, rfl, ⟨?_, ?_, ?_, ?_, q6, q7, q8, q9⟩, q10, ?_⟩
  · simp only [recover]; rw [q2, hm.hold]
  · simp only [recover]; rw [q2, hm.hold]
  · simp only [recover]; rw [q4, hm.read]
  · simp only [recover]; rw [q4, hm.read]
  · intro k hk1 hk2
    have := q11 (k + c.L) (by omega) (by omega)
    rw [Nat.add_mod_right] at this
    exact this

/-- The loop never ends if `hold_idx_` is out of range. -/
theorem recoverLoop_diverges (L N : Nat) (hL : 0 < L) : ∀ (fuel : Nat) (m : RingMem),
    0 ≤ m.write → m.write < L → (m.hold < 0 ∨ (L : Int) ≤ m.hold) → ∀ m', recoverLoop L N fuel m ≠ .val m' := by
  intro fuel
  induction fuel with
  | zero =>
    intro m h1 h2 h3 m'
    simp only [recoverLoop]
    rw [if_neg (by omega)]
    simp
  | succ n ih =>
    intro m h1 h2 h3 m'
    simp only [recoverLoop]
    rw [if_neg (by omega)]
    split
    · simp
    · apply ih
      · exact Int.emod_nonneg _ (by omega)
      · exact Int.emod_lt_of_pos _ (by omega)
      · exact h3

/-- With well-formed slots it just runs on. -/
theorem recoverLoop_runs (L N : Nat) (hL : 0 < L) (hN : 20 ≤ N) : ∀ (fuel : Nat) (m : RingMem),
    0 ≤ m.write → m.write < L → (m.hold < 0 ∨ (L : Int) ≤ m.hold) →
    (∀ i, i < L → (m.buffer i).content.length = N ∧ 0 ≤ (m.buffer i).len ∧ (m.buffer i).len ≤ N) →
    recoverLoop L N fuel m = .running := by
  intro fuel
  induction fuel with
  | zero =>
    intro m h1 h2 h3 _
    simp only [recoverLoop]
    rw [if_neg (by omega)]
  | succ n ih =>
    intro m h1 h2 h3 hb
    simp only [recoverLoop]
    rw [if_neg (by omega)]
    have hi : m.write.toNat < L := by omega
    obtain ⟨c1, c2, c3⟩ := hb _ hi
    obtain ⟨s', e, _, _, p3, p4, p5, _⟩ := recoverSlot_spec N hN _ c1 c2 c3
    rw [e]
    simp only
    apply ih
    · exact Int.emod_nonneg _ (by omega)
    · exact Int.emod_lt_of_pos _ (by omega)
    · exact h3
    · intro i hi
      simp only [upd]
      split
      · exact ⟨p3, p4, by omega⟩
      · exact hb i hi

/-- The loop ends within `L` rounds if `hold_idx_` is in range and the lengths are not negative. -/
theorem recoverLoop_ends (L N : Nat) (hL : 0 < L) (hN : 20 ≤ N) : ∀ (n fuel : Nat) (m : RingMem), n ≤ fuel →
    0 ≤ m.write → m.write < L → m.hold = (m.write + n) % L → n < L →
    (∀ i, i < L → (m.buffer i).content.length = N ∧ 0 ≤ (m.buffer i).len) →
    ∃ m', recoverLoop L N fuel m = .val m' ∧ m'.write = m.hold ∧ m'.read = m.read := by
  intro n
  induction n with
  | zero =>
    intro fuel m _ h1 h2 h3 _ _
    have he : m.write = m.hold := by
      rw [h3, Int.natCast_zero, Int.add_zero, Int.emod_eq_of_lt h1 h2]
    refine ⟨m, ?_, he, rfl⟩
    cases fuel <;> simp [recoverLoop, he]
  | succ n ih =>
    intro fuel m hf h1 h2 h3 hn hb
    cases fuel with
    | zero => omega
    | succ fuel =>
      have hne : m.write ≠ m.hold := by
        intro he
        rw [he] at h3
        have hh : m.hold % (L : Int) = m.hold := Int.emod_eq_of_lt (by omega) (by omega)
        have : (m.hold + ((n + 1 : Nat) : Int)) % (L : Int) = m.hold % L := by rw [← h3, hh]
        have h6 : ((L : Int)) ∣ (m.hold + ((n + 1 : Nat) : Int) - m.hold) := by
          exact Int.dvd_of_emod_eq_zero (by rw [Int.sub_emod, this, Int.sub_self]; rfl)
        rw [show m.hold + ((n + 1 : Nat) : Int) - m.hold = ((n + 1 : Nat) : Int) by omega] at h6
        have := Int.le_of_dvd (by omega) h6
        omega
      simp only [recoverLoop]
      rw [if_neg hne]
      have hi : m.write.toNat < L := by omega
      obtain ⟨c1, c2⟩ := hb _ hi
      have : ∃ s', recoverSlot N (m.buffer m.write.toNat) = some s' ∧ s'.content.length = N ∧ 0 ≤ s'.len := by
        by_cases hle : (m.buffer m.write.toNat).len ≤ N
        · obtain ⟨s', e, _, _, p3, p4, _⟩ := recoverSlot_spec N hN _ c1 c2 hle
          exact ⟨s', e, p3, p4⟩
        · -- longer than the record: same as `N`
          obtain ⟨s', e, _, _, p3, p4, _⟩ := recoverSlot_spec N hN
            { m.buffer m.write.toNat with len := (N : Int) } c1 (by simp only; omega) (by simp only; omega)
          refine ⟨s', ?_, p3, p4⟩
          rw [← e]
          unfold recoverSlot
          rw [coreDesc_length]
          simp only
          rw [Int.min_eq_right (by omega), Int.min_eq_right (by omega)]
      obtain ⟨s', e, p3, p4⟩ := this
      rw [e]
      simp only
      obtain ⟨m', q1, q2, q3⟩ := ih fuel
        { m with buffer := upd m.buffer m.write.toNat s', write := (m.write + 1) % (L : Int) }
        (by omega) (Int.emod_nonneg _ (by omega)) (by simp only; exact Int.emod_lt_of_pos _ (by omega))
        (by simp only; rw [h3, Int.emod_add_emod]; congr 1; push_cast; omega) (by omega)
        (by
          intro i hi
          simp only [upd]
          split
          · exact ⟨p3, p4⟩
          · exact hb i hi)
      exact ⟨m', q1, q2, q3⟩

end FNLog
