import Verif.Model.UdpIn
import Verif.Spec.UdpIn

/-! # Proofs about the UDP input: one thread at a time -/

namespace FNLog.UdpIn
open FNLog Spec

/-- The datagrams in the socket of the device. -/
def waiting (s : St) : List (List Char) := match s.handler with | none => [] | some fd => (s.socks fd).queue

/-- Everything received has been output. -/
def Out0 (c : Cfg) (s : St) : Prop := s.out = gramTexts c.N s.taken

/-- A datagram of length `n` is in the buffer. -/
def Hand (c : Cfg) (s : St) (n : Nat) : Prop :=
  (n = 0 ∧ Out0 c s) ∨ ∃ pre d, s.taken = pre ++ [d] ∧ d ≠ [] ∧ s.out = gramTexts c.N pre ∧ n = (d.take c.N).length ∧
    s.content.take n = d.take c.N

/-- A text is in the buffer. -/
def Hand2 (c : Cfg) (s : St) : Prop :=
  (s.clen = 0 ∧ Out0 c s) ∨ ∃ pre d, s.taken = pre ++ [d] ∧ d ≠ [] ∧ s.out = gramTexts c.N pre ∧ 0 < s.clen ∧
    s.content.take s.clen = gramText c.N d

/-- The socket is fresh. -/
def Fresh (s : St) : Prop := ∀ fd, s.handler = some fd → (s.socks fd).bound = none

def PI (c : Cfg) (s : St) : PC → Prop
  | .idle => True
  | .able | .shut | .openQ _ | .readQ | .init _ | .recv _ => Out0 c s
  | .time _ | .stamp _ | .sock _ => Out0 c s ∧ s.handler = none
  | .bindQ | .bind | .undo => Out0 c s ∧ Fresh s
  | .len _ n => Hand c s n
  | .fix _ => Hand c s s.clen
  | .test _ => Hand2 c s
  | .give _ => Hand2 c s ∧ s.clen ≠ 0

structure Inv (c : Cfg) (s : St) : Prop where
  live : ∀ fd, (s.socks fd).live = true → s.handler = some fd
  isLive : ∀ fd, s.handler = some fd → (s.socks fd).live = true
  unb : ∀ fd, (s.socks fd).bound = none → (s.socks fd).queue = []
  len : s.content.length = c.N
  sub : (s.taken ++ waiting s).Sublist s.kept
  perm : s.kept.Perm (s.taken ++ waiting s ++ s.gone)
  pcs : ∀ t, PI c s (s.pc t)
  idle : (∀ t, s.pc t = .idle) → Out0 c s

@[simp] theorem go_pc (s : St) (t u : Nat) (p : PC) : (s.go t p).pc u = if u = t then p else s.pc u := rfl

/-- Only the place of one thread changes. -/
theorem Inv.goes {c : Cfg} {s : St} (h : Inv c s) {t : Nat} {p : PC} (hp : PI c s p) (ho : Out0 c s ∨ p ≠ .idle) : Inv c (s.go t p) := by
  refine ⟨h.live, h.isLive, h.unb, h.len, h.sub, h.perm, ?_, ?_⟩
  · intro u
    have : PI c (s.go t p) (if u = t then p else s.pc u) = PI c s (if u = t then p else s.pc u) := by
      cases (if u = t then p else s.pc u) <;> rfl
    rw [go_pc, this]
    split
    · exact hp
    · exact h.pcs u
  · intro hi
    rcases ho with ho | ho
    · exact ho
    · have := hi t; simp at this; exact absurd this ho

/-- The same with a change of the state that one thread makes while the others are idle. -/
theorem Inv.goes' {c : Cfg} {s s' : St} {t : Nat} {p : PC} (hpc : s'.pc = s.pc) (hidle : ∀ u, u ≠ t → s.pc u = .idle)
    (live : ∀ fd, (s'.socks fd).live = true → s'.handler = some fd) (isLive : ∀ fd, s'.handler = some fd → (s'.socks fd).live = true)
    (unb : ∀ fd, (s'.socks fd).bound = none → (s'.socks fd).queue = []) (len : s'.content.length = c.N)
    (sub : (s'.taken ++ waiting s').Sublist s'.kept) (perm : s'.kept.Perm (s'.taken ++ waiting s' ++ s'.gone))
    (hp : PI c s' p) (ho : p = .idle → Out0 c s') : Inv c (s'.go t p) := by
  refine ⟨live, isLive, unb, len, sub, perm, ?_, ?_⟩
  · intro u
    rw [go_pc]
    split
    · cases p <;> exact hp
    · rename_i hu
      rw [hpc, hidle u hu]; trivial
  · intro hi
    have := hi t
    simp at this
    exact ho this

theorem gramTexts_snoc (N : Nat) (pre : List (List Char)) (d : List Char) (hd : d ≠ []) :
    gramTexts N (pre ++ [d]) = gramTexts N pre ++ [gramText N d] := by
  unfold gramTexts
  rw [List.filter_append, List.map_append]
  congr 1
  have : (!d.isEmpty) = true := by cases d <;> simp_all
  simp [List.filter, this]

theorem gramTexts_empty (N : Nat) (pre : List (List Char)) : gramTexts N (pre ++ [[]]) = gramTexts N pre := by
  unfold gramTexts
  simp [List.filter_append]

theorem over_length {c d : List Char} (h : d.length ≤ c.length) : (over c d).length = c.length := by
  unfold over; rw [List.length_append, List.length_drop]; omega

theorem Inv.close {c : Cfg} {s : St} (h : Inv c s) {t : Nat} {p : PC} (hidle : ∀ u, u ≠ t → s.pc u = .idle) (h0 : Out0 c s)
    (hp : p = .idle ∨ p = .readQ) : Inv c (s.close.go t p) := by
  have hpi : ∀ s', Out0 c s' → PI c s' p := by
    intro s' h'
    rcases hp with rfl | rfl
    · trivial
    · exact h'
  unfold St.close
  split
  · rename_i hh
    exact h.goes (hpi s h0) (Or.inl h0)
  · rename_i fd hh
    have hw : waiting s = (s.socks fd).queue := by unfold waiting; rw [hh]
    refine Inv.goes' (s := s) rfl hidle ?_ ?_ ?_ h.len ?_ ?_ (hpi _ h0) (fun _ => h0)
    · intro g hg
      by_cases he : g = fd
      · subst he; simp [St.put] at hg
      · simp only [St.put, he, if_false] at hg
        have := h.live g hg
        rw [hh] at this; cases this; exact absurd rfl he
    · intro g hg; cases hg
    · intro g
      by_cases he : g = fd
      · subst he; simp [St.put]
      · simp only [St.put, he, if_false]; exact h.unb g
    · have := h.sub
      show (s.taken ++ []).Sublist s.kept
      rw [List.append_nil]
      exact (List.sublist_append_left _ _).trans this
    · have := h.perm
      rw [hw] at this
      show s.kept.Perm (s.taken ++ [] ++ (s.gone ++ (s.socks fd).queue))
      rw [List.append_nil]
      refine this.trans ?_
      rw [List.append_assoc]
      exact List.Perm.append_left _ List.perm_append_comm

theorem Inv.socket {c : Cfg} {s : St} (h : Inv c s) {t : Nat} {p : PC} (ok : Bool) (hidle : ∀ u, u ≠ t → s.pc u = .idle) (h0 : Out0 c s)
    (hn : s.handler = none) (hp : p = .idle ∨ p = .bindQ) : Inv c ((s.socket ok).go t p) := by
  have hpi : ∀ s', Out0 c s' → Fresh s' → PI c s' p := by
    intro s' h' h''
    rcases hp with rfl | rfl
    · trivial
    · exact ⟨h', h''⟩
  have hw : waiting s = [] := by unfold waiting; rw [hn]
  unfold St.socket
  cases ok with
  | false =>
    have e : ({ s with handler := none } : St) = s := by rw [← hn]
    simp only [Bool.false_eq_true, if_false, e]
    exact h.goes (hpi s h0 (fun fd hf => by rw [hn] at hf; cases hf)) (Or.inl h0)
  | true =>
    simp only [if_true]
    refine Inv.goes' (s := s) rfl hidle ?_ ?_ ?_ h.len ?_ ?_ (hpi _ h0 ?_) (fun _ => h0)
    · intro g hg
      by_cases he : g = s.next
      · subst he; rfl
      · simp only [St.put, he, if_false] at hg
        have := h.live g hg
        rw [hn] at this; cases this
    · intro g hg
      cases hg
      simp [St.put]
    · intro g
      by_cases he : g = s.next
      · subst he; simp [St.put]
      · simp only [St.put, he, if_false]; exact h.unb g
    · have := h.sub
      rw [hw] at this
      simpa [waiting, St.put] using this
    · have := h.perm
      rw [hw] at this
      simpa [waiting, St.put] using this
    · intro fd hf
      cases hf
      simp [St.put]

theorem Inv.stepT {c : Cfg} (hN : 2 ≤ c.N) {s : St} (h : Inv c s) {t : Nat} (ok : Bool) (hidle : s.pc t ≠ .idle → ∀ u, u ≠ t → s.pc u = .idle) :
    Inv c (stepT c s t ok) := by
  have hti := h.pcs t
  unfold UdpIn.stepT
  cases hpc : s.pc t with
  | idle => exact h
  | able =>
    rw [hpc] at hti
    simp only
    split
    · exact h.goes (p := .openQ true) hti (Or.inl hti)
    · exact h.goes (p := .shut) hti (Or.inl hti)
  | shut => rw [hpc] at hti; exact h.close (hidle (by rw [hpc]; simp)) hti (Or.inl rfl)
  | openQ inp =>
    rw [hpc] at hti
    simp only
    split
    · rename_i hn; exact h.goes (p := .time inp) ⟨hti, hn⟩ (Or.inl hti)
    · split
      · exact h.goes (p := .readQ) hti (Or.inl hti)
      · exact h.goes (p := .idle) trivial (Or.inl hti)
  | time inp =>
    rw [hpc] at hti
    simp only
    split
    · split
      · exact h.goes (p := .bindQ) ⟨hti.1, fun fd hf => by rw [hti.2] at hf; cases hf⟩ (Or.inl hti.1)
      · exact h.goes (p := .idle) trivial (Or.inl hti.1)
    · exact h.goes (p := .stamp inp) hti (Or.inl hti.1)
  | stamp inp =>
    rw [hpc] at hti
    exact Inv.goes' (s := s) (s' := { s with openTs := s.now, tries := s.tries ++ [s.now] }) (p := .sock inp) rfl (hidle (by rw [hpc]; simp))
      h.live h.isLive h.unb h.len h.sub h.perm hti (fun _ => hti.1)
  | sock inp =>
    rw [hpc] at hti
    simp only
    split
    · exact h.socket ok (hidle (by rw [hpc]; simp)) hti.1 hti.2 (Or.inr rfl)
    · exact h.socket ok (hidle (by rw [hpc]; simp)) hti.1 hti.2 (Or.inl rfl)
  | bindQ =>
    rw [hpc] at hti
    simp only
    split
    · exact h.goes (p := .readQ) hti.1 (Or.inl hti.1)
    · exact h.goes (p := .bind) hti (Or.inl hti.1)
  | bind =>
    rw [hpc] at hti
    simp only
    unfold St.bindFd
    cases hh : s.handler with
    | none => exact h.goes (p := .undo) hti (Or.inl hti.1)
    | some fd =>
      simp only
      have hw : waiting s = (s.socks fd).queue := by unfold waiting; rw [hh]
      have hq := h.unb fd (hti.2 fd hh)
      by_cases hc : (ok && (s.socks fd).bound.isNone) = true
      · rw [if_pos hc]
        refine Inv.goes' (s := s) (s' := s.put fd { s.socks fd with bound := some s.addr }) (p := .readQ) rfl (hidle (by rw [hpc]; simp))
          ?_ ?_ ?_ h.len ?_ ?_ hti.1 (fun _ => hti.1)
        · intro g hg
          by_cases he : g = fd
          · subst he; exact hh
          · simp only [St.put, he, if_false] at hg; exact h.live g hg
        · intro g hg
          by_cases he : g = fd
          · subst he; simpa [St.put] using h.isLive g hg
          · simp only [St.put, he, if_false]; exact h.isLive g hg
        · intro g
          by_cases he : g = fd
          · subst he; simp [St.put]
          · simp only [St.put, he, if_false]; exact h.unb g
        · have := h.sub
          rw [hw] at this
          simpa [waiting, St.put, hh] using this
        · have := h.perm
          rw [hw] at this
          simpa [waiting, St.put, hh] using this
      · rw [if_neg hc]
        exact h.goes (p := .undo) hti (Or.inl hti.1)
  | undo => rw [hpc] at hti; exact h.close (hidle (by rw [hpc]; simp)) hti.1 (Or.inr rfl)
  | readQ =>
    rw [hpc] at hti
    simp only
    split
    · exact h.goes (p := .idle) trivial (Or.inl hti)
    · exact h.goes (p := .init 0) hti (Or.inl hti)
  | init i =>
    rw [hpc] at hti
    simp only
    split
    · refine Inv.goes' (s := s) (s' := { s with content := over s.content ['\x00'], clen := 0 }) (p := .recv i) rfl (hidle (by rw [hpc]; simp))
        h.live h.isLive h.unb ?_ h.sub h.perm hti (fun _ => hti)
      show (over s.content ['\x00']).length = c.N
      rw [over_length (by simp only [List.length_cons, List.length_nil, h.len]; omega)]
      exact h.len
    · exact h.goes (p := .idle) trivial (Or.inl hti)
  | recv i =>
    rw [hpc] at hti
    simp only
    unfold St.recvFd
    cases hh : s.handler with
    | none => exact h.goes (p := .len i 0) (Or.inl ⟨rfl, hti⟩) (Or.inl hti)
    | some fd =>
      simp only
      cases hq : (s.socks fd).queue with
      | nil => exact h.goes (p := .len i 0) (Or.inl ⟨rfl, hti⟩) (Or.inl hti)
      | cons d q =>
        simp only
        have hw : waiting s = d :: q := by unfold waiting; rw [hh]; exact hq
        have hti : s.out = gramTexts c.N s.taken := hti
        have hle : (d.take c.N).length ≤ s.content.length := by rw [h.len, List.length_take]; omega
        have hPI : ∀ s' : St, s'.taken = s.taken ++ [d] → s'.out = s.out → s'.content = over s.content (d.take c.N) →
            Hand c s' (d.take c.N).length := by
          intro s' e1 e2 e3
          by_cases hd : d = []
          · subst hd
            refine Or.inl ⟨by simp, ?_⟩
            unfold Out0
            rw [e1, e2, gramTexts_empty]; exact hti
          · refine Or.inr ⟨s.taken, d, e1, hd, e2.trans hti, rfl, ?_⟩
            rw [e3]
            unfold over
            rw [List.take_append_of_le_length (Nat.le_refl _), List.take_length]
        refine Inv.goes' (s := s) (s' := { s.put fd { s.socks fd with queue := q } with content := over s.content (d.take c.N), taken := s.taken ++ [d] })
          (p := .len i _) rfl (hidle (by rw [hpc]; simp)) ?_ ?_ ?_ ?_ ?_ ?_ (hPI _ rfl rfl rfl) (fun e => by cases e)
        · intro g hg
          by_cases he : g = fd
          · subst he; exact hh
          · simp only [St.put, he, if_false] at hg; exact h.live g hg
        · intro g hg
          by_cases he : g = fd
          · subst he; simpa [St.put] using h.isLive g hg
          · simp only [St.put, he, if_false]; exact h.isLive g hg
        · intro g
          by_cases he : g = fd
          · subst he
            simp only [St.put, if_true]
            intro hb
            have := h.unb g hb
            rw [hq] at this; cases this
          · simp only [St.put, he, if_false]; exact h.unb g
        · show (over s.content (d.take c.N)).length = c.N
          rw [over_length hle]; exact h.len
        · have := h.sub
          rw [hw] at this
          simpa [waiting, St.put, hh] using this
        · have := h.perm
          rw [hw] at this
          simpa [waiting, St.put, hh] using this
  | len i n =>
    rw [hpc] at hti
    simp only
    exact Inv.goes' (s := s) (s' := { s with clen := n }) (p := .fix i) rfl (hidle (by rw [hpc]; simp))
      h.live h.isLive h.unb h.len h.sub h.perm hti (fun e => by cases e)
  | fix i =>
    rw [hpc] at hti
    have hti : Hand c s s.clen := hti
    simp only
    split
    · rename_i he
      refine Inv.goes' (s := s) (s' := { s with content := (s.content.set (c.N - 2) '\n').set (c.N - 1) '\x00' }) (p := .test i) rfl
        (hidle (by rw [hpc]; simp)) h.live h.isLive h.unb ?_ h.sub h.perm ?_ (fun e => by cases e)
      · simp [h.len]
      · rcases hti with ⟨h1, _⟩ | ⟨pre, d, e1, e2, e3, e4, e5⟩
        · omega
        · refine Or.inr ⟨pre, d, e1, e2, e3, by show 0 < s.clen; omega, ?_⟩
          show ((s.content.set (c.N - 2) '\n').set (c.N - 1) '\x00').take s.clen = gramText c.N d
          have hd : c.N ≤ d.length := by rw [e4, List.length_take] at he; omega
          have hfull : s.content = d.take c.N := by
            rw [← e5, he, List.take_of_length_le (by rw [h.len]; exact Nat.le_refl _)]
          unfold gramText
          rw [if_neg (by omega), he, List.take_of_length_le (by simp [h.len]), hfull]
          have hl2 : (d.take (c.N - 2)).length = c.N - 2 := by rw [List.length_take]; omega
          apply List.ext_getElem?
          intro k
          simp only [List.getElem?_set, List.getElem?_append, List.length_set, List.length_take, List.getElem?_take]
          by_cases h1 : k = c.N - 1
          · subst h1
            rw [if_pos rfl, if_pos (by omega), if_neg (by omega), show c.N - 1 - min (c.N - 2) d.length = 1 by omega]; rfl
          · rw [if_neg (by omega)]
            by_cases h2 : k = c.N - 2
            · subst h2
              rw [if_pos rfl, if_pos (by omega), if_neg (by omega), show c.N - 2 - min (c.N - 2) d.length = 0 by omega]; rfl
            · rw [if_neg (by omega)]
              by_cases h3 : k < c.N - 2
              · rw [if_pos (by omega), if_pos (by omega), if_pos (by omega)]
              · rw [if_neg (by omega), if_neg (by omega)]
                have : 2 ≤ k - min (c.N - 2) d.length := by omega
                simp only [List.getElem?_cons]
                rw [if_neg (by omega), if_neg (by omega)]; rfl
    · rename_i he
      refine h.goes (p := .test i) ?_ (Or.inr (by simp))
      rcases hti with h1 | ⟨pre, d, e1, e2, e3, e4, e5⟩
      · exact Or.inl h1
      · have hpos : 0 < d.length := List.length_pos_iff.mpr e2
        have hl : d.length < c.N := by rw [e4, List.length_take] at he; omega
        refine Or.inr ⟨pre, d, e1, e2, e3, by rw [e4, List.length_take]; omega, ?_⟩
        unfold gramText
        rw [if_pos hl, e5, List.take_of_length_le (by omega)]
  | test i =>
    rw [hpc] at hti
    have hti : Hand2 c s := hti
    simp only
    split
    · rename_i he
      rcases hti with h1 | ⟨pre, d, _, _, _, e4, _⟩
      · exact h.goes (p := .idle) trivial (Or.inl h1.2)
      · omega
    · rename_i he
      exact h.goes (p := .give i) ⟨hti, he⟩ (Or.inr (by simp))
  | give i =>
    rw [hpc] at hti
    obtain ⟨hti, hne⟩ : Hand2 c s ∧ s.clen ≠ 0 := hti
    simp only
    rcases hti with h1 | ⟨pre, d, e1, e2, e3, e4, e5⟩
    · exact absurd h1.1 hne
    · have ho : s.out ++ [s.content.take s.clen] = gramTexts c.N s.taken := by rw [e1, gramTexts_snoc _ _ _ e2, e3, e5]
      exact Inv.goes' (s := s) (s' := { s with out := s.out ++ [s.content.take s.clen] }) (p := .init (i + 1)) rfl
        (hidle (by rw [hpc]; simp)) h.live h.isLive h.unb h.len h.sub h.perm ho (fun _ => ho)

/-- At most one thread is inside. -/
def Alone (s : St) : Prop := ∀ t u, s.pc t ≠ .idle → s.pc u ≠ .idle → t = u

theorem Inv.same {c : Cfg} {s s' : St} (h : Inv c s) (h1 : s'.socks = s.socks) (h2 : s'.handler = s.handler) (h3 : s'.content = s.content)
    (h4 : s'.taken = s.taken) (h5 : s'.kept = s.kept) (h6 : s'.gone = s.gone) (h7 : s'.pc = s.pc) (h8 : s'.out = s.out) (h9 : s'.clen = s.clen) :
    Inv c s' := by
  have hw : waiting s' = waiting s := by unfold waiting; rw [h2, h1]
  refine ⟨?_, ?_, ?_, ?_, ?_, ?_, ?_, ?_⟩
  · rw [h1, h2]; exact h.live
  · rw [h1, h2]; exact h.isLive
  · rw [h1]; exact h.unb
  · rw [h3]; exact h.len
  · rw [h4, hw, h5]; exact h.sub
  · rw [h4, hw, h5, h6]; exact h.perm
  · intro t
    rw [h7]
    have := h.pcs t
    revert this
    cases s.pc t <;> simp only [PI, Out0, Hand, Hand2, Fresh, h1, h2, h3, h4, h8, h9] <;> exact id
  · rw [h7]; unfold Out0; rw [h4, h8]; exact h.idle

theorem Inv.step {c : Cfg} (hN : 2 ≤ c.N) {s : St} (h : Inv c s) (e : Ev) (ha : Alone s) (ha' : Alone (step c s e)) : Inv c (step c s e) := by
  have come : ∀ t p, p ≠ PC.idle → (∀ s', Out0 c s' → PI c s' p) → s.pc t = .idle → Alone (s.go t p) → Inv c (s.go t p) := by
    intro t p hp hpi ht hal
    have hall : ∀ u, s.pc u = .idle := by
      intro u
      apply Classical.byContradiction
      intro hu
      have hut : u ≠ t := fun e => hu (e ▸ ht)
      exact hut (hal u t (by simp [hut, hu]) (by simp [hp]))
    exact h.goes (hpi s (h.idle hall)) (Or.inl (h.idle hall))
  cases e with
  | enter t =>
    simp only [UdpIn.step] at ha' ⊢
    split
    · rename_i ht; rw [if_pos ht] at ha'; exact come t .able (by simp) (fun _ h => h) ht ha'
    · exact h
  | send t =>
    simp only [UdpIn.step] at ha' ⊢
    split
    · rename_i ht; rw [if_pos ht] at ha'; exact come t (.openQ false) (by simp) (fun _ h => h) ht.1 ha'
    · exact h
  | run t ok =>
    refine h.stepT hN ok ?_
    intro ht u hu
    apply Classical.byContradiction
    intro hne
    exact hu (ha u t hne ht)
  | able b => exact h.same rfl rfl rfl rfl rfl rfl rfl rfl rfl
  | addr a => exact h.same rfl rfl rfl rfl rfl rfl rfl rfl rfl
  | clock n => exact h.same rfl rfl rfl rfl rfl rfl rfl rfl rfl
  | arrive fd a d =>
    simp only [UdpIn.step]
    split
    · rename_i htk
      have hl : (s.socks fd).live = true := by
        unfold Sock.takes at htk; simp only [Bool.and_eq_true] at htk; exact htk.1
      have hb : (s.socks fd).bound ≠ none := by
        intro hb; unfold Sock.takes at htk; rw [hb] at htk; simp at htk
      have hh := h.live fd hl
      have hw : waiting s = (s.socks fd).queue := by unfold waiting; rw [hh]
      obtain ⟨s', hs'⟩ : ∃ s' : St, s' = { s.put fd { s.socks fd with queue := (s.socks fd).queue ++ [d] } with kept := s.kept ++ [d] } := ⟨_, rfl⟩
      have hsk : ∀ g, s'.socks g = if g = fd then { s.socks fd with queue := (s.socks fd).queue ++ [d] } else s.socks g := by
        intro g; rw [hs']; rfl
      have hbd : ∀ g, (s'.socks g).bound = (s.socks g).bound := by
        intro g; rw [hsk]; split
        · rename_i e; rw [e]
        · rfl
      have hlv : ∀ g, (s'.socks g).live = (s.socks g).live := by
        intro g; rw [hsk]; split
        · rename_i e; rw [e]
        · rfl
      have hw' : waiting s' = waiting s ++ [d] := by
        rw [hw]; unfold waiting
        rw [show s'.handler = some fd by rw [hs']; exact hh]
        simp [hsk]
      rw [← hs']
      refine ⟨?_, ?_, ?_, ?_, ?_, ?_, ?_, ?_⟩
      · intro g; rw [hlv, hs']; exact h.live g
      · intro g; rw [hlv, hs']; exact h.isLive g
      · intro g
        rw [hbd]
        intro hg
        have hne : g ≠ fd := fun e => hb (e ▸ hg)
        rw [hsk, if_neg hne]
        exact h.unb g hg
      · rw [hs']; exact h.len
      · rw [hw', show s'.taken = s.taken by rw [hs']; rfl, show s'.kept = s.kept ++ [d] by rw [hs'], ← List.append_assoc]
        exact h.sub.append (List.Sublist.refl _)
      · rw [hw', show s'.taken = s.taken by rw [hs']; rfl, show s'.kept = s.kept ++ [d] by rw [hs'], show s'.gone = s.gone by rw [hs']; rfl]
        have := h.perm
        refine (List.Perm.append_right [d] this).trans ?_
        simp only [List.append_assoc]
        exact List.Perm.append_left _ (List.Perm.append_left _ List.perm_append_comm)
      · intro t
        have := h.pcs t
        rw [show s'.pc = s.pc by rw [hs']; rfl]
        have e1 : s'.out = s.out := by rw [hs']; rfl
        have e2 : s'.taken = s.taken := by rw [hs']; rfl
        have e3 : s'.content = s.content := by rw [hs']; rfl
        have e4 : s'.clen = s.clen := by rw [hs']; rfl
        have e5 : s'.handler = s.handler := by rw [hs']; rfl
        revert this
        cases s.pc t <;> simp only [PI, Out0, Hand, Hand2, Fresh, hbd, e1, e2, e3, e4, e5] <;> exact id
      · have := h.idle
        rw [show s'.pc = s.pc by rw [hs']; rfl]
        rw [hs']; exact this
    · exact h

theorem Single.head {c : Cfg} {s : St} {es : List Ev} (h : Single c s es) : Alone s := by
  cases es with
  | nil => exact h
  | cons => exact h.1

theorem Inv.run {c : Cfg} (hN : 2 ≤ c.N) : ∀ {es : List Ev} {s : St}, Inv c s → Single c s es → Inv c (run c s es) := by
  intro es
  induction es with
  | nil => intro s h _; exact h
  | cons e es ih => intro s h hs; exact ih (h.step hN e hs.1 hs.2.head) hs.2

theorem Inv.begin (c : Cfg) (able : Bool) (addr : Addr) (ts now : Int) : Inv c (begin c able addr ts now) :=
  ⟨fun _ h => by simp [UdpIn.begin] at h, fun _ h => by simp [UdpIn.begin] at h, fun _ _ => rfl, by simp [UdpIn.begin], List.Sublist.refl _,
    List.Perm.refl _, fun _ => trivial, fun _ => rfl⟩

end FNLog.UdpIn
