import Verif.Proof.FlushCrew

/-! # Who has to flush what -/

namespace FNLog
open Spec Ring

/-- Inside the loop of EnterProcChannel in which `flush_count` counts (fn_channel.h 104-190). -/
def inRound : PC Piece → Bool
  | .cLoad | .cWrite _ | .cCas _ | .cDisp _ | .cClear _ | .cStat _ | .cBytes _ | .rLoad | .rProc _ | .rMark _ | .rCas _
  | .cEnd | .cSet => true
  | _ => false

/-- Between line 128 and line 172. -/
def counted : PC Piece → Nat
  | .rLoad | .rProc _ | .rMark _ | .rCas _ => 1
  | _ => 0

/-- The record being dispatched has been at device `j` and is not yet counted. -/
def owing (pos j : Nat) : PC Piece → Nat
  | .cDisp _ => if j < pos then 1 else 0
  | .cClear _ | .cStat _ | .cBytes _ => 1
  | _ => 0

/-- The records a thread may have in the buffer of device `j`. -/
def allowed (N count pos j : Nat) (p : PC Piece) : FlushPc → Nat
  | .off => count + owing pos j p
  | .look i => if i ≤ j then N + 1 else 0
  | .call i _ => if i ≤ j then N + 1 else 0

/-- The number of records a thread has in a buffer. -/
def lagOf (b : Chunks) (t : Nat) : Nat := ((b.map Prod.fst).filter (· == t)).length

theorem lagOf_sub {a b : Chunks} (h : (a.map Prod.fst).Sublist (b.map Prod.fst)) (t : Nat) : lagOf a t ≤ lagOf b t :=
  (h.filter _).length_le

theorem lagOf_nil (t : Nat) : lagOf [] t = 0 := rfl

theorem lagOf_more {a b : Chunks} {u : Nat} (h : (a.map Prod.fst).Sublist (b.map Prod.fst ++ [u])) (t : Nat) :
    lagOf a t ≤ lagOf b t + if u = t then 1 else 0 := by
  have := (h.filter (· == t)).length_le
  unfold lagOf
  rw [List.filter_append, List.length_append] at this
  by_cases e : u = t
  · simpa [e] using this
  · simpa [e] using this

/-- The bookkeeping of flushes. -/
structure Tidy (B : Stdio) (f : FCrew) : Prop where
  look : ∀ t, f.fl t ≠ .off → (f.crew.ring.pc t = .cLoad ∨ f.crew.ring.pc t = .cLoop) ∧ f.count t = 0
  cnt : ∀ t, f.count t ≠ 0 → inRound (f.crew.ring.pc t) = true
  bound : ∀ t, f.count t ≤ B.queue + counted (f.crew.ring.pc t)
  lag : ∀ t j, lagOf (f.buf j) t ≤ allowed B.queue (f.count t) (f.crew.pos t) j (f.crew.ring.pc t) (f.fl t)

theorem stepT_pc_other (c : Cfg Piece) (s : St Piece) {t u : Nat} (h : u ≠ t) : (stepT c s t).pc u = s.pc u := by
  unfold Ring.stepT
  split <;> (repeat' split) <;> simp [h]

/-- A step of the ring and `flush_count`. -/
theorem flushAfter_ok (B : Stdio) (c : Cfg Piece) (s : St Piece) (t n pos : Nat)
    (h1 : n ≠ 0 → inRound (s.pc t) = true) (h2 : n ≤ B.queue + counted (s.pc t)) :
    let q := (stepT c s t).pc t
    let r := flushAfter B n (s.pc t) q
    (r.2 ≠ .off → (q = .cLoad ∨ q = .cLoop) ∧ r.1 = 0) ∧ (r.1 ≠ 0 → inRound q = true) ∧
    r.1 ≤ B.queue + counted q ∧
    ∀ j pos', (∀ k, s.pc t = .cDisp k → pos' = pos ∨ q = .cClear k) → allowed B.queue n pos j (s.pc t) .off ≤ allowed B.queue r.1 pos' j q r.2 := by
  unfold Ring.stepT
  split <;> rename_i hpc <;> rw [hpc] at h1 h2 <;> (repeat' split)
  all_goals simp [hpc, flushAfter, inRound, counted, allowed, owing] at h1 h2 ⊢
  all_goals first
    | done
    | omega
    | exact ⟨h2, fun j => by split <;> omega⟩
    | (split <;> simp <;> omega)

/-- Bookkeeping, what the streams are, and the state without buffers. -/
structure FInvFrom (S : Setup) (B : Stdio) (o : OutSt) (b : Nat) (prior : List (Nat × Head × List Char)) (f : FCrew)
    (s : Crew) : Prop where
  crew : CrewFrom S o b prior s
  rel : FRel S f s
  tidy : Tidy B f
  dev : ∀ t j g, f.fl t = .call j g → ∃ d, S.channel.devices[j]? = some d ∧ d.outType = .file
  live : ∀ t j g, f.fl t = .call j g → (f.crew.out.dev j).handle ≠ none ∧ f.gen j = g

/-- A session on a fresh ring. -/
abbrev FInv (S : Setup) (B : Stdio) (o : OutSt) (f : FCrew) (s : Crew) : Prop := FInvFrom S B o 0 [] f s

/-- The part of the state outside of the devices, in the steps that are not visits of devices. -/
theorem act_out {S : Setup} {s s' : Crew} {e : Act} (h : act S s e = some s')
    (hv : ∀ t k, e = .run t → s.ring.pc t = .cDisp k → S.channel.devices[s.pos t]? = none) (x : OutSt) :
    s'.out = s.out ∧ act S { s with out := x } e = some { s' with out := x } := by
  cases e with
  | started | closing | stop | dates =>
    simp only [act] at h ⊢
    obtain rfl := Option.some.inj h
    exact ⟨rfl, rfl⟩
  | log t a ops =>
    simp only [act, beginLog] at h ⊢
    split at h
    · rename_i hpc
      split at h
      · rename_i hr
        rw [if_pos hr]
        simp only [Option.bind_eq_bind, Option.bind_eq_some_iff] at h ⊢
        obtain ⟨y, h1, h⟩ := h
        obtain rfl := Option.some.inj h
        exact ⟨rfl, y, h1, rfl⟩
      · rename_i hr
        rw [if_neg hr]
        obtain rfl := Option.some.inj h
        exact ⟨rfl, rfl⟩
    · rename_i hpc
      obtain rfl := Option.some.inj h
      exact ⟨rfl, rfl⟩
  | run t =>
    simp only [act, runThread] at h ⊢
    cases hpc : s.ring.pc t with
    | cDisp k =>
      rw [hpc] at h
      simp only [hv t k rfl hpc] at h ⊢
      obtain rfl := Option.some.inj h
      exact ⟨rfl, rfl⟩
    | _ =>
      rw [hpc] at h
      simp only at h ⊢
      obtain rfl := Option.some.inj h
      exact ⟨rfl, rfl⟩

/-- Events other than steps of threads. -/
theorem act_quiet {S : Setup} {s s' : Crew} {e : Act} (h : act S s e = some s') (he : ∀ t, e ≠ .run t) :
    s'.pos = s.pos ∧ s'.visits = s.visits ∧
    ∀ u, s'.ring.pc u = s.ring.pc u ∨ (s.ring.pc u = .idle ∧ ∃ i b, s'.ring.pc u = .hChk i b) := by
  cases e with
  | run t => exact absurd rfl (he t)
  | dates t c =>
    simp only [act] at h
    obtain rfl := Option.some.inj h
    exact ⟨rfl, rfl, fun _ => Or.inl rfl⟩
  | started | closing | stop =>
    simp only [act, Ring.step] at h
    obtain rfl := Option.some.inj h
    refine ⟨rfl, rfl, fun u => Or.inl ?_⟩
    first
      | rfl
      | ((repeat' split) <;> rfl)
  | log t a ops =>
    simp only [act, beginLog] at h
    split at h
    · rename_i hpc
      split at h
      · rename_i hr
        simp only [Option.bind_eq_bind, Option.bind_eq_some_iff] at h
        obtain ⟨y, _, h⟩ := h
        obtain rfl := Option.some.inj h
        refine ⟨rfl, rfl, fun u => ?_⟩
        show (holdFor S.cfg t s.ring y.1).pc u = _ ∨ _ ∧ ∃ i b, (holdFor S.cfg t s.ring y.1).pc u = _
        cases y.1 with
        | none => exact Or.inl rfl
        | some b =>
          simp only [holdFor, Ring.step]
          simp only [hpc]
          rw [if_pos hr]
          by_cases e : u = t
          · subst e
            exact Or.inr ⟨hpc, 0, b, by simp⟩
          · exact Or.inl (by simp [e])
      · obtain rfl := Option.some.inj h
        exact ⟨rfl, rfl, fun _ => Or.inl rfl⟩
    · obtain rfl := Option.some.inj h
      exact ⟨rfl, rfl, fun _ => Or.inl rfl⟩

theorem FRel.crew_eq {S : Setup} {f : FCrew} {s : Crew} (h : FRel S f s) : f.crew = { s with out := f.crew.out } := by
  have h1 := h.ring; have h2 := h.caches; have h3 := h.pos; have h4 := h.made; have h5 := h.visits
  obtain ⟨⟨r, o, ca, p, m, v⟩, _, _, _, _⟩ := f
  obtain ⟨r', o', ca', p', m', v'⟩ := s
  simp only at h1 h2 h3 h4 h5
  subst h1 h2 h3 h4 h5
  rfl

/-- A step that is no visit of a device. -/
theorem FRel.step {S : Setup} {f f' : FCrew} {s s' : Crew} (h : FRel S f s) (ho : s'.out = s.out)
    (hc : f'.crew = { s' with out := f.crew.out }) (hb : f'.buf = f.buf) (hg : f'.gen = f.gen) : FRel S f' s' where
  ring := by rw [hc]
  caches := by rw [hc]
  pos := by rw [hc]
  made := by rw [hc]
  visits := by rw [hc]
  dev := by rw [hc, ho]; exact h.dev
  screen := by rw [hc, ho]; exact h.screen
  net := by rw [hc, ho]; exact h.net
  files := by
    intro j d hj hd
    have e : f'.file j = f.file j := by unfold FCrew.file; rw [hc, hb, hg]
    rw [e, ho]
    exact h.files j d hj hd
  foreign := by
    intro p hp
    rw [hc, ho]
    exact h.foreign p hp
  noBuf := by rw [hb]; exact h.noBuf

/-- A visit of a device and the bookkeeping. -/
theorem Tidy.visit {B : Stdio} {f f' : FCrew} (h : Tidy B f) {t k : Nat} (hpc : f.crew.ring.pc t = .cDisp k)
    (hoff : f.fl t = .off) (hr : f'.crew.ring = f.crew.ring) (hp : f'.crew.pos = upd f.crew.pos t (f.crew.pos t + 1))
    (hc : f'.count = f.count) (hf : f'.fl = f.fl) (hb : ∀ i, i ≠ f.crew.pos t → f'.buf i = f.buf i)
    (hw : ((f'.buf (f.crew.pos t)).map Prod.fst).Sublist ((f.buf (f.crew.pos t)).map Prod.fst ++ [t])) : Tidy B f' where
  look := by rw [hf, hr, hc]; exact h.look
  cnt := by rw [hr, hc]; exact h.cnt
  bound := by rw [hr, hc]; exact h.bound
  lag := by
    intro u i
    have hl := h.lag u i
    have hm := lagOf_more hw u
    rw [hr, hc, hf, hp]
    by_cases e : u = t
    · subst e
      rw [hpc, hoff] at hl ⊢
      simp only [allowed, owing, upd, if_true] at hl hm ⊢
      by_cases ei : i = f.crew.pos u
      · subst ei
        rw [if_neg (Nat.lt_irrefl _)] at hl
        rw [if_pos (Nat.lt_succ_self _)]
        omega
      · rw [hb i ei]
        refine Nat.le_trans hl ?_
        split
        · rw [if_pos (by omega)]; exact Nat.le_refl _
        · exact Nat.le_add_right _ _
    · have eu : upd f.crew.pos t (f.crew.pos t + 1) u = f.crew.pos u := by simp [upd, e]
      rw [eu]
      refine Nat.le_trans ?_ hl
      by_cases ei : i = f.crew.pos t
      · subst ei
        rw [if_neg (Ne.symm e)] at hm
        exact hm
      · rw [hb i ei]; exact Nat.le_refl _

/-- Events that are no steps of threads. -/
theorem Tidy.quiet {B : Stdio} {f f' : FCrew} (h : Tidy B f) (hp : f'.crew.pos = f.crew.pos) (hc : f'.count = f.count)
    (hf : f'.fl = f.fl) (hb : f'.buf = f.buf)
    (hpc : ∀ u, f'.crew.ring.pc u = f.crew.ring.pc u ∨
      (f.crew.ring.pc u = .idle ∧ ∃ i b, f'.crew.ring.pc u = .hChk i b)) : Tidy B f' where
  look := by
    intro u hu
    rw [hf] at hu
    obtain ⟨h1, h2⟩ := h.look u hu
    rw [hc]
    rcases hpc u with e | ⟨e, _⟩
    · rw [e]; exact ⟨h1, h2⟩
    · rw [e] at h1; rcases h1 with h1 | h1 <;> cases h1
  cnt := by
    intro u hu
    rw [hc] at hu
    have := h.cnt u hu
    rcases hpc u with e | ⟨e, _⟩
    · rw [e]; exact this
    · rw [e] at this; cases this
  bound := by
    intro u
    have := h.bound u
    rw [hc]
    rcases hpc u with e | ⟨e, i, b, e'⟩
    · rw [e]; exact this
    · rw [e] at this; rw [e']; exact this
  lag := by
    intro u j
    have := h.lag u j
    rw [hp, hc, hf, hb]
    rcases hpc u with e | ⟨e, i, b, e'⟩
    · rw [e]; exact this
    · rw [e] at this
      rw [e']
      cases hx : f.fl u with
      | off => rw [hx] at this; exact this
      | look i =>
        have := h.look u (by rw [hx]; nofun)
        rw [e] at this
        rcases this.1 with h1 | h1 <;> cases h1
      | call i g =>
        have := h.look u (by rw [hx]; nofun)
        rw [e] at this
        rcases this.1 with h1 | h1 <;> cases h1

/-- A step of a thread that is no visit. -/
theorem Tidy.move {S : Setup} {B : Stdio} {f : FCrew} (h : Tidy B f) {t : Nat} (hoff : f.fl t = .off) {c : Crew}
    (hr : c.ring = stepT S.cfg f.crew.ring t) (hpo : ∀ u, u ≠ t → c.pos u = f.crew.pos u)
    (hpt : ∀ k, f.crew.ring.pc t = .cDisp k → c.pos t = f.crew.pos t ∨ c.ring.pc t = .cClear k) :
    Tidy B (f.moved B t c) := by
  obtain ⟨a1, a2, a3, a4⟩ := flushAfter_ok B S.cfg f.crew.ring t (f.count t) (f.crew.pos t) (h.cnt t) (h.bound t)
  rw [← hr] at a1 a2 a3 a4
  have hot : ∀ u, u ≠ t → c.ring.pc u = f.crew.ring.pc u := fun u hu => by rw [hr]; exact stepT_pc_other _ _ hu
  refine ⟨fun u => ?_, fun u => ?_, fun u => ?_, fun u j => ?_⟩
  · by_cases e : u = t
    · subst e
      simpa [FCrew.moved, upd] using a1
    · have := h.look u
      simpa [FCrew.moved, upd, e, hot u e] using this
  · by_cases e : u = t
    · subst e
      simpa [FCrew.moved, upd] using a2
    · have := h.cnt u
      simpa [FCrew.moved, upd, e, hot u e] using this
  · by_cases e : u = t
    · subst e
      simpa [FCrew.moved, upd] using a3
    · have := h.bound u
      simpa [FCrew.moved, upd, e, hot u e] using this
  · by_cases e : u = t
    · subst e
      have hl := h.lag u j
      rw [hoff] at hl
      have := Nat.le_trans hl (a4 j (c.pos u) hpt)
      simpa [FCrew.moved, upd] using this
    · have := h.lag u j
      simpa [FCrew.moved, upd, e, hot u e, hpo u e] using this

/-- The flush loop goes on to the next device after one with an empty buffer. -/
theorem Tidy.next {B : Stdio} {f f' : FCrew} (h : Tidy B f) {t j : Nat}
    (ht : f.fl t = .look j ∨ ∃ g, f.fl t = .call j g) (hr : f'.crew.ring = f.crew.ring) (hp : f'.crew.pos = f.crew.pos)
    (hc : f'.count = f.count) (hf : f'.fl = upd f.fl t (.look (j + 1))) (hb : ∀ i, i ≠ j → f'.buf i = f.buf i)
    (he : f'.buf j = []) : Tidy B f' := by
  have hne : f.fl t ≠ .off := by rcases ht with h | ⟨_, h⟩ <;> rw [h] <;> nofun
  refine ⟨fun u hu => ?_, ?_, ?_, fun u i => ?_⟩
  · rw [hf] at hu
    rw [hr, hc]
    by_cases e : u = t
    · subst e; exact h.look u hne
    · exact h.look u (by simpa [upd, e] using hu)
  · rw [hr, hc]; exact h.cnt
  · rw [hr, hc]; exact h.bound
  · rw [hr, hp, hc, hf]
    by_cases ei : i = j
    · subst ei; rw [he, lagOf_nil]; exact Nat.zero_le _
    · rw [hb i ei]
      have hl := h.lag u i
      by_cases e : u = t
      · subst e
        have h1 : lagOf (f.buf i) u ≤ if j ≤ i then B.queue + 1 else 0 := by
          rcases ht with h | ⟨_, h⟩ <;> rw [h] at hl <;> exact hl
        simp only [upd, if_true, allowed]
        refine Nat.le_trans h1 ?_
        split
        · rw [if_pos (by omega)]; exact Nat.le_refl _
        · exact Nat.zero_le _
      · simpa [upd, e] using hl

end FNLog
