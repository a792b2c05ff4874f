import Verif.Model.FlushRound
import Verif.Proof.FlushCrew

/-! # Rounds with and without buffer -/

namespace FNLog
open Spec

section
variable {P : List Char → Prop} {E : FileEnv} {ch : Int} {d : Device} (hc : Closed P)
  (hP : ∀ ts p, fullPath E.proc (E.tm ts) E.fuel d ch = some p → P p)

include hc hP in
theorem records_sim (q : Nat) : ∀ (l : List (FileLog × Nat)) {b : BufSt} {s : FileSt} {k m m' : Nat} {s' : FileSt},
    BufRel P b s → recordsIn 0 (fun log _ => fileDevice E ch d log) id l (m, s) = some (m', s') →
    ∃ k' b', recordsIn q (fun log n => bufFileDevice E ch 0 n d log) BufSt.flush l (k, b) = some (k', b') ∧ BufRel P b' s' ∧
      (k' = 0 → b.buf = [] ∨ k ≠ 0 ∨ l ≠ [] → b'.buf = [] ∨ (k = 0 ∧ l = [])) ∧ (l = [] → k' = k ∧ b' = b) := by
  intro l
  induction l with
  | nil =>
    intro b s k m m' s' h hs
    obtain ⟨rfl, rfl⟩ := Prod.mk.inj (Option.some.inj hs)
    refine ⟨k, b, rfl, h, ?_, fun _ => ⟨rfl, rfl⟩⟩
    intro hk _
    exact Or.inr ⟨hk, rfl⟩
  | cons x l ih =>
    obtain ⟨log, n⟩ := x
    intro b s k m m' s' h hs
    simp only [recordsIn, Option.bind_eq_bind, Option.bind_eq_some_iff] at hs ⊢
    obtain ⟨s1, h1, hs⟩ := hs
    obtain ⟨b1, g1, g2, _⟩ := bufFileDevice_sim hc (hP log.ts) (t := 0) (n := n) h h1
    rw [if_pos (Nat.succ_pos _)] at hs
    by_cases hq : k + 1 > q
    · obtain ⟨f1, f2, _⟩ := g2.flush
      obtain ⟨k', b', a1, a2, a3, a4⟩ := ih (k := 0) (b := b1.flush) f1 hs
      refine ⟨k', b', ⟨b1, g1, by rw [if_pos hq]; exact a1⟩, a2, ?_, nofun⟩
      intro hk _
      rcases a3 hk (Or.inl f2) with e | ⟨_, e⟩
      · exact Or.inl e
      · rw [(a4 e).2]; exact Or.inl f2
    · obtain ⟨k', b', a1, a2, a3, a4⟩ := ih (k := k + 1) (b := b1) g2 hs
      refine ⟨k', b', ⟨b1, g1, by rw [if_neg hq]; exact a1⟩, a2, ?_, nofun⟩
      intro hk _
      rcases a3 hk (Or.inr (Or.inl (Nat.succ_ne_zero k))) with e | ⟨e, _⟩
      · exact Or.inl e
      · exact absurd e (Nat.succ_ne_zero k)

include hc hP in
theorem grams_sim (N : Nat) : ∀ (l : List (List Char × Int × Os × Nat)) {u u' : UdpBuf} {b : BufSt} {s s' : FileSt},
    BufRel P b s → gramsIn N (fun log _ => fileDevice E ch d log) l (u, s) = some (u', s') →
    ∃ b', gramsIn N (fun log n => bufFileDevice E ch 0 n d log) l (u, b) = some (u', b') ∧ BufRel P b' s' := by
  intro l
  induction l with
  | nil =>
    intro u u' b s s' h hs
    obtain ⟨rfl, rfl⟩ := Prod.mk.inj (Option.some.inj hs)
    exact ⟨b, rfl, h⟩
  | cons x l ih =>
    obtain ⟨gram, ts, os, n⟩ := x
    intro u u' b s s' h hs
    simp only [gramsIn, Option.bind_eq_bind, Option.bind_eq_some_iff] at hs ⊢
    obtain ⟨u1, h1, hs⟩ := hs
    by_cases hz : u1.len = 0
    · rw [if_pos hz] at hs
      obtain ⟨rfl, rfl⟩ := Prod.mk.inj (Option.some.inj hs)
      exact ⟨b, ⟨u1, h1, by rw [if_pos hz]⟩, h⟩
    · rw [if_neg hz] at hs
      simp only [Option.bind_eq_some_iff] at hs
      obtain ⟨c, h2, s1, h3, hs⟩ := hs
      obtain ⟨b1, g1, g2, _⟩ := bufFileDevice_sim hc (hP ts) (t := 0) (n := n) h h3
      obtain ⟨b', a1, a2⟩ := ih g2 hs
      exact ⟨b', ⟨u1, h1, by rw [if_neg hz]; simp only [Option.bind_eq_some_iff]; exact ⟨c, h2, b1, g1, a1⟩⟩, a2⟩

include hc hP in
theorem round_sim (q N : Nat) {r : Round} {u u' : UdpBuf} {b : BufSt} {s s' : FileSt} (h : BufRel P b s)
    (hs : roundIn 0 N (fun log _ => fileDevice E ch d log) id r (u, s) = some (u', s')) :
    ∃ b', roundIn q N (fun log n => bufFileDevice E ch 0 n d log) BufSt.flush r (u, b) = some (u', b') ∧ BufRel P b' s' ∧
      (r.grams = [] → r.recs ≠ [] ∨ b.buf = [] → b'.buf = []) := by
  unfold roundIn at hs ⊢
  simp only [Option.bind_eq_bind, Option.bind_eq_some_iff] at hs ⊢
  obtain ⟨⟨m, s1⟩, h1, hs⟩ := hs
  obtain ⟨k, b1, a1, a2, a3, a4⟩ := records_sim hc hP q r.recs (k := 0) h h1
  simp only [id_eq, ite_self] at hs
  have hb : BufRel P (if k ≠ 0 then b1.flush else b1) s1 := by split; exact a2.flush.1; exact a2
  obtain ⟨b', c1, c2⟩ := grams_sim hc hP N r.grams hb hs
  refine ⟨b', ⟨(k, b1), a1, c1⟩, c2, ?_⟩
  intro hg hr
  rw [hg] at c1
  obtain ⟨_, rfl⟩ := Prod.mk.inj (Option.some.inj c1)
  by_cases hk : k = 0
  · rw [if_neg (by simpa using hk)]
    rcases hr with e | e
    · rcases a3 hk (Or.inr (Or.inr e)) with e' | ⟨_, e'⟩
      · exact e'
      · exact absurd e' e
    · rcases a3 hk (Or.inl e) with e' | ⟨_, e'⟩
      · exact e'
      · rw [(a4 e').2]; exact e
  · rw [if_pos hk]
    exact a2.flush.2.1

end

theorem roundsIn_append {σ : Type} (q N : Nat) (dev : FileLog → Nat → σ → Option σ) (fl : σ → σ) (rs rs' : List Round)
    (s : UdpBuf × σ) : roundsIn q N dev fl (rs ++ rs') s = (roundsIn q N dev fl rs s).bind (roundsIn q N dev fl rs') := by
  induction rs generalizing s with
  | nil => rfl
  | cons r rs ih =>
    simp only [List.cons_append, roundsIn, Option.bind_eq_bind]
    cases roundIn q N dev fl r s with
    | none => rfl
    | some s' => exact ih s'

theorem rounds_sim {P : List Char → Prop} {E : FileEnv} {ch : Int} {d : Device} (hc : Closed P)
    (hP : ∀ ts p, fullPath E.proc (E.tm ts) E.fuel d ch = some p → P p) (q N : Nat) : ∀ (rs : List Round) {u u' : UdpBuf}
    {b : BufSt} {s s' : FileSt}, BufRel P b s → plainRounds E ch d N rs (u, s) = some (u', s') →
    ∃ b', bufRounds E ch d q N rs (u, b) = some (u', b') ∧ BufRel P b' s' ∧
      ((∀ r ∈ rs, r.grams = []) → b.buf = [] → b'.buf = []) := by
  intro rs
  induction rs with
  | nil =>
    intro u u' b s s' h hs
    obtain ⟨rfl, rfl⟩ := Prod.mk.inj (Option.some.inj hs)
    exact ⟨b, rfl, h, fun _ hb => hb⟩
  | cons r rs ih =>
    intro u u' b s s' h hs
    unfold plainRounds at hs
    unfold bufRounds
    simp only [roundsIn, Option.bind_eq_bind, Option.bind_eq_some_iff] at hs ⊢
    obtain ⟨⟨u1, s1⟩, h1, hs⟩ := hs
    obtain ⟨b1, g1, g2, g3⟩ := round_sim hc hP q N h h1
    obtain ⟨b', a1, a2, a3⟩ := ih g2 hs
    exact ⟨b', ⟨(u1, b1), g1, a1⟩, a2, fun hg hb =>
      a3 (fun x hx => hg x (List.mem_cons_of_mem _ hx)) (g3 (hg r (List.mem_cons_self ..)) (Or.inr hb))⟩

/-- A round in which nothing happens changes nothing. -/
theorem rounds_empty {E : FileEnv} {ch : Int} {d : Device} (q N : Nat) (s : UdpBuf × BufSt) (n : Nat) :
    bufRounds E ch d q N (List.replicate n ⟨[], []⟩) s = some s := by
  induction n with
  | zero => rfl
  | succ n ih =>
    unfold bufRounds at ih ⊢
    rw [List.replicate_succ]
    exact ih

end FNLog
