import Verif.Model.Parse
import Verif.Props.Values

/-! # The lexer: it stops, stays inside of the text and makes progress -/

namespace FNLog
open Spec

theorem lexPreSep_ne_ub (ln : Line) (ch : Char) : lexPreSep ln ch ≠ .ub := by
  unfold lexPreSep
  split
  · exact nofun
  · split <;> exact nofun

theorem lexKey_ne_ub (t : List Char) (ln : Line) (ch : Char) (cur : Nat) : lexKey t ln ch cur ≠ .ub := by
  unfold lexKey
  split
  · exact nofun
  · split
    · rename_i h; exact absurd h (C41_reads_inside _)
    · exact nofun
    · exact lexPreSep_ne_ub _ _

theorem lexNone_ne_ub (t : List Char) (ln : Line) (ch : Char) (cur : Nat) : lexNone t ln ch cur ≠ .ub := by
  unfold lexNone
  split
  · exact nofun
  · split
    · exact nofun
    · split
      · exact nofun
      · exact lexKey_ne_ub _ _ _ _

/-- What one round can do. -/
theorem lexChar_cases (t : List Char) (ln : Line) (ch nxt : Char) (cur : Nat) :
    (∃ ln' c, lexChar t ln ch nxt cur = .done ln' c ∧
      ((ch = '\x00' ∧ c = cur - 1) ∨
       ((ch = '\r' ∨ ch = '\n') ∧ c = if (nxt = '\r' ∨ nxt = '\n') ∧ nxt ≠ ch then cur + 1 else cur))) ∨
    (∃ e, lexChar t ln ch nxt cur = .fail e) ∨
    (ch ≠ '\x00' ∧ ch ≠ '\r' ∧ ch ≠ '\n' ∧ ∃ ln', lexChar t ln ch nxt cur = .next ln') := by
  have nb : ∀ {c : Char}, isLineBound c = false → c ≠ '\x00' ∧ c ≠ '\r' ∧ c ≠ '\n' := by
    intro c h
    unfold isLineBound at h
    simpa [and_assoc] using h
  have nsb : ∀ {c : Char}, ¬ isSoftLineBound c = true → c ≠ '\x00' ∧ c ≠ '\r' ∧ c ≠ '\n' := by
    intro c h
    unfold isSoftLineBound at h
    simp only [Bool.or_eq_true, beq_iff_eq, not_or] at h
    exact ⟨h.1.1.1, h.1.1.2, h.1.2⟩
  have hact : ∀ (a : LexAct), a ≠ .ub → (∀ l c, a ≠ .done l c) → (∃ e, a = .fail e) ∨ ∃ l, a = .next l := by
    intro a h1 h2
    cases a with
    | done l c => exact absurd rfl (h2 l c)
    | fail e => exact Or.inl ⟨e, rfl⟩
    | ub => exact absurd rfl h1
    | next l => exact Or.inr ⟨l, rfl⟩
  have hpre : ∀ (l : Line) (c : Char) l' c', lexPreSep l c ≠ .done l' c' := by
    intro l c l' c'
    unfold lexPreSep
    split
    · exact nofun
    · split <;> exact nofun
  have hkey : ∀ (l : Line) l' c', lexKey t l ch cur ≠ .done l' c' := by
    intro l l' c'
    unfold lexKey
    split
    · exact nofun
    · split
      · exact nofun
      · exact nofun
      · exact hpre _ _ _ _
  have hnone : ∀ (l : Line) l' c', lexNone t l ch cur ≠ .done l' c' := by
    intro l l' c'
    unfold lexNone
    split
    · exact nofun
    · split
      · exact nofun
      · split
        · exact nofun
        · exact hkey _ _ _
  unfold lexChar
  simp only []
  split
  · rename_i h; exact Or.inr (Or.inr ⟨(nb h.2).1, (nb h.2).2.1, (nb h.2).2.2, _, rfl⟩)
  · split
    · rename_i hs
      split
      · exact Or.inr (Or.inl ⟨_, rfl⟩)
      · rename_i l _
        unfold lexEnd
        simp only []
        split
        · rename_i hrn
          split
          · rename_i hn; exact Or.inl ⟨_, _, rfl, Or.inr ⟨hrn, by first | rfl | exact (if_pos hn).symm⟩⟩
          · rename_i hn; exact Or.inl ⟨_, _, rfl, Or.inr ⟨hrn, by first | rfl | exact (if_neg hn).symm⟩⟩
        · rename_i hrn
          split
          · rename_i h0; exact Or.inl ⟨_, _, rfl, Or.inl ⟨h0, rfl⟩⟩
          · rename_i h0
            exact Or.inr (Or.inr ⟨h0, fun e => hrn (Or.inl e), fun e => hrn (Or.inr e), _, rfl⟩)
    · rename_i hs
      have hn := nsb hs
      split
      · rcases hact _ (lexNone_ne_ub t _ ch cur) (hnone _) with ⟨e, h⟩ | ⟨l, h⟩
        · exact Or.inr (Or.inl ⟨e, h⟩)
        · exact Or.inr (Or.inr ⟨hn.1, hn.2.1, hn.2.2, l, h⟩)
      · rcases hact _ (lexKey_ne_ub t _ ch cur) (hkey _) with ⟨e, h⟩ | ⟨l, h⟩
        · exact Or.inr (Or.inl ⟨e, h⟩)
        · exact Or.inr (Or.inr ⟨hn.1, hn.2.1, hn.2.2, l, h⟩)
      · rcases hact _ (lexPreSep_ne_ub _ ch) (hpre _ _) with ⟨e, h⟩ | ⟨l, h⟩
        · exact Or.inr (Or.inl ⟨e, h⟩)
        · exact Or.inr (Or.inr ⟨hn.1, hn.2.1, hn.2.2, l, h⟩)
      · exact Or.inr (Or.inr ⟨hn.1, hn.2.1, hn.2.2, _, rfl⟩)
      · exact Or.inr (Or.inr ⟨hn.1, hn.2.1, hn.2.2, _, rfl⟩)
      · exact Or.inr (Or.inr ⟨hn.1, hn.2.1, hn.2.2, _, rfl⟩)

/-- The loop ends with a line or an error; where it stops. -/
theorem lexLoop_cases (t : List Char) (cs : List Char) (cur : Nat) (ln : Line) :
    (∃ e, lexLoop t cs cur ln = .err e) ∨
    (∃ ln' c, lexLoop t cs cur ln = .ok (ln', c) ∧ cur ≤ c ∧ c ≤ cur + cs.length ∧
      ('\x00' ∉ cs → cs ≠ [] → cur < c)) := by
  induction cs generalizing cur ln with
  | nil =>
    unfold lexLoop
    rcases lexChar_cases t ln '\x00' '\x00' (cur + 1) with ⟨l, c, e, h⟩ | ⟨e, h⟩ | ⟨h, _⟩
    · rw [e]
      refine Or.inr ⟨l, c, rfl, ?_⟩
      rcases h with ⟨_, h⟩ | ⟨h, _⟩
      · simp only [List.length_nil]
        exact ⟨by omega, by omega, fun _ h => absurd rfl h⟩
      · exact absurd h (by decide)
    · rw [h]; exact Or.inl ⟨_, rfl⟩
    · exact absurd rfl h
  | cons ch cs ih =>
    unfold lexLoop
    rcases lexChar_cases t ln ch (cs.headD '\x00') (cur + 1) with ⟨l, c, e, h⟩ | ⟨e, h⟩ | ⟨_, _, _, l, h⟩
    · rw [e]
      refine Or.inr ⟨l, c, rfl, ?_⟩
      rcases h with ⟨h0, h⟩ | ⟨h0, h⟩
      · exact ⟨by omega, by omega, fun hn => absurd (h0 ▸ List.mem_cons_self) hn⟩
      · cases cs with
        | nil =>
          rw [if_neg (fun h => absurd h.1 (by decide))] at h
          exact ⟨by omega, by simp only [List.length_cons, List.length_nil]; omega, fun _ _ => by omega⟩
        | cons x xs =>
          simp only [List.length_cons]
          split at h
          · exact ⟨by omega, by omega, fun _ _ => by omega⟩
          · exact ⟨by omega, by omega, fun _ _ => by omega⟩
    · rw [h]; exact Or.inl ⟨_, rfl⟩
    · rw [h]
      rcases ih (cur + 1) l with ⟨e, h⟩ | ⟨ln', c, h, h1, h2, _⟩
      · exact Or.inl ⟨e, h⟩
      · refine Or.inr ⟨ln', c, h, by omega, ?_, fun _ _ => by omega⟩
        simp only [List.length_cons]; omega

/-- `Lex` ends with a line or an error, for every text; on a text without NUL it makes progress. -/
theorem lex_cases (t : List Char) (en cur : Nat) (hc : cur ≤ t.length) :
    (∃ e, lex t en cur = .err e) ∨
    (∃ ln c, lex t en cur = .ok (ln, c) ∧ cur ≤ c ∧ c ≤ t.length ∧
      ('\x00' ∉ t → en ≤ t.length → cur < en → cur < c)) := by
  unfold lex
  split
  · rename_i h
    exact Or.inr ⟨_, _, rfl, Nat.le_refl _, hc, fun _ _ h' => absurd h' (by omega)⟩
  · rename_i h
    rcases lexLoop_cases t (t.drop cur) cur {} with ⟨e, h1⟩ | ⟨ln, c, h1, h2, h3, h4⟩
    · exact Or.inl ⟨e, h1⟩
    · refine Or.inr ⟨ln, c, h1, h2, ?_, fun hn he hlt => ?_⟩
      · rw [List.length_drop] at h3; omega
      · refine h4 (fun hm => hn (List.mem_of_mem_drop hm)) (fun h0 => ?_)
        have := congrArg List.length h0
        rw [List.length_drop] at this
        simp only [List.length_nil] at this
        omega

end FNLog
