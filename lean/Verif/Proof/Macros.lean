import Verif.Model.Macros
import Verif.Proof.EndToEnd

/-! # Macros: proofs -/

namespace FNLog
open Spec

theorem LogTemplatePack_eq (E : Env) : ∀ (vs : List Val) (t : Stmt), LogTemplatePack E t vs = operateAll E t (vs.map .put) := by
  intro vs
  induction vs with
  | nil => intro t; rfl
  | cons v vs ih =>
    intro t
    simp only [LogTemplatePack, List.map_cons, operateAll]
    congr 1
    funext t'
    exact ih t'

theorem pack_eq (S : Setup) (a : Call) (vs : List Val) (s : Sys) : packStatement S a vs s = statement S a (vs.map .put) s := by
  unfold packStatement statement
  congr 1
  funext t
  rw [LogTemplatePack_eq]

/-- What is published of a record is its text up to the length that fits. -/
theorem push_same {S : Setup} (hN : 2 ≤ S.env.N) {r q : Rec} (hr : r.content.length = S.env.N) (hq : q.content.length = S.env.N)
    (h : r.content.take (min r.len (S.env.N - 2)) = q.content.take (min q.len (S.env.N - 2))) (hd : Head) (s : Sys) :
    pushRecord S hd r s = pushRecord S hd q s := by
  have cut : ∀ {r : Rec}, r.content.length = S.env.N → ∃ r', sealRec S.env.N r = some r' ∧
      r'.content.take (r'.len - 1) = r.content.take (min r.len (S.env.N - 2)) := by
    intro r hr
    obtain ⟨r', f1, f2, f3, f4, _⟩ := seal_line hN r hr
    refine ⟨r', f1, ?_⟩
    have h1 : r'.content.take (r'.len - 1) = (r'.content.take r'.len).take (r'.len - 1) := by
      rw [List.take_take, Nat.min_eq_left (by omega)]
    have h2 : (r.content.take (min r.len (S.env.N - 2))).length = r'.len - 1 := by
      rw [List.length_take, hr]; omega
    rw [h1, f4, ← h2, List.take_left]
  obtain ⟨r', e1, e2⟩ := cut hr
  obtain ⟨q', g1, g2⟩ := cut hq
  unfold pushRecord
  rw [e1, g1]
  simp only [Option.bind_eq_bind, Option.bind_some]
  rw [e2, g2, h]

/-- The cut texts of two records agree if their texts do. -/
theorem cut_of_text {N : Nat} {r q : Rec} {u v : List Char} (hr : r.content.take r.len = u) (hq : q.content.take q.len = v)
    (h : u.take (N - 2) = v.take (N - 2)) : r.content.take (min r.len (N - 2)) = q.content.take (min q.len (N - 2)) := by
  rw [Nat.min_comm, ← List.take_take, Nat.min_comm, ← List.take_take, hr, hq, h]

/-- LOG_FORMAT on a record that is already full. -/
theorem format_full {N : Nat} {r : Rec} (h : r.len = N) (hN : 0 < N) (t : List Char) :
    formatRec N r (some t) = some ⟨r.content, N - 1⟩ := by
  unfold formatRec
  dsimp only
  rw [if_neg (by omega)]
  simp only [Option.bind_eq_bind, Option.bind_some]
  rw [if_pos (by omega)]
  congr 2
  omega

/-- What LOG_FORMAT and `<<` put into a record with the same prefix. -/
theorem format_vs_put {N : Nat} (hN : 2 ≤ N) {r : Rec} (h : r.content.length = N) (hl : r.len ≤ N) (t : List Char) :
    ∃ q p, formatRec N r (some t) = some q ∧ writeBuffer N r t = some p ∧ q.content.length = N ∧ p.content.length = N ∧
      q.content.take (min q.len (N - 2)) = p.content.take (min p.len (N - 2)) ∧
      (r.len + t.length < N → q.len = p.len ∧ q.content.take q.len = p.content.take p.len ∧ q.len < N ∧ p.len < N) := by
  obtain ⟨p, hp, wp⟩ := writeBuffer_wrote t h hl
  rcases Nat.lt_or_ge r.len N with hlt | hge
  · obtain ⟨q, hq, wq⟩ := format_wrote r h hlt t
    refine ⟨q, p, hq, hp, wq.size, wp.size, ?_, ?_⟩
    · refine cut_of_text wq.text wp.text ?_
      have hrl : (r.content.take r.len).length = r.len := by rw [List.length_take]; omega
      have e1 : (t.take (N - r.len - 1)).take (N - 2 - r.len) = t.take (N - 2 - r.len) := by
        rw [List.take_take, Nat.min_eq_left (by omega)]
      have e2 : (t.take (N - r.len)).take (N - 2 - r.len) = t.take (N - 2 - r.len) := by
        rw [List.take_take, Nat.min_eq_left (by omega)]
      rw [List.take_append, List.take_append, hrl, e1, e2]
    · intro hf
      have e1 : t.take (N - r.len - 1) = t := List.take_of_length_le (by omega)
      have e2 : t.take (N - r.len) = t := List.take_of_length_le (by omega)
      have l1 := wq.len
      have l2 := wp.len
      rw [e1] at l1
      rw [e2] at l2
      refine ⟨by omega, ?_, by omega, by omega⟩
      rw [wq.text, wp.text, e1, e2]
  · have he : r.len = N := by omega
    refine ⟨_, p, format_full he (by omega) t, hp, h, wp.size, ?_, fun hf => absurd hf (by omega)⟩
    have hpl : p.len = N := by have := wp.len; have := wp.bound; omega
    have ht : t.take (N - r.len) = [] := by rw [show N - r.len = 0 by omega]; rfl
    have hw := wp.text
    rw [ht, List.append_nil, hpl, he] at hw
    show r.content.take (min (N - 1) (N - 2)) = p.content.take (min p.len (N - 2))
    rw [hpl, Nat.min_eq_right (by omega), Nat.min_eq_right (by omega)]
    have := congrArg (List.take (N - 2)) hw
    rw [List.take_take, List.take_take, Nat.min_eq_left (by omega)] at this
    exact this.symm

/-- The destructors of two records with the same text. -/
theorem destruct_same {S : Setup} (hN : 2 ≤ S.env.N) {q p : Rec} (hq : q.content.length = S.env.N) (hp : p.content.length = S.env.N)
    (hc : q.content.take (min q.len (S.env.N - 2)) = p.content.take (min p.len (S.env.N - 2)))
    (hh : S.hook = false ∨ (q.len = p.len ∧ q.content.take q.len = p.content.take p.len ∧ q.len < S.env.N ∧ p.len < S.env.N))
    (h : Head) (s : Sys) : destructOk S h q s = destructOk S h p s := by
  have hpush := fun s => push_same hN hq hp hc h s
  rcases hh with hh | ⟨h1, h2, h3, h4⟩
  · have hf : hookFires S.hook S.channel h = some false := if_pos hh
    unfold destructOk
    rw [hf]
    exact hpush s
  · unfold destructOk
    congr 1
    funext fires
    cases fires with
    | false => exact hpush s
    | true =>
      obtain ⟨q', a1, a2, a3, a4, _⟩ := hookNul_text hN hq (by omega)
      obtain ⟨p', b1, b2, b3, b4, _⟩ := hookNul_text hN hp (by omega)
      have ht : q'.content.take q'.len = p'.content.take p'.len := by rw [a4, b4, h2]
      have hl : q'.len = p'.len := by omega
      have hcall : callHook S h q' s = callHook S h p' s := by
        unfold callHook
        rw [hl, ← ht, hl]
      show (hookNul S.env.N q).bind _ = (hookNul S.env.N p).bind _
      rw [a1, b1]
      show (callHook S h q' s).bind _ = (callHook S h p' s).bind _
      rw [hcall]
      congr 1
      funext s'
      exact push_same hN a2 b2 (cut_of_text ht rfl rfl) h s'

theorem format_statement {S : Setup} (hS : Ready S) {a : Call} {t file : List Char}
    (hf : Fits S.env S.names a [.put (.str t)] file) {s : Sys} (hc : CacheFrom S.env.zone s.cache)
    (hh : S.hook = false ∨ (prefixOf S.env.zone (a.prefixArgs S.names) file).length + t.length < S.env.N) :
    LOG_FORMAT S a (some t) s = statement S a [.put (.str t)] s := by
  cases hb : blockInput S.lg a.channelId a.priority a.category a.identify with
  | none => simp only [LOG_FORMAT, statement, construct, hb, Option.bind_eq_bind, Option.bind_none]
  | some b =>
    cases b with
    | true =>
      rw [refused_statement hb]
      simp only [LOG_FORMAT, hb, Option.bind_eq_bind, Option.bind_some, if_true]
    | false =>
      obtain ⟨r, c, e, e1, e2, e3, e4, e5⟩ := constructOk_fits hS hf hc
      have hN : 2 ≤ S.env.N := by have := hf.names; omega
      obtain ⟨q, p, f1, f2, f3, f4, f5, f6⟩ := format_vs_put hN e1 e2 t
      have hput : ∀ h, operateAll S.env ⟨some h, ⟨some r, c⟩⟩ [.put (.str t)] = some ⟨some h, ⟨some p, c⟩⟩ := by
        intro h
        simp only [operateAll, operate, streamAll, List.flatMap_cons, List.flatMap_nil, List.append_nil, Val.prims, execAll,
          exec, f2, Option.map_some, Option.bind_eq_bind, Option.bind_some]
      simp only [LOG_FORMAT, statement, construct, hb, Option.bind_eq_bind, Option.bind_some, Bool.false_eq_true, if_false, e,
        moveStream, destruct, formatStmt, f1, hput]
      refine destruct_same hN f3 f4 f5 ?_ _ _
      rcases hh with hh | hh
      · exact Or.inl hh
      · exact Or.inr (f6 (by omega))

theorem format_error (S : Setup) (a : Call) (s : Sys) : LOG_FORMAT S a none s = statement S a [] s := by
  cases hb : blockInput S.lg a.channelId a.priority a.category a.identify with
  | none => simp only [LOG_FORMAT, statement, construct, hb, Option.bind_eq_bind, Option.bind_none]
  | some b =>
    cases b with
    | true =>
      rw [refused_statement hb]
      simp only [LOG_FORMAT, hb, Option.bind_eq_bind, Option.bind_some, if_true]
    | false =>
      simp only [LOG_FORMAT, statement, construct, hb, Option.bind_eq_bind, Option.bind_some, Bool.false_eq_true, if_false,
        moveStream, operateAll]
      cases hk : constructOk S.env S.names a s.cache with
      | none => rfl
      | some t =>
        obtain ⟨hd, d, c⟩ := t
        cases d with
        | none => cases hd <;> rfl
        | some r => cases hd <;> rfl

end FNLog
