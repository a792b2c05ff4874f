import Verif.Proof.Diag

/-! # The place reported is a line of the text -/

namespace FNLog
open Spec

/-! ## Lines -/

theorem configLines_plain {c : Char} (h1 : c ≠ '\r') (h2 : c ≠ '\n') (s : List Char) :
    configLines (c :: s) = match configLines s with | [] => [[c]] | l :: ls => (c :: l) :: ls := by
  rw [configLines]
  · exact if_neg fun h => h.elim h1 h2
  · intro _ e; exact absurd e h1
  · intro _ e; exact absurd e h2

theorem configLines_end {c : Char} {s : List Char} (hc : c = '\r' ∨ c = '\n') :
    configLines (c :: s) = (c :: s).take (endLen (c :: s)) :: configLines ((c :: s).drop (endLen (c :: s))) := by
  by_cases h : (s.headD '\x00' = '\r' ∨ s.headD '\x00' = '\n') ∧ s.headD '\x00' ≠ c
  · have e : endLen (c :: s) = 2 := if_pos h
    rw [e]
    cases s with
    | nil => exact absurd h.1 (by decide)
    | cons d s =>
      simp only [List.headD_cons] at h
      rcases hc with rfl | rfl
      · rcases h with ⟨rfl | rfl, h⟩
        · exact absurd rfl h
        · rw [configLines]; rfl
      · rcases h with ⟨rfl | rfl, h⟩
        · rw [configLines]; rfl
        · exact absurd rfl h
  · have e : endLen (c :: s) = 1 := if_neg h
    rw [e]
    rw [configLines]
    · rw [if_pos hc]; rfl
    · intro s' e1 e2
      subst e1 e2
      exact h ⟨Or.inr rfl, by simp⟩
    · intro s' e1 e2
      subst e1 e2
      exact h ⟨Or.inl rfl, by simp⟩

theorem configLines_first : ∀ {p rest : List Char}, Plain p → AtEnd rest → p ++ rest ≠ [] →
    configLines (p ++ rest) = (p ++ rest.take (endLen rest)) :: configLines (rest.drop (endLen rest)) := by
  intro p
  induction p with
  | nil =>
    intro rest _ hr hne
    rcases hr with rfl | ⟨c, r, rfl, hc⟩
    · exact absurd rfl hne
    · exact configLines_end hc
  | cons c p ih =>
    intro rest hp hr _
    have hc := hp c List.mem_cons_self
    rw [List.cons_append, configLines_plain hc.1 hc.2.1]
    by_cases he : p ++ rest = []
    · obtain ⟨rfl, rfl⟩ := List.append_eq_nil_iff.mp he
      rfl
    · rw [ih (fun x hx => hp x (List.mem_cons_of_mem _ hx)) hr he]
      rfl

theorem configLines_flatten : ∀ (n : Nat) (s : List Char), s.length ≤ n → (configLines s).flatten = s := by
  intro n
  induction n with
  | zero => intro s h; obtain rfl := List.length_eq_zero_iff.mp (Nat.le_zero.mp h); rfl
  | succ n ih =>
    intro s h
    unfold configLines
    split
    · rfl
    · simp only [List.length_cons] at h
      rw [List.flatten_cons, ih _ (by omega)]; rfl
    · simp only [List.length_cons] at h
      rw [List.flatten_cons, ih _ (by omega)]; rfl
    · rename_i c s _ _
      simp only [List.length_cons] at h
      have := ih s (by omega)
      split
      · rw [List.flatten_cons, this]; rfl
      · split
        · rename_i e; rw [e] at this; rw [← this]; rfl
        · rename_i e; rw [e] at this; rw [← this]; rfl

/-- No line is empty. -/
theorem configLines_ne {s x : List Char} {xs : List (List Char)} (h : configLines s = x :: xs) : x ≠ [] := by
  unfold configLines at h
  split at h
  · exact absurd h (by nofun)
  · rw [← (List.cons.inj h).1]; nofun
  · rw [← (List.cons.inj h).1]; nofun
  · split at h
    · rw [← (List.cons.inj h).1]; nofun
    · split at h
      · rw [← (List.cons.inj h).1]; nofun
      · rw [← (List.cons.inj h).1]; nofun

/-- `pos` is the beginning of line `n` (or the end of the text): the lines before it. -/
def At (t : List Char) (n pos : Nat) : Prop :=
  pos ≤ t.length ∧ ∃ pre, configLines t = pre ++ configLines (t.drop pos) ∧ pre.flatten.length = pos ∧ n = pre.length + 1

theorem At.lineAt {t : List Char} {n pos : Nat} (h : At t n pos) : LineAt t n pos := by
  obtain ⟨_, pre, h1, h2, h3⟩ := h
  refine ⟨by omega, ?_, ?_⟩
  · rw [h1, List.length_append]; omega
  · rw [h1, h3, Nat.add_sub_cancel, List.take_left', h2]; rfl

theorem at_first (t : List Char) : At t 1 0 := ⟨Nat.zero_le _, [], rfl, rfl, rfl⟩

theorem at_next {t p rest : List Char} {n pos : Nat} (h : At t n pos) (hp : Plain p) (hr : AtEnd rest)
    (hd : t.drop pos = p ++ rest) (hlt : pos < t.length) : At t (n + 1) (pos + p.length + endLen rest) := by
  obtain ⟨_, pre, h1, h2, h3⟩ := h
  have hne : p ++ rest ≠ [] := by
    intro e
    rw [e] at hd
    have := congrArg List.length hd
    rw [List.length_drop] at this
    simp only [List.length_nil] at this
    omega
  have hlen := congrArg List.length hd
  rw [List.length_drop, List.length_append] at hlen
  have hel : endLen rest ≤ rest.length := by
    rcases hr with rfl | ⟨c, r, rfl, hc⟩
    · exact Nat.le_refl _
    · unfold endLen
      simp only [List.length_cons]
      split
      · rename_i h
        cases r with
        | nil => exact absurd h.1 (by decide)
        | cons d r => simp only [List.length_cons]; omega
      · omega
  refine ⟨by omega, pre ++ [p ++ rest.take (endLen rest)], ?_, ?_, ?_⟩
  · have e : t.drop (pos + p.length + endLen rest) = rest.drop (endLen rest) := by
      rw [Nat.add_assoc, drop_shift hd, ← List.drop_drop, List.drop_left' rfl]
    rw [e, h1, hd, configLines_first hp hr hne, List.append_assoc]
    rfl
  · rw [List.flatten_append, List.length_append, h2]
    simp only [List.flatten_cons, List.flatten_nil, List.append_nil, List.length_append, List.length_take]
    omega
  · rw [List.length_append, h3]; rfl

/-! ## Replacements keep the lines -/

/-- Line ends and NULs, everything else made alike. -/
def mask (c : Char) : Char := if c = '\r' ∨ c = '\n' ∨ c = '\x00' then c else 'a'

theorem mask_plain {c : Char} (h : c ≠ '\r' ∧ c ≠ '\n' ∧ c ≠ '\x00') : mask c = 'a' :=
  if_neg fun e => e.elim h.1 fun e => e.elim h.2.1 h.2.2

theorem map_mask_plain {p : List Char} (h : Plain p) : p.map mask = List.replicate p.length 'a' := by
  induction p with
  | nil => rfl
  | cons c p ih =>
    rw [List.map_cons, mask_plain (h c List.mem_cons_self), ih fun x hx => h x (List.mem_cons_of_mem _ hx)]
    rfl

theorem mask_eq_iff (c d : Char) (hd : d = '\r' ∨ d = '\n' ∨ d = '\x00') : mask c = d ↔ c = d := by
  unfold mask
  split
  · exact Iff.rfl
  · rename_i h
    constructor
    · intro e; subst e; exact absurd hd (by decide)
    · rintro rfl; exact absurd hd h

theorem nul_mask (t : List Char) : '\x00' ∈ t.map mask ↔ '\x00' ∈ t := by
  rw [List.mem_map]
  constructor
  · rintro ⟨c, hc, e⟩
    rw [mask_eq_iff _ _ (Or.inr (Or.inr rfl))] at e
    exact e ▸ hc
  · intro h; exact ⟨_, h, by decide⟩

theorem configLines_mask : ∀ (n : Nat) (s : List Char), s.length ≤ n →
    configLines (s.map mask) = (configLines s).map (·.map mask) := by
  intro n
  induction n with
  | zero => intro s h; obtain rfl := List.length_eq_zero_iff.mp (Nat.le_zero.mp h); rfl
  | succ n ih =>
    intro s h
    cases s with
    | nil => rfl
    | cons c s =>
      simp only [List.length_cons] at h
      by_cases hc : c = '\r' ∨ c = '\n'
      · have hm : mask c = c := if_pos (hc.elim Or.inl fun h => Or.inr (Or.inl h))
        rw [List.map_cons, hm, configLines_end hc, configLines_end hc]
        have he : endLen (c :: s.map mask) = endLen (c :: s) := by
          unfold endLen
          have hh : (s.map mask).headD '\x00' = mask (s.headD '\x00') := by cases s <;> rfl
          simp only [hh, mask_eq_iff _ '\r' (Or.inl rfl), mask_eq_iff _ '\n' (Or.inr (Or.inl rfl)),
            ne_eq, mask_eq_iff _ c (hc.elim Or.inl fun h => Or.inr (Or.inl h))]
        rw [he, List.map_cons]
        have e2 : c :: s.map mask = (c :: s).map mask := by rw [List.map_cons, hm]
        rw [e2, ← List.map_take, ← List.map_drop, ih]
        have : 1 ≤ endLen (c :: s) := by unfold endLen; simp only; split <;> omega
        rw [List.length_drop, List.length_cons]; omega
      · have h1 : c ≠ '\r' := fun e => hc (Or.inl e)
        have h2 : c ≠ '\n' := fun e => hc (Or.inr e)
        have h3 : mask c ≠ '\r' := fun e => h1 ((mask_eq_iff _ _ (Or.inl rfl)).mp e)
        have h4 : mask c ≠ '\n' := fun e => h2 ((mask_eq_iff _ _ (Or.inr (Or.inl rfl))).mp e)
        rw [List.map_cons, configLines_plain h3 h4, configLines_plain h1 h2, ih s (by omega)]
        cases configLines s <;> rfl

/-- The same line ends at the same places. -/
def SameEnds (t u : List Char) : Prop := t.map mask = u.map mask

theorem SameEnds.length {t u : List Char} (h : SameEnds t u) : t.length = u.length := by
  have := congrArg List.length h
  rwa [List.length_map, List.length_map] at this

theorem SameEnds.nul {t u : List Char} (h : SameEnds t u) (h0 : '\x00' ∉ t) : '\x00' ∉ u := by
  intro hu
  rw [← nul_mask, ← h, nul_mask] at hu
  exact h0 hu

theorem flatten_map_mask (l : List (List Char)) : (l.map (·.map mask)).flatten.length = l.flatten.length := by
  induction l with
  | nil => rfl
  | cons a l ih => rw [List.map_cons, List.flatten_cons, List.flatten_cons, List.length_append, List.length_append, ih,
      List.length_map]

theorem lines_lengths (t : List Char) : (configLines (t.map mask)).map List.length = (configLines t).map List.length := by
  rw [configLines_mask t.length t (Nat.le_refl _), List.map_map]
  congr 1
  funext l
  exact List.length_map ..

theorem SameEnds.lines {t u : List Char} (h : SameEnds t u) : (configLines t).map List.length = (configLines u).map List.length := by
  rw [← lines_lengths t, ← lines_lengths u, h]

theorem flatten_length (l : List (List Char)) : l.flatten.length = (l.map List.length).sum := by
  rw [List.length_flatten]

/-- `pos` is the beginning of line `n` of a text with the line ends of `t`. -/
def AtM (t : List Char) (n pos : Nat) : Prop := At (t.map mask) n pos

theorem SameEnds.at {t u : List Char} (h : SameEnds t u) {n pos : Nat} (ha : AtM t n pos) : AtM u n pos := by
  unfold AtM at *
  rwa [← h]

theorem AtM.lineAt {t : List Char} {n pos : Nat} (h : AtM t n pos) : LineAt t n pos := by
  obtain ⟨h1, h2, h3⟩ := At.lineAt h
  have hl := lines_lengths t
  have hll := congrArg List.length hl
  rw [List.length_map, List.length_map] at hll
  refine ⟨h1, by omega, ?_⟩
  rw [h3, flatten_length, flatten_length, List.map_take, List.map_take, hl]

theorem AtM.le {t : List Char} {n pos : Nat} (h : AtM t n pos) : pos ≤ t.length := by
  have := h.1
  rwa [List.length_map] at this

theorem atM_first (t : List Char) : AtM t 1 0 := at_first _

theorem endLen_mask (s : List Char) (hr : AtEnd s) : endLen (s.map mask) = endLen s := by
  rcases hr with rfl | ⟨c, r, rfl, hc⟩
  · rfl
  · have hm : mask c = c := if_pos (hc.elim Or.inl fun h => Or.inr (Or.inl h))
    rw [List.map_cons, hm]
    unfold endLen
    have hh : (r.map mask).headD '\x00' = mask (r.headD '\x00') := by cases r <;> rfl
    simp only [hh, mask_eq_iff _ '\r' (Or.inl rfl), mask_eq_iff _ '\n' (Or.inr (Or.inl rfl)),
      ne_eq, mask_eq_iff _ c (hc.elim Or.inl fun h => Or.inr (Or.inl h))]

theorem atM_next {t p rest : List Char} {n pos : Nat} (h : AtM t n pos) (hp : Plain p) (hr : AtEnd rest)
    (hd : t.drop pos = p ++ rest) (hlt : pos < t.length) : AtM t (n + 1) (pos + p.length + endLen rest) := by
  have h1 : Plain (p.map mask) := by
    rw [map_mask_plain hp]
    intro x hx
    rw [(List.mem_replicate.mp hx).2]
    decide
  have h2 : AtEnd (rest.map mask) := by
    rcases hr with rfl | ⟨c, r, rfl, hc⟩
    · exact Or.inl rfl
    · refine Or.inr ⟨c, r.map mask, ?_, hc⟩
      rw [List.map_cons]
      exact congrArg (· :: _) (if_pos (hc.elim Or.inl fun h => Or.inr (Or.inl h)))
  have := at_next (p := p.map mask) (rest := rest.map mask) h h1 h2 (by rw [← List.map_drop, hd, List.map_append])
    (by rwa [List.length_map])
  rw [List.length_map, endLen_mask _ hr] at this
  exact this

/-- What `lexD` does at the beginning of a line. -/
theorem lexD_line {t : List Char} (h0 : '\x00' ∉ t) {cur line : Nat} (h : AtM t line cur) (hc : cur < t.length) :
    (∃ e, lex t t.length cur = .err e ∧ lexD t t.length cur line = .err e line cur t) ∨
    ∃ ln c, lex t t.length cur = .ok (ln, c) ∧ lexD t t.length cur line = .ok (ln, c, line + 1) ∧
      AtM t (line + 1) c ∧ cur < c ∧
      ∀ k, ln.key = some k → ∀ x ∈ (lineVal t ln).1, x ≠ '\r' ∧ x ≠ '\n' ∧ x ≠ '\x00' := by
  have hD : ∀ ln c, lex t t.length cur = .ok (ln, c) → lexD t t.length cur line = .ok (ln, c, line + 1) := by
    intro ln c he
    unfold lexD
    rw [he]
    show DRes.ok (ln, c, if cur ≥ t.length then line else line + 1) = _
    rw [if_neg (by omega)]
  obtain ⟨p, rest, hd, hp, hr⟩ := first_line (t.drop cur) (fun h => h0 (List.mem_of_mem_drop h))
  have hline := lex_line (en := t.length) hc hp hr hd
  have hn := atM_next h hp hr hd hc
  have hpos : ∀ ln c, lex t t.length cur = .ok (ln, c) → cur < c := by
    intro ln c he
    rcases lex_cases t t.length cur (by omega) with ⟨e, he'⟩ | ⟨ln', c', he', _, _, h4⟩
    · rw [he'] at he; exact absurd he (by nofun)
    · rw [he'] at he
      obtain ⟨_, rfl⟩ := Prod.mk.inj (PRes.ok.inj he)
      exact h4 h0 (Nat.le_refl _) hc
  cases step h0 hc with
  | bad e l L hlex _ _ => exact Or.inl ⟨e, hlex, by unfold lexD; rw [hlex]; rfl⟩
  | skip ln c hlex hk h1 h2 _ =>
    refine Or.inr ⟨ln, c, hlex, hD _ _ hlex, ?_, h1, fun k hk' => by rw [hk] at hk'; exact absurd hk' (by nofun)⟩
    cases hrl : readLine (cut p) with
    | none => rw [hrl] at hline; obtain ⟨e, he⟩ := hline; rw [he] at hlex; exact absurd hlex (by nofun)
    | some o =>
      cases o with
      | none =>
        rw [hrl] at hline
        obtain ⟨ln', he, _⟩ := hline
        rw [he] at hlex
        obtain ⟨_, rfl⟩ := Prod.mk.inj (PRes.ok.inj hlex)
        exact hn
      | some x =>
        rw [hrl] at hline
        obtain ⟨ln', he, _⟩ := hline
        rw [he] at hlex
        obtain ⟨_, rfl⟩ := Prod.mk.inj (PRes.ok.inj hlex)
        exact hn
  | key ln c l k v tail hlex hk h1 h2 hsig hl hv ht hn' hq hhead hcover hrest =>
    refine Or.inr ⟨ln, c, hlex, hD _ _ hlex, ?_, h1, fun k _ x hx => ?_⟩
    · cases hrl : readLine (cut p) with
      | none => rw [hrl] at hline; obtain ⟨e, he⟩ := hline; rw [he] at hlex; exact absurd hlex (by nofun)
      | some o =>
        cases o with
        | none =>
          rw [hrl] at hline
          obtain ⟨ln', he, _⟩ := hline
          rw [he] at hlex
          obtain ⟨_, rfl⟩ := Prod.mk.inj (PRes.ok.inj hlex)
          exact hn
        | some x =>
          rw [hrl] at hline
          obtain ⟨ln', he, _⟩ := hline
          rw [he] at hlex
          obtain ⟨_, rfl⟩ := Prod.mk.inj (PRes.ok.inj hlex)
          exact hn
    · rw [hv] at hx
      exact (hq x hx).2

/-! ## Which errors the parts report -/

theorem lexPreSep_err {ln : Line} {ch : Char} {e : PErr} (h : lexPreSep ln ch = .fail e) : unknownKey e = false := by
  unfold lexPreSep at h
  split at h
  · exact absurd h (by nofun)
  · split at h
    · rw [← LexAct.fail.inj h]; rfl
    · exact absurd h (by nofun)

theorem lexKey_err {t : List Char} {ln : Line} {ch : Char} {cur : Nat} {e : PErr} (h : lexKey t ln ch cur = .fail e) :
    unknownKey e = false := by
  unfold lexKey at h
  split at h
  · exact absurd h (by nofun)
  · split at h
    · exact absurd h (by nofun)
    · rw [← LexAct.fail.inj h]; rfl
    · exact lexPreSep_err h

theorem lexChar_err {t : List Char} {ln : Line} {ch nxt : Char} {cur : Nat} {e : PErr}
    (h : lexChar t ln ch nxt cur = .fail e) : unknownKey e = false := by
  unfold lexChar at h
  simp only at h
  split at h
  · exact absurd h (by nofun)
  · split at h
    · split at h
      · rename_i e' he
        rw [← LexAct.fail.inj h]
        unfold closeVal at he
        split at he
        · split at he
          · rw [← Except.error.inj he]; rfl
          · exact absurd he (by nofun)
        · exact absurd he (by nofun)
        · exact absurd he (by nofun)
        · exact absurd he (by nofun)
        · rw [← Except.error.inj he]; rfl
      · unfold lexEnd at h
        simp only at h
        split at h
        · split at h <;> exact absurd h (by nofun)
        · split at h <;> exact absurd h (by nofun)
    · split at h
      · unfold lexNone at h
        split at h
        · exact absurd h (by nofun)
        · split at h
          · exact absurd h (by nofun)
          · split at h
            · rw [← LexAct.fail.inj h]; rfl
            · exact lexKey_err h
      · exact lexKey_err h
      · exact lexPreSep_err h
      · exact absurd h (by nofun)
      · exact absurd h (by nofun)
      · exact absurd h (by nofun)

theorem lexLoop_err {t : List Char} {e : PErr} : ∀ (cs : List Char) (cur : Nat) (ln : Line),
    lexLoop t cs cur ln = .err e → unknownKey e = false := by
  intro cs
  induction cs with
  | nil =>
    intro cur ln h
    unfold lexLoop at h
    split at h
    · exact absurd h (by nofun)
    · rename_i hf; exact PRes.err.inj h ▸ lexChar_err hf
    · exact absurd h (by nofun)
    · exact absurd h (by nofun)
  | cons c cs ih =>
    intro cur ln h
    unfold lexLoop at h
    split at h
    · exact absurd h (by nofun)
    · rename_i hf; exact PRes.err.inj h ▸ lexChar_err hf
    · exact absurd h (by nofun)
    · exact ih _ _ h

theorem lex_err {t : List Char} {en cur : Nat} {e : PErr} (h : lex t en cur = .err e) : unknownKey e = false := by
  unfold lex at h
  split at h
  · exact absurd h (by nofun)
  · exact lexLoop_err _ _ _ h

theorem ofOption_bind_ne {α β : Type} {o : Option α} {f : α → β} {e : PErr} :
    (PRes.ofOption o).bind (fun m => .ok (f m)) ≠ .err e := by
  cases o <;> exact nofun

theorem devField_err {dns : List Char → Option Int} {k : Key} {v tail : List Char} {d : Device} {e : PErr}
    (h : devField dns k v tail d = .err e) : e = .undefinedDeviceKey ∨ unknownKey e = false := by
  unfold devField at h
  cases k <;> simp only at h <;>
    first
    | (cases h; done)
    | (refine absurd h ?_; exact ofOption_bind_ne)
    | (exact Or.inl (PRes.err.inj h).symm)
    | skip
  · split at h
    · exact Or.inr (PRes.err.inj h ▸ rfl)
    · exact absurd h (by nofun)
  · split at h
    · split at h
      · exact Or.inr (PRes.err.inj h ▸ rfl)
      · split at h
        · exact Or.inr (PRes.err.inj h ▸ rfl)
        · exact absurd h (by nofun)
    · exact absurd h (by nofun)

theorem devField_key {dns : List Char → Option Int} {k : Key} {v tail : List Char} {d d' : Device}
    (h : devField dns k v tail d = .ok d') : k ≠ .define ∧ k ≠ .variable := by
  constructor <;> rintro rfl <;> exact absurd h (by nofun)

theorem chanField_err {k : Key} {v tail : List Char} {c : Channel} {e : PErr}
    (h : chanField k v tail c = .err e) : e = .undefinedChannelKey := by
  unfold chanField at h
  cases k <;> simp only at h <;>
    first
    | (cases h; done)
    | (refine absurd h ?_; exact ofOption_bind_ne)
    | (exact (PRes.err.inj h).symm)

theorem chanField_key {k : Key} {v tail : List Char} {c c' : Channel}
    (h : chanField k v tail c = .ok c') : k ≠ .define ∧ k ≠ .variable := by
  constructor <;> rintro rfl <;> exact absurd h (by nofun)

theorem inplaceLoop_err {key val : List Char} {pre suf : Bool} {e : PErr} : ∀ (fuel : Nat) (t : List Char) (off : Nat),
    inplaceLoop key val pre suf fuel t off ≠ .err e := by
  intro fuel
  induction fuel with
  | zero => intro t off; exact nofun
  | succ fuel ih =>
    intro t off h
    unfold inplaceLoop at h
    split at h
    · exact absurd h (by nofun)
    · split at h
      · exact ih _ _ h
      · exact ih _ _ h

theorem inplace_err {fuel : Nat} {t : List Char} {off : Nat} {key val : List Char} {pre suf : Bool} {e : PErr}
    (h : predefinedInplace fuel t off key val pre suf = .err e) : unknownKey e = false := by
  unfold predefinedInplace at h
  split at h
  · exact PRes.err.inj h ▸ rfl
  · exact absurd h (inplaceLoop_err _ _ _)

theorem macro_err {fuel : Nat} {t line : List Char} {off : Nat} {e : PErr}
    (h : predefinedMacro fuel t line off = .err e) : unknownKey e = false := by
  unfold predefinedMacro at h
  split at h
  · simp only at h
    split at h
    · exact PRes.err.inj h ▸ rfl
    · exact inplace_err h
  · exact PRes.err.inj h ▸ rfl

/-! ## Replacements -/

theorem SameEnds.refl (t : List Char) : SameEnds t t := rfl

theorem SameEnds.trans {t u v : List Char} (h1 : SameEnds t u) (h2 : SameEnds u v) : SameEnds t v := Eq.trans h1 h2

theorem SameEnds.symm {t u : List Char} (h1 : SameEnds t u) : SameEnds u t := Eq.symm h1

theorem overwrite_ends {t key val : List Char} {o : Nat} (hk : Plain key) (hv : Plain val)
    (hl : val.length = key.length) (hd : ∃ r, t.drop o = key ++ r) : SameEnds t (overwrite t val o) := by
  obtain ⟨r, hd⟩ := hd
  unfold SameEnds overwrite
  have e : t = t.take o ++ (key ++ r) := by rw [← hd, List.take_append_drop]
  have e2 : t.drop (o + val.length) = r := by rw [drop_shift hd, hl, List.drop_left' rfl]
  rw [e2]
  conv => lhs; rw [e]
  simp only [List.map_append, map_mask_plain hk, map_mask_plain hv, hl, List.append_assoc]

theorem inplaceLoop_ends {key val : List Char} {pre suf : Bool} (hk : Plain key) (hv : Plain val)
    (hl : val.length = key.length) : ∀ (fuel : Nat) (t : List Char) (off : Nat) (t' : List Char),
      inplaceLoop key val pre suf fuel t off = .ok t' → SameEnds t t' := by
  intro fuel
  induction fuel with
  | zero => intro t off t' h; exact absurd h (by nofun)
  | succ fuel ih =>
    intro t off t' h
    unfold inplaceLoop at h
    cases hf : find t key off with
    | none => rw [hf] at h; rw [PRes.ok.inj h]; exact SameEnds.refl _
    | some o =>
      rw [hf] at h
      simp only at h
      split at h
      · obtain ⟨_, _, h3, _⟩ := find_some hf
        exact (overwrite_ends hk hv hl h3).trans (ih _ _ _ h)
      · exact ih _ _ _ h

theorem plain_padTo {n : Nat} {v : List Char} (h : Plain v) : Plain (padTo n v) := by
  intro x hx
  unfold padTo at hx
  rcases List.mem_append.mp hx with hx | hx
  · exact h x hx
  · rw [(List.mem_replicate.mp hx).2]; decide

theorem inplace_ends {fuel : Nat} {t : List Char} {off : Nat} {key val : List Char} {pre suf : Bool}
    {t' : List Char} (hk : Plain key) (hv : Plain val) (h : predefinedInplace fuel t off key val pre suf = .ok t') :
    SameEnds t t' := by
  unfold predefinedInplace at h
  split at h
  · exact absurd h (by nofun)
  · exact inplaceLoop_ends hk (plain_padTo hv) (padTo_length (by omega)) _ _ _ _ h

theorem macro_ends {fuel : Nat} {t line : List Char} {off : Nat} {t' : List Char} (hq : Plain line)
    (h : predefinedMacro fuel t line off = .ok t') : SameEnds t t' := by
  unfold predefinedMacro at h
  split at h
  · simp only at h
    split at h
    · exact absurd h (by nofun)
    · exact inplace_ends (fun x hx => hq x (mem_takeWhile hx))
        (fun x hx => hq x (List.mem_of_mem_drop (mem_dropWhile hx))) h
  · exact absurd h (by nofun)

theorem plain_append {a b : List Char} (ha : Plain a) (hb : Plain b) : Plain (a ++ b) := by
  intro x hx
  rcases List.mem_append.mp hx with h | h
  · exact ha x h
  · exact hb x h

theorem DRes.bind_cases {α β : Type} {r : DRes α} {f : α → DRes β} {P : DRes β → Prop}
    (hok : ∀ a, r = .ok a → P (f a)) (herr : ∀ e l p u, r = .err e l p u → P (.err e l p u)) (hub : P .ub)
    (hrun : ∀ w, P (.running w)) : P (r.bind f) := by
  cases r with
  | ok a => exact hok a rfl
  | err e l p u => exact herr e l p u rfl
  | ub => exact hub
  | running w => exact hrun w

/-- A part that changes the text: the line ends stay, and an error is reported at the place given. -/
def Kind (t : List Char) (line pos : Nat) (r : DRes (List Char)) : Prop :=
  match r with
  | .ok t' => SameEnds t t'
  | .err e l p u => unknownKey e = false ∧ l = line ∧ p = pos ∧ SameEnds t u
  | _ => True

theorem inplaceD_kind {line pos fuel : Nat} {t : List Char} {off : Nat} {key val : List Char} {pre suf : Bool}
    (hk : Plain key) (hv : Plain val) :
    Kind t line pos ((predefinedInplace fuel t off key val pre suf).at line pos t) := by
  cases h : predefinedInplace fuel t off key val pre suf with
  | ok t' => exact inplace_ends hk hv h
  | err e => exact ⟨inplace_err h, rfl, rfl, SameEnds.refl _⟩
  | ub => trivial
  | running w => trivial

theorem Kind.bind {t : List Char} {line pos : Nat} {r : DRes (List Char)} {f : List Char → DRes (List Char)}
    (h : Kind t line pos r) (hf : ∀ t', SameEnds t t' → Kind t' line pos (f t')) : Kind t line pos (r.bind f) := by
  cases r with
  | ok t' =>
    have := hf t' h
    show Kind t line pos (f t')
    cases hr : f t' with
    | ok u => rw [hr] at this; exact SameEnds.trans h this
    | err e l p u => rw [hr] at this; exact ⟨this.1, this.2.1, this.2.2.1, SameEnds.trans h this.2.2.2⟩
    | ub => trivial
    | running w => trivial
  | err e l p u => exact h
  | ub => trivial
  | running w => trivial

theorem varItemD_kind {line pos fuel : Nat} {t item : List Char} {off : Nat} (hq : Plain item) :
    Kind t line pos (varItemD line pos fuel t item off) := by
  unfold varItemD
  split
  · exact ⟨rfl, rfl, rfl, SameEnds.refl _⟩
  · simp only
    split
    · exact ⟨rfl, rfl, rfl, SameEnds.refl _⟩
    · rename_i c cs hn
      split
      · exact ⟨rfl, rfl, rfl, SameEnds.refl _⟩
      · have hname : Plain (c :: cs) := by
          intro x hx
          rw [← hn] at hx
          exact hq x (mem_takeWhile (mem_dropBack hx))
        have hval : Plain (dropBack (if isBlank c = true then [] else (item.dropWhile (· != '=')).drop 1)) := by
          intro x hx
          have := mem_dropBack hx
          split at this
          · exact absurd this (by simp)
          · exact hq x (mem_dropWhile (List.mem_of_mem_drop this))
        refine Kind.bind (inplaceD_kind ?_ hval) fun t' _ => inplaceD_kind ?_ hval
        · rw [hn]; exact plain_append (plain_append (by unfold Plain; decide) hname) (by unfold Plain; decide)
        · rw [hn]; exact plain_append (by unfold Plain; decide) hname

theorem varLoopD_kind {line pos fuel : Nat} {off : Nat} : ∀ (n : Nat) (t text : List Char), Plain text →
    Kind t line pos (varLoopD line pos fuel off n t text) := by
  intro n
  induction n with
  | zero => intro t text _; exact SameEnds.refl _
  | succ n ih =>
    intro t text hq
    unfold varLoopD
    split
    · exact SameEnds.refl _
    · rename_i c cs
      split
      · exact ih _ _ fun x hx => hq x (List.mem_cons_of_mem _ hx)
      · exact Kind.bind (varItemD_kind fun x hx => hq x (mem_takeWhile hx)) fun t' _ =>
          ih _ _ fun x hx => hq x (List.mem_of_mem_drop hx)

end FNLog
