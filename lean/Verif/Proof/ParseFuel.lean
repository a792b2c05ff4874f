import Verif.Proof.LinesLogger

/-! # More fuel does not change an outcome; a text shorter than its announced end is never accepted -/

namespace FNLog
open Spec

/-- `r` is an outcome, and `r'` is the same. -/
def Stable {α : Type} (r r' : PRes α) : Prop := (∀ w, r ≠ .running w) → r' = r

theorem Stable.refl {α : Type} (r : PRes α) : Stable r r := fun _ => rfl

theorem stable_bind {α β : Type} {r r' : PRes α} {f f' : α → PRes β} (h : Stable r r')
    (hf : ∀ a, Stable (f a) (f' a)) : Stable (r.bind f) (r'.bind f') := by
  intro hne
  cases r with
  | ok a =>
    have := h (by nofun)
    subst this
    exact hf a hne
  | err e => have := h (by nofun); subst this; rfl
  | ub => have := h (by nofun); subst this; rfl
  | running w => exact absurd rfl (hne w)

theorem inplaceLoop_stable {key val : List Char} {pre suf : Bool} : ∀ (fuel : Nat) (t : List Char) (off : Nat),
    Stable (inplaceLoop key val pre suf fuel t off) (inplaceLoop key val pre suf (fuel + 1) t off) := by
  intro fuel
  induction fuel with
  | zero => intro t off h; exact absurd rfl (h _)
  | succ fuel ih =>
    intro t off
    unfold inplaceLoop
    cases find t key off with
    | none => exact Stable.refl _
    | some o =>
      simp only
      split
      · exact ih _ _
      · exact ih _ _

theorem predefinedInplace_stable (fuel : Nat) (t : List Char) (off : Nat) (key val : List Char) (pre suf : Bool) :
    Stable (predefinedInplace fuel t off key val pre suf) (predefinedInplace (fuel + 1) t off key val pre suf) := by
  unfold predefinedInplace
  split
  · exact Stable.refl _
  · exact inplaceLoop_stable fuel t off

theorem predefinedMacro_stable (fuel : Nat) (t line : List Char) (off : Nat) :
    Stable (predefinedMacro fuel t line off) (predefinedMacro (fuel + 1) t line off) := by
  unfold predefinedMacro
  split
  · simp only
    split
    · exact Stable.refl _
    · exact predefinedInplace_stable _ _ _ _ _ _ _
  · exact Stable.refl _

theorem varItem_stable (fuel : Nat) (t item : List Char) (off : Nat) :
    Stable (varItem fuel t item off) (varItem (fuel + 1) t item off) := by
  unfold varItem
  split
  · exact Stable.refl _
  · simp only
    split
    · exact Stable.refl _
    · split
      · exact Stable.refl _
      · exact stable_bind (predefinedInplace_stable _ _ _ _ _ _ _) fun _ => predefinedInplace_stable _ _ _ _ _ _ _

theorem varLoop_stable (fuel off : Nat) : ∀ (n : Nat) (t line : List Char),
    Stable (varLoop fuel off n t line) (varLoop (fuel + 1) off n t line) := by
  intro n
  induction n with
  | zero => intro t line; exact Stable.refl _
  | succ n ih =>
    intro t line
    unfold varLoop
    split
    · exact Stable.refl _
    · split
      · exact ih _ _
      · exact stable_bind (varItem_stable _ _ _ _) fun _ => ih _ _

theorem parseDevice_stable {dns : List Char → Option Int} {t : List Char} {en indent : Nat} :
    ∀ (fuel cur : Nat) (d : Device),
      Stable (parseDevice dns t en indent fuel cur d) (parseDevice dns t en indent (fuel + 1) cur d) := by
  intro fuel
  induction fuel with
  | zero => intro cur d h; exact absurd rfl (h _)
  | succ fuel ih =>
    intro cur d
    unfold parseDevice
    refine stable_bind (Stable.refl _) fun x => ?_
    obtain ⟨ln, c⟩ := x
    simp only
    cases ln.key with
    | none =>
      simp only
      split
      · exact Stable.refl _
      · exact ih _ _
    | some k =>
      simp only
      split
      · exact Stable.refl _
      · refine stable_bind (Stable.refl _) fun d => ?_
        split
        · exact ih _ _
        · exact Stable.refl _

theorem parseChannel_stable {dns : List Char → Option Int} {t : List Char} {en indent : Nat} :
    ∀ (fuel cur : Nat) (d : Channel),
      Stable (parseChannel dns t en indent fuel cur d) (parseChannel dns t en indent (fuel + 1) cur d) := by
  intro fuel
  induction fuel with
  | zero => intro cur d h; exact absurd rfl (h _)
  | succ fuel ih =>
    intro cur d
    unfold parseChannel
    refine stable_bind (Stable.refl _) fun x => ?_
    obtain ⟨ln, c⟩ := x
    simp only
    cases ln.key with
    | none =>
      simp only
      split
      · exact Stable.refl _
      · exact ih _ _
    | some k =>
      simp only
      split
      · exact Stable.refl _
      · split
        · split
          · exact Stable.refl _
          · split
            · exact Stable.refl _
            · refine stable_bind (parseDevice_stable _ _ _) fun x => ?_
              obtain ⟨d, c2⟩ := x
              simp only
              split
              · exact ih _ _
              · exact Stable.refl _
        · refine stable_bind (Stable.refl _) fun d => ?_
          split
          · exact ih _ _
          · exact Stable.refl _

theorem loggerLoop_stable {dns : List Char → Option Int} {en : Nat} :
    ∀ (fuel : Nat) (t : List Char) (cur : Nat) (g : Config),
      Stable (loggerLoop dns en fuel t cur g) (loggerLoop dns en (fuel + 1) t cur g) := by
  intro fuel
  induction fuel with
  | zero => intro t cur d h; exact absurd rfl (h _)
  | succ fuel ih =>
    intro t cur g
    unfold loggerLoop
    refine stable_bind (Stable.refl _) fun x => ?_
    obtain ⟨ln, c⟩ := x
    have hgo : ∀ (t : List Char) (cur : Nat) (g : Config), Stable
        (if cur < en then loggerLoop dns en fuel t cur g
          else if g.channels.length = 0 then .err .invalidChannelSize else .ok g)
        (if cur < en then loggerLoop dns en (fuel + 1) t cur g
          else if g.channels.length = 0 then .err .invalidChannelSize else .ok g) := by
      intro t cur g
      split
      · exact ih _ _ _
      · exact Stable.refl _
    simp only
    cases ln.key with
    | none =>
      simp only
      split
      · exact Stable.refl _
      · exact ih _ _ _
    | some k =>
      cases k with
      | hotUpdate => exact hgo _ _ _
      | define => exact stable_bind (predefinedMacro_stable _ _ _ _) fun _ => hgo _ _ _
      | «variable» => exact stable_bind (varLoop_stable _ _ _ _ _) fun _ => hgo _ _ _
      | loggerName => exact hgo _ _ _
      | loggerDesc => exact hgo _ _ _
      | shmKey => exact hgo _ _ _
      | channel =>
        simp only
        split
        · exact Stable.refl _
        · split
          · exact Stable.refl _
          · exact stable_bind (parseChannel_stable _ _ _) fun _ => hgo _ _ _
      | _ => exact Stable.refl _

/-- The outcome does not depend on the fuel. -/
theorem parseLogger_stable {dns : List Char → Option Int} {garbage : Int} {t : List Char} {fuel fuel' : Nat}
    (h : fuel ≤ fuel') (hr : ∀ w, parseLogger dns garbage fuel t ≠ .running w) :
    parseLogger dns garbage fuel' t = parseLogger dns garbage fuel t := by
  obtain ⟨d, rfl⟩ := Nat.le.dest h
  clear h
  induction d with
  | zero => rfl
  | succ d ih =>
    rw [← ih]
    exact loggerLoop_stable _ _ _ _ (by show ∀ w, parseLogger dns garbage (fuel + d) t ≠ .running w; rw [ih]; exact hr)

/-! ## Texts that end before `end_` -/

theorem inplaceLoop_length {key val : List Char} {pre suf : Bool} (hl : val.length = key.length) :
    ∀ (fuel : Nat) (t : List Char) (off : Nat) (t' : List Char),
      inplaceLoop key val pre suf fuel t off = .ok t' → t'.length = t.length := by
  intro fuel
  induction fuel with
  | zero => intro t off t' h; exact absurd h (by nofun)
  | succ fuel ih =>
    intro t off t' h
    unfold inplaceLoop at h
    cases hf : find t key off with
    | none => rw [hf] at h; rw [PRes.ok.inj h]
    | some o =>
      rw [hf] at h
      simp only at h
      split at h
      · rw [ih _ _ _ h]
        obtain ⟨_, h2, ⟨r, h3⟩, _⟩ := find_some hf
        have := congrArg List.length h3
        rw [List.length_drop, List.length_append] at this
        apply length_overwrite
        omega
      · exact ih _ _ _ h

theorem predefinedInplace_length {fuel : Nat} {t : List Char} {off : Nat} {key val : List Char} {pre suf : Bool}
    {t' : List Char} (h : predefinedInplace fuel t off key val pre suf = .ok t') : t'.length = t.length := by
  unfold predefinedInplace at h
  split at h
  · exact absurd h (by nofun)
  · exact inplaceLoop_length (padTo_length (by omega)) _ _ _ _ h

theorem predefinedMacro_length {fuel : Nat} {t line : List Char} {off : Nat} {t' : List Char}
    (h : predefinedMacro fuel t line off = .ok t') : t'.length = t.length := by
  unfold predefinedMacro at h
  split at h
  · simp only at h
    split at h
    · exact absurd h (by nofun)
    · exact predefinedInplace_length h
  · exact absurd h (by nofun)

theorem varItem_length {fuel : Nat} {t item : List Char} {off : Nat} {t' : List Char}
    (h : varItem fuel t item off = .ok t') : t'.length = t.length := by
  unfold varItem at h
  split at h
  · exact absurd h (by nofun)
  · simp only at h
    split at h
    · exact absurd h (by nofun)
    · split at h
      · exact absurd h (by nofun)
      · obtain ⟨u, h1, h2⟩ := PRes.bind_ok h
        rw [predefinedInplace_length h2, predefinedInplace_length h1]

theorem varLoop_length {fuel off : Nat} : ∀ (n : Nat) {t line t' : List Char},
    varLoop fuel off n t line = .ok t' → t'.length = t.length := by
  intro n
  induction n with
  | zero => intro t line t' h; rw [PRes.ok.inj h]
  | succ n ih =>
    intro t line t' h
    unfold varLoop at h
    split at h
    · rw [PRes.ok.inj h]
    · split at h
      · exact ih h
      · obtain ⟨u, h1, h2⟩ := PRes.bind_ok h
        rw [ih h2, varItem_length h1]

/-- With an announced end behind the text, the parser never succeeds. -/
theorem loggerLoop_short {dns : List Char → Option Int} {en : Nat} :
    ∀ (fuel : Nat) (t : List Char) (cur : Nat) (g g' : Config), t.length < en → cur ≤ t.length →
      loggerLoop dns en fuel t cur g ≠ .ok g' := by
  intro fuel
  induction fuel with
  | zero => intro t cur g g' _ _; exact nofun
  | succ fuel ih =>
    intro t cur g g' hen hcur h
    unfold loggerLoop at h
    obtain ⟨⟨ln, c⟩, hlex, h⟩ := PRes.bind_ok h
    have hc : c ≤ t.length := by
      rcases lex_cases t en cur hcur with ⟨e, he⟩ | ⟨ln', c', he, _, h2, _⟩
      · rw [he] at hlex; exact absurd hlex (by nofun)
      · rw [he] at hlex
        obtain ⟨_, rfl⟩ := Prod.mk.inj (PRes.ok.inj hlex)
        exact h2
    have hgo : ∀ (t' : List Char) (c : Nat) (g : Config), t'.length = t.length → c ≤ t.length →
        (if c < en then loggerLoop dns en fuel t' c g
          else if g.channels.length = 0 then .err .invalidChannelSize else .ok g) ≠ .ok g' := by
      intro t' c g hl hc h
      rw [if_pos (by omega)] at h
      exact ih t' c g g' (by omega) (by omega) h
    simp only at h
    cases hk : ln.key with
    | none =>
      rw [hk] at h
      simp only at h
      rw [if_neg (by omega)] at h
      exact ih t c g g' hen hc h
    | some k =>
      rw [hk] at h
      cases k with
      | hotUpdate => exact hgo _ _ _ rfl hc h
      | define =>
        obtain ⟨u, h1, h2⟩ := PRes.bind_ok h
        exact hgo _ _ _ (predefinedMacro_length h1) hc h2
      | «variable» =>
        obtain ⟨u, h1, h2⟩ := PRes.bind_ok h
        exact hgo _ _ _ (varLoop_length _ h1) hc h2
      | loggerName => exact hgo _ _ _ rfl hc h
      | loggerDesc => exact hgo _ _ _ rfl hc h
      | shmKey => exact hgo _ _ _ rfl hc h
      | channel =>
        simp only at h
        split at h
        · exact absurd h (by nofun)
        · split at h
          · exact absurd h (by nofun)
          · obtain ⟨⟨ch, c2⟩, h1, h2⟩ := PRes.bind_ok h
            exact hgo _ _ _ rfl (parseChannel_pos t _ _ _ _ _ _ _ hc h1).2 h2
      | _ => exact absurd h (by nofun)

end FNLog
