import Verif.Proof.DiagLine

/-! # Where the parser reports an error -/

namespace FNLog
open Spec

/-- Where an error of the text `t0` is reported: at the line to blame, one line further if a key is unknown, or at the end
of a text without channels. -/
def Placed (dns : List Char → Option Int) (t0 : List Char) (e : PErr) (l p : Nat) (u : List Char) : Prop :=
  SameEnds t0 u ∧ AtM t0 l p ∧ ∃ w,
    ((unknownKey e = true ∧ ∃ q, AtM t0 (l - 1) q ∧ q < t0.length ∧ Reached t0 w q ∧ Blames dns w q e ∧
        ∃ ln, lex w w.length q = .ok (ln, p)) ∨
     (unknownKey e = false ∧ p < t0.length ∧ Reached t0 w p ∧ Blames dns w p e) ∨
     (e = .invalidChannelSize ∧ p = t0.length ∧ Reached t0 w p))

/-- Outcome of a function of the parser. -/
def Outcome {α : Type} (dns : List Char → Option Int) (t0 t : List Char) (r : DRes (α × Nat × Nat)) : Prop :=
  match r with
  | .ok (_, c, l) => AtM t0 l c ∧ Reached t0 t c
  | .err e l p u => Placed dns t0 e l p u
  | _ => True

theorem blames_lex {dns : List Char → Option Int} {t0 t : List Char} {cur line : Nat} {e : PErr} (hs : SameEnds t0 t)
    (hl : AtM t0 line cur) (hc : cur < t.length) (hr : Reached t0 t cur) (h : lex t t.length cur = .err e) :
    Placed dns t0 e line cur t :=
  ⟨hs, hl, t, Or.inr (Or.inl ⟨lex_err h, by rw [hs.length]; exact hc, hr, Or.inl h⟩)⟩

section
variable {dns : List Char → Option Int} {t0 t : List Char} {cur line c : Nat} {ln : Line} {k : Key} {e : PErr}

theorem blames_line {u : List Char} (hs : SameEnds t0 u)
    (hl : AtM t0 line cur) (hc : cur < t0.length) (hr : Reached t0 t cur) (hlex : lex t t.length cur = .ok (ln, c))
    (hk : ln.key = some k) (hu : unknownKey e = false)
    (h : Refuses dns t ln.valEnd k (lineVal t ln).1 (lineVal t ln).2 e) :
    Placed dns t0 e line cur u :=
  ⟨hs, hl, t, Or.inr (Or.inl ⟨hu, hc, hr, Or.inr ⟨ln, c, k, hlex, hk, h⟩⟩)⟩

theorem blames_next {u : List Char} (hs : SameEnds t0 u)
    (hl : AtM t0 line cur) (hl' : AtM t0 (line + 1) c) (hc : cur < t0.length) (hr : Reached t0 t cur)
    (hlex : lex t t.length cur = .ok (ln, c)) (hk : ln.key = some k) (hu : unknownKey e = true)
    (h : Refuses dns t ln.valEnd k (lineVal t ln).1 (lineVal t ln).2 e) :
    Placed dns t0 e (line + 1) c u :=
  ⟨hs, hl', t, Or.inl ⟨hu, cur, hl, hc, hr, Or.inr ⟨ln, c, k, hlex, hk, h⟩, ln, hlex⟩⟩

end

theorem parseDeviceD_place {dns : List Char → Option Int} {t0 t : List Char} (hs : SameEnds t0 t) (h0 : '\x00' ∉ t)
    (indent : Nat) : ∀ (fuel cur line : Nat) (d : Device), AtM t0 line cur → Reached t0 t cur →
      Outcome dns t0 t (parseDeviceD dns t t.length indent fuel cur line d) := by
  intro fuel
  induction fuel with
  | zero => intro cur line d _ _; trivial
  | succ fuel ih =>
    intro cur line d hl hr
    unfold parseDeviceD
    by_cases hc : cur < t.length
    · rcases lexD_line h0 (hs.at hl) hc with ⟨e, hlex, hD⟩ | ⟨ln, c, hlex, hD, hn, hlt, _⟩
      · rw [hD]; exact blames_lex hs hl hc hr hlex
      · rw [hD]
        have hn := hs.symm.at hn
        have hc0 : cur < t0.length := by rw [hs.length]; exact hc
        show Outcome dns t0 t (match ln.key with | none => _ | some k => _)
        cases hk : ln.key with
        | none =>
          have hr' : Reached t0 t c := .line hr hlex (by rw [hk]; nofun) (by rw [hk]; nofun)
          simp only
          split
          · exact ⟨hn, hr'⟩
          · exact ih _ _ _ hn hr'
        | some k =>
          simp only
          split
          · exact ⟨hl, hr⟩
          · cases hf : devField dns k (lineVal t ln).1 (lineVal t ln).2 d with
            | ok d' =>
              have hkk := devField_key hf
              have hr' : Reached t0 t c := .line hr hlex (by rw [hk]; intro e; exact hkk.1 (Option.some.inj e))
                (by rw [hk]; intro e; exact hkk.2 (Option.some.inj e))
              show Outcome dns t0 t (if c < t.length then _ else _)
              split
              · exact ih _ _ _ hn hr'
              · exact ⟨hn, hr'⟩
            | err e =>
              rcases devField_err hf with rfl | hu
              · exact blames_next hs hl hn hc0 hr hlex hk rfl (.device d _ hf)
              · have : devFieldD t cur (line + 1 - 1) c (line + 1) (.err e) = .err e line cur t := by
                  unfold devFieldD
                  split
                  · rename_i h; rw [PRes.err.inj h] at hu; exact absurd hu (by decide)
                  · rfl
                rw [this]
                exact blames_line hs hl hc0 hr hlex hk hu (.device d _ hf)
            | ub => trivial
            | running w => trivial
    · unfold lexD
      rw [lex_at_end t hc]
      show Outcome dns t0 t (if cur ≥ t.length then .ok (d, cur, if cur ≥ t.length then line else line + 1) else _)
      rw [if_pos (by omega), if_pos (by omega)]
      exact ⟨hl, hr⟩

theorem parseChannelD_place {dns : List Char → Option Int} {t0 t : List Char} (hs : SameEnds t0 t) (h0 : '\x00' ∉ t)
    (indent : Nat) : ∀ (fuel cur line : Nat) (ch : Channel), AtM t0 line cur → Reached t0 t cur →
      Outcome dns t0 t (parseChannelD dns t t.length indent fuel cur line ch) := by
  intro fuel
  induction fuel with
  | zero => intro cur line ch _ _; trivial
  | succ fuel ih =>
    intro cur line ch hl hr
    unfold parseChannelD
    by_cases hc : cur < t.length
    · rcases lexD_line h0 (hs.at hl) hc with ⟨e, hlex, hD⟩ | ⟨ln, c, hlex, hD, hn, hlt, _⟩
      · rw [hD]; exact blames_lex hs hl hc hr hlex
      · rw [hD]
        have hn := hs.symm.at hn
        have hc0 : cur < t0.length := by rw [hs.length]; exact hc
        show Outcome dns t0 t (match ln.key with | none => _ | some k => _)
        cases hk : ln.key with
        | none =>
          have hr' : Reached t0 t c := .line hr hlex (by rw [hk]; nofun) (by rw [hk]; nofun)
          simp only
          split
          · exact ⟨hn, hr'⟩
          · exact ih _ _ _ hn hr'
        | some k =>
          simp only
          split
          · exact ⟨hl, hr⟩
          · by_cases hkd : k = .device
            · subst hkd
              rw [if_pos rfl]
              have hr' : Reached t0 t c := .line hr hlex (by rw [hk]; nofun) (by rw [hk]; nofun)
              split
              · exact blames_line hs hl hc0 hr hlex hk rfl (.devices rfl)
              · rename_i h20
                split
                · rename_i hid
                  exact blames_line hs hl hc0 hr hlex hk rfl (.deviceNumber _ rfl
                    (by simp only [MAX_DEVICE_SIZE] at h20; omega) hid)
                · have hdev := parseDeviceD_place (dns := dns) hs h0 ln.blank fuel c (line + 1)
                    { id := atoi ((lineVal t ln).1 ++ (lineVal t ln).2) } hn hr'
                  cases hp : parseDeviceD dns t t.length ln.blank fuel c (line + 1)
                    { id := atoi ((lineVal t ln).1 ++ (lineVal t ln).2) } with
                  | ok x =>
                    obtain ⟨d, c', l'⟩ := x
                    rw [hp] at hdev
                    show Outcome dns t0 t (if c' < t.length then _ else _)
                    split
                    · exact ih _ _ _ hdev.1 hdev.2
                    · exact hdev
                  | err e l p u => rw [hp] at hdev; exact hdev
                  | ub => trivial
                  | running w => trivial
            · rw [if_neg hkd]
              cases hf : chanField k (lineVal t ln).1 (lineVal t ln).2 ch with
              | ok d' =>
                have hkk := chanField_key hf
                have hr' : Reached t0 t c := .line hr hlex (by rw [hk]; intro e; exact hkk.1 (Option.some.inj e))
                  (by rw [hk]; intro e; exact hkk.2 (Option.some.inj e))
                show Outcome dns t0 t (if c < t.length then _ else _)
                split
                · exact ih _ _ _ hn hr'
                · exact ⟨hn, hr'⟩
              | err e =>
                have he := chanField_err hf
                subst he
                exact blames_next hs hl hn hc0 hr hlex hk rfl (.channel ch _ hkd hf)
              | ub => trivial
              | running w => trivial
    · unfold lexD
      rw [lex_at_end t hc]
      show Outcome dns t0 t (if cur ≥ t.length then .ok (ch, cur, if cur ≥ t.length then line else line + 1) else _)
      rw [if_pos (by omega), if_pos (by omega)]
      exact ⟨hl, hr⟩

/-- Outcome of the loop of the parser. -/
def OutcomeL (dns : List Char → Option Int) (t0 : List Char) (r : DRes Config) : Prop :=
  match r with
  | .err e l p u => Placed dns t0 e l p u
  | _ => True

theorem loggerLoopD_place {dns : List Char → Option Int} {t0 : List Char} :
    ∀ (fuel : Nat) (t : List Char) (cur line : Nat) (g : Config), SameEnds t0 t → '\x00' ∉ t → AtM t0 line cur →
      Reached t0 t cur → OutcomeL dns t0 (loggerLoopD dns t0.length fuel t cur line g) := by
  intro fuel
  induction fuel with
  | zero => intro t cur line g _ _ _ _; trivial
  | succ fuel ih =>
    intro t cur line g hs h0 hl hr
    have hagain : ∀ (t' : List Char) (c l : Nat) (g : Config), SameEnds t0 t' → AtM t0 l c → Reached t0 t' c →
        OutcomeL dns t0 (if c < t0.length then loggerLoopD dns t0.length fuel t' c l g
          else if g.channels.length = 0 then .err .invalidChannelSize l c t' else .ok g) := by
      intro t' c l g hs' hl' hr'
      split
      · exact ih _ _ _ _ hs' (SameEnds.nul (hs.symm.trans hs') h0) hl' hr'
      · split
        · exact ⟨hs', hl', t', Or.inr (Or.inr ⟨rfl, by have := hl'.le; omega, hr'⟩)⟩
        · trivial
    unfold loggerLoopD
    by_cases hc : cur < t.length
    · rw [hs.length]
      rw [hs.length] at hagain ih
      rcases lexD_line h0 (hs.at hl) hc with ⟨e, hlex, hD⟩ | ⟨ln, c, hlex, hD, hn, hlt, hq⟩
      · rw [hD]; exact blames_lex hs hl hc hr hlex
      · rw [hD]
        have hn := hs.symm.at hn
        have hc0 : cur < t0.length := by rw [hs.length]; exact hc
        rw [DRes.bind]
        simp only
        have hrl : ln.key ≠ some .define → ln.key ≠ some .variable → Reached t0 t c := fun h1 h2 => .line hr hlex h1 h2
        split
        · rename_i hk
          have hr' := hrl (by rw [hk]; nofun) (by rw [hk]; nofun)
          split
          · trivial
          · exact ih _ _ _ _ hs h0 hn hr'
        · rename_i hk
          exact hagain _ _ _ _ hs hn (hrl (by rw [hk]; nofun) (by rw [hk]; nofun))
        · rename_i hk
          cases hf : predefinedMacro fuel t (lineVal t ln).1 ln.valEnd with
          | ok t' => exact hagain _ _ _ _ (hs.trans (macro_ends (hq _ hk) hf)) hn (.define fuel hr hlex hk hf)
          | err e => exact blames_line hs hl hc0 hr hlex hk (macro_err hf) (.define fuel _ rfl hf)
          | ub => trivial
          | running w => trivial
        · rename_i hk
          have hkind := varLoopD_kind (line := line + 1 - 1) (pos := cur) (fuel := fuel) (off := ln.valEnd)
            (lineVal t ln).1.length t (lineVal t ln).1 (hq _ hk)
          have her := varLoopD_erase (line + 1 - 1) cur fuel ln.valEnd
            (lineVal t ln).1.length t (lineVal t ln).1
          cases hf : varLoopD (line + 1 - 1) cur fuel ln.valEnd (lineVal t ln).1.length t (lineVal t ln).1 with
          | ok t' =>
            rw [hf] at hkind her
            exact hagain _ _ _ _ (hs.trans hkind) hn (.variables fuel hr hlex hk her.symm)
          | err e l p u =>
            rw [hf] at hkind her
            obtain ⟨h1, rfl, rfl, h4⟩ := hkind
            exact blames_line (hs.trans h4) hl hc0 hr hlex hk h1 (.variables fuel _ rfl her.symm)
          | ub => trivial
          | running w => trivial
        · rename_i hk
          exact hagain _ _ _ _ hs hn (hrl (by rw [hk]; nofun) (by rw [hk]; nofun))
        · rename_i hk
          exact hagain _ _ _ _ hs hn (hrl (by rw [hk]; nofun) (by rw [hk]; nofun))
        · rename_i hk
          exact hagain _ _ _ _ hs hn (hrl (by rw [hk]; nofun) (by rw [hk]; nofun))
        · rename_i hk
          have hr' := hrl (by rw [hk]; nofun) (by rw [hk]; nofun)
          split
          · exact blames_line hs hl hc0 hr hlex hk rfl (.channels rfl)
          · rename_i h2
            split
            · rename_i hid
              exact blames_line hs hl hc0 hr hlex hk rfl (.channelNumber _ rfl
                (by simp only [MAX_CHANNEL_SIZE] at h2; omega) hid)
            · have hch := parseChannelD_place (dns := dns) hs h0 ln.blank fuel c (line + 1)
                { id := atoi ((lineVal t ln).1 ++ (lineVal t ln).2) } hn hr'
              cases hp : parseChannelD dns t t.length ln.blank fuel c (line + 1)
                { id := atoi ((lineVal t ln).1 ++ (lineVal t ln).2) } with
              | ok x =>
                obtain ⟨d, c', l'⟩ := x
                rw [hp] at hch
                exact hagain t c' l' { g with channels := g.channels ++ [d] } hs hch.1 hch.2
              | err e l p u => rw [hp] at hch; exact hch
              | ub => trivial
              | running w => trivial
        · rename_i k h1 h2 h3 h4 h5 h6 h7 hk
          exact blames_next hs hl hn hc0 hr hlex hk rfl (.global h1 h2 h3 h4 h5 h6 h7)
    · unfold lexD
      rw [hs.length, lex_at_end t hc]
      show OutcomeL dns t0 (if cur ≥ t.length then .ok g else _)
      rw [if_pos (by omega)]
      trivial

theorem parseLoggerD_place {dns : List Char → Option Int} {garbage : Int} {fuel : Nat} {t : List Char} (h0 : '\x00' ∉ t)
    (hb : hasBom t = false) : OutcomeL dns t (parseLoggerD dns garbage fuel t) := by
  unfold parseLoggerD
  simp only [hb, Bool.false_eq_true, if_false, Nat.zero_add]
  exact loggerLoopD_place fuel t 0 1 _ (SameEnds.refl _) h0 (atM_first t) .start

/-! ## Only invalidChannelSize is reported at the end for another reason -/

/-- The lines of a text without line ends in the middle. -/
theorem configLines_unix {l rest : List Char} (hl : ∀ c ∈ l, c ≠ '\r' ∧ c ≠ '\n') (hr : rest.head? ≠ some '\r') :
    configLines (l ++ '\n' :: rest) = (l ++ ['\n']) :: configLines rest := by
  induction l with
  | nil =>
    rw [List.nil_append, configLines_end (Or.inr rfl)]
    have : endLen ('\n' :: rest) = 1 := by
      refine if_neg ?_
      rintro ⟨h1 | h1, h2⟩
      · cases rest with
        | nil => exact absurd h1 (by decide)
        | cons c r => simp only [List.headD_cons] at h1; subst h1; exact hr rfl
      · exact h2 h1
    rw [this]; rfl
  | cons c l ih =>
    have hc := hl c List.mem_cons_self
    rw [List.cons_append, configLines_plain hc.1 hc.2, ih fun x hx => hl x (List.mem_cons_of_mem _ hx)]
    rfl

theorem configLines_windows {l rest : List Char} (hl : ∀ c ∈ l, c ≠ '\r' ∧ c ≠ '\n') :
    configLines (l ++ '\r' :: '\n' :: rest) = (l ++ ['\r', '\n']) :: configLines rest := by
  induction l with
  | nil => rw [List.nil_append, configLines]; rfl
  | cons c l ih =>
    have hc := hl c List.mem_cons_self
    rw [List.cons_append, configLines_plain hc.1 hc.2, ih fun x hx => hl x (List.mem_cons_of_mem _ hx)]
    rfl

/-! ## The excerpt -/

theorem excerptFrom_prefix : ∀ (s : List Char) (n : Nat), '\x00' ∉ s → ∃ r, s = excerptFrom n s ++ r ∧
    (r = [] ∨ (∃ r', r = '\n' :: r') ∧ 380 ≤ n + (excerptFrom n s).length) := by
  intro s
  induction s with
  | nil => intro n _; exact ⟨[], rfl, Or.inl rfl⟩
  | cons c s ih =>
    intro n h0
    obtain ⟨r, h1, h2⟩ := ih (n + 1) fun h => h0 (List.mem_cons_of_mem _ h)
    have hc : c ≠ '\x00' := fun e => h0 (e ▸ List.mem_cons_self)
    have hcons : excerptFrom n (c :: s) = c :: excerptFrom (n + 1) s → ∃ r, c :: s = excerptFrom n (c :: s) ++ r ∧
        (r = [] ∨ (∃ r', r = '\n' :: r') ∧ 380 ≤ n + (excerptFrom n (c :: s)).length) := by
      intro e
      rw [e]
      refine ⟨r, by rw [List.cons_append, ← h1], ?_⟩
      rcases h2 with h2 | ⟨h2, h3⟩
      · exact Or.inl h2
      · exact Or.inr ⟨h2, by rw [List.length_cons]; omega⟩
    by_cases hn : n < 380
    · apply hcons; rw [excerptFrom, if_neg hc, if_pos hn]
    · by_cases hl : c = '\n'
      · have e : excerptFrom n (c :: s) = [] := by rw [excerptFrom, if_neg hc, if_neg hn, if_pos hl]
        rw [e]
        exact ⟨c :: s, rfl, Or.inr ⟨⟨s, by rw [hl]⟩, by simp only [List.length_nil]; omega⟩⟩
      · apply hcons; rw [excerptFrom, if_neg hc, if_neg hn, if_neg hl]

end FNLog
