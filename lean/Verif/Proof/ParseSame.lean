import Verif.Proof.ParseFuel

/-! # Texts that say the same line by line; words -/

namespace FNLog
open Spec

/-! ## Blanks at the end of a line -/

theorem dropBack_blanks {s b : List Char} (h : ∀ c ∈ b, isBlank c = true) : dropBack (s ++ b) = dropBack s := by
  unfold dropBack
  rw [List.reverse_append]
  congr 1
  have : ∀ c ∈ b.reverse, isBlank c = true := fun c hc => h c (List.mem_reverse.mp hc)
  generalize b.reverse = b at this
  induction b with
  | nil => rfl
  | cons c b ih =>
    rw [List.cons_append, List.dropWhile_cons, if_pos (this c List.mem_cons_self)]
    exact ih (fun x hx => this x (List.mem_cons_of_mem _ hx))

theorem closedValue_blanks {cl : Char} {s b : List Char} (h : ∀ c ∈ b, isBlank c = true) (hcl : isBlank cl = false) :
    closedValue cl (s ++ b) = closedValue cl s := by
  have hb : cl ∉ b := fun hm => by rw [h cl hm] at hcl; exact absurd hcl (by decide)
  unfold closedValue
  by_cases hm : cl ∈ s
  · rw [if_pos hm, if_pos (List.mem_append_left _ hm)]
    have : (s ++ b).takeWhile (· != cl) = s.takeWhile (· != cl) := by
      clear h hb
      induction s with
      | nil => cases hm
      | cons c s ih =>
        rw [List.cons_append, List.takeWhile_cons, List.takeWhile_cons]
        split
        · rename_i hc
          rw [ih]
          rcases List.mem_cons.mp hm with h | h
          · rw [h] at hc; simp at hc
          · exact h
        · rfl
    rw [this]
  · rw [if_neg hm, if_neg]
    intro h'
    rcases List.mem_append.mp h' with h' | h'
    · exact hm h'
    · exact hb h'

theorem lineValue_blanks {r b : List Char} (h : ∀ c ∈ b, isBlank c = true) : lineValue (r ++ b) = lineValue r := by
  unfold lineValue
  by_cases hr : r.dropWhile isBlank = []
  · rw [dropWhile_append_eq hr, hr, dropWhile_all h]
  · rw [dropWhile_append_ne hr]
    cases hd : r.dropWhile isBlank with
    | nil => exact absurd hd hr
    | cons c s =>
      simp only [List.cons_append]
      rw [closedValue_blanks h (by decide), closedValue_blanks h (by decide), closedValue_blanks h (by decide),
        ← List.cons_append, dropBack_blanks h]

theorem takeWhile_append_ne {p : Char → Bool} {a s : List Char} (h : a.dropWhile p ≠ []) :
    (a ++ s).takeWhile p = a.takeWhile p := by
  induction a with
  | nil => exact absurd rfl h
  | cons c a ih =>
    rw [List.cons_append, List.takeWhile_cons, List.takeWhile_cons]
    split
    · rename_i hc
      rw [ih]
      rw [List.dropWhile_cons, if_pos hc] at h
      exact h
    · rfl

/-- Blanks at the end of a line say nothing. -/
theorem readLine_trailing {l b : List Char} (h : ∀ c ∈ b, isBlank c = true) : readLine (l ++ b) = readLine l := by
  unfold readLine
  by_cases h1 : l.dropWhile (fun c => isBlank c || c == '-') = []
  · rw [dropWhile_append_eq h1, h1, dropWhile_all (fun c hc => by rw [h c hc]; rfl)]
  · rw [dropWhile_append_ne h1]
    have hb1 : (l ++ b).takeWhile isBlank = l.takeWhile isBlank := by
      apply takeWhile_append_ne
      intro hn
      apply h1
      apply dropWhile_all
      intro c hc
      have : ∀ (l : List Char), l.dropWhile isBlank = [] → ∀ c ∈ l, isBlank c = true := by
        intro l
        induction l with
        | nil => intro _ c hc; cases hc
        | cons x l ih =>
          intro hl c hc
          rw [List.dropWhile_cons] at hl
          split at hl
          · rcases List.mem_cons.mp hc with rfl | hc
            · assumption
            · exact ih hl c hc
          · exact absurd hl (by nofun)
      rw [this l hn c hc]; rfl
    rw [hb1]
    cases hd : l.dropWhile (fun c => isBlank c || c == '-') with
    | nil => exact absurd hd h1
    | cons c s =>
      simp only [List.cons_append]
      split
      · rfl
      · by_cases h2 : (c :: s).dropWhile isKeyChar = []
        · rw [if_pos h2]
          split
          · rfl
          · have h3 : (c :: (s ++ b)).dropWhile isKeyChar = b := by
              have hnb : b.dropWhile isKeyChar = b := by
                apply dropWhile_head
                intro x r hx
                have hx' := h x (hx ▸ List.mem_cons_self)
                cases hk : isKeyChar x with
                | false => rfl
                | true =>
                  exfalso
                  unfold isBlank at hx'
                  simp only [Bool.or_eq_true, beq_iff_eq] at hx'
                  rcases hx' with ((rfl | rfl) | rfl) | rfl <;> exact absurd hk (by decide)
              have := dropWhile_append_eq (s := b) h2
              rw [List.cons_append] at this
              rw [this, hnb]
            rw [h3]
            split
            · rename_i k hk
              cases hb : b.dropWhile (fun c => c == ' ' || c == '\t') with
              | nil => rfl
              | cons x u =>
                have hx : isBlank x = true := h x (mem_dropWhile (p := fun c => c == ' ' || c == '\t') (hb ▸ List.mem_cons_self))
                have : x ≠ ':' := by intro e; rw [e] at hx; exact absurd hx (by decide)
                simp only [this, if_false]
            · rfl
        · rw [if_neg h2]
          have e1 : (c :: (s ++ b)).dropWhile isKeyChar = (c :: s).dropWhile isKeyChar ++ b := by
            rw [← List.cons_append]; exact dropWhile_append_ne h2
          have e2 : (c :: (s ++ b)).takeWhile isKeyChar = (c :: s).takeWhile isKeyChar := by
            rw [← List.cons_append]; exact takeWhile_append_ne h2
          rw [e1, e2, if_neg (by simp [h2])]
          split
          · rename_i k hk
            generalize (c :: s).dropWhile isKeyChar = z
            by_cases h4 : z.dropWhile (fun c => c == ' ' || c == '\t') = []
            · rw [dropWhile_append_eq h4, h4]
              cases hb : b.dropWhile (fun c => c == ' ' || c == '\t') with
              | nil => rfl
              | cons x u =>
                have hx : isBlank x = true := h x (mem_dropWhile (p := fun c => c == ' ' || c == '\t') (hb ▸ List.mem_cons_self))
                have : x ≠ ':' := by intro e; rw [e] at hx; exact absurd hx (by decide)
                simp only [this, if_false]
            · rw [dropWhile_append_ne h4]
              cases hz : z.dropWhile (fun c => c == ' ' || c == '\t') with
              | nil => exact absurd hz h4
              | cons x u =>
                simp only [List.cons_append]
                rw [lineValue_blanks h]
          · rfl

/-! ## The line parser depends on what the lines say -/

/-- The lines say the same, one by one. -/
def Same (L L' : List (List Char)) : Prop := L.map readLine = L'.map readLine

theorem same_cons {l : List Char} {L L' : List (List Char)} (h : Same (l :: L) L') :
    ∃ l' M, L' = l' :: M ∧ readLine l = readLine l' ∧ Same L M := by
  cases L' with
  | nil => exact absurd h (by unfold Same; nofun)
  | cons l' M =>
    obtain ⟨h1, h2⟩ := List.cons.inj h
    exact ⟨l', M, rfl, h1, h2⟩

theorem same_nil {L' : List (List Char)} (h : Same [] L') : L' = [] := by
  cases L' with
  | nil => rfl
  | cons l' M => exact absurd h (by unfold Same; nofun)

theorem same_length {L L' : List (List Char)} (h : Same L L') : L.length = L'.length := by
  have := congrArg List.length h
  simpa using this

/-- Same outcome, and the lines left say the same. -/
def SameOut {α : Type} (L : List (List Char)) (r r' : Option (α × List (List Char))) : Prop :=
  match r, r' with
  | none, none => True
  | some (a, M), some (b, M') => a = b ∧ Same M M' ∧ ∀ l ∈ M, l ∈ L
  | _, _ => False

theorem sameOut_mono {α : Type} {L : List (List Char)} {l : List Char} {r r' : Option (α × List (List Char))}
    (h : SameOut L r r') : SameOut (l :: L) r r' := by
  cases r with
  | none =>
    cases r' with
    | none => trivial
    | some y => exact False.elim h
  | some x =>
    cases r' with
    | none => exact False.elim h
    | some y => exact ⟨h.1, h.2.1, fun z hz => List.mem_cons_of_mem _ (h.2.2 z hz)⟩

theorem linesDevice_same {dns : List Char → Option Int} {indent : Nat} :
    ∀ (L L' : List (List Char)) (d : Device), Same L L' →
      SameOut L (linesDevice dns indent L d) (linesDevice dns indent L' d) := by
  intro L
  induction L with
  | nil => intro L' d h; rw [same_nil h]; exact ⟨rfl, rfl, fun _ h => h⟩
  | cons l L ih =>
    intro L' d h
    obtain ⟨l', M, rfl, h1, h2⟩ := same_cons h
    unfold linesDevice
    rw [← h1]
    cases readLine l with
    | none => trivial
    | some o =>
      cases o with
      | none => exact sameOut_mono (ih M d h2)
      | some x =>
        obtain ⟨b, k, v⟩ := x
        simp only
        split
        · exact ⟨rfl, h, fun _ h => h⟩
        · cases devField dns k v [] d with
          | ok d1 => exact sameOut_mono (ih M d1 h2)
          | err e => trivial
          | ub => trivial
          | running w => trivial

theorem linesChannel_same {dns : List Char → Option Int} {indent : Nat} :
    ∀ (n : Nat) (L L' : List (List Char)) (c : Channel), Same L L' →
      SameOut L (linesChannel dns indent n L c) (linesChannel dns indent n L' c) := by
  intro n
  induction n with
  | zero =>
    intro L L' c h
    cases L with
    | nil => rw [same_nil h]; exact ⟨rfl, rfl, fun _ h => h⟩
    | cons l L => obtain ⟨l', M, rfl, h1, h2⟩ := same_cons h; trivial
  | succ n ih =>
    intro L L' c h
    cases L with
    | nil => rw [same_nil h]; exact ⟨rfl, rfl, fun _ h => h⟩
    | cons l L =>
      obtain ⟨l', M, rfl, h1, h2⟩ := same_cons h
      unfold linesChannel
      rw [← h1]
      cases readLine l with
      | none => trivial
      | some o =>
        cases o with
        | none => exact sameOut_mono (ih L M c h2)
        | some x =>
          obtain ⟨b, k, v⟩ := x
          simp only
          split
          · exact ⟨rfl, h, fun _ h => h⟩
          · split
            · split
              · trivial
              · split
                · trivial
                · have hd := linesDevice_same (dns := dns) (indent := b) L M { id := atoi v } h2
                  cases e1 : linesDevice dns b L { id := atoi v } with
                  | none =>
                    cases e2 : linesDevice dns b M { id := atoi v } with
                    | none => trivial
                    | some y => rw [e1, e2] at hd; exact False.elim hd
                  | some x =>
                    obtain ⟨d1, N⟩ := x
                    cases e2 : linesDevice dns b M { id := atoi v } with
                    | none => rw [e1, e2] at hd; exact False.elim hd
                    | some y =>
                      obtain ⟨d2, N'⟩ := y
                      rw [e1, e2] at hd
                      obtain ⟨rfl, h3, h4⟩ := hd
                      have := ih N N' (addDevice c d1) h3
                      simp only
                      cases e3 : linesChannel dns indent n N (addDevice c d1) with
                      | none =>
                        cases e4 : linesChannel dns indent n N' (addDevice c d1) with
                        | none => trivial
                        | some y => rw [e3, e4] at this; exact False.elim this
                      | some x =>
                        cases e4 : linesChannel dns indent n N' (addDevice c d1) with
                        | none => rw [e3, e4] at this; exact False.elim this
                        | some y =>
                          rw [e3, e4] at this
                          exact ⟨this.1, this.2.1, fun z hz => List.mem_cons_of_mem _ (h4 _ (this.2.2 z hz))⟩
            · cases chanField k v [] c with
              | ok d1 => exact sameOut_mono (ih L M d1 h2)
              | err e => trivial
              | ub => trivial
              | running w => trivial

/-- No macro and no variable is defined. -/
def NoSub (L : List (List Char)) : Prop :=
  ∀ l ∈ L, ∀ b v, readLine l ≠ some (some (b, .define, v)) ∧ readLine l ≠ some (some (b, .variable, v))

theorem linesLogger_same {dns : List Char → Option Int} :
    ∀ (n : Nat) (L L' : List (List Char)) (g : Config), Same L L' → NoSub L →
      linesLogger dns n L g = linesLogger dns n L' g := by
  intro n
  induction n with
  | zero =>
    intro L L' c h _
    cases L with
    | nil => rw [same_nil h]
    | cons l L => obtain ⟨l', M, rfl, h1, h2⟩ := same_cons h; rfl
  | succ n ih =>
    intro L L' g h hs
    cases L with
    | nil => rw [same_nil h]
    | cons l L =>
      obtain ⟨l', M, rfl, h1, h2⟩ := same_cons h
      have hs' : NoSub L := fun x hx => hs x (List.mem_cons_of_mem _ hx)
      have hl := hs l List.mem_cons_self
      unfold linesLogger
      rw [← h1]
      cases hr : readLine l with
      | none => rfl
      | some o =>
        cases o with
        | none => exact ih L M g h2 hs'
        | some x =>
          obtain ⟨b, k, v⟩ := x
          cases k with
          | define => exact absurd hr (hl b v).1
          | «variable» => exact absurd hr (hl b v).2
          | hotUpdate => exact ih _ _ _ h2 hs'
          | loggerName => exact ih _ _ _ h2 hs'
          | loggerDesc => exact ih _ _ _ h2 hs'
          | shmKey => exact ih _ _ _ h2 hs'
          | channel =>
            simp only
            split
            · rfl
            · split
              · rfl
              · rw [← same_length h2]
                have hd := linesChannel_same (dns := dns) (indent := b) L.length L M { id := atoi v } h2
                cases e1 : linesChannel dns b L.length L { id := atoi v } with
                | none =>
                  cases e2 : linesChannel dns b L.length M { id := atoi v } with
                  | none => rfl
                  | some y => rw [e1, e2] at hd; exact False.elim hd
                | some x =>
                  obtain ⟨d1, N⟩ := x
                  cases e2 : linesChannel dns b L.length M { id := atoi v } with
                  | none => rw [e1, e2] at hd; exact False.elim hd
                  | some y =>
                    obtain ⟨d2, N'⟩ := y
                    rw [e1, e2] at hd
                    obtain ⟨rfl, h3, h4⟩ := hd
                    exact ih N N' _ h3 (fun x hx => hs' x (h4 x hx))
          | _ => rfl

/-! ## Without macros and variables the parser ends -/

theorem loggerLoop_nosub {dns : List Char → Option Int} (t : List Char) (h0 : '\x00' ∉ t) (w) :
    ∀ (fuel cur : Nat) (g : Config), cur ≤ t.length → NoSub (significant (t.drop cur)) → t.length - cur + 1 < fuel →
      loggerLoop dns t.length fuel t cur g ≠ .running w := by
  intro fuel
  induction fuel with
  | zero => intro cur g _ _ h; omega
  | succ fuel ih =>
    intro cur g hcur hns hf
    unfold loggerLoop
    by_cases hc : cur < t.length
    · have hgo : ∀ c, cur < c → c ≤ t.length → NoSub (significant (t.drop c)) → ∀ g,
          (if c < t.length then loggerLoop dns t.length fuel t c g
            else if g.channels.length = 0 then .err .invalidChannelSize else .ok g) ≠ .running w := by
        intro c h1 h2 h3 g
        split
        · exact ih c g h2 h3 (by omega)
        · split <;> exact nofun
      cases step h0 hc with
      | bad e l L hlex hsig hl => rw [hlex]; exact nofun
      | skip ln c hlex hk h1 h2 hsig =>
        rw [hlex]
        simp only [PRes.bind, hk]
        have hns' : NoSub (significant (t.drop c)) := by
          rcases hsig with h | ⟨l, h, _⟩
          · rw [← h]; exact hns
          · intro x hx; exact hns x (by rw [h]; exact List.mem_cons_of_mem _ hx)
        split
        · exact nofun
        · exact ih c g h2 hns' (by omega)
      | key ln c l k v tail hlex hk h1 h2 hsig hl hv ht hn hq hhead hcover hrest =>
        rw [hlex]
        simp only [PRes.bind, hk]
        have hns' : NoSub (significant (t.drop c)) := fun x hx => hns x (by rw [hsig]; exact List.mem_cons_of_mem _ hx)
        have hl' := hns l (by rw [hsig]; exact List.mem_cons_self)
        cases k with
        | define => exact absurd hl (hl' _ _).1
        | «variable» => exact absurd hl (hl' _ _).2
        | hotUpdate => exact hgo c h1 h2 hns' _
        | loggerName => exact hgo c h1 h2 hns' _
        | loggerDesc => exact hgo c h1 h2 hns' _
        | shmKey => exact hgo c h1 h2 hns' _
        | channel =>
          simp only
          split
          · exact nofun
          · split
            · exact nofun
            · have hch := parseChannel_lines (dns := dns) h0 ln.blank fuel c (significant (t.drop c)).length
                { id := atoi ((lineVal t ln).1 ++ (lineVal t ln).2) } h2 (by omega) (Nat.le_refl _)
              cases hpd : parseChannel dns t t.length ln.blank fuel c
                  { id := atoi ((lineVal t ln).1 ++ (lineVal t ln).2) } with
              | ok x =>
                obtain ⟨d, c2⟩ := x
                rw [hpd] at hch
                have hld := agree_ok hch
                have hpos := parseChannel_pos t _ _ _ _ _ _ _ h2 hpd
                have hm := linesChannel_same (dns := dns) (indent := ln.blank) (significant (t.drop c)).length
                  (significant (t.drop c)) (significant (t.drop c))
                  { id := atoi ((lineVal t ln).1 ++ (lineVal t ln).2) } rfl
                rw [hld] at hm
                exact hgo c2 (by omega) hpos.2 (fun x hx => hns' x (hm.2.2 x hx)) _
              | err e => exact nofun
              | ub => exact nofun
              | running w => exact absurd hpd (parseChannel_ne_running h0 _ _ _ _ _ h2 (by omega))
        | _ => exact nofun
    · rw [lex_at_end t hc]
      simp only [PRes.bind]
      rw [if_pos (by omega)]
      exact nofun

/-! ## Insertions that leave the significant lines as they are -/

theorem textLines_split {s : Char} (hs : s = '\r' ∨ s = '\n') (b : List Char) : ∀ (a : List Char),
    textLines (a ++ s :: b) = textLines a ++ textLines b := by
  intro a
  induction a with
  | nil =>
    have : textLines (s :: b) = [] :: textLines b := by rw [textLines, if_pos hs]
    rw [List.nil_append, this]; rfl
  | cons c a ih =>
    rw [List.cons_append, textLines, ih]
    conv => rhs; rw [textLines]
    split
    · rfl
    · cases h : textLines a with
      | nil => exact absurd h (textLines_ne_nil a)
      | cons l ls => rfl

theorem significant_split {s : Char} (hs : s = '\r' ∨ s = '\n') (a b : List Char) :
    significant (a ++ s :: b) = significant a ++ significant b := by
  unfold significant
  rw [textLines_split hs, List.map_append, List.filter_append]

end FNLog
