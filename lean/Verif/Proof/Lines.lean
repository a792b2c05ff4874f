import Verif.Proof.LexLine
import Verif.Proof.Parse
import Verif.Proof.Replace

/-! # The parser on the list of significant lines -/

namespace FNLog
open Spec

/-! ## Lines of a text -/

theorem blankLine_iff (l : List Char) : blankLine l = true ↔ ∀ c ∈ l, isBlank c = true := by
  unfold blankLine isBlank
  rw [List.all_eq_true]

theorem textLines_ne_nil (s : List Char) : textLines s ≠ [] := by
  cases s with
  | nil => exact nofun
  | cons c s =>
    unfold textLines
    split
    · exact nofun
    · split <;> exact nofun

theorem textLines_plain {p : List Char} (h : ∀ c ∈ p, c ≠ '\r' ∧ c ≠ '\n') : textLines p = [p] := by
  induction p with
  | nil => rfl
  | cons c p ih =>
    have hc := h c List.mem_cons_self
    unfold textLines
    rw [if_neg (by simp [hc.1, hc.2]), ih (fun x hx => h x (List.mem_cons_of_mem _ hx))]

theorem textLines_append {p : List Char} (h : ∀ c ∈ p, c ≠ '\r' ∧ c ≠ '\n') {s : Char} (hs : s = '\r' ∨ s = '\n')
    (b : List Char) : textLines (p ++ s :: b) = p :: textLines b := by
  induction p with
  | nil => rw [List.nil_append, textLines, if_pos hs]
  | cons c p ih =>
    have hc := h c List.mem_cons_self
    rw [List.cons_append, textLines, if_neg (by simp [hc.1, hc.2]), ih (fun x hx => h x (List.mem_cons_of_mem _ hx))]

/-- The first line of a text. -/
theorem first_line (s : List Char) (h0 : '\x00' ∉ s) : ∃ p rest, s = p ++ rest ∧ Plain p ∧ AtEnd rest := by
  induction s with
  | nil => exact ⟨[], [], rfl, by intro c hc; simp at hc, Or.inl rfl⟩
  | cons c s ih =>
    by_cases hc : c = '\r' ∨ c = '\n'
    · exact ⟨[], c :: s, rfl, by intro c hc; simp at hc, Or.inr ⟨c, s, rfl, hc⟩⟩
    · obtain ⟨p, rest, h1, h2, h3⟩ := ih (fun h => h0 (List.mem_cons_of_mem _ h))
      refine ⟨c :: p, rest, by rw [h1]; rfl, ?_, h3⟩
      intro x hx
      rcases List.mem_cons.mp hx with rfl | hx
      · exact ⟨fun h => hc (Or.inl h), fun h => hc (Or.inr h), fun h => h0 (h ▸ List.mem_cons_self)⟩
      · exact h2 x hx

/-- The line, if it matters. -/
def single (l : List Char) : List (List Char) := if blankLine l then [] else [l]

theorem significant_nil : significant [] = [] := rfl

theorem significant_plain {p : List Char} (h : ∀ c ∈ p, c ≠ '\r' ∧ c ≠ '\n') : significant p = single (cut p) := by
  unfold significant
  rw [textLines_plain h]
  unfold single
  simp only [List.map_cons, List.map_nil, List.filter_cons, List.filter_nil]
  show (if (!blankLine (cut p)) = true then [cut p] else []) = _
  cases blankLine (cut p) <;> rfl

theorem significant_append {p : List Char} (h : ∀ c ∈ p, c ≠ '\r' ∧ c ≠ '\n') {s : Char} (hs : s = '\r' ∨ s = '\n')
    (b : List Char) : significant (p ++ s :: b) = single (cut p) ++ significant b := by
  unfold significant
  rw [textLines_append h hs]
  unfold single
  simp only [List.map_cons, List.filter_cons]
  show (if (!blankLine (cut p)) = true then cut p :: _ else _) = _
  cases blankLine (cut p) <;> rfl

theorem single_nil : single (cut []) = [] := rfl

theorem plain_line {p : List Char} (h : Plain p) : ∀ c ∈ p, c ≠ '\r' ∧ c ≠ '\n' := fun c hc => ⟨(h c hc).1, (h c hc).2.1⟩

/-- The first line and what follows its line end (one or two characters). -/
theorem significant_step {p rest : List Char} (hp : Plain p) (hr : AtEnd rest) :
    significant (p ++ rest) = single (cut p) ++ significant ((p ++ rest).drop (p.length + endLen rest)) ∧
      (rest = [] ∨ ∃ x nl, (nl = '\r' ∨ nl = '\n') ∧ rest = x ++ nl :: (p ++ rest).drop (p.length + endLen rest) ∧
        ∀ c ∈ x, c = '\r' ∨ c = '\n') := by
  have hd : (p ++ rest).drop (p.length + endLen rest) = rest.drop (endLen rest) := by
    rw [← List.drop_drop, List.drop_left]
  rw [hd]
  rcases hr with rfl | ⟨c, r, rfl, hc⟩
  · constructor
    · rw [List.append_nil, significant_plain (plain_line hp)]
      simp [significant_nil]
    · exact Or.inl rfl
  · rw [significant_append (plain_line hp) hc]
    by_cases hx : (r.headD '\x00' = '\r' ∨ r.headD '\x00' = '\n') ∧ r.headD '\x00' ≠ c
    · have hel : endLen (c :: r) = 2 := if_pos hx
      rw [hel]
      cases r with
      | nil => exact absurd hx.1 (by decide)
      | cons d r =>
        have hd : d = '\r' ∨ d = '\n' := hx.1
        constructor
        · congr 1
          have := significant_append (p := []) (by simp) hd r
          rw [List.nil_append, single_nil, List.nil_append] at this
          rw [this]; rfl
        · refine Or.inr ⟨[c], d, hd, rfl, ?_⟩
          intro x hx; rw [List.mem_singleton.mp hx]; exact hc
    · have hel : endLen (c :: r) = 1 := if_neg hx
      rw [hel]
      exact ⟨rfl, Or.inr ⟨[], c, hc, rfl, by simp⟩⟩

/-! ## What lines say -/

theorem dropWhile_all {p : Char → Bool} {l : List Char} (h : ∀ c ∈ l, p c = true) : l.dropWhile p = [] := by
  induction l with
  | nil => rfl
  | cons c l ih =>
    rw [List.dropWhile_cons, if_pos (h c List.mem_cons_self)]
    exact ih (fun x hx => h x (List.mem_cons_of_mem _ hx))

theorem readLine_blank {l : List Char} (h : blankLine l = true) : readLine l = some none := by
  rw [readLine_eq, dropWhile_all]
  · rfl
  · intro c hc
    rw [(blankLine_iff l).mp h c hc]; rfl

theorem mem_dropWhile {p : Char → Bool} {l : List Char} {x : Char} (h : x ∈ l.dropWhile p) : x ∈ l :=
  (List.dropWhile_sublist p).subset h

theorem mem_takeWhile {p : Char → Bool} {l : List Char} {x : Char} (h : x ∈ l.takeWhile p) : x ∈ l :=
  (List.takeWhile_sublist p).subset h

theorem mem_dropBack {l : List Char} {x : Char} (h : x ∈ dropBack l) : x ∈ l := by
  unfold dropBack at h
  exact List.mem_reverse.mp (mem_dropWhile (List.mem_reverse.mp h))

theorem dropWhile_not {p : Char → Bool} {l : List Char} {c : Char} {r : List Char} (h : l.dropWhile p = c :: r) : p c = false := by
  induction l with
  | nil => exact absurd h (by nofun)
  | cons x l ih =>
    rw [List.dropWhile_cons] at h
    split at h
    · exact ih h
    · rename_i hx
      rw [← (List.cons.inj h).1]; simpa using hx

/-- `dropBack` keeps the beginning. -/
theorem dropBack_prefix (l : List Char) : ∃ r, l = dropBack l ++ r := by
  refine ⟨(l.reverse.takeWhile isBlank).reverse, ?_⟩
  unfold dropBack
  rw [← List.reverse_append, List.takeWhile_append_dropWhile, List.reverse_reverse]

theorem dropBack_head {l : List Char} (h : ∀ c r, l = c :: r → isBlank c = false) :
    ∀ c r, dropBack l = c :: r → isBlank c = false := by
  intro c r hl
  obtain ⟨s, hs⟩ := dropBack_prefix l
  rw [hl] at hs
  exact h c (r ++ s) hs

/-- Values consist of characters of the line and do not begin with a blank. -/
theorem lineValue_chars {r v : List Char} (h : lineValue r = some v) :
    (∀ c ∈ v, c ∈ r) ∧ ∀ c s, v = c :: s → isBlank c = false := by
  unfold lineValue at h
  have closed : ∀ (cl : Char) (s : List Char), (∀ c ∈ s, c ∈ r) → closedValue cl s = some v →
      (∀ c ∈ v, c ∈ r) ∧ ∀ c s, v = c :: s → isBlank c = false := by
    intro cl s hs h
    unfold closedValue at h
    split at h
    · obtain rfl := Option.some.inj h
      refine ⟨fun c hc => hs c (mem_takeWhile (mem_dropWhile (mem_dropBack hc))), dropBack_head ?_⟩
      intro c r hr
      exact dropWhile_not hr
    · exact absurd h (by nofun)
  cases hd : r.dropWhile isBlank with
  | nil =>
    rw [hd] at h
    obtain rfl := Option.some.inj h
    exact ⟨by simp, by simp⟩
  | cons c s =>
    rw [hd] at h
    simp only at h
    have hs : ∀ x ∈ s, x ∈ r := fun x hx => mem_dropWhile (hd ▸ List.mem_cons_of_mem _ hx)
    split at h
    · exact closed _ _ hs h
    · split at h
      · exact closed _ _ hs h
      · split at h
        · exact closed _ _ hs h
        · obtain rfl := Option.some.inj h
          refine ⟨fun x hx => ?_, dropBack_head ?_⟩
          · have := mem_dropBack hx
            exact mem_dropWhile (hd ▸ this)
          · intro x r' hx
            rw [← (List.cons.inj hx).1]
            exact dropWhile_not hd

theorem readLine_chars {l v : List Char} {b : Nat} {k : Key} (h : readLine l = some (some (b, k, v))) :
    (∀ c ∈ v, c ∈ l) ∧ ∀ c s, v = c :: s → isBlank c = false := by
  rw [readLine_eq] at h
  unfold restRes at h
  split at h
  · exact absurd (Option.some.inj h) (by nofun)
  · rename_i c s hd
    split at h
    · exact absurd h (by nofun)
    · unfold keyRes at h
      split at h
      · exact absurd h (by nofun)
      · split at h
        · rename_i k' _
          unfold sepRes at h
          split at h
          · exact absurd h (by nofun)
          · rename_i x u hu
            split at h
            · cases hv : lineValue u with
              | none => rw [hv] at h; exact absurd h (by nofun)
              | some v' =>
                rw [hv] at h
                simp only [Option.map_some, Option.some.injEq, Prod.mk.injEq] at h
                obtain ⟨_, _, rfl⟩ := h
                obtain ⟨h1, h2⟩ := lineValue_chars hv
                refine ⟨fun y hy => ?_, h2⟩
                have h3 : y ∈ x :: u := List.mem_cons_of_mem _ (h1 y hy)
                rw [← hu] at h3
                have := mem_dropWhile (mem_dropWhile h3)
                rw [← hd] at this
                exact mem_dropWhile this
            · exact absurd h (by nofun)
        · exact absurd h (by nofun)

/-! ## Numbers that end the value -/

/-- A text whose first word is no number. -/
def NumFree (s : List Char) : Prop :=
  ∀ c r, s.dropWhile isSpace = c :: r → isNumber c = false ∧
    ((c = '-' ∨ c = '+') → ∀ d r', r = d :: r' → isNumber d = false)

theorem numFree_nil : NumFree [] := by intro c r h; exact absurd h (by nofun)

theorem dropWhile_space_append {a s : List Char} (h : ∀ c ∈ a, isSpace c = true) :
    (a ++ s).dropWhile isSpace = s.dropWhile isSpace := by
  induction a with
  | nil => rfl
  | cons c a ih =>
    rw [List.cons_append, List.dropWhile_cons, if_pos (h c List.mem_cons_self)]
    exact ih (fun x hx => h x (List.mem_cons_of_mem _ hx))

theorem numFree_append {a s : List Char} (h : ∀ c ∈ a, isSpace c = true) : NumFree (a ++ s) ↔ NumFree s := by
  unfold NumFree
  rw [dropWhile_space_append h]

theorem isSpace_of_blank {c : Char} (h : isBlank c = true) : isSpace c = true := by
  unfold isSpace; rw [h]; rfl

/-- The text behind a value is no continuation of a number. -/
theorem tailOk_numFree {rest tail s : List Char} (h : TailOk rest tail) (hr : rest = [] ∨ ∃ x nl, (nl = '\r' ∨ nl = '\n') ∧
    rest = x ++ nl :: s ∧ ∀ c ∈ x, c = '\r' ∨ c = '\n') :
    NoDigit tail ∧ (NumFree s → NumFree tail) := by
  obtain ⟨bl, x, rfl, hb, hx⟩ := h
  have hbd : ∀ c ∈ bl, isNumber c = false := fun c hc => (isBlank_not (hb c hc)).1
  have hnd : HeadNot isNumber x := by
    intro c r hc
    rcases hx with rfl | ⟨d, r', hd, hd'⟩
    · rcases hr with h | ⟨y, nl, hnl, h, hy⟩
      · rw [h] at hc; exact absurd hc (by nofun)
      · cases y with
        | nil =>
          rw [h] at hc
          have := (List.cons.inj hc).1
          rw [← this]; rcases hnl with rfl | rfl <;> rfl
        | cons a y =>
          rw [h] at hc
          have := (List.cons.inj hc).1
          rw [← this]; rcases hy a List.mem_cons_self with rfl | rfl <;> rfl
    · rw [hd] at hc
      have := (List.cons.inj hc).1
      rw [← this]; rcases hd' with rfl | rfl | rfl | rfl <;> rfl
  constructor
  · exact noDigit_of (headNot_append hbd hnd)
  · intro hs
    rw [numFree_append (fun c hc => isSpace_of_blank (hb c hc))]
    rcases hx with rfl | ⟨d, r', hd, hd'⟩
    · rcases hr with h | ⟨y, nl, hnl, h, hy⟩
      · rw [h]; exact numFree_nil
      · have : x = (y ++ [nl]) ++ s := by rw [h]; simp
        rw [this, numFree_append]
        · exact hs
        · intro c hc
          rcases List.mem_append.mp hc with h | h
          · rcases hy c h with rfl | rfl <;> rfl
          · rw [List.mem_singleton.mp h]; rcases hnl with rfl | rfl <;> rfl
    · rw [hd]
      intro c r hc
      rw [List.dropWhile_cons, if_neg (by rcases hd' with rfl | rfl | rfl | rfl <;> decide)] at hc
      have := (List.cons.inj hc).1
      rw [← this]
      rcases hd' with rfl | rfl | rfl | rfl <;> exact ⟨rfl, fun h => absurd h (by decide)⟩

theorem decPrefix_append {s tail : List Char} (h : NoDigit tail) : decPrefix (s ++ tail) = decPrefix s := by
  unfold decPrefix
  congr 1
  induction s with
  | nil =>
    cases tail with
    | nil => rfl
    | cons c r =>
      rw [List.nil_append, List.takeWhile_cons, noDigit_isNumber h c r rfl]; rfl
  | cons c s ih =>
    rw [List.cons_append, List.takeWhile_cons, List.takeWhile_cons, ih]

theorem decPrefix_none {s : List Char} (h : ∀ c r, s = c :: r → isNumber c = false) : decPrefix s = 0 := by
  unfold decPrefix
  cases s with
  | nil => rfl
  | cons c r => rw [List.takeWhile_cons, h c r rfl]; rfl

theorem dropWhile_append_ne {p : Char → Bool} {a s : List Char} (h : a.dropWhile p ≠ []) :
    (a ++ s).dropWhile p = a.dropWhile p ++ s := by
  induction a with
  | nil => exact absurd rfl h
  | cons c a ih =>
    rw [List.cons_append, List.dropWhile_cons, List.dropWhile_cons]
    rw [List.dropWhile_cons] at h
    split
    · rename_i hc
      rw [if_pos hc] at h
      exact ih h
    · rfl

theorem dropWhile_append_eq {p : Char → Bool} {a s : List Char} (h : a.dropWhile p = []) :
    (a ++ s).dropWhile p = s.dropWhile p := by
  induction a with
  | nil => rfl
  | cons c a ih =>
    rw [List.dropWhile_cons] at h
    split at h
    · rename_i hc
      rw [List.cons_append, List.dropWhile_cons, if_pos hc]
      exact ih h
    · exact absurd h (by nofun)

/-- `atoll` on the value alone: digits end with the value. -/
theorem atoll_head {v tail : List Char} (h1 : NoDigit tail) (h : v.dropWhile isSpace ≠ []) :
    atoll (v ++ tail) = atoll v := by
  unfold atoll
  rw [dropWhile_append_ne h]
  cases hd : v.dropWhile isSpace with
  | nil => exact absurd hd h
  | cons c r =>
    rw [List.cons_append]
    by_cases c1 : c = '-'
    · subst c1; simp only [decPrefix_append h1]
    · by_cases c2 : c = '+'
      · subst c2; simp only [decPrefix_append h1]
      · have key : ∀ r : List Char, (match c :: r with
            | '-' :: ds => saturate (-(decPrefix ds : Int))
            | '+' :: ds => saturate (decPrefix ds)
            | ds => saturate (decPrefix ds)) = saturate (decPrefix (c :: r)) := by
          intro r
          split
          · rename_i he; exact absurd (List.cons.inj he).1 c1
          · rename_i he; exact absurd (List.cons.inj he).1 c2
          · rfl
        exact (key (r ++ tail)).trans (by rw [← List.cons_append, decPrefix_append h1]; exact (key r).symm)

theorem atoll_tail {v tail : List Char} (h1 : NoDigit tail) (h2 : NumFree tail) : atoll (v ++ tail) = atoll v := by
  by_cases h : v.dropWhile isSpace = []
  · have hv : atoll v = 0 := by
      unfold atoll; rw [h]; rfl
    rw [hv]
    unfold atoll
    rw [dropWhile_append_eq h]
    cases hd : tail.dropWhile isSpace with
    | nil => rfl
    | cons c r =>
      obtain ⟨n1, n2⟩ := h2 c r hd
      split
      · rename_i he
        obtain ⟨rfl, rfl⟩ := List.cons.inj he
        rw [decPrefix_none (fun d r' hr => n2 (Or.inl rfl) d r' hr)]; rfl
      · rename_i he
        obtain ⟨rfl, rfl⟩ := List.cons.inj he
        rw [decPrefix_none (fun d r' hr => n2 (Or.inr rfl) d r' hr)]; rfl
      · rw [decPrefix_none (fun d r' hr => by rw [← (List.cons.inj hr).1]; exact n1)]; rfl
  · exact atoll_head h1 h

theorem atoi_tail {v tail : List Char} (h1 : NoDigit tail) (h2 : NumFree tail) : atoi (v ++ tail) = atoi v := by
  unfold atoi; rw [atoll_tail h1 h2]

theorem atoi_number {v tail : List Char} {c : Char} {r : List Char} (hv : v = c :: r) (hc : isNumber c = true)
    (h1 : NoDigit tail) : atoi (v ++ tail) = atoi v := by
  unfold atoi
  rw [atoll_head h1]
  rw [hv, List.dropWhile_cons, if_neg (by rw [(isNumber_not_space hc).1]; decide)]
  exact nofun

/-- A bit list only looks at digits of the value. -/
theorem bitLoop_tail {tail : List Char} (h : NoDigit tail) : ∀ (fuel : Nat) (v : List Char) (m : BitVec 64),
    bitLoop tail fuel v m = bitLoop [] fuel v m := by
  intro fuel
  induction fuel with
  | zero => intro v m; rfl
  | succ fuel ih =>
    intro v m
    unfold bitLoop
    split
    · rfl
    · simp only
      split
      · rfl
      · rename_i _ hne
        have hnum : ∀ {w : List Char}, (∃ c r, w = c :: r ∧ isNumber c = true) →
            atoi (w ++ tail) = atoi (w ++ []) := by
          rintro w ⟨c, r, hw, hc⟩
          rw [List.append_nil, atoi_number hw hc h]
        have h1 : ∃ c r, v.dropWhile (fun c => !isNumber c) = c :: r ∧ isNumber c = true := by
          cases hd : v.dropWhile (fun c => !isNumber c) with
          | nil => exact absurd hd hne
          | cons c r => exact ⟨c, r, rfl, by simpa using dropWhile_not hd⟩
        rw [hnum h1]
        split
        · simp only [ih]
        · split
          · simp only [ih]
          · rename_i hn
            have hn := Decidable.not_not.mp hn
            have h2 : ∃ c r, (List.dropWhile (fun c => !isNumber c && c != ',')
                (List.dropWhile (fun c => isNumber c || isBlank c) (List.dropWhile (fun c => !isNumber c) v))) = c :: r ∧
                isNumber c = true := by
              revert hn
              generalize (List.dropWhile (fun c => !isNumber c && c != ',')
                (List.dropWhile (fun c => isNumber c || isBlank c) (List.dropWhile (fun c => !isNumber c) v))) = w
              intro hn
              cases w with
              | nil => exact absurd hn (by nofun)
              | cons c r => exact ⟨c, r, rfl, by simpa using hn⟩
            rw [hnum h2]
            simp only [ih]

theorem parseBitArray_tail {v tail : List Char} (h : NoDigit tail) : parseBitArray v tail = parseBitArray v [] :=
  bitLoop_tail h _ _ _

theorem devField_tail {dns : List Char → Option Int} {k : Key} {v tail : List Char} {d : Device} (h1 : NoDigit tail)
    (h2 : NumFree tail) : devField dns k v tail d = devField dns k v [] d := by
  unfold devField
  rw [parseBitArray_tail h1, atoll_tail h1 h2, List.append_nil]

theorem chanField_tail {k : Key} {v tail : List Char} {c : Channel} (h1 : NoDigit tail)
    (h2 : NumFree tail) : chanField k v tail c = chanField k v [] c := by
  unfold chanField
  rw [parseBitArray_tail h1, atoll_tail h1 h2, atoi_tail h1 h2, List.append_nil]

/-- Where the text behind a line begins with a number, the next significant line is an error. -/
theorem bad_line : ∀ (n : Nat) (s : List Char), s.length ≤ n → '\x00' ∉ s → ¬ NumFree s →
    ∃ l L, significant s = l :: L ∧ readLine l = none := by
  intro n
  induction n with
  | zero =>
    intro s hs _ h
    have : s = [] := List.eq_nil_of_length_eq_zero (by omega)
    subst this
    exact absurd numFree_nil h
  | succ n ih =>
    intro s hs h0 h
    obtain ⟨p, rest, rfl, hp, hr⟩ := first_line s h0
    by_cases hb : ∀ c ∈ p, isBlank c = true
    · rw [numFree_append (fun c hc => isSpace_of_blank (hb c hc))] at h
      rcases hr with rfl | ⟨nl, b, rfl, hnl⟩
      · exact absurd numFree_nil h
      · have hcut : single (cut p) = [] := by
          unfold single
          rw [if_pos]
          rw [blankLine_iff]
          exact fun c hc => hb c (mem_takeWhile hc)
        rw [significant_append (plain_line hp) hnl, hcut, List.nil_append]
        refine ih b ?_ (fun hm => h0 (by simp [hm])) ?_
        · simp only [List.length_append, List.length_cons] at hs; omega
        · have := numFree_append (a := [nl]) (s := b) (by
            intro c hc; rw [List.mem_singleton.mp hc]; rcases hnl with rfl | rfl <;> rfl)
          exact fun hf => h (this.mpr hf)
    · -- the line has a first character that is no blank
      have hsplit : ∃ bl x q, p = bl ++ x :: q ∧ (∀ c ∈ bl, isBlank c = true) ∧ isBlank x = false := by
        cases hd : p.dropWhile isBlank with
        | nil =>
          exfalso; apply hb
          intro c hc
          have := List.takeWhile_append_dropWhile (p := isBlank) (l := p)
          rw [hd, List.append_nil] at this
          rw [← this] at hc
          exact List.all_eq_true.mp List.all_takeWhile c hc
        | cons x q =>
          refine ⟨p.takeWhile isBlank, x, q, ?_, ?_, dropWhile_not hd⟩
          · rw [← hd, List.takeWhile_append_dropWhile]
          · exact fun c hc => List.all_eq_true.mp List.all_takeWhile c hc
      obtain ⟨bl, x, q, rfl, hbl, hx⟩ := hsplit
      have hxs : isSpace x = false := by
        have := hp x (by simp)
        unfold isSpace; rw [hx]; simp [this.1, this.2.1]
      rw [List.append_assoc, numFree_append (fun c hc => isSpace_of_blank (hbl c hc))] at h
      -- what makes it a number
      have hbad : isNumber x = true ∨ x = '+' ∨ (x = '-' ∧ ∃ d q', q = d :: q' ∧ isNumber d = true) := by
        apply Classical.byContradiction
        intro hn
        apply h
        intro c r hc
        rw [List.cons_append, List.dropWhile_cons, if_neg (by rw [hxs]; decide)] at hc
        obtain ⟨rfl, rfl⟩ := List.cons.inj hc
        refine ⟨?_, ?_⟩
        · cases hxn : isNumber x with
          | false => rfl
          | true => exact absurd (Or.inl hxn) hn
        · intro hsign d r' hr'
          rcases hsign with rfl | rfl
          · cases q with
            | nil =>
              rw [List.nil_append] at hr'
              rcases hr with rfl | ⟨nl, b, rfl, hnl⟩
              · exact absurd hr' (by nofun)
              · rw [← (List.cons.inj hr').1]
                rcases hnl with rfl | rfl <;> rfl
            | cons y q =>
              rw [← (List.cons.inj hr').1]
              cases hy : isNumber y with
              | false => rfl
              | true => exact absurd (Or.inr (Or.inr ⟨rfl, y, q, rfl, hy⟩)) hn
          · exact absurd (Or.inr (Or.inl rfl)) hn
      have hxh : x ≠ '#' := by
        rintro rfl
        rcases hbad with h | h | ⟨h, _⟩ <;> exact absurd h (by decide)
      have hcut : cut (bl ++ x :: q) = bl ++ x :: cut q := by
        have hbh : ∀ c ∈ bl, (c != '#') = true := by
          intro c hc
          have := hbl c hc
          simp only [bne_iff_ne, ne_eq]
          rintro rfl; exact absurd this (by decide)
        unfold cut
        rw [List.takeWhile_append_of_pos hbh, List.takeWhile_cons, if_pos (by simpa using hxh)]
      have hnb : blankLine (cut (bl ++ x :: q)) = false := by
        cases hbb : blankLine (cut (bl ++ x :: q)) with
        | false => rfl
        | true =>
          rw [blankLine_iff, hcut] at hbb
          rw [hbb x (by simp)] at hx; exact absurd hx (by decide)
      have hsing : single (cut (bl ++ x :: q)) = [cut (bl ++ x :: q)] := by
        unfold single; rw [hnb]; rfl
      obtain ⟨hs1, _⟩ := significant_step hp hr
      rw [hs1, hsing]
      refine ⟨_, _, rfl, ?_⟩
      rw [readLine_eq, hcut]
      have hdash : (bl ++ x :: cut q).dropWhile (fun c => isBlank c || c == '-') =
          (x :: cut q).dropWhile (fun c => isBlank c || c == '-') := by
        refine dropWhile_append_eq (dropWhile_all ?_)
        intro c hc; rw [hbl c hc]; rfl
      rw [hdash]
      have digitBad : ∀ (d : Char) (r : List Char) (b : Nat), isNumber d = true → restRes b (d :: r) = none := by
        intro d r b hd
        unfold restRes
        have : d ∈ "0123456789".toList := (isNumber_iff d).mp hd
        have : d < 'a' := by
          revert this; revert d
          intro d _ hm
          simp at hm
          rcases hm with h | h | h | h | h | h | h | h | h | h <;> subst h <;> decide
        exact if_pos (Or.inl this)
      rcases hbad with hn | rfl | ⟨rfl, d, q', rfl, hd⟩
      · rw [List.dropWhile_cons, if_neg]
        · exact digitBad _ _ _ hn
        · rw [(isNumber_not_space hn).2.2.2]
          have := (isNumber_not_space hn).2.1
          simp [this]
      · rw [List.dropWhile_cons, if_neg (by decide)]; rfl
      · have hdh : d ≠ '#' := by rintro rfl; exact absurd hd (by decide)
        rw [List.dropWhile_cons, if_pos (by decide), cut_cons hdh, List.dropWhile_cons, if_neg]
        · exact digitBad _ _ _ hd
        · rw [(isNumber_not_space hd).2.2.2]
          have := (isNumber_not_space hd).2.1
          simp [this]

end FNLog
