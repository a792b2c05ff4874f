import Verif.Proof.LinesParse

/-! # `ParseLogger` on the list of significant lines -/

namespace FNLog
open Spec

/-! ## Replacements -/

/-- The characters of keys and values of macros and variables. -/
def Quiet (s : List Char) : Prop := ∀ x ∈ s, x ≠ '#' ∧ x ≠ '\r' ∧ x ≠ '\n' ∧ x ≠ '\x00'

/-- A replacement in the lines that follow. -/
def linesInplace (L : List (List Char)) (key val : List Char) (pre suf : Bool) : Option (List (List Char)) :=
  if val.length > key.length then none
  else some ((L.map (rep key (padTo key.length val) pre suf false)).filter (!blankLine ·))

def linesMacro (L : List (List Char)) (line : List Char) : Option (List (List Char)) :=
  if ' ' ∈ line then
    let symbol := line.takeWhile (· != ' ')
    if symbol = [] then none
    else linesInplace L symbol ((line.drop symbol.length).dropWhile isBlank) true true
  else none

def linesVarItem (L : List (List Char)) (item : List Char) : Option (List (List Char)) :=
  if '=' ∉ item then none
  else
    let name := dropBack (item.takeWhile (· != '='))
    match name with
    | [] => none
    | c :: _ =>
      if isValidNameFirst c = false then none
      else
        let val := (item.dropWhile (· != '=')).drop 1
        let val := if isBlank c then [] else val
        let val := dropBack val
        (linesInplace L ("${".toList ++ name ++ "}".toList) val false false).bind fun L =>
          linesInplace L ("$".toList ++ name) val false true

def linesVarLoop : Nat → List (List Char) → List Char → Option (List (List Char))
  | 0, L, _ => some L
  | n + 1, L, line =>
    match line with
    | [] => some L
    | c :: cs =>
      if c = ' ' ∨ c = '\t' then linesVarLoop n L cs
      else
        let item := line.takeWhile (· != ',')
        (linesVarItem L item).bind fun L => linesVarLoop n L (line.drop (item.length + 1))

section
variable {key val : List Char} {pre suf : Bool}

theorem rep_nilval (p : Bool) : rep key val pre suf p [] = [] := rfl

theorem rep_textLines (hl : val.length = key.length) (hk : key ≠ []) (hq : Quiet key) (hv : Quiet val) :
    ∀ (n : Nat) (s : List Char), s.length ≤ n → ∀ p,
      textLines (rep key val pre suf p s) =
        match textLines s with
        | [] => []
        | l :: ls => rep key val pre suf p l :: ls.map (rep key val pre suf false) := by
  intro n
  induction n with
  | zero =>
    intro s hs p
    have : s = [] := List.eq_nil_of_length_eq_zero (by omega)
    subst this; rfl
  | succ n ih =>
    intro s hs p
    by_cases hx : ∃ x ∈ s, x = '\r' ∨ x = '\n'
    · -- the first line end
      have hsplit : ∃ a nl b, s = a ++ nl :: b ∧ (nl = '\r' ∨ nl = '\n') ∧ ∀ x ∈ a, x ≠ '\r' ∧ x ≠ '\n' := by
        clear ih hs
        induction s with
        | nil => obtain ⟨x, hx, _⟩ := hx; cases hx
        | cons c s ih =>
          by_cases hc : c = '\r' ∨ c = '\n'
          · exact ⟨[], c, s, rfl, hc, by simp⟩
          · obtain ⟨x, hx, hx2⟩ := hx
            rcases List.mem_cons.mp hx with rfl | hx
            · exact absurd hx2 hc
            · obtain ⟨a, nl, b, h1, h2, h3⟩ := ih ⟨x, hx, hx2⟩
              refine ⟨c :: a, nl, b, by rw [h1]; rfl, h2, ?_⟩
              intro y hy
              rcases List.mem_cons.mp hy with rfl | hy
              · exact ⟨fun h => hc (Or.inl h), fun h => hc (Or.inr h)⟩
              · exact h3 y hy
      obtain ⟨a, nl, b, rfl, hnl, ha⟩ := hsplit
      have hnk : nl ∉ key := by
        intro h; have := hq nl h; rcases hnl with rfl | rfl
        · exact this.2.1 rfl
        · exact this.2.2.1 rfl
      have hnn : isValidName nl = false := by rcases hnl with rfl | rfl <;> decide
      rw [rep_split hl hk hnk hnn b _ a p rfl, textLines_append ha hnl, textLines_append _ hnl]
      · simp only [List.length_append, List.length_cons] at hs
        rw [ih b (by omega) false]
        cases hb : textLines b with
        | nil => exact absurd hb (textLines_ne_nil b)
        | cons l ls => rfl
      · intro x hx
        rcases rep_mem hx with h | h
        · exact ha x h
        · exact ⟨(hv x h).2.1, (hv x h).2.2.1⟩
    · have ha : ∀ x ∈ s, x ≠ '\r' ∧ x ≠ '\n' := fun x hx' =>
        ⟨fun h => hx ⟨x, hx', Or.inl h⟩, fun h => hx ⟨x, hx', Or.inr h⟩⟩
      rw [textLines_plain ha, textLines_plain]
      · rfl
      · intro x hx
        rcases rep_mem hx with h | h
        · exact ha x h
        · exact ⟨(hv x h).2.1, (hv x h).2.2.1⟩

theorem takeWhile_hash {a b : List Char} (h : '#' ∉ a) : (a ++ '#' :: b).takeWhile (· != '#') = a := by
  induction a with
  | nil => rfl
  | cons c a ih =>
    have hc : c ≠ '#' := fun e => h (e ▸ List.mem_cons_self)
    rw [List.cons_append, List.takeWhile_cons, if_pos (by simpa using hc), ih (fun m => h (List.mem_cons_of_mem _ m))]

theorem takeWhile_nohash {a : List Char} (h : '#' ∉ a) : a.takeWhile (· != '#') = a := by
  induction a with
  | nil => rfl
  | cons c a ih =>
    have hc : c ≠ '#' := fun e => h (e ▸ List.mem_cons_self)
    rw [List.takeWhile_cons, if_pos (by simpa using hc), ih (fun m => h (List.mem_cons_of_mem _ m))]

theorem hash_split (l : List Char) : '#' ∉ l ∨ ∃ a b, l = a ++ '#' :: b ∧ '#' ∉ a := by
  induction l with
  | nil => exact Or.inl (by simp)
  | cons c l ih =>
    by_cases hc : c = '#'
    · exact Or.inr ⟨[], l, by rw [hc]; rfl, by simp⟩
    · rcases ih with h | ⟨a, b, h, ha⟩
      · left; intro hm
        rcases List.mem_cons.mp hm with h' | h'
        · exact hc h'.symm
        · exact h h'
      · right
        refine ⟨c :: a, b, by rw [h]; rfl, ?_⟩
        intro hm
        rcases List.mem_cons.mp hm with h' | h'
        · exact hc h'.symm
        · exact ha h'

theorem rep_comment (hl : val.length = key.length) (hk : key ≠ []) (hq : Quiet key) (hv : Quiet val) (l : List Char) :
    stripComment (rep key val pre suf false l) = rep key val pre suf false (stripComment l) := by
  unfold stripComment
  rcases hash_split l with h | ⟨a, b, rfl, ha⟩
  · rw [takeWhile_nohash h, takeWhile_nohash]
    intro hm
    rcases rep_mem hm with h' | h'
    · exact h h'
    · exact (hv _ h').1 rfl
  · rw [rep_split hl hk (fun h => (hq _ h).1 rfl) (by decide) b _ a false rfl, takeWhile_hash ha,
      takeWhile_hash]
    intro hm
    rcases rep_mem hm with h' | h'
    · exact ha h'
    · exact (hv _ h').1 rfl

theorem rep_blank {k : Char} {ks : List Char} (hk : key = k :: ks) (hb : isBlank k = false) {l : List Char}
    (h : blankLine l = true) : rep key val pre suf false l = l := by
  apply rep_id hk
  intro hm
  rw [(blankLine_iff l).mp h k hm] at hb
  exact absurd hb (by decide)

theorem rep_significant {k : Char} {ks : List Char} (hk : key = k :: ks) (hb : isBlank k = false)
    (hl : val.length = key.length) (hq : Quiet key) (hv : Quiet val) (s : List Char) :
    significant (rep key val pre suf false s) =
      ((significant s).map (rep key val pre suf false)).filter (!blankLine ·) := by
  have hne : key ≠ [] := by rw [hk]; exact nofun
  unfold significant
  rw [rep_textLines hl hne hq hv _ s (Nat.le_refl _) false]
  have : (match textLines s with
        | [] => []
        | l :: ls => rep key val pre suf false l :: ls.map (rep key val pre suf false)) =
      (textLines s).map (rep key val pre suf false) := by
    cases textLines s <;> rfl
  rw [this]
  generalize textLines s = L
  induction L with
  | nil => rfl
  | cons l L ih =>
    simp only [List.map_cons]
    rw [rep_comment hl hne hq hv]
    simp only [List.filter_cons]
    cases hbl : blankLine (stripComment l) with
    | true =>
      rw [rep_blank hk hb hbl, hbl]
      simpa using ih
    | false =>
      simp only [Bool.not_false, if_true, List.map_cons, List.filter_cons]
      rw [ih]

end

/-- The place `c` is the beginning of a line, behind `off`. -/
def Sync (t : List Char) (off c : Nat) : Prop :=
  '\x00' ∉ t ∧ off ≤ c ∧ c ≤ t.length ∧
    (t.drop c = [] ∨ ∃ x nl, (nl = '\r' ∨ nl = '\n') ∧ t.drop off = x ++ nl :: t.drop c)

/-- The outcomes of a replacement on the text and on the lines behind `c` correspond. -/
def SubAgree (len off c : Nat) (r : PRes (List Char)) (o : Option (List (List Char))) : Prop :=
  match r, o with
  | .ok t, some L => t.length = len ∧ Sync t off c ∧ significant (t.drop c) = L
  | .ok _, none => False
  | .running (some (k, v)), _ => k = v
  | .running none, _ => False
  | .err _, some _ => False
  | .ub, some _ => False
  | .err _, none => True
  | .ub, none => True

theorem subAgree_bind {len off c : Nat} {r : PRes (List Char)} {o : Option (List (List Char))}
    {f : List Char → PRes (List Char)} {g : List (List Char) → Option (List (List Char))}
    (h : SubAgree len off c r o)
    (hf : ∀ t, t.length = len → Sync t off c → SubAgree len off c (f t) (g (significant (t.drop c)))) :
    SubAgree len off c (r.bind f) (o.bind g) := by
  cases r with
  | ok t =>
    cases o with
    | none => exact False.elim h
    | some L =>
      obtain ⟨h1, h2, h3⟩ := h
      rw [← h3]
      exact hf t h1 h2
  | err e =>
    cases o with
    | none => trivial
    | some L => exact False.elim h
  | ub =>
    cases o with
    | none => trivial
    | some L => exact False.elim h
  | running w =>
    cases w with
    | none => cases o <;> exact False.elim h
    | some x => cases o <;> exact h

theorem padTo_length {n : Nat} {v : List Char} (h : v.length ≤ n) : (padTo n v).length = n := by
  unfold padTo; simp only [List.length_append, List.length_replicate]; omega

theorem padTo_quiet {n : Nat} {v : List Char} (h : Quiet v) : Quiet (padTo n v) := by
  intro x hx
  unfold padTo at hx
  rcases List.mem_append.mp hx with hx | hx
  · exact h x hx
  · rw [List.eq_of_mem_replicate hx]; decide

theorem inplace_lines {fuel : Nat} {t key val : List Char} {off c : Nat} {pre suf : Bool} {k : Char} {ks : List Char}
    (hk : key = k :: ks) (hb : isBlank k = false) (hq : Quiet key) (hv : Quiet val) (hs : Sync t off c)
    (hf : t.length + 2 < fuel) :
    SubAgree t.length off c (predefinedInplace fuel t off key val pre suf)
      (linesInplace (significant (t.drop c)) key val pre suf) := by
  have hne : key ≠ [] := by rw [hk]; exact nofun
  obtain ⟨h0, hoc, hct, hline⟩ := hs
  unfold linesInplace
  rcases predefinedInplace_cases (val := val) (pre := pre) (suf := suf) hne (by omega : off ≤ t.length) hf with
    ⟨h1, h2⟩ | ⟨h1, h2, h3⟩ | ⟨h1, h2⟩
  · rw [h2, if_pos h1]; trivial
  · rw [h3]; exact rfl
  · rw [h2, if_neg (by omega)]
    have hl : (padTo key.length val).length = key.length := padTo_length h1
    have hpq := padTo_quiet (n := key.length) hv
    obtain ⟨pv, epv⟩ : ∃ pv, pv = padTo key.length val := ⟨_, rfl⟩
    rw [← epv] at hl hpq ⊢
    have hlen : (t.take off ++ rep key pv pre suf (prevName t off) (t.drop off)).length = t.length := by
      rw [List.length_append, rep_length hl, List.length_take, List.length_drop]; omega
    have hoff : (t.take off).length = off := by rw [List.length_take]; omega
    have hdrop : (t.take off ++ rep key pv pre suf (prevName t off) (t.drop off)).drop off =
        rep key pv pre suf (prevName t off) (t.drop off) := by
      conv => lhs; rw [show off = (t.take off).length from hoff.symm]
      rw [hoff, List.drop_left' hoff]
    have hmain : (t.take off ++ rep key pv pre suf (prevName t off) (t.drop off)).drop c =
          rep key pv pre suf false (t.drop c) ∧
        (t.drop c = [] ∨ ∃ x nl, (nl = '\r' ∨ nl = '\n') ∧
          (t.take off ++ rep key pv pre suf (prevName t off) (t.drop off)).drop off =
            x ++ nl :: (t.take off ++ rep key pv pre suf (prevName t off) (t.drop off)).drop c) := by
      rcases hline with h | ⟨x, nl, hnl, hx⟩
      · refine ⟨?_, Or.inl h⟩
        rw [h, rep_nil]
        apply List.drop_eq_nil_of_le
        rw [hlen]
        have := congrArg List.length h
        rw [List.length_drop] at this
        simp at this; omega
      · have hnk : nl ∉ key := by
          intro h; have := hq nl h; rcases hnl with rfl | rfl
          · exact this.2.1 rfl
          · exact this.2.2.1 rfl
        have hnn : isValidName nl = false := by rcases hnl with rfl | rfl <;> decide
        have hsp := rep_split (val := pv) (pre := pre) (suf := suf) hl hne hnk hnn (t.drop c) _ x (prevName t off) rfl
        rw [← hx] at hsp
        have hxl := congrArg List.length hx
        simp only [List.length_append, List.length_cons, List.length_drop] at hxl
        have hc : (t.take off ++ rep key pv pre suf (prevName t off) (t.drop off)).drop c =
            rep key pv pre suf false (t.drop c) := by
          rw [show c = off + (x.length + 1) by omega, ← List.drop_drop, hdrop,
            show off + (x.length + 1) = c by omega, hsp]
          rw [← List.drop_drop, List.drop_left' (rep_length hl _ _)]
          rfl
        refine ⟨hc, Or.inr ⟨rep key pv pre suf (prevName t off) x, nl, hnl, ?_⟩⟩
        rw [hdrop, hc, hsp]
    obtain ⟨hm1, hm2⟩ := hmain
    refine ⟨hlen, ⟨?_, hoc, by omega, ?_⟩, ?_⟩
    · intro hm
      rcases List.mem_append.mp hm with h | h
      · exact h0 (List.mem_of_mem_take h)
      · rcases rep_mem h with h | h
        · exact h0 (List.mem_of_mem_drop h)
        · exact (hpq _ h).2.2.2 rfl
    · rcases hm2 with h | h
      · left; rw [hm1, h, rep_nil]
      · exact Or.inr h
    · rw [hm1, rep_significant hk hb hl hq hpq]

theorem quiet_takeWhile {p : Char → Bool} {s : List Char} (h : Quiet s) : Quiet (s.takeWhile p) :=
  fun x hx => h x (mem_takeWhile hx)

theorem quiet_dropWhile {p : Char → Bool} {s : List Char} (h : Quiet s) : Quiet (s.dropWhile p) :=
  fun x hx => h x (mem_dropWhile hx)

theorem quiet_drop {n : Nat} {s : List Char} (h : Quiet s) : Quiet (s.drop n) :=
  fun x hx => h x (List.mem_of_mem_drop hx)

theorem quiet_dropBack {s : List Char} (h : Quiet s) : Quiet (dropBack s) := fun x hx => h x (mem_dropBack hx)

theorem quiet_append {a b : List Char} (ha : Quiet a) (hb : Quiet b) : Quiet (a ++ b) := by
  intro x hx
  rcases List.mem_append.mp hx with h | h
  · exact ha x h
  · exact hb x h

theorem macro_lines {fuel : Nat} {t line : List Char} {off c : Nat} (hq : Quiet line)
    (hh : ∀ x s, line = x :: s → isBlank x = false) (hs : Sync t off c) (hf : t.length + 2 < fuel) :
    SubAgree t.length off c (predefinedMacro fuel t line off) (linesMacro (significant (t.drop c)) line) := by
  unfold predefinedMacro linesMacro
  split
  · simp only
    split
    · trivial
    · rename_i hne
      cases hsym : line.takeWhile (· != ' ') with
      | nil => exact absurd hsym hne
      | cons k ks =>
        refine inplace_lines rfl ?_ (hsym ▸ quiet_takeWhile hq) (quiet_dropWhile (quiet_drop hq)) hs hf
        cases line with
        | nil => exact absurd hsym (by nofun)
        | cons x s =>
          rw [List.takeWhile_cons] at hsym
          split at hsym
          · rw [← (List.cons.inj hsym).1]; exact hh x s rfl
          · exact absurd hsym (by nofun)
  · trivial

theorem varItem_lines {fuel : Nat} {t item : List Char} {off c : Nat} (hq : Quiet item)
    (hs : Sync t off c) (hf : t.length + 2 < fuel) :
    SubAgree t.length off c (varItem fuel t item off) (linesVarItem (significant (t.drop c)) item) := by
  unfold varItem linesVarItem
  split
  · trivial
  · simp only
    have hname := quiet_dropBack (quiet_takeWhile (p := (· != '=')) hq)
    generalize dropBack (item.takeWhile (· != '=')) = name at hname
    cases name with
    | nil => trivial
    | cons ch cs =>
      simp only
      split
      · trivial
      · have hval : Quiet (dropBack (if isBlank ch = true then [] else (item.dropWhile (· != '=')).drop 1)) := by
          apply quiet_dropBack
          split
          · intro x hx; cases hx
          · exact quiet_drop (quiet_dropWhile hq)
        generalize dropBack (if isBlank ch = true then [] else (item.dropWhile (· != '=')).drop 1) = val at hval
        have q1 : Quiet "${".toList := by intro x hx; simp at hx; rcases hx with rfl | rfl <;> decide
        have q2 : Quiet "}".toList := by intro x hx; simp at hx; rcases hx with rfl; decide
        have q3 : Quiet "$".toList := by intro x hx; simp at hx; rcases hx with rfl; decide
        refine subAgree_bind (inplace_lines (k := '$') (ks := '{' :: (ch :: cs) ++ "}".toList) rfl (by decide)
          (quiet_append (quiet_append q1 hname) q2) hval hs hf) ?_
        intro t' hl' hs'
        rw [← hl'] at hf ⊢
        exact inplace_lines (k := '$') (ks := ch :: cs) rfl (by decide) (quiet_append q3 hname) hval hs' hf

theorem varLoop_lines {fuel : Nat} {off c len : Nat} (hf : len + 2 < fuel) :
    ∀ (n : Nat) (t line : List Char), t.length = len → Quiet line → Sync t off c →
    SubAgree len off c (varLoop fuel off n t line) (linesVarLoop n (significant (t.drop c)) line) := by
  intro n
  induction n with
  | zero => intro t line hl _ hs; exact ⟨hl, hs, rfl⟩
  | succ n ih =>
    intro t line hl hq hs
    unfold varLoop linesVarLoop
    cases line with
    | nil => exact ⟨hl, hs, rfl⟩
    | cons ch cs =>
      simp only
      split
      · exact ih t cs hl (fun x hx => hq x (List.mem_cons_of_mem _ hx)) hs
      · refine subAgree_bind (hl ▸ varItem_lines (quiet_takeWhile hq) hs (by omega)) ?_
        intro t' hl' hs'
        exact ih t' _ hl' (quiet_drop hq) hs'

/-! ## The whole file -/

def linesLogger (dns : List Char → Option Int) : Nat → List (List Char) → Config → Option Config
  | _, [], g => some g
  | 0, _ :: _, _ => none
  | n + 1, l :: ls, g =>
    match readLine l with
    | none => none
    | some none => linesLogger dns n ls g
    | some (some (b, k, v)) =>
      match k with
      | .hotUpdate => linesLogger dns n ls { g with hotUpdate := parseBool v }
      | .define => (linesMacro ls v).bind fun ls => linesLogger dns n ls g
      | .variable => (linesVarLoop v.length ls v).bind fun ls => linesLogger dns n ls g
      | .loggerName => linesLogger dns n ls { g with name := parseString LOGGER_NAME_LEN v }
      | .loggerDesc => linesLogger dns n ls { g with desc := parseString LOGGER_DESC_LEN v }
      | .shmKey => linesLogger dns n ls { g with shmKey := parseNumber v }
      | .channel =>
        if g.channels.length ≥ MAX_CHANNEL_SIZE then none
        else if atoi v ≠ g.channels.length then none
        else
          (linesChannel dns b ls.length ls { id := atoi v }).bind fun x =>
            linesLogger dns n x.2 { g with channels := g.channels ++ [x.1] }
      | _ => none

/-- The outcomes of the whole parser correspond. -/
def AgreeL (r : PRes Config) (o : Option Config) : Prop :=
  match r, o with
  | .ok g, some g' => g = g'
  | .ok _, none => False
  | .running (some (k, v)), _ => k = v
  | .running none, _ => False
  | .err e, some g => e = .invalidChannelSize ∧ g.channels = []
  | .err _, none => True
  | .ub, some _ => False
  | .ub, none => True

theorem linesLogger_bad {dns : List Char → Option Int} {n : Nat} {l : List Char} {L : List (List Char)} {g : Config}
    (h : readLine l = none) : linesLogger dns n (l :: L) g = none := by
  cases n with
  | zero => rfl
  | succ n => unfold linesLogger; rw [h]

theorem linesLogger_nil {dns : List Char → Option Int} {n : Nat} {g : Config} : linesLogger dns n [] g = some g := by
  cases n <;> rfl

theorem linesInplace_length {L L' : List (List Char)} {key val : List Char} {pre suf : Bool}
    (h : linesInplace L key val pre suf = some L') : L'.length ≤ L.length := by
  unfold linesInplace at h
  split at h
  · exact absurd h (by nofun)
  · rw [← Option.some.inj h]
    exact Nat.le_trans (List.length_filter_le _ _) (by simp)

theorem linesMacro_length {L L' : List (List Char)} {line : List Char} (h : linesMacro L line = some L') :
    L'.length ≤ L.length := by
  unfold linesMacro at h
  split at h
  · simp only at h
    split at h
    · exact absurd h (by nofun)
    · exact linesInplace_length h
  · exact absurd h (by nofun)

theorem linesVarItem_length {L L' : List (List Char)} {item : List Char} (h : linesVarItem L item = some L') :
    L'.length ≤ L.length := by
  unfold linesVarItem at h
  split at h
  · exact absurd h (by nofun)
  · simp only at h
    split at h
    · exact absurd h (by nofun)
    · split at h
      · exact absurd h (by nofun)
      · obtain ⟨M, h1, h2⟩ := Option.bind_eq_some_iff.mp h
        exact Nat.le_trans (linesInplace_length h2) (linesInplace_length h1)

theorem linesVarLoop_length : ∀ (n : Nat) {L L' : List (List Char)} {line : List Char},
    linesVarLoop n L line = some L' → L'.length ≤ L.length := by
  intro n
  induction n with
  | zero => intro L L' line h; rw [← Option.some.inj h]; exact Nat.le_refl _
  | succ n ih =>
    intro L L' line h
    unfold linesVarLoop at h
    split at h
    · rw [← Option.some.inj h]; exact Nat.le_refl _
    · split at h
      · exact ih h
      · obtain ⟨M, h1, h2⟩ := Option.bind_eq_some_iff.mp h
        exact Nat.le_trans (ih h2) (linesVarItem_length h1)

theorem linesChannel_length {dns : List Char → Option Int} {indent : Nat} :
    ∀ (n : Nat) (L : List (List Char)) (d d' : Channel) (L' : List (List Char)),
      linesChannel dns indent n L d = some (d', L') → L'.length ≤ L.length := by
  intro n
  induction n with
  | zero =>
    intro L d d' L' h
    cases L with
    | nil => obtain ⟨_, rfl⟩ := Prod.mk.inj (Option.some.inj h); exact Nat.le_refl _
    | cons l L => exact absurd h (by nofun)
  | succ n ih =>
    intro L d d' L' h
    cases L with
    | nil => obtain ⟨_, rfl⟩ := Prod.mk.inj (Option.some.inj h); exact Nat.le_refl _
    | cons l L =>
      unfold linesChannel at h
      split at h
      · exact absurd h (by nofun)
      · have := ih _ _ _ _ h; simp only [List.length_cons]; omega
      · split at h
        · obtain ⟨_, rfl⟩ := Prod.mk.inj (Option.some.inj h); exact Nat.le_refl _
        · split at h
          · split at h
            · exact absurd h (by nofun)
            · split at h
              · exact absurd h (by nofun)
              · split at h
                · exact absurd h (by nofun)
                · rename_i h1
                  have := ih _ _ _ _ h
                  have := linesDevice_length _ _ _ _ h1
                  simp only [List.length_cons]; omega
          · split at h
            · have := ih _ _ _ _ h; simp only [List.length_cons]; omega
            · exact absurd h (by nofun)

theorem agreeL_none {r : PRes Config} (h1 : ∀ g, r ≠ .ok g) (h2 : ∀ w, r ≠ .running w) : AgreeL r none := by
  cases r with
  | ok g => exact absurd rfl (h1 g)
  | err e => trivial
  | ub => trivial
  | running w => exact absurd rfl (h2 w)

/-- What happens behind a line that was read. -/
def again (dns : List Char → Option Int) (en fuel : Nat) (t : List Char) (cur : Nat) (g : Config) : PRes Config :=
  if cur < en then loggerLoop dns en fuel t cur g
  else if g.channels.length = 0 then .err .invalidChannelSize
  else .ok g

theorem again_agree {dns : List Char → Option Int} {fuel : Nat} {t : List Char} {cur n : Nat} {g : Config}
    (ih : cur < t.length → AgreeL (loggerLoop dns t.length fuel t cur g) (linesLogger dns n (significant (t.drop cur)) g)) :
    AgreeL (again dns t.length fuel t cur g) (linesLogger dns n (significant (t.drop cur)) g) := by
  unfold again
  split
  · rename_i h; exact ih h
  · rename_i h
    rw [drop_at_end h, significant_nil, linesLogger_nil]
    split
    · rename_i h; exact ⟨rfl, List.eq_nil_of_length_eq_zero h⟩
    · rfl

theorem sub_agree_again {dns : List Char → Option Int} {fuel off : Nat} {len c : Nat} {g : Config} {n : Nat}
    {r : PRes (List Char)} {o : Option (List (List Char))} (h : SubAgree len off c r o)
    (hlen : ∀ L, o = some L → L.length ≤ n)
    (ih : ∀ t, t.length = len → '\x00' ∉ t → c ≤ t.length → (significant (t.drop c)).length ≤ n →
      AgreeL (again dns len fuel t c g) (linesLogger dns n (significant (t.drop c)) g)) :
    AgreeL (r.bind fun t => again dns len fuel t c g) (o.bind fun L => linesLogger dns n L g) := by
  cases r with
  | ok t =>
    cases o with
    | none => exact False.elim h
    | some L =>
      obtain ⟨h1, h2, h3⟩ := h
      have := ih t h1 h2.1 h2.2.2.1 (by rw [h3]; exact hlen L rfl)
      rw [h3] at this
      exact this
  | err e =>
    cases o with
    | none => trivial
    | some L => exact False.elim h
  | ub =>
    cases o with
    | none => trivial
    | some L => exact False.elim h
  | running w =>
    cases w with
    | none => cases o <;> exact False.elim h
    | some x => cases o with
      | none => exact h
      | some L =>
        show AgreeL (.running (some x)) _
        cases hx : (some L).bind fun L => linesLogger dns n L g <;> exact h

/-- The whole parser. -/
theorem loggerLoop_lines {dns : List Char → Option Int} :
    ∀ (fuel : Nat) (t : List Char) (cur n : Nat) (g : Config), '\x00' ∉ t → cur ≤ t.length →
      2 * t.length - cur + 3 < fuel → (significant (t.drop cur)).length ≤ n →
      AgreeL (loggerLoop dns t.length fuel t cur g) (linesLogger dns n (significant (t.drop cur)) g) := by
  intro fuel
  induction fuel with
  | zero => intro t cur n g _ _ h; omega
  | succ fuel ih =>
    intro t cur n g h0 hcur hf hn'
    unfold loggerLoop
    by_cases hc : cur < t.length
    · cases step h0 hc with
      | bad e l L hlex hsig hl =>
        rw [hlex, hsig, linesLogger_bad hl]; trivial
      | skip ln c hlex hk h1 h2 hsig =>
        rw [hlex]
        simp only [PRes.bind, hk]
        have hL : ∃ m, linesLogger dns n (significant (t.drop cur)) g =
            linesLogger dns m (significant (t.drop c)) g ∧ (significant (t.drop c)).length ≤ m := by
          rcases hsig with h | ⟨l, h, hl⟩
          · exact ⟨n, by rw [h], by rw [← h]; exact hn'⟩
          · rw [h] at hn' ⊢
            simp only [List.length_cons] at hn'
            cases n with
            | zero => omega
            | succ n =>
              refine ⟨n, ?_, by omega⟩
              conv => lhs; unfold linesLogger
              rw [hl]
        obtain ⟨m, hL, hm⟩ := hL
        rw [hL]
        split
        · rw [drop_at_end (by omega), significant_nil, linesLogger_nil]; rfl
        · exact ih t c m g h0 h2 (by omega) hm
      | key ln c l k v tail hlex hk h1 h2 hsig hl hv ht hn hq hhead hcover hrest =>
        rw [hlex]
        simp only [PRes.bind, hk]
        rw [hsig] at hn' ⊢
        simp only [List.length_cons] at hn'
        cases n with
        | zero => omega
        | succ n =>
        have hgo : ∀ (t' : List Char), t'.length = t.length → '\x00' ∉ t' → ∀ c', cur < c' → c' ≤ t'.length → ∀ g' : Config,
            (significant (t'.drop c')).length ≤ n →
            AgreeL (again dns t.length fuel t' c' g') (linesLogger dns n (significant (t'.drop c')) g') := by
          intro t' hl' h0' c' hcc hc' g' hle
          rw [← hl']
          exact again_agree fun _ => ih t' c' n g' h0' hc' (by omega) hle
        have hsync : Sync t ln.valEnd c := ⟨h0, hcover.2, h2, hrest⟩
        conv => rhs; unfold linesLogger
        rw [hl, hv]
        cases k with
        | hotUpdate => exact hgo t rfl h0 c h1 h2 _ (by omega)
        | loggerName => exact hgo t rfl h0 c h1 h2 _ (by omega)
        | loggerDesc => exact hgo t rfl h0 c h1 h2 _ (by omega)
        | shmKey => exact hgo t rfl h0 c h1 h2 _ (by omega)
        | define =>
          refine sub_agree_again (macro_lines hq hhead hsync (by omega)) ?_ ?_
          · intro L hL; have := linesMacro_length hL; omega
          · intro t' hl' h0' hc' hle; exact hgo t' hl' h0' c h1 hc' g hle
        | «variable» =>
          refine sub_agree_again (varLoop_lines (by omega) _ _ _ rfl hq hsync) ?_ ?_
          · intro L hL; have := linesVarLoop_length _ hL; omega
          · intro t' hl' h0' hc' hle; exact hgo t' hl' h0' c h1 hc' g hle
        | channel =>
          simp only
          split
          · trivial
          · by_cases hnf : NumFree (t.drop c)
            · rw [atoi_tail ht (hn hnf)]
              split
              · trivial
              · have hch := parseChannel_lines (dns := dns) h0 ln.blank fuel c (significant (t.drop c)).length
                  { id := atoi v } h2 (by omega) (Nat.le_refl _)
                cases hpd : parseChannel dns t t.length ln.blank fuel c { id := atoi v } with
                | ok x =>
                  obtain ⟨d, c2⟩ := x
                  rw [hpd] at hch
                  have hld := agree_ok hch
                  have hpos := parseChannel_pos t _ _ _ _ _ _ _ h2 hpd
                  have hlen := linesChannel_length _ _ _ _ _ hld
                  rw [hld]
                  exact hgo t rfl h0 c2 (by omega) hpos.2 _ (by omega)
                | err e => rw [hpd] at hch; rw [agree_err hch]; trivial
                | ub => rw [hpd] at hch; rw [agree_ub hch]; trivial
                | running w => exact absurd hpd (parseChannel_ne_running h0 _ _ _ _ _ h2 (by omega))
            · obtain ⟨l', L', hs', hl'⟩ := bad_line _ _ (Nat.le_refl _) (fun h => h0 (List.mem_of_mem_drop h)) hnf
              have hR : (if atoi v ≠ g.channels.length then none
                  else (linesChannel dns ln.blank (significant (t.drop c)).length (significant (t.drop c)) { id := atoi v }).bind
                    fun x => linesLogger dns n x.2 { g with channels := g.channels ++ [x.1] }) = none := by
                split
                · rfl
                · rw [hs', linesChannel_bad hl']; rfl
              rw [hR]
              split
              · trivial
              · have hch := parseChannel_lines (dns := dns) h0 ln.blank fuel c (significant (t.drop c)).length
                  { id := atoi (v ++ tail) } h2 (by omega) (Nat.le_refl _)
                rw [hs', linesChannel_bad hl'] at hch
                cases hpd : parseChannel dns t t.length ln.blank fuel c { id := atoi (v ++ tail) } with
                | ok x => exact absurd hpd (agree_not_ok hch x)
                | err e => trivial
                | ub => trivial
                | running w => exact absurd hpd (parseChannel_ne_running h0 _ _ _ _ _ h2 (by omega))
        | _ => trivial
    · rw [lex_at_end t hc, drop_at_end hc]
      simp only [PRes.bind]
      rw [if_pos (by omega), significant_nil, linesLogger_nil]; rfl

end FNLog
