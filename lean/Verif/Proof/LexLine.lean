import Verif.Proof.Lex

/-! # What the lexer makes of a line -/

namespace FNLog

/-- Value between brackets or quotes: `s` is the line behind the opening one. -/
def closedValue (cl : Char) (s : List Char) : Option (List Char) :=
  if cl ∈ s then some (dropBack ((s.takeWhile (· != cl)).dropWhile isBlank)) else none

/-- The value of a line; `r` is the line behind the colon without its comment. -/
def lineValue (r : List Char) : Option (List Char) :=
  match r.dropWhile isBlank with
  | [] => some []
  | c :: s =>
    if c = '"' then closedValue '"' s
    else if c = '[' then closedValue ']' s
    else if c = '{' then closedValue '}' s
    else some (dropBack (c :: s))

/-- What a line (without its comment) says: `none` an error, `some none` nothing, otherwise indentation,
key and value. -/
def readLine (l : List Char) : Option (Option (Nat × Key × List Char)) :=
  match l.dropWhile (fun c => isBlank c || c == '-') with
  | [] => some none
  | c :: s =>
    if c < 'a' ∨ c > 'z' then none
    else if (c :: s).dropWhile isKeyChar = [] then none
    else
      match parseReserve ((c :: s).takeWhile isKeyChar) with
      | some (some k) =>
        match ((c :: s).dropWhile isKeyChar).dropWhile (fun c => c == ' ' || c == '\t') with
        | [] => none
        | x :: u => if x = ':' then (lineValue u).map fun v => some ((l.takeWhile isBlank).length, k, v) else none
      | _ => none

/-- A line without its comment. -/
def cut (p : List Char) : List Char := p.takeWhile (· != '#')

/-- `rest` is empty or begins with a line end. -/
def AtEnd (rest : List Char) : Prop := rest = [] ∨ ∃ c r, rest = c :: r ∧ (c = '\r' ∨ c = '\n')

/-- The characters of the line end at the beginning of `rest`. -/
def endLen (rest : List Char) : Nat :=
  match rest with
  | [] => 0
  | c :: r => if (r.headD '\x00' = '\r' ∨ r.headD '\x00' = '\n') ∧ r.headD '\x00' ≠ c then 2 else 1

/-- No line end and no NUL in `p`. -/
def Plain (p : List Char) : Prop := ∀ c ∈ p, c ≠ '\r' ∧ c ≠ '\n' ∧ c ≠ '\x00'

/-- Same key, indentation and beginning of the value. -/
def Kept (ln ln' : Line) : Prop := ln'.key = ln.key ∧ ln'.blank = ln.blank ∧ ln'.valBegin = ln.valBegin

theorem Kept.refl (ln : Line) : Kept ln ln := ⟨rfl, rfl, rfl⟩

theorem Kept.trans {a b c : Line} (h1 : Kept a b) (h2 : Kept b c) : Kept a c :=
  ⟨h2.1.trans h1.1, h2.2.1.trans h1.2.1, h2.2.2.trans h1.2.2⟩

theorem trimEnd_ge (t : List Char) (b n : Nat) : b ≤ trimEnd t b n ∧ trimEnd t b n ≤ b + n := by
  induction n with
  | zero => exact ⟨Nat.le_refl _, Nat.le_refl _⟩
  | succ n ih =>
    unfold trimEnd
    split
    · split <;> omega
    · omega

theorem trimEnd_idem (t : List Char) (b n : Nat) : trimEnd t b (trimEnd t b n - b) = trimEnd t b n := by
  induction n with
  | zero => simp [trimEnd]
  | succ n ih =>
    cases h : t[b + n]? with
    | none =>
      have e : trimEnd t b (n + 1) = b + n + 1 := by unfold trimEnd; rw [h]
      rw [e, show b + n + 1 - b = n + 1 by omega, e]
    | some c =>
      by_cases hb : isBlank c = true
      · have e : trimEnd t b (n + 1) = trimEnd t b n := by unfold trimEnd; rw [h]; simp only [hb, if_true]; cases n <;> rfl
        rw [e, ih]
      · have e : trimEnd t b (n + 1) = b + n + 1 := by unfold trimEnd; rw [h]; simp only [hb, Bool.false_eq_true, if_false]
        rw [e, show b + n + 1 - b = n + 1 by omega, e]

theorem dropBack_snoc_blank {s : List Char} {c : Char} (h : isBlank c = true) : dropBack (s ++ [c]) = dropBack s := by
  unfold dropBack
  simp [h]

theorem dropBack_snoc {s : List Char} {c : Char} (h : isBlank c = false) : dropBack (s ++ [c]) = s ++ [c] := by
  unfold dropBack
  simp [h]

/-- The trimmed value, and what is between its end and the end of the raw value. -/
theorem slice_trimEnd (t : List Char) (b n : Nat) (h : b + n ≤ t.length) :
    slice t b (trimEnd t b n) = dropBack ((t.drop b).take n) ∧
      ∃ bl, (∀ c ∈ bl, isBlank c = true) ∧ t.drop (trimEnd t b n) = bl ++ t.drop (b + n) := by
  induction n with
  | zero =>
    constructor
    · simp [trimEnd, slice, dropBack]
    · exact ⟨[], by simp, by simp [trimEnd]⟩
  | succ n ih =>
    have hlt : b + n < t.length := by omega
    have hg : t[b + n]? = some t[b + n] := List.getElem?_eq_getElem hlt
    have hd : n < (t.drop b).length := by rw [List.length_drop]; omega
    have htk : (t.drop b).take (n + 1) = (t.drop b).take n ++ [t[b + n]] := by
      rw [List.take_succ_eq_append_getElem hd, List.getElem_drop]
    have hdr : t.drop (b + n) = t[b + n] :: t.drop (b + n + 1) := List.drop_eq_getElem_cons hlt
    obtain ⟨ih1, bl, ih2, ih3⟩ := ih (by omega)
    by_cases hb : isBlank t[b + n] = true
    · have e : trimEnd t b (n + 1) = trimEnd t b n := by
        conv => lhs; unfold trimEnd
        rw [hg]; simp only [hb, if_true]
      rw [e, htk, dropBack_snoc_blank hb]
      refine ⟨ih1, bl ++ [t[b + n]], ?_, ?_⟩
      · intro c hc
        rcases List.mem_append.mp hc with h | h
        · exact ih2 c h
        · rw [List.mem_singleton.mp h]; exact hb
      · rw [ih3, hdr, List.append_assoc]; rfl
    · have e : trimEnd t b (n + 1) = b + n + 1 := by
        conv => lhs; unfold trimEnd
        rw [hg]; simp only [hb, Bool.false_eq_true, if_false]
      rw [e, htk, dropBack_snoc (by simpa using hb)]
      refine ⟨?_, [], by simp, rfl⟩
      unfold slice
      rw [show b + n + 1 - b = n + 1 by omega, htk]

/-! ## The end of a line -/

theorem lexLoop_end {t rest : List Char} (hr : AtEnd rest) (cur : Nat) (ln : Line) :
    (∃ e, closeVal { ln with chars := ln.chars + 1 } (cur + 1) = .error e ∧ lexLoop t rest cur ln = .err e) ∨
    (∃ ln1 ln', closeVal { ln with chars := ln.chars + 1 } (cur + 1) = .ok ln1 ∧
      lexLoop t rest cur ln = .ok (ln', cur + endLen rest) ∧ Kept ln1 ln' ∧
      ln'.valEnd = trimEnd t ln1.valBegin (ln1.valEnd - ln1.valBegin)) := by
  have key : ∀ (ch nxt : Char), (ch = '\x00' ∨ ch = '\r' ∨ ch = '\n') →
      lexChar t ln ch nxt (cur + 1) =
        match closeVal { ln with chars := ln.chars + 1 } (cur + 1) with
        | .error e => .fail e
        | .ok l => lexEnd t l ch nxt (cur + 1) := by
    intro ch nxt h
    have h1 : isLineBound ch = true := by rcases h with rfl | rfl | rfl <;> rfl
    have h2 : isSoftLineBound ch = true := by rcases h with rfl | rfl | rfl <;> rfl
    unfold lexChar
    simp only [h1, h2, if_true, Bool.true_eq_false, and_false, if_false]
    rfl
  rcases hr with rfl | ⟨c, r, rfl, hc⟩
  · unfold lexLoop
    rw [key _ _ (Or.inl rfl)]
    cases closeVal { ln with chars := ln.chars + 1 } (cur + 1) with
    | error e => exact Or.inl ⟨e, rfl, rfl⟩
    | ok l =>
      refine Or.inr ⟨l, { l with valEnd := trimEnd t l.valBegin (l.valEnd - l.valBegin) }, rfl, ?_, ⟨rfl, rfl, rfl⟩, rfl⟩
      simp only [lexEnd]
      rw [if_neg (by decide), if_pos trivial]
      simp only [endLen, Nat.add_sub_cancel]
      rfl
  · unfold lexLoop
    rw [key _ _ (Or.inr hc)]
    cases closeVal { ln with chars := ln.chars + 1 } (cur + 1) with
    | error e => exact Or.inl ⟨e, rfl, rfl⟩
    | ok l =>
      refine Or.inr ⟨l, { l with valEnd := trimEnd t l.valBegin (l.valEnd - l.valBegin) }, rfl, ?_, ⟨rfl, rfl, rfl⟩, rfl⟩
      simp only [lexEnd]
      rw [if_pos hc]
      simp only [endLen]
      by_cases hx : (r.headD '\x00' = '\r' ∨ r.headD '\x00' = '\n') ∧ r.headD '\x00' ≠ c
      · rw [if_pos hx, if_pos hx]
      · rw [if_neg hx, if_neg hx]

theorem plain_cons {c : Char} {p : List Char} (h : Plain (c :: p)) :
    isLineBound c = false ∧ Plain p ∧ (isSoftLineBound c = true ↔ c = '#') := by
  have hc := h c List.mem_cons_self
  have h1 : isLineBound c = false := by
    unfold isLineBound; simp [hc.1, hc.2.1, hc.2.2]
  refine ⟨h1, fun x hx => h x (List.mem_cons_of_mem _ hx), ?_⟩
  unfold isSoftLineBound
  simp [hc.1, hc.2.1, hc.2.2]

theorem lexLoop_next {t : List Char} {ln ln' : Line} {c : Char} {cs : List Char} {cur : Nat}
    (h : lexChar t ln c (cs.headD '\x00') (cur + 1) = .next ln') :
    lexLoop t (c :: cs) cur ln = lexLoop t cs (cur + 1) ln' := by
  rw [lexLoop, h]

/-- Behind the value or the comment sign everything up to the line end is skipped. -/
theorem lexLoop_clean {t rest : List Char} (hr : AtEnd rest) :
    ∀ (p : List Char) (cur : Nat) (ln : Line), Plain p → ln.block = .clean →
      ∃ ln', lexLoop t (p ++ rest) cur ln = .ok (ln', cur + p.length + endLen rest) ∧ Kept ln ln' ∧
        ln'.valEnd = trimEnd t ln.valBegin (ln.valEnd - ln.valBegin) := by
  intro p
  induction p with
  | nil =>
    intro cur ln _ hb
    have hcl : closeVal { ln with chars := ln.chars + 1 } (cur + 1) = .ok { ln with chars := ln.chars + 1 } := by
      unfold closeVal; simp only [hb]
    rcases lexLoop_end (t := t) hr cur ln with ⟨e, he, _⟩ | ⟨ln1, ln', h1, h2, h3, h4⟩
    · rw [hcl] at he; exact absurd he (by nofun)
    · rw [hcl] at h1
      obtain rfl := Except.ok.inj h1
      exact ⟨ln', h2, h3, h4⟩
  | cons c p ih =>
    intro cur ln hp hb
    obtain ⟨h1, h2, _⟩ := plain_cons hp
    have hstep : lexChar t ln c ((p ++ rest).headD '\x00') (cur + 1) = .next { ln with chars := ln.chars + 1 } := by
      unfold lexChar; simp only [hb, h1, and_self, if_true]
    rw [List.cons_append, lexLoop_next hstep]
    obtain ⟨ln', e1, e2, e3⟩ := ih (cur + 1) { ln with chars := ln.chars + 1 } h2 hb
    exact ⟨ln', by rw [e1, List.length_cons]; congr 2; omega, e2, e3⟩

/-- At a comment or at the line end. -/
theorem lexLoop_stop {t rest : List Char} (hr : AtEnd rest) {p : List Char} (hp : Plain p)
    (hstop : p = [] ∨ ∃ q, p = '#' :: q) (cur : Nat) (ln : Line) (hb : ln.block ≠ .clean) :
    (∃ e e', closeVal { ln with chars := ln.chars + 1 } (cur + 1) = .error e ∧ lexLoop t (p ++ rest) cur ln = .err e') ∨
    (∃ ln1 ln', closeVal { ln with chars := ln.chars + 1 } (cur + 1) = .ok ln1 ∧
      lexLoop t (p ++ rest) cur ln = .ok (ln', cur + p.length + endLen rest) ∧ Kept ln1 ln' ∧
      ln'.valEnd = trimEnd t ln1.valBegin (ln1.valEnd - ln1.valBegin)) := by
  rcases hstop with rfl | ⟨q, rfl⟩
  · rcases lexLoop_end (t := t) hr cur ln with ⟨e, h1, h2⟩ | h
    · exact Or.inl ⟨e, e, h1, h2⟩
    · exact Or.inr h
  · obtain ⟨h1, h2, h3⟩ := plain_cons hp
    have hstep : ∀ nxt, lexChar t ln '#' nxt (cur + 1) =
        match closeVal { ln with chars := ln.chars + 1 } (cur + 1) with
        | .error e => .fail e
        | .ok l => lexEnd t l '#' nxt (cur + 1) := by
      intro nxt
      unfold lexChar
      simp only [hb, h3.mpr rfl, if_true, false_and, if_false]
      rfl
    rw [List.cons_append, lexLoop, hstep]
    cases hc : closeVal { ln with chars := ln.chars + 1 } (cur + 1) with
    | error e => exact Or.inl ⟨e, e, rfl, rfl⟩
    | ok l =>
      simp only [lexEnd]
      rw [if_neg (by decide), if_neg (by decide)]
      simp only
      obtain ⟨ln', e1, e2, e3⟩ := lexLoop_clean (t := t) hr q (cur + 1)
        { l with valEnd := trimEnd t l.valBegin (l.valEnd - l.valBegin), block := .clean } h2 rfl
      refine Or.inr ⟨l, ln', rfl, ?_, ⟨e2.1, e2.2.1, e2.2.2⟩, ?_⟩
      · rw [e1, List.length_cons]; congr 2; omega
      · rw [e3]; exact trimEnd_idem _ _ _

theorem cut_cons_hash (q : List Char) : cut ('#' :: q) = [] := by simp [cut]

theorem cut_cons {c : Char} (h : c ≠ '#') (q : List Char) : cut (c :: q) = c :: cut q := by simp [cut, h]

/-! ## Values -/

/-- A value without brackets. -/
theorem lexLoop_val_open {t rest : List Char} (hr : AtEnd rest) :
    ∀ (p : List Char) (cur : Nat) (ln : Line), Plain p → ln.block = .val → ln.stack = none → ln.valBegin < cur →
      ∃ ln', lexLoop t (p ++ rest) cur ln = .ok (ln', cur + p.length + endLen rest) ∧ Kept ln ln' ∧
        ln'.valEnd = trimEnd t ln.valBegin (cur + (cut p).length - ln.valBegin) := by
  intro p
  induction p with
  | nil =>
    intro cur ln hp hb hs _
    have hcl : closeVal { ln with chars := ln.chars + 1 } (cur + 1) =
        .ok { ln with chars := ln.chars + 1, block := .clean, valEnd := cur } := by
      unfold closeVal; simp only [hb, hs, ne_eq, not_true_eq_false, if_false, Nat.add_sub_cancel]
    rcases lexLoop_stop (t := t) hr hp (Or.inl rfl) cur ln (by rw [hb]; decide) with ⟨e, e', he, _⟩ | ⟨ln1, ln', h1, h2, h3, h4⟩
    · rw [hcl] at he; exact absurd he (by nofun)
    · rw [hcl] at h1
      obtain rfl := Except.ok.inj h1
      exact ⟨ln', h2, h3, h4⟩
  | cons c p ih =>
    intro cur ln hp hb hs hv
    by_cases hc : c = '#'
    · subst hc
      have hcl : closeVal { ln with chars := ln.chars + 1 } (cur + 1) =
          .ok { ln with chars := ln.chars + 1, block := .clean, valEnd := cur } := by
        unfold closeVal; simp only [hb, hs, ne_eq, not_true_eq_false, if_false, Nat.add_sub_cancel]
      rcases lexLoop_stop (t := t) hr hp (Or.inr ⟨p, rfl⟩) cur ln (by rw [hb]; decide) with ⟨e, e', he, _⟩ | ⟨ln1, ln', h1, h2, h3, h4⟩
      · rw [hcl] at he; exact absurd he (by nofun)
      · rw [hcl] at h1
        obtain rfl := Except.ok.inj h1
        refine ⟨ln', h2, h3, ?_⟩
        rw [h4, cut_cons_hash]; rfl
    · obtain ⟨h1, h2, h3⟩ := plain_cons hp
      have hns : isSoftLineBound c = false := by
        cases h : isSoftLineBound c with
        | false => rfl
        | true => exact absurd (h3.mp h) hc
      have hstep : lexChar t ln c ((p ++ rest).headD '\x00') (cur + 1) = .next { ln with chars := ln.chars + 1 } := by
        unfold lexChar
        simp only [hb, hns, reduceCtorEq, false_and, if_false, Bool.false_eq_true]
        unfold lexVal
        simp only [Nat.add_sub_cancel, hs, reduceCtorEq, if_false]
        rw [if_neg (by intro h; omega)]
      rw [List.cons_append, lexLoop_next hstep]
      obtain ⟨ln', e1, e2, e3⟩ := ih (cur + 1) { ln with chars := ln.chars + 1 } h2 hb hs (by simp only; omega)
      refine ⟨ln', by rw [e1, List.length_cons]; congr 2; omega, e2, ?_⟩
      rw [e3, cut_cons hc, List.length_cons]
      congr 1
      show cur + 1 + (cut p).length - ln.valBegin = cur + ((cut p).length + 1) - ln.valBegin
      omega

/-- A value in brackets or quotes, behind its leading blanks. -/
theorem lexLoop_val_closed {t rest : List Char} (hr : AtEnd rest) {cl : Char} (hcl : cl ≠ '#' ∧ isBlank cl = false) :
    ∀ (p : List Char) (cur : Nat) (ln : Line), Plain p → ln.block = .val → ln.stack = some cl →
      (ln.valBegin < cur ∨ (ln.valBegin = cur ∧ ∀ c r, p = c :: r → isBlank c = false)) →
      if cl ∈ cut p then
        ∃ ln', lexLoop t (p ++ rest) cur ln = .ok (ln', cur + p.length + endLen rest) ∧ Kept ln ln' ∧
          ln'.valEnd = trimEnd t ln.valBegin (cur + (p.takeWhile (· != cl)).length - ln.valBegin)
      else ∃ e, lexLoop t (p ++ rest) cur ln = .err e := by
  intro p
  induction p with
  | nil =>
    intro cur ln hp hb hs _
    rw [if_neg (by simp [cut])]
    have hcv : closeVal { ln with chars := ln.chars + 1 } (cur + 1) = .error .notClosure := by
      unfold closeVal; simp only [hb, hs, ne_eq, reduceCtorEq, not_false_eq_true, if_true]
    rcases lexLoop_stop (t := t) hr hp (Or.inl rfl) cur ln (by rw [hb]; decide) with ⟨e, e', he, h⟩ | ⟨ln1, ln', h1, h2, h3, h4⟩
    · exact ⟨_, h⟩
    · rw [hcv] at h1; exact absurd h1 (by nofun)
  | cons c p ih =>
    intro cur ln hp hb hs hv
    by_cases hc : c = '#'
    · subst hc
      rw [if_neg (by rw [cut_cons_hash]; simp)]
      have hcv : closeVal { ln with chars := ln.chars + 1 } (cur + 1) = .error .notClosure := by
        unfold closeVal; simp only [hb, hs, ne_eq, reduceCtorEq, not_false_eq_true, if_true]
      rcases lexLoop_stop (t := t) hr hp (Or.inr ⟨p, rfl⟩) cur ln (by rw [hb]; decide) with ⟨e, e', he, h⟩ | ⟨ln1, ln', h1, h2, h3, h4⟩
      · exact ⟨_, h⟩
      · rw [hcv] at h1; exact absurd h1 (by nofun)
    · obtain ⟨h1, h2, h3⟩ := plain_cons hp
      have hns : isSoftLineBound c = false := by
        cases h : isSoftLineBound c with
        | false => rfl
        | true => exact absurd (h3.mp h) hc
      have hnb : ¬ (ln.valBegin = cur + 1 - 1 ∧ isBlank c = true) := by
        rintro ⟨ha, hb'⟩
        rcases hv with hv | ⟨_, hv⟩
        · omega
        · rw [hv c p rfl] at hb'; exact absurd hb' (by decide)
      by_cases he : c = cl
      · subst he
        have hstep : lexChar t ln c ((p ++ rest).headD '\x00') (cur + 1) =
            .next { ln with chars := ln.chars + 1, block := .clean, valEnd := cur } := by
          unfold lexChar
          simp only [hb, hns, reduceCtorEq, false_and, if_false, Bool.false_eq_true]
          unfold lexVal
          rw [if_neg hnb, if_pos hs]; rfl
        rw [if_pos (by rw [cut_cons hc]; exact List.mem_cons_self)]
        rw [List.cons_append, lexLoop_next hstep]
        obtain ⟨ln', e1, e2, e3⟩ := lexLoop_clean (t := t) hr p (cur + 1)
          { ln with chars := ln.chars + 1, block := .clean, valEnd := cur } h2 rfl
        refine ⟨ln', by rw [e1, List.length_cons]; congr 2; omega, e2, ?_⟩
        rw [e3]; simp
      · have hstep : lexChar t ln c ((p ++ rest).headD '\x00') (cur + 1) = .next { ln with chars := ln.chars + 1 } := by
          unfold lexChar
          simp only [hb, hns, reduceCtorEq, false_and, if_false, Bool.false_eq_true]
          unfold lexVal
          rw [if_neg hnb, if_neg (by rw [hs]; exact fun h => he (Option.some.inj h).symm)]
        have hih := ih (cur + 1) { ln with chars := ln.chars + 1 } h2 hb hs (Or.inl (by simp only; omega))
        have hmem : (cl ∈ cut (c :: p)) ↔ cl ∈ cut p := by
          rw [cut_cons hc, List.mem_cons]
          exact ⟨fun h => h.resolve_left (fun e => he e.symm), Or.inr⟩
        rw [List.cons_append, lexLoop_next hstep]
        by_cases hm : cl ∈ cut p
        · rw [if_pos hm] at hih
          rw [if_pos (hmem.mpr hm)]
          obtain ⟨ln', e1, e2, e3⟩ := hih
          refine ⟨ln', by rw [e1, List.length_cons]; congr 2; omega, e2, ?_⟩
          rw [e3, List.takeWhile_cons]
          simp only [bne_iff_ne, ne_eq, he, not_false_eq_true, if_true, List.length_cons]
          congr 1
          omega
        · rw [if_neg hm] at hih
          rw [if_neg (fun h => hm (hmem.mp h))]
          exact hih

/-- What follows a value: blanks, then the line end, a comment or the closing bracket. -/
def TailOk (rest s : List Char) : Prop :=
  ∃ bl x, s = bl ++ x ∧ (∀ c ∈ bl, isBlank c = true) ∧
    (x = rest ∨ ∃ c r, x = c :: r ∧ (c = '#' ∨ c = '"' ∨ c = ']' ∨ c = '}'))

/-- Outcome of the lexer on a line: `lo` and `lim` are the bounds of the line, `c` the position behind the
line end. -/
def LineRes (t rest : List Char) (lo lim c : Nat) (res : PRes (Line × Nat)) :
    Option (Option (Nat × Key × List Char)) → Prop
  | none => ∃ e, res = .err e
  | some none => ∃ ln, res = .ok (ln, c) ∧ ln.key = none
  | some (some (b, k, v)) => ∃ ln, res = .ok (ln, c) ∧ ln.key = some k ∧ ln.blank = b ∧ lo ≤ ln.valBegin ∧
      ln.valBegin ≤ ln.valEnd ∧ ln.valEnd ≤ lim ∧ slice t ln.valBegin ln.valEnd = v ∧ TailOk rest (t.drop ln.valEnd)

theorem LineRes.mono {t rest : List Char} {lo lo' lim c : Nat} {res} {o} (h : lo' ≤ lo)
    (hr : LineRes t rest lo lim c res o) : LineRes t rest lo' lim c res o := by
  match o, hr with
  | none, hr => exact hr
  | some none, hr => exact hr
  | some (some (b, k, v)), ⟨ln, h1, h2, h3, h4, h5⟩ => exact ⟨ln, h1, h2, h3, by omega, h5⟩

theorem drop_shift {t x : List Char} {cur : Nat} (h : t.drop cur = x) (n : Nat) : t.drop (cur + n) = x.drop n := by
  rw [← h, List.drop_drop]

theorem drop_next {t x : List Char} {cur : Nat} {c : Char} (h : t.drop cur = c :: x) : t.drop (cur + 1) = x := by
  rw [drop_shift h 1]; rfl

theorem length_of_drop {t x : List Char} {cur : Nat} (h : t.drop cur = x) (hx : 0 < x.length) :
    cur + x.length = t.length := by
  have := congrArg List.length h
  rw [List.length_drop] at this
  omega

theorem cut_append (p : List Char) : (cut p).length ≤ p.length ∧ p.take (cut p).length = cut p ∧
    (p.drop (cut p).length = [] ∨ ∃ r, p.drop (cut p).length = '#' :: r) := by
  induction p with
  | nil => simp [cut]
  | cons c p ih =>
    by_cases h : c = '#'
    · subst h; rw [cut_cons_hash]; simp
    · rw [cut_cons h]; simpa using ih

theorem takeWhile_cut {cl : Char} {p : List Char} (h : cl ∈ cut p) (hcl : cl ≠ '#') :
    p.takeWhile (· != cl) = (cut p).takeWhile (· != cl) ∧
      ∃ r, p.drop (p.takeWhile (· != cl)).length = cl :: r := by
  induction p with
  | nil => simp [cut] at h
  | cons c p ih =>
    by_cases hc : c = '#'
    · subst hc; rw [cut_cons_hash] at h; simp at h
    · rw [cut_cons hc] at h ⊢
      by_cases he : c = cl
      · subst he; simp
      · have := ih ((List.mem_cons.mp h).resolve_left (fun e => he e.symm))
        simp only [List.takeWhile_cons, bne_iff_ne, ne_eq, he, not_false_eq_true, if_true, List.length_cons,
          List.drop_succ_cons]
        exact ⟨by rw [this.1], this.2⟩

theorem closedValue_blank {cl c : Char} {s : List Char} (hc : isBlank c = true) (hcl : isBlank cl = false) :
    closedValue cl (c :: s) = closedValue cl s := by
  have hne : cl ≠ c := by intro h; rw [h, hc] at hcl; exact absurd hcl (by decide)
  have hne' : c ≠ cl := fun h => hne h.symm
  unfold closedValue
  simp [hne, hne', hc]

theorem dropWhile_head {p : Char → Bool} {s : List Char} (h : ∀ c r, s = c :: r → p c = false) : s.dropWhile p = s := by
  cases s with
  | nil => rfl
  | cons c r => simp [h c r rfl]

/-- A value in brackets or quotes. -/
theorem lexLoop_closed {t rest : List Char} (hr : AtEnd rest) {cl : Char}
    (hcl : cl = '"' ∨ cl = ']' ∨ cl = '}') {k : Key} {b : Nat} :
    ∀ (p : List Char) (cur : Nat) (ln : Line), Plain p → t.drop cur = p ++ rest → ln.block = .val →
      ln.stack = some cl → ln.valBegin = cur → ln.key = some k → ln.blank = b →
      LineRes t rest cur (cur + p.length) (cur + p.length + endLen rest) (lexLoop t (p ++ rest) cur ln)
        ((closedValue cl (cut p)).map fun v => some (b, k, v)) := by
  have hcl1 : cl ≠ '#' := by rcases hcl with rfl | rfl | rfl <;> decide
  have hcl2 : isBlank cl = false := by rcases hcl with rfl | rfl | rfl <;> decide
  intro p
  induction p with
  | nil =>
    intro cur ln hp hd hb hs hv hk hbl
    have := lexLoop_val_closed (t := t) hr ⟨hcl1, hcl2⟩ [] cur ln hp hb hs (Or.inr ⟨hv, by simp⟩)
    simpa [cut, closedValue, LineRes] using this
  | cons c p ih =>
    intro cur ln hp hd hb hs hv hk hbl
    by_cases hc : isBlank c = true
    · obtain ⟨h1, h2, h3⟩ := plain_cons hp
      have hch : c ≠ '#' := by intro h; rw [h] at hc; exact absurd hc (by decide)
      have hns : isSoftLineBound c = false := by
        cases h : isSoftLineBound c with
        | false => rfl
        | true => exact absurd (h3.mp h) hch
      have hstep : lexChar t ln c ((p ++ rest).headD '\x00') (cur + 1) =
          .next { ln with chars := ln.chars + 1, valBegin := cur + 1 } := by
        unfold lexChar
        simp only [hb, hns, reduceCtorEq, false_and, if_false, Bool.false_eq_true]
        unfold lexVal
        rw [if_pos ⟨by simp only [Nat.add_sub_cancel]; exact hv, hc⟩]
      rw [List.cons_append, lexLoop_next hstep, cut_cons hch, closedValue_blank hc hcl2]
      have := ih (cur + 1) { ln with chars := ln.chars + 1, valBegin := cur + 1 } h2 (drop_next hd) hb hs rfl hk hbl
      rw [List.length_cons, show cur + (p.length + 1) = cur + 1 + p.length by omega]
      exact this.mono (Nat.le_succ cur)
    · have hc : isBlank c = false := by simpa using hc
      have := lexLoop_val_closed (t := t) hr ⟨hcl1, hcl2⟩ (c :: p) cur ln hp hb hs
        (Or.inr ⟨hv, fun c' r' h => by rw [← (List.cons.inj h).1]; exact hc⟩)
      by_cases hm : cl ∈ cut (c :: p)
      · rw [if_pos hm] at this
        obtain ⟨ln', e1, ⟨e2, e3, e4⟩, e5⟩ := this
        obtain ⟨htw, r, hdr⟩ := takeWhile_cut hm hcl1
        have hn : (List.takeWhile (· != cl) (c :: p)).length ≤ (c :: p).length := (List.takeWhile_sublist _).length_le
        have hlen := length_of_drop hd (by simp)
        rw [List.length_append] at hlen
        rw [hv, show cur + (List.takeWhile (· != cl) (c :: p)).length - cur =
          (List.takeWhile (· != cl) (c :: p)).length by omega] at e5
        obtain ⟨s1, bl, s2, s3⟩ := slice_trimEnd t cur (List.takeWhile (· != cl) (c :: p)).length (by omega)
        have hge := trimEnd_ge t cur (List.takeWhile (· != cl) (c :: p)).length
        unfold closedValue
        rw [if_pos hm]
        refine ⟨ln', e1, e2.trans hk, e3.trans hbl, by omega, by omega, by omega, ?_, ?_⟩
        · rw [e4, hv, e5, s1, hd, List.take_append_of_le_length hn]
          congr 1
          rw [← htw]
          have htk : List.take (List.takeWhile (· != cl) (c :: p)).length (c :: p) = List.takeWhile (· != cl) (c :: p) := by
            conv => lhs; rhs; rw [← List.takeWhile_append_dropWhile (p := (· != cl)) (l := c :: p)]
            rw [List.take_left]
          rw [htk]
          refine (dropWhile_head ?_).symm
          intro x y hx
          rw [List.takeWhile_cons] at hx
          split at hx
          · rw [← (List.cons.inj hx).1]; exact hc
          · exact absurd hx (by nofun)
        · refine ⟨bl, t.drop (cur + (List.takeWhile (· != cl) (c :: p)).length), ?_, s2, Or.inr ⟨cl, r ++ rest, ?_, ?_⟩⟩
          · rw [e5]; exact s3
          · rw [drop_shift hd, List.drop_append_of_le_length hn, hdr]; rfl
          · rcases hcl with h | h | h
            · exact Or.inr (Or.inl h)
            · exact Or.inr (Or.inr (Or.inl h))
            · exact Or.inr (Or.inr (Or.inr h))
      · rw [if_neg hm] at this
        unfold closedValue
        rw [if_neg hm]
        exact this

theorem lineValue_blank {c : Char} {s : List Char} (hc : isBlank c = true) : lineValue (c :: s) = lineValue s := by
  unfold lineValue
  simp [hc]

/-- Behind the colon. -/
theorem lexLoop_preVal {t rest : List Char} (hr : AtEnd rest) {k : Key} {b : Nat} :
    ∀ (p : List Char) (cur : Nat) (ln : Line), Plain p → t.drop cur = p ++ rest → ln.block = .preVal →
      ln.key = some k → ln.blank = b →
      LineRes t rest cur (cur + p.length) (cur + p.length + endLen rest) (lexLoop t (p ++ rest) cur ln)
        ((lineValue (cut p)).map fun v => some (b, k, v)) := by
  have stop : ∀ (p : List Char), (p = [] ∨ ∃ q, p = '#' :: q) → ∀ (cur : Nat) (ln : Line), Plain p → t.drop cur = p ++ rest → ln.block = .preVal →
      ln.key = some k → ln.blank = b →
      LineRes t rest cur (cur + p.length) (cur + p.length + endLen rest) (lexLoop t (p ++ rest) cur ln)
        ((lineValue (cut p)).map fun v => some (b, k, v)) := by
    intro p hst cur ln hp hd hb hk hbl
    have hcv : closeVal { ln with chars := ln.chars + 1 } (cur + 1) =
        .ok { ln with chars := ln.chars + 1, block := .clean, valBegin := cur, valEnd := cur } := by
      unfold closeVal; simp only [hb, Nat.add_sub_cancel]
    have hcut : cut p = [] := by
      rcases hst with rfl | ⟨q, rfl⟩
      · rfl
      · exact cut_cons_hash q
    rw [hcut]
    rcases lexLoop_stop (t := t) hr hp hst cur ln (by rw [hb]; decide) with ⟨e, e', he, h⟩ | ⟨ln1, ln', h1, h2, ⟨h3, h4, h5⟩, h6⟩
    · rw [hcv] at he; exact absurd he (by nofun)
    · rw [hcv] at h1
      obtain rfl := Except.ok.inj h1
      simp only at h3 h4 h5 h6
      rw [Nat.sub_self] at h6
      have h6 : ln'.valEnd = cur := h6
      refine ⟨ln', h2, h3.trans hk, h4.trans hbl, by omega, by omega, by omega, ?_, ?_⟩
      · unfold slice; rw [h5, h6, Nat.sub_self]; rfl
      · rw [h6, hd]
        rcases hst with rfl | ⟨q, rfl⟩
        · exact ⟨[], rest, rfl, by simp, Or.inl rfl⟩
        · exact ⟨[], '#' :: q ++ rest, rfl, by simp, Or.inr ⟨'#', q ++ rest, rfl, Or.inl rfl⟩⟩
  intro p
  induction p with
  | nil => intro cur ln; exact stop [] (Or.inl rfl) cur ln
  | cons c p ih =>
    intro cur ln hp hd hb hk hbl
    by_cases hch : c = '#'
    · subst hch; exact stop ('#' :: p) (Or.inr ⟨p, rfl⟩) cur ln hp hd hb hk hbl
    obtain ⟨h1, h2, h3⟩ := plain_cons hp
    have hns : isSoftLineBound c = false := by
      cases h : isSoftLineBound c with
      | false => rfl
      | true => exact absurd (h3.mp h) hch
    have hstep : lexChar t ln c ((p ++ rest).headD '\x00') (cur + 1) =
        .next (lexPreVal { ln with chars := ln.chars + 1 } c (cur + 1)) := by
      unfold lexChar
      simp only [hb, hns, reduceCtorEq, false_and, if_false, Bool.false_eq_true]
    rw [List.cons_append, lexLoop_next hstep, cut_cons hch]
    rw [List.length_cons, show cur + (p.length + 1) = cur + 1 + p.length by omega]
    by_cases hc : isBlank c = true
    · rw [lineValue_blank hc]
      have : lexPreVal { ln with chars := ln.chars + 1 } c (cur + 1) = { ln with chars := ln.chars + 1 } := by
        unfold lexPreVal; rw [if_pos hc]
      rw [this]
      exact (ih (cur + 1) { ln with chars := ln.chars + 1 } h2 (drop_next hd) hb hk hbl).mono (Nat.le_succ cur)
    · have hlv : lineValue (c :: cut p) = if c = '"' then closedValue '"' (cut p)
          else if c = '[' then closedValue ']' (cut p)
          else if c = '{' then closedValue '}' (cut p)
          else some (dropBack (c :: cut p)) := by
        unfold lineValue
        simp only [List.dropWhile_cons, hc, if_false, Bool.false_eq_true]
      unfold lexPreVal
      rw [if_neg hc, hlv]
      by_cases q1 : c = '"'
      · rw [if_pos q1, if_pos q1]
        exact (lexLoop_closed (t := t) hr (Or.inl rfl) p (cur + 1) _ h2 (drop_next hd) rfl rfl rfl (by exact hk) (by exact hbl)).mono (Nat.le_succ cur)
      rw [if_neg q1, if_neg q1]
      by_cases q2 : c = '['
      · rw [if_pos q2, if_pos q2]
        exact (lexLoop_closed (t := t) hr (Or.inr (Or.inl rfl)) p (cur + 1) _ h2 (drop_next hd) rfl rfl rfl (by exact hk) (by exact hbl)).mono (Nat.le_succ cur)
      rw [if_neg q2, if_neg q2]
      by_cases q3 : c = '{'
      · rw [if_pos q3, if_pos q3]
        exact (lexLoop_closed (t := t) hr (Or.inr (Or.inr rfl)) p (cur + 1) _ h2 (drop_next hd) rfl rfl rfl (by exact hk) (by exact hbl)).mono (Nat.le_succ cur)
      rw [if_neg q3, if_neg q3]
      have hlv2 : lexVal { ln with chars := ln.chars + 1, stack := none, block := .val, valBegin := cur + 1 - 1 } c (cur + 1) =
          { ln with chars := ln.chars + 1, stack := none, block := .val, valBegin := cur } := by
        unfold lexVal
        rw [if_neg (fun h => hc h.2), if_neg (by exact nofun)]; rfl
      rw [hlv2]
      obtain ⟨ln', e1, ⟨e2, e3, e4⟩, e5⟩ := lexLoop_val_open (t := t) hr p (cur + 1)
        { ln with chars := ln.chars + 1, stack := none, block := .val, valBegin := cur } h2 rfl rfl (by simp only; omega)
      simp only at e2 e3 e4 e5
      obtain ⟨c1, c2, c3⟩ := cut_append p
      have hlen := length_of_drop hd (by simp)
      rw [List.length_append, List.length_cons] at hlen
      rw [show cur + 1 + (cut p).length - cur = (cut p).length + 1 by omega] at e5
      obtain ⟨s1, bl, s2, s3⟩ := slice_trimEnd t cur ((cut p).length + 1) (by omega)
      have hge := trimEnd_ge t cur ((cut p).length + 1)
      refine ⟨ln', e1, e2.trans hk, e3.trans hbl, by omega, by omega, by omega, ?_, ?_⟩
      · rw [e4, e5, s1, hd, List.cons_append, List.take_succ_cons, List.take_append_of_le_length c1, c2]
      · refine ⟨bl, t.drop (cur + ((cut p).length + 1)), ?_, s2, ?_⟩
        · rw [e5]; exact s3
        · rw [drop_shift hd, List.cons_append, List.drop_succ_cons, List.drop_append_of_le_length c1]
          rcases c3 with h | ⟨r, h⟩
          · rw [h]; exact Or.inl rfl
          · rw [h]; exact Or.inr ⟨'#', r ++ rest, rfl, Or.inl rfl⟩

/-! ## Keys -/

/-- What follows the key. -/
def sepRes (b : Nat) (k : Key) (s : List Char) : Option (Option (Nat × Key × List Char)) :=
  match s.dropWhile (fun c => c == ' ' || c == '\t') with
  | [] => none
  | x :: u => if x = ':' then (lineValue u).map fun v => some (b, k, v) else none

theorem lexLoop_stop_err {t rest : List Char} (hr : AtEnd rest) {p : List Char} (hp : Plain p)
    (hstop : p = [] ∨ ∃ q, p = '#' :: q) (cur : Nat) (ln : Line) (hb : ln.block = .key ∨ ln.block = .preSep) :
    ∃ e, lexLoop t (p ++ rest) cur ln = .err e := by
  have hcv : closeVal { ln with chars := ln.chars + 1 } (cur + 1) = .error .notClosure := by
    unfold closeVal
    rcases hb with h | h <;> simp only [h]
  rcases lexLoop_stop (t := t) hr hp hstop cur ln (by rcases hb with h | h <;> rw [h] <;> decide) with
    ⟨e, e', he, h⟩ | ⟨ln1, ln', h1, _⟩
  · exact ⟨e', h⟩
  · rw [hcv] at h1; exact absurd h1 (by nofun)

/-- One character behind the key. -/
theorem lexLoop_sep_step {t rest : List Char} (hr : AtEnd rest) {k : Key} {b : Nat} {c : Char} {p : List Char}
    {cur : Nat} {ln ln1 : Line} (hp : Plain (c :: p)) (hd : t.drop cur = (c :: p) ++ rest)
    (hk : ln1.key = some k) (hbl : ln1.blank = b) (hblk : ln1.block = .preSep)
    (hstep : lexChar t ln c ((p ++ rest).headD '\x00') (cur + 1) = lexPreSep ln1 c)
    (hnext : ∀ ln2 : Line, ln2.block = .preSep → ln2.key = some k → ln2.blank = b →
      LineRes t rest (cur + 1) (cur + 1 + p.length) (cur + 1 + p.length + endLen rest)
        (lexLoop t (p ++ rest) (cur + 1) ln2) (sepRes b k (cut p))) (hch : c ≠ '#') :
    LineRes t rest cur (cur + (c :: p).length) (cur + (c :: p).length + endLen rest)
      (lexLoop t (c :: p ++ rest) cur ln) (sepRes b k (cut (c :: p))) := by
  obtain ⟨h1, h2, h3⟩ := plain_cons hp
  rw [List.length_cons, show cur + (p.length + 1) = cur + 1 + p.length by omega, cut_cons hch]
  unfold lexPreSep at hstep
  by_cases q1 : c = ':'
  · rw [if_pos q1] at hstep
    rw [List.cons_append, lexLoop_next hstep]
    have hs : sepRes b k (c :: cut p) = (lineValue (cut p)).map fun v => some (b, k, v) := by
      subst q1; rfl
    rw [hs]
    exact (lexLoop_preVal (t := t) hr p (cur + 1) _ h2 (drop_next hd) rfl (by exact hk) (by exact hbl)).mono (Nat.le_succ cur)
  rw [if_neg q1] at hstep
  by_cases q2 : c ≠ ' ' ∧ c ≠ '\t'
  · rw [if_pos q2] at hstep
    have hs : sepRes b k (c :: cut p) = none := by
      unfold sepRes
      simp only [List.dropWhile_cons, Bool.or_false, Bool.false_eq_true, if_false, q1, beq_eq_false_iff_ne.mpr q2.1, beq_eq_false_iff_ne.mpr q2.2]
    rw [hs, List.cons_append, lexLoop, hstep]
    exact ⟨_, rfl⟩
  · rw [if_neg q2] at hstep
    have hs : sepRes b k (c :: cut p) = sepRes b k (cut p) := by
      unfold sepRes
      have : (c == ' ' || c == '\t') = true := by
        simp only [Bool.or_eq_true, beq_iff_eq]
        by_cases h : c = ' '
        · exact Or.inl h
        · exact Or.inr (Decidable.byContradiction fun h' => q2 ⟨h, h'⟩)
      simp only [List.dropWhile_cons, this, if_true]
    rw [hs, List.cons_append, lexLoop_next hstep]
    exact (hnext _ hblk hk hbl).mono (Nat.le_succ cur)

/-- Behind the key. -/
theorem lexLoop_preSep {t rest : List Char} (hr : AtEnd rest) {k : Key} {b : Nat} :
    ∀ (p : List Char) (cur : Nat) (ln : Line), Plain p → t.drop cur = p ++ rest → ln.block = .preSep →
      ln.key = some k → ln.blank = b →
      LineRes t rest cur (cur + p.length) (cur + p.length + endLen rest) (lexLoop t (p ++ rest) cur ln)
        (sepRes b k (cut p)) := by
  intro p
  induction p with
  | nil =>
    intro cur ln hp hd hb hk hbl
    exact lexLoop_stop_err (t := t) hr hp (Or.inl rfl) cur ln (Or.inr hb)
  | cons c p ih =>
    intro cur ln hp hd hb hk hbl
    by_cases hch : c = '#'
    · subst hch
      rw [cut_cons_hash]
      exact lexLoop_stop_err (t := t) hr hp (Or.inr ⟨p, rfl⟩) cur ln (Or.inr hb)
    obtain ⟨h1, h2, h3⟩ := plain_cons hp
    have hns : isSoftLineBound c = false := by
      cases h : isSoftLineBound c with
      | false => rfl
      | true => exact absurd (h3.mp h) hch
    refine lexLoop_sep_step hr hp hd (ln1 := { ln with chars := ln.chars + 1 }) hk hbl hb ?_
      (fun ln2 e1 e2 e3 => ih (cur + 1) ln2 h2 (drop_next hd) e1 e2 e3) hch
    unfold lexChar
    simp only [hb, hns, reduceCtorEq, false_and, if_false, Bool.false_eq_true]

/-- The key `kc` so far, `s` is the rest of the line. -/
def keyRes (b : Nat) (kc s : List Char) : Option (Option (Nat × Key × List Char)) :=
  if s.dropWhile isKeyChar = [] then none
  else
    match parseReserve (kc ++ s.takeWhile isKeyChar) with
    | some (some k) => sepRes b k (s.dropWhile isKeyChar)
    | _ => none

theorem keyRes_cons {b : Nat} {kc s : List Char} {c : Char} (h : isKeyChar c = true) :
    keyRes b kc (c :: s) = keyRes b (kc ++ [c]) s := by
  unfold keyRes
  simp [h]

/-- A character of the key or the first one behind it. -/
theorem lexLoop_key_step {t rest : List Char} (hr : AtEnd rest) {b : Nat} {kc : List Char} {c : Char} {p : List Char}
    {cur : Nat} {ln ln1 : Line} (hp : Plain (c :: p)) (hkb : t.drop ln1.keyBegin = kc ++ (c :: p ++ rest))
    (hcur : cur = ln1.keyBegin + kc.length) (hbl : ln1.blank = b)
    (hstep : lexChar t ln c ((p ++ rest).headD '\x00') (cur + 1) = lexKey t ln1 c (cur + 1))
    (hnext : isKeyChar c = true → LineRes t rest (cur + 1) (cur + 1 + p.length) (cur + 1 + p.length + endLen rest)
        (lexLoop t (p ++ rest) (cur + 1) ln1) (keyRes b (kc ++ [c]) (cut p))) (hch : c ≠ '#') :
    LineRes t rest cur (cur + (c :: p).length) (cur + (c :: p).length + endLen rest)
      (lexLoop t (c :: p ++ rest) cur ln) (keyRes b kc (cut (c :: p))) := by
  obtain ⟨h1, h2, h3⟩ := plain_cons hp
  have hd : t.drop cur = c :: p ++ rest := by
    rw [hcur, drop_shift hkb, List.drop_left]
  unfold lexKey at hstep
  by_cases q : isKeyChar c = true
  · rw [if_pos q] at hstep
    rw [List.length_cons, show cur + (p.length + 1) = cur + 1 + p.length by omega, cut_cons hch, keyRes_cons q,
      List.cons_append, lexLoop_next hstep]
    exact (hnext q).mono (Nat.le_succ cur)
  · rw [if_neg q] at hstep
    have hsl : slice t ln1.keyBegin (cur + 1 - 1) = kc := by
      unfold slice
      rw [hkb, hcur, show ln1.keyBegin + kc.length + 1 - 1 - ln1.keyBegin = kc.length by omega, List.take_left]
    rw [hsl] at hstep
    have hkr : keyRes b kc (cut (c :: p)) = match parseReserve kc with
        | some (some k) => sepRes b k (cut (c :: p))
        | _ => none := by
      unfold keyRes
      rw [cut_cons hch]
      simp [q]
    rw [hkr]
    cases hpr : parseReserve kc with
    | none => exact absurd hpr (C41_reads_inside kc)
    | some o =>
      rw [hpr] at hstep
      cases o with
      | none =>
        simp only at hstep ⊢
        rw [List.cons_append, lexLoop, hstep]
        exact ⟨_, rfl⟩
      | some k =>
        simp only at hstep ⊢
        exact lexLoop_sep_step hr hp hd
          (ln1 := { ln1 with block := .preSep, keyEnd := cur + 1 - 1, key := some k }) rfl hbl rfl hstep
          (fun ln2 e1 e2 e3 => lexLoop_preSep hr p (cur + 1) ln2 h2 (drop_next hd) e1 e2 e3) hch

/-- Inside of the key. -/
theorem lexLoop_key {t rest : List Char} (hr : AtEnd rest) {b : Nat} :
    ∀ (p kc : List Char) (cur : Nat) (ln : Line), Plain p → t.drop ln.keyBegin = kc ++ (p ++ rest) →
      cur = ln.keyBegin + kc.length → ln.block = .key → ln.blank = b →
      LineRes t rest cur (cur + p.length) (cur + p.length + endLen rest) (lexLoop t (p ++ rest) cur ln)
        (keyRes b kc (cut p)) := by
  intro p
  induction p with
  | nil =>
    intro kc cur ln hp _ _ hb _
    exact lexLoop_stop_err (t := t) hr hp (Or.inl rfl) cur ln (Or.inl hb)
  | cons c p ih =>
    intro kc cur ln hp hkb hcur hb hbl
    by_cases hch : c = '#'
    · subst hch
      rw [cut_cons_hash]
      exact lexLoop_stop_err (t := t) hr hp (Or.inr ⟨p, rfl⟩) cur ln (Or.inl hb)
    obtain ⟨h1, h2, h3⟩ := plain_cons hp
    have hns : isSoftLineBound c = false := by
      cases h : isSoftLineBound c with
      | false => rfl
      | true => exact absurd (h3.mp h) hch
    refine lexLoop_key_step hr hp (ln1 := { ln with chars := ln.chars + 1 }) hkb hcur hbl ?_ (fun _ => ?_) hch
    · unfold lexChar
      simp only [hb, hns, reduceCtorEq, false_and, if_false, Bool.false_eq_true]
    · exact ih (kc ++ [c]) (cur + 1) { ln with chars := ln.chars + 1 } h2 (by simpa using hkb)
        (by simp only [List.length_append, List.length_singleton]; omega) hb hbl

/-- The line from its first letter on. -/
def restRes (b : Nat) (s : List Char) : Option (Option (Nat × Key × List Char)) :=
  match s with
  | [] => some none
  | c :: s => if c < 'a' ∨ c > 'z' then none else keyRes b [] (c :: s)

theorem readLine_eq (l : List Char) : readLine l =
    restRes (l.takeWhile isBlank).length (l.dropWhile (fun c => isBlank c || c == '-')) := by
  unfold readLine restRes
  cases l.dropWhile (fun c => isBlank c || c == '-') with
  | nil => rfl
  | cons c s =>
    simp only
    split
    · rfl
    · rfl

/-- Before the key: at a comment or the end, or at a character other than a blank or a dash. -/
theorem lexLoop_none_stop {t rest : List Char} (hr : AtEnd rest) {b : Nat} (p : List Char) (cur : Nat) (ln : Line)
    (hp : Plain p) (hd : t.drop cur = p ++ rest) (hb : ln.block = .none) (hk : ln.key = none) (hbl : ln.blank = b)
    (hs : ∀ c r, p = c :: r → isBlank c = false ∧ c ≠ '-') :
    LineRes t rest cur (cur + p.length) (cur + p.length + endLen rest) (lexLoop t (p ++ rest) cur ln)
      (restRes b (cut p)) := by
  have stop : (p = [] ∨ ∃ q, p = '#' :: q) → LineRes t rest cur (cur + p.length) (cur + p.length + endLen rest)
      (lexLoop t (p ++ rest) cur ln) (restRes b (cut p)) := by
    intro hst
    have hcv : closeVal { ln with chars := ln.chars + 1 } (cur + 1) = .ok { ln with chars := ln.chars + 1 } := by
      unfold closeVal; simp only [hb]
    have hcut : cut p = [] := by
      rcases hst with rfl | ⟨q, rfl⟩
      · rfl
      · exact cut_cons_hash q
    rw [hcut]
    rcases lexLoop_stop (t := t) hr hp hst cur ln (by rw [hb]; decide) with ⟨e, e', he, h⟩ | ⟨ln1, ln', h1, h2, ⟨h3, _⟩, h6⟩
    · rw [hcv] at he; exact absurd he (by nofun)
    · rw [hcv] at h1
      obtain rfl := Except.ok.inj h1
      exact ⟨ln', h2, h3.trans hk⟩
  cases p with
  | nil => exact stop (Or.inl rfl)
  | cons c p =>
    by_cases hch : c = '#'
    · exact stop (Or.inr ⟨p, by rw [hch]⟩)
    obtain ⟨h1, h2, h3⟩ := plain_cons hp
    have hns : isSoftLineBound c = false := by
      cases h : isSoftLineBound c with
      | false => rfl
      | true => exact absurd (h3.mp h) hch
    obtain ⟨hs1, hs2⟩ := hs c p rfl
    have hstep : lexChar t ln c ((p ++ rest).headD '\x00') (cur + 1) =
        if c < 'a' ∨ c > 'z' then .fail .illegalKey
        else lexKey t { ln with chars := ln.chars + 1, block := .key, keyBegin := cur } c (cur + 1) := by
      unfold lexChar
      simp only [hb, hns, reduceCtorEq, false_and, if_false, Bool.false_eq_true]
      unfold lexNone
      simp only [hs1, Bool.false_eq_true, if_false, hs2, Nat.add_sub_cancel]
    have hrr : restRes b (cut (c :: p)) = if c < 'a' ∨ c > 'z' then none else keyRes b [] (cut (c :: p)) := by
      rw [cut_cons hch]; rfl
    rw [hrr]
    by_cases hl : c < 'a' ∨ c > 'z'
    · rw [if_pos hl] at hstep ⊢
      rw [List.cons_append, lexLoop, hstep]
      exact ⟨_, rfl⟩
    · rw [if_neg hl] at hstep ⊢
      refine lexLoop_key_step hr hp (ln1 := { ln with chars := ln.chars + 1, block := .key, keyBegin := cur })
        (kc := []) hd rfl hbl hstep (fun _ => ?_) hch
      exact lexLoop_key hr p [c] (cur + 1) { ln with chars := ln.chars + 1, block := .key, keyBegin := cur } h2 hd rfl rfl hbl

/-- Before the key, behind a dash: blanks do not count as indentation any more. -/
theorem lexLoop_none2 {t rest : List Char} (hr : AtEnd rest) {b : Nat} :
    ∀ (p : List Char) (cur : Nat) (ln : Line), Plain p → t.drop cur = p ++ rest → ln.block = .none → ln.key = none →
      ln.blank = b → ln.blank < ln.chars →
      LineRes t rest cur (cur + p.length) (cur + p.length + endLen rest) (lexLoop t (p ++ rest) cur ln)
        (restRes b ((cut p).dropWhile (fun c => isBlank c || c == '-'))) := by
  intro p
  induction p with
  | nil =>
    intro cur ln hp hd hb hk hbl _
    exact lexLoop_none_stop hr [] cur ln hp hd hb hk hbl (by simp)
  | cons c p ih =>
    intro cur ln hp hd hb hk hbl hch
    by_cases hc : isBlank c = true ∨ c = '-'
    · have hch' : c ≠ '#' := by
        rintro rfl
        rcases hc with h | h
        · exact absurd h (by decide)
        · exact absurd h (by decide)
      obtain ⟨h1, h2, h3⟩ := plain_cons hp
      have hns : isSoftLineBound c = false := by
        cases h : isSoftLineBound c with
        | false => rfl
        | true => exact absurd (h3.mp h) hch'
      have hstep : lexChar t ln c ((p ++ rest).headD '\x00') (cur + 1) = .next { ln with chars := ln.chars + 1 } := by
        unfold lexChar
        simp only [hb, hns, reduceCtorEq, false_and, if_false, Bool.false_eq_true]
        unfold lexNone
        by_cases hb' : isBlank c = true
        · rw [if_pos hb', if_neg (by simp only [Nat.add_sub_cancel]; omega)]
        · rw [if_neg hb', if_pos (hc.resolve_left hb')]
      have hcut : (cut (c :: p)).dropWhile (fun c => isBlank c || c == '-') =
          (cut p).dropWhile (fun c => isBlank c || c == '-') := by
        rw [cut_cons hch', List.dropWhile_cons]
        have : (isBlank c || c == '-') = true := by simpa using hc
        rw [this]; rfl
      rw [hcut, List.length_cons, show cur + (p.length + 1) = cur + 1 + p.length by omega, List.cons_append,
        lexLoop_next hstep]
      exact (ih (cur + 1) { ln with chars := ln.chars + 1 } h2 (drop_next hd) hb hk hbl (by simp only; omega)).mono
        (Nat.le_succ cur)
    · have hcut : (cut (c :: p)).dropWhile (fun c => isBlank c || c == '-') = cut (c :: p) := by
        refine dropWhile_head ?_
        intro x r hx
        by_cases hch' : c = '#'
        · rw [hch', cut_cons_hash] at hx; exact absurd hx (by nofun)
        · rw [cut_cons hch'] at hx
          rw [← (List.cons.inj hx).1]
          simpa using hc
      rw [hcut]
      exact lexLoop_none_stop hr (c :: p) cur ln hp hd hb hk hbl
        (fun x r hx => by
          rw [← (List.cons.inj hx).1]
          simpa using hc)

/-- The beginning of a line: blanks are the indentation. -/
theorem lexLoop_none1 {t rest : List Char} (hr : AtEnd rest) :
    ∀ (p : List Char) (cur b : Nat) (ln : Line), Plain p → t.drop cur = p ++ rest → ln.block = .none → ln.key = none →
      ln.blank = b → ln.chars = b →
      LineRes t rest cur (cur + p.length) (cur + p.length + endLen rest) (lexLoop t (p ++ rest) cur ln)
        (restRes (b + ((cut p).takeWhile isBlank).length) ((cut p).dropWhile (fun c => isBlank c || c == '-'))) := by
  intro p
  induction p with
  | nil =>
    intro cur b ln hp hd hb hk hbl _
    exact lexLoop_none_stop hr [] cur ln hp hd hb hk hbl (by simp)
  | cons c p ih =>
    intro cur b ln hp hd hb hk hbl hch
    by_cases hc : isBlank c = true
    · have hch' : c ≠ '#' := by
        rintro rfl
        exact absurd hc (by decide)
      obtain ⟨h1, h2, h3⟩ := plain_cons hp
      have hns : isSoftLineBound c = false := by
        cases h : isSoftLineBound c with
        | false => rfl
        | true => exact absurd (h3.mp h) hch'
      have hstep : lexChar t ln c ((p ++ rest).headD '\x00') (cur + 1) =
          .next { ln with chars := ln.chars + 1, blank := ln.blank + 1 } := by
        unfold lexChar
        simp only [hb, hns, reduceCtorEq, false_and, if_false, Bool.false_eq_true]
        unfold lexNone
        rw [if_pos hc, if_pos (by simp only [Nat.add_sub_cancel]; omega)]
      have hcut : (cut (c :: p)).dropWhile (fun c => isBlank c || c == '-') =
          (cut p).dropWhile (fun c => isBlank c || c == '-') := by
        rw [cut_cons hch', List.dropWhile_cons, hc]; rfl
      have hcut2 : b + ((cut (c :: p)).takeWhile isBlank).length = b + 1 + ((cut p).takeWhile isBlank).length := by
        rw [cut_cons hch', List.takeWhile_cons, hc]; simp only [if_true, List.length_cons]; omega
      rw [hcut, hcut2, List.length_cons, show cur + (p.length + 1) = cur + 1 + p.length by omega, List.cons_append,
        lexLoop_next hstep]
      exact (ih (cur + 1) (b + 1) { ln with chars := ln.chars + 1, blank := ln.blank + 1 } h2 (drop_next hd) hb hk
        (by simp only; omega) (by simp only; omega)).mono (Nat.le_succ cur)
    · have htw : (cut (c :: p)).takeWhile isBlank = [] := by
        by_cases hch' : c = '#'
        · rw [hch', cut_cons_hash]; rfl
        · rw [cut_cons hch', List.takeWhile_cons]; simp [hc]
      rw [htw]
      by_cases hd' : c = '-'
      · subst hd'
        obtain ⟨h1, h2, h3⟩ := plain_cons hp
        have hstep : lexChar t ln '-' ((p ++ rest).headD '\x00') (cur + 1) = .next { ln with chars := ln.chars + 1 } := by
          unfold lexChar
          have hns : isSoftLineBound '-' = false := rfl
          simp only [hb, hns, reduceCtorEq, false_and, if_false, Bool.false_eq_true]
          rfl
        have hcut : (cut ('-' :: p)).dropWhile (fun c => isBlank c || c == '-') =
            (cut p).dropWhile (fun c => isBlank c || c == '-') := by
          rw [cut_cons (by decide), List.dropWhile_cons]; rfl
        rw [hcut, List.length_cons, show cur + (p.length + 1) = cur + 1 + p.length by omega, List.cons_append,
          lexLoop_next hstep]
        exact (lexLoop_none2 hr p (cur + 1) { ln with chars := ln.chars + 1 } h2 (drop_next hd) hb hk hbl
          (by simp only; omega)).mono (Nat.le_succ cur)
      · have hcut : (cut (c :: p)).dropWhile (fun c => isBlank c || c == '-') = cut (c :: p) := by
          refine dropWhile_head ?_
          intro x r hx
          by_cases hch' : c = '#'
          · rw [hch', cut_cons_hash] at hx; exact absurd hx (by nofun)
          · rw [cut_cons hch'] at hx
            rw [← (List.cons.inj hx).1]
            simp [hc, hd']
        rw [hcut]
        exact lexLoop_none_stop hr (c :: p) cur ln hp hd hb hk hbl
          (fun x r hx => by
            rw [← (List.cons.inj hx).1]
            exact ⟨by simpa using hc, hd'⟩)

/-- `Lex` at the beginning of a line `p`. -/
theorem lex_line {t p rest : List Char} {en cur : Nat} (hen : cur < en) (hp : Plain p) (hr : AtEnd rest)
    (hd : t.drop cur = p ++ rest) :
    LineRes t rest cur (cur + p.length) (cur + p.length + endLen rest) (lex t en cur) (readLine (cut p)) := by
  unfold lex
  rw [if_neg (by omega), hd, readLine_eq]
  have := lexLoop_none1 (t := t) hr p cur 0 {} hp hd rfl rfl rfl rfl
  rwa [Nat.zero_add] at this

end FNLog
