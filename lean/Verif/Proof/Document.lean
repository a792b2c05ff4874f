import Verif.Spec.Document
import Verif.Proof.ParseSame
import Verif.Props.Values

/-! # Reading a rendered document -/

namespace FNLog
open Spec

/-! ## Values -/

def _root_.FNLog.Spec.ValText.content : ValText → List Char
  | .plain v | .quoted v | .listed v => v

/-- Neither end of `s` is blank. -/
def Ends (s : List Char) : Prop := (∀ c r, s = c :: r → isBlank c = false) ∧ ∀ c r, s = r ++ [c] → isBlank c = false

/-- No comment sign, no line end, no NUL. -/
def Clean (s : List Char) : Prop := ∀ c ∈ s, c ≠ '#' ∧ c ≠ '\r' ∧ c ≠ '\n' ∧ c ≠ '\x00'

theorem Clean.append {a b : List Char} (ha : Clean a) (hb : Clean b) : Clean (a ++ b) := by
  intro c hc
  rcases List.mem_append.mp hc with h | h
  · exact ha c h
  · exact hb c h

def ValGood (v : ValText) : Prop :=
  Ends v.content ∧ Clean v.content ∧
  match v with
  | .plain v => ∃ c r, v = c :: r ∧ c ≠ '"' ∧ c ≠ '[' ∧ c ≠ '{'
  | .quoted v => '"' ∉ v
  | .listed v => ']' ∉ v

theorem dropBack_ends {s : List Char} (h : ∀ c r, s = r ++ [c] → isBlank c = false) : dropBack s = s := by
  cases e : s.reverse with
  | nil => rw [List.reverse_eq_nil_iff.mp e]; rfl
  | cons c r =>
    have hs : s = r.reverse ++ [c] := by
      have := congrArg List.reverse e
      rw [List.reverse_reverse] at this
      rw [this]; simp
    rw [hs, dropBack_snoc (h c _ hs)]

theorem dropWhile_ends {s : List Char} (h : ∀ c r, s = c :: r → isBlank c = false) : s.dropWhile isBlank = s := by
  cases s with
  | nil => rfl
  | cons c r => rw [List.dropWhile_cons, h c r rfl]; rfl

theorem takeWhile_until {cl : Char} {s r : List Char} (h : cl ∉ s) : (s ++ cl :: r).takeWhile (· != cl) = s := by
  induction s with
  | nil => simp
  | cons c s ih =>
    have hc : c ≠ cl := fun e => h (e ▸ List.mem_cons_self)
    rw [List.cons_append, List.takeWhile_cons, if_pos (by simpa using hc), ih (fun m => h (List.mem_cons_of_mem _ m))]

theorem closedValue_good {cl : Char} {s : List Char} (h : cl ∉ s) (he : Ends s) : closedValue cl (s ++ [cl]) = some s := by
  unfold closedValue
  rw [if_pos (by simp), takeWhile_until h, dropWhile_ends he.1, dropBack_ends he.2]

theorem lineValue_good {v : ValText} (h : ValGood v) : lineValue (' ' :: v.text) = some v.content := by
  obtain ⟨h1, _, h3⟩ := h
  cases v with
  | plain v =>
    obtain ⟨c, r, rfl, h4, h5, h6⟩ := h3
    have h1' : Ends (c :: r) := h1
    unfold lineValue
    rw [List.dropWhile_cons, if_pos (by decide)]
    have : (ValText.plain (c :: r)).text = c :: r := rfl
    rw [this, dropWhile_ends h1'.1]
    simp only [h4, h5, h6, if_false]
    rw [dropBack_ends h1'.2]; rfl
  | quoted v =>
    unfold lineValue
    rw [List.dropWhile_cons, if_pos (by decide)]
    have : (ValText.quoted v).text = '"' :: (v ++ ['"']) := rfl
    rw [this, List.dropWhile_cons, if_neg (by decide)]
    simp only [if_true]
    exact closedValue_good h3 h1
  | listed v =>
    unfold lineValue
    rw [List.dropWhile_cons, if_pos (by decide)]
    have : (ValText.listed v).text = '[' :: (v ++ [']']) := rfl
    rw [this, List.dropWhile_cons, if_neg (by decide)]
    simp only [show ¬ ('[' = '"') by decide, if_false, if_true]
    exact closedValue_good h3 h1

/-! ## Lines -/

/-- A key of the file and its meaning. -/
structure KeyIs (key : List Char) (k : Key) : Prop where
  chars : key.all isKeyChar = true
  head : (key.head?.map fun c => 'a' ≤ c && c ≤ 'z') = some true
  reserve : parseReserve key = some (some k)

theorem KeyIs.cons {key : List Char} {k : Key} (h : KeyIs key k) :
    ∃ c s, key = c :: s ∧ 'a' ≤ c ∧ c ≤ 'z' ∧ isBlank c = false ∧ c ≠ '-' := by
  have h2 := h.head
  cases key with
  | nil => exact absurd h2 (by nofun)
  | cons c s =>
    simp only [List.head?_cons, Option.map_some, Option.some.injEq, Bool.and_eq_true, decide_eq_true_eq] at h2
    refine ⟨c, s, rfl, h2.1, h2.2, ?_, ?_⟩
    · cases hb : isBlank c with
      | false => rfl
      | true =>
        unfold isBlank at hb
        simp only [Bool.or_eq_true, beq_iff_eq] at hb
        rcases hb with ((rfl | rfl) | rfl) | rfl <;> exact absurd h2.1 (by decide)
    · rintro rfl; exact absurd h2.1 (by decide)

theorem readLine_line {n : Nat} {dash : Bool} {key : List Char} {k : Key} {v : ValText} (hk : KeyIs key k)
    (hv : ValGood v) : readLine (line n dash key v) = some (some (n, k, v.content)) := by
  obtain ⟨c, s, rfl, h1, h2, h3, h4⟩ := hk.cons
  have hchars := List.all_eq_true.mp hk.chars
  obtain ⟨pre, hpre⟩ : ∃ pre, pre = List.replicate n ' ' ++ (if dash then ['-', ' '] else []) := ⟨_, rfl⟩
  have hline : line n dash (c :: s) v = pre ++ (c :: s ++ (':' :: ' ' :: v.text)) := by
    rw [hpre]; unfold line; simp
  have hall : ∀ x ∈ pre, (isBlank x || x == '-') = true := by
    intro x hx
    rw [hpre] at hx
    rcases List.mem_append.mp hx with h | h
    · rw [List.eq_of_mem_replicate h]; decide
    · cases dash with
      | true => simp only [if_true, List.mem_cons, List.not_mem_nil, or_false] at h; rcases h with rfl | rfl <;> decide
      | false => simp at h
  have hdrop : (line n dash (c :: s) v).dropWhile (fun c => isBlank c || c == '-') = c :: s ++ (':' :: ' ' :: v.text) := by
    rw [hline]
    apply dropWhile_append_stop hall
    intro x r e
    rw [← (List.cons.inj e).1, h3]
    simpa using h4
  have htake : (line n dash (c :: s) v).takeWhile isBlank = List.replicate n ' ' := by
    rw [hline, hpre, List.append_assoc]
    apply takeWhile_append_stop
    · intro x hx; rw [List.eq_of_mem_replicate hx]; decide
    · intro x r e
      cases dash with
      | true => rw [← (List.cons.inj e).1]; decide
      | false => rw [← (List.cons.inj e).1]; exact h3
  have hkt : (c :: s ++ (':' :: ' ' :: v.text)).takeWhile isKeyChar = c :: s := by
    apply takeWhile_append_stop hchars
    intro x r e; rw [← (List.cons.inj e).1]; decide
  have hkd : (c :: s ++ (':' :: ' ' :: v.text)).dropWhile isKeyChar = ':' :: ' ' :: v.text := by
    apply dropWhile_append_stop hchars
    intro x r e; rw [← (List.cons.inj e).1]; decide
  unfold readLine
  rw [hdrop]
  rw [List.cons_append] at hkt hkd ⊢
  simp only
  rw [if_neg (by
    rintro (h | h)
    · exact absurd h1 (by simpa using h)
    · exact absurd h2 (by simpa using h)), hkd, if_neg (by nofun), hkt, hk.reserve]
  simp only
  rw [show (':' :: ' ' :: v.text).dropWhile (fun c => c == ' ' || c == '\t') = ':' :: ' ' :: v.text by
    rw [List.dropWhile_cons, if_neg (by decide)]]
  simp only [if_true]
  rw [lineValue_good hv, htake, List.length_replicate]
  rfl

theorem clean_text {v : ValText} (h : ValGood v) : Clean v.text := by
  have h2 := h.2.1
  cases v with
  | plain v => exact h2
  | quoted v =>
    exact Clean.append (a := '"' :: v) (Clean.append (a := ['"']) (by intro c hc; rw [List.mem_singleton.mp hc]; decide) h2)
      (by intro c hc; rw [List.mem_singleton.mp hc]; decide)
  | listed v =>
    exact Clean.append (a := '[' :: v) (Clean.append (a := ['[']) (by intro c hc; rw [List.mem_singleton.mp hc]; decide) h2)
      (by intro c hc; rw [List.mem_singleton.mp hc]; decide)

theorem line_clean {n : Nat} {dash : Bool} {key : List Char} {k : Key} {v : ValText} (hk : KeyIs key k)
    (hv : ValGood v) : Clean (line n dash key v) := by
  unfold line
  refine Clean.append (Clean.append (Clean.append (Clean.append ?_ ?_) ?_) ?_) (clean_text hv)
  · intro c hc; rw [List.eq_of_mem_replicate hc]; decide
  · cases dash with
    | true =>
      intro c hc
      simp only [if_true, List.mem_cons, List.not_mem_nil, or_false] at hc
      rcases hc with rfl | rfl <;> decide
    | false => intro c hc; simp at hc
  · intro c hc
    have := List.all_eq_true.mp hk.chars c hc
    refine ⟨?_, ?_, ?_, ?_⟩ <;> (rintro rfl; exact absurd this (by decide))
  · intro c hc
    simp only [List.mem_cons, List.not_mem_nil, or_false] at hc
    rcases hc with rfl | rfl <;> decide

/-- A line of a document. -/
def GoodLine (l : List Char) : Prop :=
  Clean l ∧ ∃ b k v, readLine l = some (some (b, k, v)) ∧ k ≠ .define ∧ k ≠ .variable

theorem goodLine {n : Nat} {dash : Bool} {key : List Char} {k : Key} {v : ValText} (hk : KeyIs key k)
    (hv : ValGood v) (h1 : k ≠ .define) (h2 : k ≠ .variable) : GoodLine (line n dash key v) :=
  ⟨line_clean hk hv, _, _, _, readLine_line hk hv, h1, h2⟩

theorem significant_lines (ls : List (List Char)) (h : ∀ l ∈ ls, GoodLine l) :
    significant (ls.flatMap (· ++ ['\n'])) = ls := by
  induction ls with
  | nil => rfl
  | cons l ls ih =>
    obtain ⟨hc, b, k, v, hr, _⟩ := h l List.mem_cons_self
    have hcut : cut l = l := by
      unfold cut
      have := takeWhile_append_stop (p := (· != '#')) (s := l) (r := []) (fun x hx => by simpa using (hc x hx).1) (by nofun)
      rwa [List.append_nil] at this
    have hnb : blankLine l = false := by
      cases hb : blankLine l with
      | false => rfl
      | true => rw [readLine_blank hb] at hr; exact absurd hr (by nofun)
    rw [List.flatMap_cons, List.append_assoc]
    show significant (l ++ '\n' :: _) = _
    rw [significant_append (fun c hx => ⟨(hc c hx).2.1, (hc c hx).2.2.1⟩) (Or.inr rfl), hcut]
    show single l ++ significant (ls.flatMap (· ++ ['\n'])) = _
    rw [ih (fun x hx => h x (List.mem_cons_of_mem _ hx))]
    unfold single
    rw [hnb]; rfl

theorem no_nul (ls : List (List Char)) (h : ∀ l ∈ ls, GoodLine l) : '\x00' ∉ ls.flatMap (· ++ ['\n']) := by
  intro hm
  obtain ⟨l, hl, hx⟩ := List.mem_flatMap.mp hm
  rcases List.mem_append.mp hx with hx | hx
  · exact ((h l hl).1 _ hx).2.2.2 rfl
  · exact absurd (List.mem_singleton.mp hx) (by decide)

theorem no_sub (ls : List (List Char)) (h : ∀ l ∈ ls, GoodLine l) : NoSub ls := by
  intro l hl b v
  obtain ⟨_, b', k, v', hr, h1, h2⟩ := h l hl
  rw [hr]
  constructor
  · intro e; exact h1 (congrArg (fun x => (x.getD none).elim k (·.2.1)) e)
  · intro e; exact h2 (congrArg (fun x => (x.getD none).elim k (·.2.1)) e)

/-! ## Numbers and texts -/

theorem decimal_chars (n : Int) : ∀ c ∈ decimal n, isNumber c = true ∨ c = '-' := by
  intro c hc
  unfold decimal at hc
  split at hc
  · rcases List.mem_cons.mp hc with h | h
    · exact Or.inr h
    · exact Or.inl (numeral_isNumber _ c h)
  · exact Or.inl (numeral_isNumber _ c hc)

theorem numeral_decText (n : Nat) : DecText n (numeral 10 n) := ⟨0, rfl⟩

theorem noDigit_nil : NoDigit [] := fun _ _ h => absurd h (by nofun)

theorem atoll_decimal {n : Int} (h : LL n) : atoll (decimal n) = n := by
  unfold LL at h
  unfold decimal
  split
  · rename_i hn
    unfold atoll
    rw [List.dropWhile_cons, if_neg (by decide)]
    simp only
    have := decPrefix_text (numeral_decText (-n).toNat) noDigit_nil
    rw [List.append_nil] at this
    rw [this]
    rw [show (((-n).toNat : Nat) : Int) = -n by omega, Int.neg_neg]
    exact saturate_id (by unfold LLONG_MIN; omega) (by unfold LLONG_MAX; omega)
  · have := atoll_text (numeral_decText n.toNat) noDigit_nil (by unfold LLONG_MAX; omega)
    rw [List.append_nil] at this
    rw [this]; omega

theorem atoi_decimal {n : Int} (h : I32 n) : atoi (decimal n) = n := by
  unfold I32 at h
  unfold atoi
  rw [atoll_decimal (by unfold LL; omega)]
  unfold toInt32; omega

theorem isNumber_clean {c : Char} (h : isNumber c = true ∨ c = '-') :
    c ≠ '#' ∧ c ≠ '\r' ∧ c ≠ '\n' ∧ c ≠ '\x00' ∧ isBlank c = false ∧ c ≠ '"' ∧ c ≠ '[' ∧ c ≠ '{' ∧ c ≠ ']' := by
  rcases h with h | rfl
  · have := (isNumber_iff c).mp h
    have e : "0123456789".toList = ['0','1','2','3','4','5','6','7','8','9'] := rfl
    rw [e] at this
    simp only [List.mem_cons, List.not_mem_nil, or_false] at this
    rcases this with h | h | h | h | h | h | h | h | h | h <;> subst h <;> decide
  · decide

theorem good_number {s : List Char} (hne : s ≠ []) (h : ∀ c ∈ s, isNumber c = true ∨ c = '-') : ValGood (.plain s) := by
  refine ⟨⟨?_, ?_⟩, ?_, ?_⟩
  · intro c r e; have e : s = c :: r := e; exact (isNumber_clean (h c (e ▸ List.mem_cons_self))).2.2.2.2.1
  · intro c r e; have e : s = r ++ [c] := e; exact (isNumber_clean (h c (e ▸ List.mem_append_right _ List.mem_cons_self))).2.2.2.2.1
  · intro c hc
    have := isNumber_clean (h c hc)
    exact ⟨this.1, this.2.1, this.2.2.1, this.2.2.2.1⟩
  · cases s with
    | nil => exact absurd rfl hne
    | cons c r =>
      have := isNumber_clean (h c List.mem_cons_self)
      exact ⟨c, r, rfl, this.2.2.2.2.2.1, this.2.2.2.2.2.2.1, this.2.2.2.2.2.2.2.1⟩

theorem decimal_ne_nil (n : Int) : decimal n ≠ [] := by
  unfold decimal
  split
  · exact List.cons_ne_nil _ _
  · exact numeral_ne_nil _ _

theorem good_decimal (n : Int) : ValGood (.plain (decimal n)) := good_number (decimal_ne_nil n) (decimal_chars n)

theorem good_numeral (n : Nat) : ValGood (.plain (numeral 10 n)) :=
  good_number (numeral_ne_nil 10 n) fun c hc => Or.inl (numeral_isNumber n c hc)

/-- Words. -/
def wordOk (s : List Char) : Bool :=
  s != [] && s.all fun c => 'a' ≤ c && c ≤ 'z'

theorem good_word {s : List Char} (h : wordOk s = true) : ValGood (.plain s) := by
  unfold wordOk at h
  simp only [Bool.and_eq_true, bne_iff_ne, ne_eq, List.all_eq_true, decide_eq_true_eq] at h
  have hc : ∀ c ∈ s, isBlank c = false ∧ c ≠ '#' ∧ c ≠ '\r' ∧ c ≠ '\n' ∧ c ≠ '\x00' ∧ c ≠ '"' ∧ c ≠ '[' ∧ c ≠ '{' := by
    intro c hc
    have := h.2 c hc
    refine ⟨?_, ?_⟩
    · cases hb : isBlank c with
      | false => rfl
      | true =>
        unfold isBlank at hb
        simp only [Bool.or_eq_true, beq_iff_eq] at hb
        rcases hb with ((rfl | rfl) | rfl) | rfl <;> exact absurd this.1 (by decide)
    · refine ⟨?_, ?_, ?_, ?_, ?_, ?_, ?_⟩ <;>
      · rintro rfl
        first
        | exact absurd this.1 (by decide)
        | exact absurd this.2 (by decide)
  refine ⟨⟨?_, ?_⟩, ?_, ?_⟩
  · intro c r e; have e : s = c :: r := e; exact (hc c (e ▸ List.mem_cons_self)).1
  · intro c r e; have e : s = r ++ [c] := e; exact (hc c (e ▸ List.mem_append_right _ List.mem_cons_self)).1
  · intro c hx
    have := (hc c hx).2
    exact ⟨this.1, this.2.1, this.2.2.1, this.2.2.2.1⟩
  · cases s with
    | nil => exact absurd rfl h.1
    | cons c r =>
      have := (hc c List.mem_cons_self).2
      exact ⟨c, r, rfl, this.2.2.2.2.1, this.2.2.2.2.2.1, this.2.2.2.2.2.2⟩

theorem blanks_one {c : Char} (h : ¬ Blanks [c]) : isBlank c = false := by
  cases hb : isBlank c with
  | false => rfl
  | true =>
    refine absurd ?_ h
    intro x hx
    rw [List.mem_singleton.mp hx]
    unfold isBlank at hb
    simp only [Bool.or_eq_true, beq_iff_eq] at hb
    rcases hb with ((h | h) | h) | h
    · exact Or.inl h
    · exact Or.inr (Or.inl h)
    · exact Or.inr (Or.inr (Or.inl h))
    · exact Or.inr (Or.inr (Or.inr h))

theorem good_text {s : List Char} (h : TextOk s) : ValGood (.quoted s) := by
  obtain ⟨h1, h2, h3⟩ := h
  refine ⟨⟨fun c r e => blanks_one (h2 c r e), fun c r e => blanks_one (h3 c r e)⟩, fun c hc => ?_, fun hm => (h1 _ hm).1 rfl⟩
  have := h1 c hc
  exact ⟨this.2.1, this.2.2.1, this.2.2.2.1, this.2.2.2.2⟩

theorem good_quad (a b c d port : Nat) : ValGood (.quoted (quadText a b c d ++ [':'] ++ numeral 10 port)) := by
  have hch : ∀ x ∈ quadText a b c d ++ [':'] ++ numeral 10 port, (isNumber x = true ∨ x = '-') ∨ x = '.' ∨ x = ':' := by
    intro x hx
    unfold quadText at hx
    simp only [List.mem_append, List.mem_singleton] at hx
    rcases hx with (((((((h | h) | h) | h) | h) | h) | h) | h) | h
    all_goals first
      | exact Or.inl (Or.inl (numeral_isNumber _ x h))
      | exact Or.inr (Or.inl h)
      | exact Or.inr (Or.inr h)
  have hx : ∀ x ∈ quadText a b c d ++ [':'] ++ numeral 10 port, isBlank x = false ∧ x ≠ '"' ∧ x ≠ '#' ∧ x ≠ '\r' ∧
      x ≠ '\n' ∧ x ≠ '\x00' := by
    intro x h
    rcases hch x h with h | rfl | rfl
    · have := isNumber_clean h
      exact ⟨this.2.2.2.2.1, this.2.2.2.2.2.1, this.1, this.2.1, this.2.2.1, this.2.2.2.1⟩
    · decide
    · decide
  refine ⟨⟨fun x r e => ?_, fun x r e => ?_⟩, fun x h => ?_, fun hm => (hx _ hm).2.1 rfl⟩
  · exact (hx x ((show quadText a b c d ++ [':'] ++ numeral 10 port = x :: r from e) ▸ List.mem_cons_self)).1
  · exact (hx x ((show quadText a b c d ++ [':'] ++ numeral 10 port = r ++ [x] from e) ▸
      List.mem_append_right _ List.mem_cons_self)).1
  · exact (hx x h).2.2

/-! ## Lists of numbers -/

theorem itemText_ok (it : BitItem) : BitItem.Text it (itemText it) := by
  cases it with
  | one n => exact .one (numeral_decText n)
  | range a b =>
    have := BitItem.Text.range (numeral_decText a) (numeral_decText b) (p := []) (q := []) (by intro c h; simp at h)
      (by intro c h; simp at h)
    simpa [itemText] using this

theorem itemText_chars (it : BitItem) : ∀ c ∈ itemText it, isNumber c = true ∨ c = '-' := by
  intro c hc
  cases it with
  | one n => exact Or.inl (numeral_isNumber n c hc)
  | range a b =>
    simp only [itemText, List.mem_append, List.mem_singleton] at hc
    rcases hc with (h | h) | h
    · exact Or.inl (numeral_isNumber _ c h)
    · exact Or.inr h
    · exact Or.inl (numeral_isNumber _ c h)

theorem itemText_ne_nil (it : BitItem) : itemText it ≠ [] := by
  cases it with
  | one n => exact numeral_ne_nil _ _
  | range a b => simp [itemText]

theorem blanks_nil : Blanks [] := by intro c h; simp at h

theorem listText_blank {is : List BitItem} {s : List Char} (h : ListText is s) : ListText is (' ' :: s) := by
  have hb : ∀ {p : List Char}, Blanks p → Blanks (' ' :: p) := by
    intro p hp c hc
    rcases List.mem_cons.mp hc with rfl | h
    · exact Or.inl rfl
    · exact hp c h
  cases h with
  | nil h => exact .nil (hb h)
  | last h1 h2 h3 =>
    have := ListText.last (hb h1) h2 h3
    simpa using this
  | cons h1 h2 h3 h4 =>
    have := ListText.cons (hb h1) h2 h3 h4
    simpa using this

theorem listText_ok : ∀ l : List BitItem, ListText l (listText l)
  | [] => .nil blanks_nil
  | [i] => by simpa [listText] using ListText.last blanks_nil blanks_nil (itemText_ok i)
  | i :: j :: is => by
    have := ListText.cons blanks_nil blanks_nil (itemText_ok i) (listText_blank (listText_ok (j :: is)))
    simpa [listText] using this

theorem listText_chars : ∀ l : List BitItem, ∀ c ∈ listText l, (isNumber c = true ∨ c = '-') ∨ c = ',' ∨ c = ' '
  | [], c, hc => by simp [listText] at hc
  | [i], c, hc => Or.inl (itemText_chars i c (by simpa [listText] using hc))
  | i :: j :: is, c, hc => by
    simp only [listText, List.mem_append, List.mem_cons, List.not_mem_nil, or_false] at hc
    rcases hc with (h | h) | h
    · exact Or.inl (itemText_chars i c h)
    · exact Or.inr h
    · exact listText_chars (j :: is) c h

theorem itemText_ends (it : BitItem) : Ends (itemText it) :=
  ⟨fun c r e => (isNumber_clean (itemText_chars it c (by rw [e]; exact List.mem_cons_self))).2.2.2.2.1,
    fun c r e => (isNumber_clean (itemText_chars it c (by rw [e]; exact List.mem_append_right _ List.mem_cons_self))).2.2.2.2.1⟩

theorem listText_ne_nil : ∀ (i : BitItem) (is : List BitItem), listText (i :: is) ≠ []
  | i, [] => itemText_ne_nil i
  | i, j :: is => by simp [listText]

theorem listText_ends : ∀ l : List BitItem, Ends (listText l)
  | [] => ⟨fun c r e => absurd e (by nofun), fun c r e => by simp [listText] at e⟩
  | [i] => itemText_ends i
  | i :: j :: is => by
    have ih := listText_ends (j :: is)
    constructor
    · intro c r e
      cases hi : itemText i with
      | nil => exact absurd hi (itemText_ne_nil i)
      | cons d s =>
        have e' : itemText i ++ [',', ' '] ++ listText (j :: is) = c :: r := e
        rw [hi] at e'
        rw [← (List.cons.inj e').1]
        exact (itemText_ends i).1 d s hi
    · intro c r e
      have e' : itemText i ++ [',', ' '] ++ listText (j :: is) = r ++ [c] := e
      rcases List.eq_nil_or_concat (listText (j :: is)) with h | ⟨s, d, h⟩
      · exact absurd h (listText_ne_nil j is)
      · rw [List.concat_eq_append] at h
        rw [h, ← List.append_assoc] at e'
        have := List.append_inj_right' e' rfl
        rw [← List.singleton_inj.mp this]
        exact ih.2 d s h

theorem good_list (l : List BitItem) : ValGood (.listed (listText l)) := by
  refine ⟨listText_ends l, fun c hc => ?_, fun hm => ?_⟩
  · rcases listText_chars l c hc with h | rfl | rfl
    · have := isNumber_clean h
      exact ⟨this.1, this.2.1, this.2.2.1, this.2.2.2.1⟩
    · decide
    · decide
  · rcases listText_chars l _ hm with h | h | h
    · exact (isNumber_clean h).2.2.2.2.2.2.2.2 rfl
    · exact absurd h (by decide)
    · exact absurd h (by decide)

theorem toInt_cast {n k : Nat} (h : n = k) (x : BitVec n) : (x.cast h).toInt = x.toInt := by subst h; rfl

theorem maskOf_eq {m : BitVec 64} {p : Nat → Bool} (h : ∀ i, i < 64 → m.getLsbD i = p i) : maskLL m = maskOf p := by
  unfold maskLL maskOf
  have hl : ((List.range 64).map p).length = 64 := by simp
  have : BitVec.ofBoolListLE ((List.range 64).map p) = m.cast hl.symm := by
    apply BitVec.eq_of_getLsbD_eq
    intro i hi
    have hi' : i < 64 := by rw [hl] at hi; exact hi
    rw [BitVec.getLsbD_ofBoolListLE, BitVec.getLsbD_cast, h i hi']
    simp [List.getD, hi']
  rw [this, toInt_cast]

theorem parseList_white (l : List BitItem) (h : ∀ it ∈ l, it.Small) : ∃ m, parseBitArray (listText l) [] = some m ∧
    maskLL m = maskOf (fun i => decide (∃ it ∈ l, it.Has i)) ∧
    maskLL (~~~ m) = maskOf (fun i => decide (¬ ∃ it ∈ l, it.Has i)) := by
  obtain ⟨m, hm, hb⟩ := C43_bit_list l _ [] (listText_ok l) h noDigit_nil
  have hb' : ∀ i, i < 64 → m.getLsbD i = decide (∃ it ∈ l, it.Has i) := by
    intro i hi
    rw [Bool.eq_iff_iff, decide_eq_true_iff]
    exact hb i hi
  refine ⟨m, hm, maskOf_eq hb', maskOf_eq fun i hi => ?_⟩
  rw [BitVec.getLsbD_not, hb' i hi, decide_not]
  simp only [hi, decide_true, Bool.true_and]

/-! ## Settings of a filter -/

/-- What the lexer makes of the keys. -/
def fkey : FilterSetting → Key
  | .priority _ => .priority
  | .category _ => .category
  | .categoryExtend _ => .categoryExtend
  | .categoryWmask _ => .categoryWmask
  | .categoryBmask _ => .categoryBmask
  | .categoryWlist _ => .categoryWlist
  | .categoryBlist _ => .categoryBlist
  | .identify _ => .identify
  | .identifyExtend _ => .identifyExtend
  | .identifyWmask _ => .identifyWmask
  | .identifyBmask _ => .identifyBmask
  | .identifyWlist _ => .identifyWlist
  | .identifyBlist _ => .identifyBlist

theorem priority_key : KeyIs "priority".toList .priority := ⟨by decide +kernel, by decide +kernel, by decide +kernel⟩
theorem category_key : KeyIs "category".toList .category := ⟨by decide +kernel, by decide +kernel, by decide +kernel⟩
theorem categoryExtend_key : KeyIs "category_extend".toList .categoryExtend := ⟨by decide +kernel, by decide +kernel, by decide +kernel⟩
theorem categoryWmask_key : KeyIs "category_wmask".toList .categoryWmask := ⟨by decide +kernel, by decide +kernel, by decide +kernel⟩
theorem categoryBmask_key : KeyIs "category_bmask".toList .categoryBmask := ⟨by decide +kernel, by decide +kernel, by decide +kernel⟩
theorem categoryWlist_key : KeyIs "category_wlist".toList .categoryWlist := ⟨by decide +kernel, by decide +kernel, by decide +kernel⟩
theorem categoryBlist_key : KeyIs "category_blist".toList .categoryBlist := ⟨by decide +kernel, by decide +kernel, by decide +kernel⟩
theorem identify_key : KeyIs "identify".toList .identify := ⟨by decide +kernel, by decide +kernel, by decide +kernel⟩
theorem identifyExtend_key : KeyIs "identify_extend".toList .identifyExtend := ⟨by decide +kernel, by decide +kernel, by decide +kernel⟩
theorem identifyWmask_key : KeyIs "identify_wmask".toList .identifyWmask := ⟨by decide +kernel, by decide +kernel, by decide +kernel⟩
theorem identifyBmask_key : KeyIs "identify_bmask".toList .identifyBmask := ⟨by decide +kernel, by decide +kernel, by decide +kernel⟩
theorem identifyWlist_key : KeyIs "identify_wlist".toList .identifyWlist := ⟨by decide +kernel, by decide +kernel, by decide +kernel⟩
theorem identifyBlist_key : KeyIs "identify_blist".toList .identifyBlist := ⟨by decide +kernel, by decide +kernel, by decide +kernel⟩
theorem disable_key : KeyIs "disable".toList .disable := ⟨by decide +kernel, by decide +kernel, by decide +kernel⟩
theorem inType_key : KeyIs "in_type".toList .inType := ⟨by decide +kernel, by decide +kernel, by decide +kernel⟩
theorem outType_key : KeyIs "out_type".toList .outType := ⟨by decide +kernel, by decide +kernel, by decide +kernel⟩
theorem path_key : KeyIs "path".toList .path := ⟨by decide +kernel, by decide +kernel, by decide +kernel⟩
theorem file_key : KeyIs "file".toList .file := ⟨by decide +kernel, by decide +kernel, by decide +kernel⟩
theorem limitSize_key : KeyIs "limit_size".toList .limitSize := ⟨by decide +kernel, by decide +kernel, by decide +kernel⟩
theorem rollback_key : KeyIs "rollback".toList .rollback := ⟨by decide +kernel, by decide +kernel, by decide +kernel⟩
theorem rolldaily_key : KeyIs "rolldaily".toList .rolldaily := ⟨by decide +kernel, by decide +kernel, by decide +kernel⟩
theorem rollhourly_key : KeyIs "rollhourly".toList .rollhourly := ⟨by decide +kernel, by decide +kernel, by decide +kernel⟩
theorem stuffUp_key : KeyIs "stuff_up".toList .stuffUp := ⟨by decide +kernel, by decide +kernel, by decide +kernel⟩
theorem udpAddr_key : KeyIs "udp_addr".toList .udpAddr := ⟨by decide +kernel, by decide +kernel, by decide +kernel⟩
theorem sync_key : KeyIs "sync".toList .sync := ⟨by decide +kernel, by decide +kernel, by decide +kernel⟩
theorem device_key : KeyIs "device".toList .device := ⟨by decide +kernel, by decide +kernel, by decide +kernel⟩
theorem channel_key : KeyIs "channel".toList .channel := ⟨by decide +kernel, by decide +kernel, by decide +kernel⟩
theorem hotUpdate_key : KeyIs "hot_update".toList .hotUpdate := ⟨by decide +kernel, by decide +kernel, by decide +kernel⟩
theorem loggerName_key : KeyIs "logger_name".toList .loggerName := ⟨by decide +kernel, by decide +kernel, by decide +kernel⟩
theorem loggerDesc_key : KeyIs "logger_desc".toList .loggerDesc := ⟨by decide +kernel, by decide +kernel, by decide +kernel⟩
theorem shmKey_key : KeyIs "shm_key".toList .shmKey := ⟨by decide +kernel, by decide +kernel, by decide +kernel⟩

theorem fkey_is (f : FilterSetting) : KeyIs f.key (fkey f) := by
  cases f with
  | priority => exact priority_key
  | category => exact category_key
  | categoryExtend => exact categoryExtend_key
  | categoryWmask => exact categoryWmask_key
  | categoryBmask => exact categoryBmask_key
  | categoryWlist => exact categoryWlist_key
  | categoryBlist => exact categoryBlist_key
  | identify => exact identify_key
  | identifyExtend => exact identifyExtend_key
  | identifyWmask => exact identifyWmask_key
  | identifyBmask => exact identifyBmask_key
  | identifyWlist => exact identifyWlist_key
  | identifyBlist => exact identifyBlist_key

theorem good_prio (p : Fin 7) : ValGood (.plain (prioText p)) := good_word (by revert p; decide)

theorem parsePriority_text (p : Fin 7) : parsePriority (prioText p) = p.val := by revert p; decide

theorem fval_good (f : FilterSetting) : ValGood f.val := by
  cases f with
  | priority p => exact good_prio p
  | categoryWlist l => exact good_list l
  | categoryBlist l => exact good_list l
  | identifyWlist l => exact good_list l
  | identifyBlist l => exact good_list l
  | _ => exact good_decimal _

theorem notLL_eq (n : Int) : notLL n = -1 - n := by unfold notLL; omega

theorem devField_filter (dns : List Char → Option Int) (f : FilterSetting) (d : Device) (h : f.Ok LL) :
    devField dns (fkey f) f.val.content [] d = .ok (f.applyDev d) := by
  cases f with
  | priority p =>
    simp only [fkey, devField, FilterSetting.val, ValText.content, parsePriority_text]; rfl
  | category n => simp only [fkey, devField, FilterSetting.val, ValText.content, List.append_nil, atoll_decimal h]; rfl
  | categoryExtend n => simp only [fkey, devField, FilterSetting.val, ValText.content, List.append_nil, atoll_decimal h]; rfl
  | identify n => simp only [fkey, devField, FilterSetting.val, ValText.content, List.append_nil, atoll_decimal h]; rfl
  | identifyExtend n => simp only [fkey, devField, FilterSetting.val, ValText.content, List.append_nil, atoll_decimal h]; rfl
  | categoryWmask n => simp only [fkey, devField, FilterSetting.val, ValText.content, List.append_nil, atoll_decimal h]; rfl
  | identifyWmask n => simp only [fkey, devField, FilterSetting.val, ValText.content, List.append_nil, atoll_decimal h]; rfl
  | categoryBmask n =>
    simp only [fkey, devField, FilterSetting.val, ValText.content, List.append_nil, atoll_decimal h, notLL_eq]; rfl
  | identifyBmask n =>
    simp only [fkey, devField, FilterSetting.val, ValText.content, List.append_nil, atoll_decimal h, notLL_eq]; rfl
  | categoryWlist l =>
    obtain ⟨m, h1, h2, h3⟩ := parseList_white l h
    simp only [fkey, devField, FilterSetting.val, ValText.content, h1, PRes.ofOption, PRes.bind, h2]; rfl
  | categoryBlist l =>
    obtain ⟨m, h1, h2, h3⟩ := parseList_white l h
    simp only [fkey, devField, FilterSetting.val, ValText.content, h1, PRes.ofOption, PRes.bind, h3]; rfl
  | identifyWlist l =>
    obtain ⟨m, h1, h2, h3⟩ := parseList_white l h
    simp only [fkey, devField, FilterSetting.val, ValText.content, h1, PRes.ofOption, PRes.bind, h2]; rfl
  | identifyBlist l =>
    obtain ⟨m, h1, h2, h3⟩ := parseList_white l h
    simp only [fkey, devField, FilterSetting.val, ValText.content, h1, PRes.ofOption, PRes.bind, h3]; rfl

theorem chanField_filter (f : FilterSetting) (c : Channel) (h : f.Ok I32) :
    chanField (fkey f) f.val.content [] c = .ok (f.applyChan c) := by
  cases f with
  | priority p =>
    simp only [fkey, chanField, FilterSetting.val, ValText.content, parsePriority_text]; rfl
  | category n => simp only [fkey, chanField, FilterSetting.val, ValText.content, List.append_nil, atoi_decimal h]; rfl
  | categoryExtend n => simp only [fkey, chanField, FilterSetting.val, ValText.content, List.append_nil, atoi_decimal h]; rfl
  | identify n => simp only [fkey, chanField, FilterSetting.val, ValText.content, List.append_nil, atoi_decimal h]; rfl
  | identifyExtend n => simp only [fkey, chanField, FilterSetting.val, ValText.content, List.append_nil, atoi_decimal h]; rfl
  | categoryWmask n => simp only [fkey, chanField, FilterSetting.val, ValText.content, List.append_nil, atoll_decimal h]; rfl
  | identifyWmask n => simp only [fkey, chanField, FilterSetting.val, ValText.content, List.append_nil, atoll_decimal h]; rfl
  | categoryBmask n =>
    simp only [fkey, chanField, FilterSetting.val, ValText.content, List.append_nil, atoll_decimal h, notLL_eq]; rfl
  | identifyBmask n =>
    simp only [fkey, chanField, FilterSetting.val, ValText.content, List.append_nil, atoll_decimal h, notLL_eq]; rfl
  | categoryWlist l =>
    obtain ⟨m, h1, h2, h3⟩ := parseList_white l h
    simp only [fkey, chanField, FilterSetting.val, ValText.content, h1, PRes.ofOption, PRes.bind, h2]; rfl
  | categoryBlist l =>
    obtain ⟨m, h1, h2, h3⟩ := parseList_white l h
    simp only [fkey, chanField, FilterSetting.val, ValText.content, h1, PRes.ofOption, PRes.bind, h3]; rfl
  | identifyWlist l =>
    obtain ⟨m, h1, h2, h3⟩ := parseList_white l h
    simp only [fkey, chanField, FilterSetting.val, ValText.content, h1, PRes.ofOption, PRes.bind, h2]; rfl
  | identifyBlist l =>
    obtain ⟨m, h1, h2, h3⟩ := parseList_white l h
    simp only [fkey, chanField, FilterSetting.val, ValText.content, h1, PRes.ofOption, PRes.bind, h3]; rfl

/-! ## Settings of a device -/

def dkey : DevSetting → Key
  | .filter f => fkey f
  | .disable _ => .disable
  | .inType _ => .inType
  | .outType _ => .outType
  | .path _ => .path
  | .file _ => .file
  | .limitSize _ => .limitSize
  | .rollback _ => .rollback
  | .rolldaily _ => .rolldaily
  | .rollhourly _ => .rollhourly
  | .stuffUp _ => .stuffUp
  | .udpAddr .. => .udpAddr

theorem dkey_is (s : DevSetting) : KeyIs s.key (dkey s) := by
  cases s with
  | filter f => exact fkey_is f
  | disable => exact disable_key
  | inType => exact inType_key
  | outType => exact outType_key
  | path => exact path_key
  | file => exact file_key
  | limitSize => exact limitSize_key
  | rollback => exact rollback_key
  | rolldaily => exact rolldaily_key
  | rollhourly => exact rollhourly_key
  | stuffUp => exact stuffUp_key
  | udpAddr => exact udpAddr_key

theorem good_bool (b : Bool) : ValGood (.plain (boolText b)) := good_word (by revert b; decide)

theorem parseBool_text (b : Bool) : parseBool (boolText b) = b := by revert b; decide

theorem dval_good {s : DevSetting} {d : Device} (h : s.Ok d) : ValGood s.val := by
  cases s with
  | filter f => exact fval_good f
  | disable b => exact good_bool b
  | inType i => exact good_word (by cases i <;> decide)
  | outType o => exact good_word (by cases o <;> decide)
  | path s => exact good_text h.1
  | file s => exact good_text h.1
  | limitSize n => exact good_decimal n
  | rollback n => exact good_decimal n
  | rolldaily b => exact good_bool b
  | rollhourly b => exact good_bool b
  | stuffUp b => exact good_bool b
  | udpAddr a b c e p => exact good_quad a b c e p

theorem flag_eq (b : Bool) : boolLL b = flag b := rfl

theorem devField_set (dns : List Char → Option Int) (s : DevSetting) (d : Device) (h : s.Ok d) :
    devField dns (dkey s) s.val.content [] d = .ok (s.apply d) := by
  cases s with
  | filter f => exact devField_filter dns f d h
  | disable b => simp only [dkey, devField, DevSetting.val, ValText.content, parseBool_text]; rfl
  | rolldaily b => simp only [dkey, devField, DevSetting.val, ValText.content, parseBool_text]; rfl
  | rollhourly b => simp only [dkey, devField, DevSetting.val, ValText.content, parseBool_text]; rfl
  | stuffUp b => simp only [dkey, devField, DevSetting.val, ValText.content, parseBool_text]; rfl
  | inType i => cases i <;> rfl
  | outType o =>
    cases o with
    | null => exact absurd rfl h
    | _ => rfl
  | path s =>
    have e : devField dns .path s [] d =
        .ok (if s.length < DEV_PATH_LEN - 1 ∧ s.length ≥ 1 then { d with path := s } else d) := rfl
    show devField dns .path s [] d = _
    rw [e, if_pos ⟨by have := h.2.2; unfold DEV_PATH_LEN; omega, h.2.1⟩]; rfl
  | file s =>
    have e : devField dns .file s [] d =
        .ok (if s.length < DEV_FILE_LEN - 1 ∧ s.length ≥ 1 then { d with file := s } else d) := rfl
    show devField dns .file s [] d = _
    rw [e, if_pos ⟨by have := h.2.2; unfold DEV_FILE_LEN; omega, h.2.1⟩]; rfl
  | limitSize n =>
    have h' : LL (n * 1000000) := h
    unfold LL at h'
    have hn : LL n := by unfold LL; omega
    simp only [dkey, devField, DevSetting.val, ValText.content, List.append_nil, atoll_decimal hn]
    have e1 : mulLL n 1000 = some (n * 1000) := by
      unfold mulLL LLONG_MIN LLONG_MAX; rw [if_pos (by omega)]
    have e2 : mulLL (n * 1000) 1000 = some (n * 1000000) := by
      unfold mulLL LLONG_MIN LLONG_MAX
      have : n * 1000 * 1000 = n * 1000000 := by omega
      rw [this, if_pos (by omega)]
    rw [e1]
    simp only [Option.bind_eq_bind, Option.bind_some, e2, PRes.ofOption, PRes.bind]; rfl
  | rollback n => simp only [dkey, devField, DevSetting.val, ValText.content, List.append_nil, atoll_decimal h]; rfl
  | udpAddr a b c e port =>
    obtain ⟨ha, hb, hc, he, hp, hp', hz⟩ := h
    have h2 : networkPort port ≠ 0 := by unfold networkPort; omega
    show devField dns .udpAddr (quadText a b c e ++ [':'] ++ numeral 10 port) [] d = _
    simp only [devField]
    rw [parseAddres_quad dns _ ha hb hc he hp hp']
    by_cases e0 : d.cfg.able = 0
    · simp [e0, DevSetting.apply]
    · by_cases hi : d.inType = .null
      · have h1 : networkQuad a b c e ≠ 0 := by
          have := hz e0 hi
          unfold networkQuad; omega
        simp [e0, h1, h2, DevSetting.apply]
      · simp [e0, hi, h2, DevSetting.apply]

theorem dkey_ne {s : DevSetting} : dkey s ≠ .define ∧ dkey s ≠ .variable := by
  cases s with
  | filter f => cases f <;> exact ⟨nofun, nofun⟩
  | _ => exact ⟨nofun, nofun⟩

theorem linesDevice_set {dns : List Char → Option Int} {indent n : Nat} (hin : indent < n) {rest : List (List Char)} :
    ∀ (ss : List DevSetting) (d : Device), DevOk ss d →
      linesDevice dns indent ((ss.map fun s => line n false s.key s.val) ++ rest) d =
        linesDevice dns indent rest (ss.foldl (fun d s => s.apply d) d) := by
  intro ss
  induction ss with
  | nil => intro d _; rfl
  | cons s ss ih =>
    intro d h
    rw [List.map_cons, List.cons_append, linesDevice, readLine_line (dkey_is s) (dval_good h.1)]
    simp only
    rw [if_neg (by omega), devField_set dns s d h.1]
    exact ih _ h.2

/-- The first of the lines is a key with at most this indentation, or there is none. -/
def EndsAt (indent : Nat) (ls : List (List Char)) : Prop :=
  ls = [] ∨ ∃ l r b k v, ls = l :: r ∧ readLine l = some (some (b, k, v)) ∧ b ≤ indent

theorem linesDevice_end {dns : List Char → Option Int} {indent : Nat} {ls : List (List Char)} (h : EndsAt indent ls)
    (d : Device) : linesDevice dns indent ls d = some (d, ls) := by
  rcases h with rfl | ⟨l, r, b, k, v, rfl, h1, h2⟩
  · rfl
  · rw [linesDevice, h1]
    simp only
    rw [if_pos h2]

theorem linesChannel_end {dns : List Char → Option Int} {indent n : Nat} {ls : List (List Char)} (h : EndsAt indent ls)
    (hn : ls.length ≤ n) (c : Channel) : linesChannel dns indent n ls c = some (c, ls) := by
  rcases h with rfl | ⟨l, r, b, k, v, rfl, h1, h2⟩
  · cases n <;> rfl
  · cases n with
    | zero => simp at hn
    | succ n =>
      rw [linesChannel, h1]
      simp only
      rw [if_pos h2]

/-! ## Channels -/

def ckey : ChanSetting → Key
  | .filter f => fkey f
  | .sync _ => .sync

theorem ckey_is (s : ChanSetting) : KeyIs s.key (ckey s) := by
  cases s with
  | filter f => exact fkey_is f
  | sync => exact sync_key

theorem cval_good (s : ChanSetting) : ValGood s.val := by
  cases s with
  | filter f => exact fval_good f
  | sync t => cases t <;> exact good_word (by decide)

theorem ckey_ne {s : ChanSetting} : ckey s ≠ .define ∧ ckey s ≠ .variable ∧ ckey s ≠ .device := by
  cases s with
  | filter f => cases f <;> exact ⟨nofun, nofun, nofun⟩
  | _ => exact ⟨nofun, nofun, nofun⟩

theorem chanField_set (s : ChanSetting) (c : Channel) (h : (ChanLine.set s).Ok c) :
    chanField (ckey s) s.val.content [] c = .ok (s.apply c) := by
  cases s with
  | filter f => exact chanField_filter f c h
  | sync t => cases t <;> rfl


theorem atoi_numeral {n : Nat} (h : n < 2 ^ 31) : atoi (numeral 10 n) = n := by
  have := atoi_text (numeral_decText n) noDigit_nil h
  rwa [List.append_nil] at this

theorem chanLines_ends {L : Layout} {rest : List (List Char)} (hr : EndsAt L.dev rest) :
    ∀ (i : Nat) (ls : List ChanLine), EndsAt L.dev (chanLines L i ls ++ rest) := by
  intro i ls
  cases ls with
  | nil => exact hr
  | cons l ls =>
    cases l with
    | set s =>
      exact Or.inr ⟨_, _, _, _, _, rfl, readLine_line (ckey_is s) (cval_good s), Nat.le_refl _⟩
    | device ss =>
      refine Or.inr ⟨_, _, _, _, _, rfl, readLine_line device_key (good_numeral i), Nat.le_refl _⟩

theorem apply_devices (s : ChanSetting) (c : Channel) : (s.apply c).devices = c.devices := by
  cases s with
  | filter f => cases f <;> simp only [ChanSetting.apply, FilterSetting.applyChan]
  | sync t => rfl

theorem linesChannel_setStep {dns : List Char → Option Int} {indent n b : Nat} {l v : List Char} {k : Key}
    {ls : List (List Char)} {c c' : Channel} (hr : readLine l = some (some (b, k, v))) (hb : indent < b) (hk : k ≠ .device)
    (hf : chanField k v [] c = .ok c') : linesChannel dns indent (n + 1) (l :: ls) c = linesChannel dns indent n ls c' := by
  rw [linesChannel, hr]
  simp only
  rw [if_neg (by omega), if_neg hk, hf]

theorem linesChannel_devStep {dns : List Char → Option Int} {indent n b : Nat} {l v : List Char}
    {ls ls' : List (List Char)} {c : Channel} {d : Device} (hr : readLine l = some (some (b, .device, v))) (hb : indent < b)
    (hn : c.devices.length < 20) (hid : atoi v = c.devices.length)
    (hd : linesDevice dns b ls { id := c.devices.length } = some (d, ls')) :
    linesChannel dns indent (n + 1) (l :: ls) c = linesChannel dns indent n ls' (addDevice c d) := by
  rw [linesChannel, hr]
  simp only
  rw [if_neg (by omega), if_pos trivial, if_neg (by unfold MAX_DEVICE_SIZE; omega), if_neg (by rw [hid]; simp), hid, hd]

theorem linesLogger_chanStep {dns : List Char → Option Int} {n b : Nat} {l v : List Char} {ls ls' : List (List Char)}
    {g : Config} {c : Channel} (hr : readLine l = some (some (b, .channel, v))) (hn : g.channels.length < 2)
    (hid : atoi v = g.channels.length)
    (hc : linesChannel dns b ls.length ls { id := g.channels.length } = some (c, ls')) :
    linesLogger dns (n + 1) (l :: ls) g = linesLogger dns n ls' { g with channels := g.channels ++ [c] } := by
  rw [linesLogger, hr]
  simp only
  rw [if_neg (by unfold MAX_CHANNEL_SIZE; omega), if_neg (by rw [hid]; simp), hid, hc]
  rfl

theorem linesChannel_set {dns : List Char → Option Int} {L : Layout} (h1 : L.chan < L.dev) (h2 : L.dev < L.set)
    {rest : List (List Char)} (hr : EndsAt L.chan rest) :
    ∀ (ls : List ChanLine) (c : Channel) (n : Nat), ChanOk ls c →
      (chanLines L c.devices.length ls ++ rest).length ≤ n →
      linesChannel dns L.chan n (chanLines L c.devices.length ls ++ rest) c =
        some (ls.foldl (fun c l => l.apply c) c, rest) := by
  have hr' : EndsAt L.dev rest := by
    rcases hr with h | ⟨l, r, b, k, v, h, h3, h4⟩
    · exact Or.inl h
    · exact Or.inr ⟨l, r, b, k, v, h, h3, by omega⟩
  intro ls
  induction ls with
  | nil => intro c n _ hn; exact linesChannel_end hr hn c
  | cons l ls ih =>
    intro c n h hn
    cases l with
    | set s =>
      cases n with
      | zero => simp [chanLines] at hn
      | succ n =>
        have hd := apply_devices s c
        rw [chanLines, List.cons_append, linesChannel_setStep (readLine_line (ckey_is s) (cval_good s)) h1 ckey_ne.2.2
          (chanField_set s c h.1)]
        have := ih (s.apply c) n h.2 (by
          rw [hd]
          simp only [chanLines, List.cons_append, List.length_cons] at hn
          omega)
        rw [hd] at this
        exact this
    | device ss =>
      cases n with
      | zero => simp [chanLines, devLines] at hn
      | succ n =>
        obtain ⟨hlt, hok⟩ := h.1
        rw [chanLines, devLines, List.append_assoc, List.cons_append,
          linesChannel_devStep (readLine_line device_key (good_numeral _)) h1 hlt (atoi_numeral (by omega))
            ((linesDevice_set h2 ss _ hok).trans (linesDevice_end (chanLines_ends hr' _ _) _))]
        have := ih (ChanLine.apply (.device ss) c) n h.2 (by
          have : (ChanLine.apply (.device ss) c).devices.length = c.devices.length + 1 := by simp [ChanLine.apply]
          rw [this]
          simp only [chanLines, devLines, List.cons_append, List.length_cons, List.length_append, List.length_map] at hn ⊢
          omega)
        have hlen : (ChanLine.apply (.device ss) c).devices.length = c.devices.length + 1 := by simp [ChanLine.apply]
        rw [hlen] at this
        exact this

/-! ## Documents -/

theorem docLines_ends {L : Layout} : ∀ (i : Nat) (ts : List TopLine) (g : Config), DocOk ts g →
    EndsAt L.chan (docLines L i ts) := by
  intro i ts g h
  cases ts with
  | nil => exact Or.inl rfl
  | cons t ts =>
    right
    cases t with
    | hotUpdate b => exact ⟨_, _, _, _, _, rfl, readLine_line hotUpdate_key (good_bool b), Nat.zero_le _⟩
    | loggerName s => exact ⟨_, _, _, _, _, rfl, readLine_line loggerName_key (good_text h.1.1), Nat.zero_le _⟩
    | loggerDesc s => exact ⟨_, _, _, _, _, rfl, readLine_line loggerDesc_key (good_text h.1.1), Nat.zero_le _⟩
    | shmKey n => exact ⟨_, _, _, _, _, rfl, readLine_line shmKey_key (good_decimal n), Nat.zero_le _⟩
    | channel ls => exact ⟨_, _, _, _, _, rfl, readLine_line channel_key (good_numeral i), Nat.le_refl _⟩

theorem parseString_short {n : Nat} {s : List Char} (h : s.length < n) : parseString n s = s := by
  unfold parseString
  rw [List.take_of_length_le (by omega)]

theorem decimal_length {n : Int} (h : LL n) : (decimal n).length ≤ 40 := by
  unfold LL at h
  unfold decimal
  split
  · have := numeral_length_u64 (-n).toNat (by omega)
    simp only [List.length_cons]; omega
  · have := numeral_length_u64 n.toNat (by omega)
    omega

theorem digitVal_lt {c : Char} (h : isNumber c = true) : hexVal c = digitVal c ∧ hexVal c < 10 := by
  have := (isNumber_iff c).mp h
  have e : "0123456789".toList = ['0','1','2','3','4','5','6','7','8','9'] := rfl
  rw [e] at this
  simp only [List.mem_cons, List.not_mem_nil, or_false] at this
  rcases this with h | h | h | h | h | h | h | h | h | h <;> subst h <;> decide

theorem basePrefix_numeral (n : Nat) : basePrefix 10 (numeral 10 n) = n := by
  have h1 : basePrefix 10 (numeral 10 n) = decPrefix (numeral 10 n) := by
    have hn := numeral_isNumber n
    revert hn
    generalize numeral 10 n = s
    intro hn
    unfold basePrefix decPrefix
    have ht : s.takeWhile (fun c => hexVal c < 10) = s := by
      have := takeWhile_append_stop (p := fun c => decide (hexVal c < 10)) (s := s) (r := [])
        (fun x hx => by simpa using (digitVal_lt (hn x hx)).2) (by nofun)
      rwa [List.append_nil] at this
    have ht' : s.takeWhile isNumber = s := by
      have := takeWhile_append_stop (p := isNumber) (s := s) (r := []) hn (by nofun)
      rwa [List.append_nil] at this
    rw [ht, ht']
    clear ht ht'
    generalize 0 = z
    induction s generalizing z with
    | nil => rfl
    | cons c s ih =>
      rw [List.foldl_cons, List.foldl_cons, (digitVal_lt (hn c List.mem_cons_self)).1]
      exact ih (fun x hx => hn x (List.mem_cons_of_mem _ hx)) _
  rw [h1]
  have := decPrefix_text (numeral_decText n) noDigit_nil
  rwa [List.append_nil] at this

theorem autoPrefix_numeral (n : Nat) : autoPrefix (numeral 10 n) = n := by
  by_cases h0 : n = 0
  · subst h0; rw [numeral_zero 10 (by omega)]; rfl
  · have hh : (numeral 10 n).head? ≠ some '0' := fun h => h0 (numeral_head 10 (by omega) (by omega) n h)
    have : autoPrefix (numeral 10 n) = basePrefix 10 (numeral 10 n) := by
      unfold autoPrefix
      split
      · rename_i e; rw [e] at hh; exact absurd rfl hh
      · rename_i e; rw [e] at hh; exact absurd rfl hh
      · rfl
    rw [this, basePrefix_numeral]

theorem parseNumber_decimal {n : Int} (h : LL n) : parseNumber (decimal n) = n := by
  unfold parseNumber
  rw [if_neg (decimal_ne_nil n), if_neg (by have := decimal_length h; omega)]
  unfold LL at h
  unfold decimal
  split
  · unfold strtoll0
    rw [List.dropWhile_cons, if_neg (by decide)]
    simp only
    rw [autoPrefix_numeral, show (((-n).toNat : Nat) : Int) = -n by omega, Int.neg_neg]
    exact saturate_id (by unfold LLONG_MIN; omega) (by unfold LLONG_MAX; omega)
  · rename_i hn
    have ha := autoPrefix_numeral n.toNat
    cases hs : numeral 10 n.toNat with
    | nil => exact absurd hs (numeral_ne_nil _ _)
    | cons c s' =>
      rw [hs] at ha
      have hc := isNumber_not_space (numeral_isNumber n.toNat c (by rw [hs]; exact List.mem_cons_self))
      unfold strtoll0
      rw [List.dropWhile_cons, hc.1]
      simp only [Bool.false_eq_true, if_false]
      split
      · rename_i heq; simp only [List.cons.injEq] at heq; exact absurd heq.1 hc.2.1
      · rename_i heq; simp only [List.cons.injEq] at heq; exact absurd heq.1 hc.2.2.1
      · rw [ha, show ((n.toNat : Nat) : Int) = n by omega]
        exact saturate_id (by unfold LLONG_MIN; omega) (by unfold LLONG_MAX; omega)

theorem linesLogger_doc {dns : List Char → Option Int} {L : Layout} (h1 : L.chan < L.dev) (h2 : L.dev < L.set) :
    ∀ (ts : List TopLine) (g : Config) (n : Nat), DocOk ts g → (docLines L g.channels.length ts).length ≤ n →
      linesLogger dns n (docLines L g.channels.length ts) g = some (ts.foldl (fun g t => t.apply g) g) := by
  intro ts
  induction ts with
  | nil => intro g n _ _; exact linesLogger_nil
  | cons t ts ih =>
    intro g n h hn
    cases n with
    | zero => cases t <;> simp [docLines] at hn
    | succ n =>
      cases t with
      | hotUpdate b =>
        rw [docLines, linesLogger, readLine_line hotUpdate_key (good_bool b)]
        simp only [ValText.content, parseBool_text]
        exact ih (TopLine.apply (.hotUpdate b) g) n h.2 (by
          simp only [docLines, List.length_cons] at hn; exact Nat.le_of_succ_le_succ hn)
      | loggerName s =>
        rw [docLines, linesLogger, readLine_line loggerName_key (good_text h.1.1)]
        simp only [ValText.content]
        rw [parseString_short (n := LOGGER_NAME_LEN) h.1.2]
        exact ih (TopLine.apply (.loggerName s) g) n h.2 (by
          simp only [docLines, List.length_cons] at hn; exact Nat.le_of_succ_le_succ hn)
      | loggerDesc s =>
        rw [docLines, linesLogger, readLine_line loggerDesc_key (good_text h.1.1)]
        simp only [ValText.content]
        rw [parseString_short (n := LOGGER_DESC_LEN) h.1.2]
        exact ih (TopLine.apply (.loggerDesc s) g) n h.2 (by
          simp only [docLines, List.length_cons] at hn; exact Nat.le_of_succ_le_succ hn)
      | shmKey k =>
        rw [docLines, linesLogger, readLine_line shmKey_key (good_decimal k)]
        simp only [ValText.content]
        rw [parseNumber_decimal h.1]
        exact ih (TopLine.apply (.shmKey k) g) n h.2 (by
          simp only [docLines, List.length_cons] at hn; exact Nat.le_of_succ_le_succ hn)
      | channel ls =>
        obtain ⟨hlt, hok⟩ := h.1
        have hc := linesChannel_set (dns := dns) h1 h2
          (docLines_ends (L := L) (g.channels.length + 1) ts (TopLine.apply (.channel ls) g) h.2) ls
          { id := g.channels.length } _ hok (Nat.le_refl _)
        have e0 : (({ id := (g.channels.length : Int) } : Channel).devices.length) = 0 := rfl
        rw [e0] at hc
        rw [docLines, List.cons_append, linesLogger_chanStep (readLine_line channel_key (good_numeral _)) hlt
          (atoi_numeral (by omega)) hc]
        have hlen : (TopLine.apply (.channel ls) g).channels.length = g.channels.length + 1 := by simp [TopLine.apply]
        have := ih (TopLine.apply (.channel ls) g) n h.2 (by
          rw [hlen]
          simp only [docLines, List.cons_append, List.length_cons, List.length_append] at hn
          omega)
        rw [hlen] at this
        exact this

theorem devLines_good {L : Layout} : ∀ (ss : List DevSetting) (d : Device), DevOk ss d →
    ∀ l ∈ ss.map (fun s => line L.set false s.key s.val), GoodLine l := by
  intro ss
  induction ss with
  | nil => intro d _ l hl; simp at hl
  | cons s ss ih =>
    intro d h l hl
    rcases List.mem_cons.mp hl with rfl | hl
    · exact goodLine (dkey_is s) (dval_good h.1) dkey_ne.1 dkey_ne.2
    · exact ih _ h.2 l hl

theorem chanLines_good {L : Layout} : ∀ (ls : List ChanLine) (i : Nat) (c : Channel), ChanOk ls c →
    ∀ l ∈ chanLines L i ls, GoodLine l := by
  intro ls
  induction ls with
  | nil => intro i c _ l hl; simp [chanLines] at hl
  | cons x ls ih =>
    intro i c h l hl
    cases x with
    | set s =>
      rcases List.mem_cons.mp hl with rfl | hl
      · exact goodLine (ckey_is s) (cval_good s) ckey_ne.1 ckey_ne.2.1
      · exact ih _ _ h.2 l hl
    | device ss =>
      rcases List.mem_append.mp hl with hl | hl
      · rcases List.mem_cons.mp hl with rfl | hl
        · exact goodLine device_key (good_numeral i) (by nofun) (by nofun)
        · exact devLines_good ss _ h.1.2 l hl
      · exact ih _ _ h.2 l hl

theorem docLines_good {L : Layout} : ∀ (ts : List TopLine) (i : Nat) (g : Config), DocOk ts g →
    ∀ l ∈ docLines L i ts, GoodLine l := by
  intro ts
  induction ts with
  | nil => intro i g _ l hl; simp [docLines] at hl
  | cons t ts ih =>
    intro i g h l hl
    cases t with
    | hotUpdate b =>
      rcases List.mem_cons.mp hl with rfl | hl
      · exact goodLine hotUpdate_key (good_bool b) (by nofun) (by nofun)
      · exact ih _ _ h.2 l hl
    | loggerName s =>
      rcases List.mem_cons.mp hl with rfl | hl
      · exact goodLine loggerName_key (good_text h.1.1) (by nofun) (by nofun)
      · exact ih _ _ h.2 l hl
    | loggerDesc s =>
      rcases List.mem_cons.mp hl with rfl | hl
      · exact goodLine loggerDesc_key (good_text h.1.1) (by nofun) (by nofun)
      · exact ih _ _ h.2 l hl
    | shmKey s =>
      rcases List.mem_cons.mp hl with rfl | hl
      · exact goodLine shmKey_key (good_decimal s) (by nofun) (by nofun)
      · exact ih _ _ h.2 l hl
    | channel ls =>
      rcases List.mem_append.mp hl with hl | hl
      · rcases List.mem_cons.mp hl with rfl | hl
        · exact goodLine channel_key (good_numeral i) (by nofun) (by nofun)
        · exact chanLines_good ls _ _ h.1.2 l hl
      · exact ih _ _ h.2 l hl

theorem doc_channels : ∀ (ts : List TopLine) (g : Config), DocOk ts g → (ts.foldl (fun g t => t.apply g) g).channels ≠ [] := by
  intro ts
  induction ts with
  | nil => intro g h; exact h
  | cons t ts ih => intro g h; exact ih _ h.2

/-- A good line does not begin with a byte order mark. -/
theorem goodLine_bom {l : List Char} (h : GoodLine l) (r : List Char) : hasBom (l ++ r) = false := by
  obtain ⟨_, b, k, v, hr, _⟩ := h
  cases l with
  | nil => exact absurd hr (by nofun)
  | cons c s =>
    have hc : c ≠ '\xef' := by
      rintro rfl
      unfold readLine at hr
      rw [List.dropWhile_cons, if_neg (by decide)] at hr
      simp only at hr
      rw [if_pos (Or.inr (by decide))] at hr
      exact absurd hr (by nofun)
    unfold hasBom
    rw [List.cons_append, List.isPrefixOf_cons_cons]
    rw [show ('\xef' == c) = false by simpa using fun h => hc h.symm]
    rfl

end FNLog
