import Verif.Proof.ParseOk

/-! # Property theorems C37, C38, C40, C42, C44: the configuration file as a whole -/

namespace FNLog
open Spec

/-! ## C37 -/

/-- Parsing ends: from some number of steps on, there is an outcome, always the same. -/
def Terminates (dns : List Char → Option Int) (garbage : Int) (t : List Char) : Prop :=
  ∃ fuel r, (∀ w, r ≠ .running w) ∧ ∀ fuel', fuel ≤ fuel' → parseLogger dns garbage fuel' t = r

/-- Parsing does not end. -/
def Diverges (dns : List Char → Option Int) (garbage : Int) (t : List Char) : Prop :=
  ∀ fuel, ∃ w, parseLogger dns garbage fuel t = .running w

/-- Parsing ends with success. -/
def Accepts (dns : List Char → Option Int) (garbage : Int) (t : List Char) (g : Config) : Prop :=
  ∃ fuel, parseLogger dns garbage fuel t = .ok g

theorem terminates_or_diverges (dns : List Char → Option Int) (garbage : Int) (t : List Char) :
    Terminates dns garbage t ∨ Diverges dns garbage t := by
  by_cases h : ∃ fuel, ∀ w, parseLogger dns garbage fuel t ≠ .running w
  · obtain ⟨fuel, h⟩ := h
    exact Or.inl ⟨fuel, _, h, fun fuel' hf => parseLogger_stable hf h⟩
  · right
    intro fuel
    apply Classical.byContradiction
    intro hn
    exact h ⟨fuel, fun w hw => hn ⟨w, hw⟩⟩

theorem parseLogger_lines {dns : List Char → Option Int} {garbage : Int} {t : List Char} {fuel : Nat} (h0 : '\x00' ∉ t)
    (hb : hasBom t = false) (hf : 2 * t.length + 3 < fuel) :
    AgreeL (parseLogger dns garbage fuel t)
      (linesLogger dns (significant t).length (significant t) { shmKey := garbage }) := by
  have := loggerLoop_lines (dns := dns) fuel t 0 (significant t).length { shmKey := garbage } h0 (Nat.zero_le _)
    (by omega) (by rw [List.drop_zero]; exact Nat.le_refl _)
  unfold parseLogger
  rw [hb]
  simpa using this

/-- **C37**, partial.  A text without NUL characters and without byte order mark, in which no macro and no
variable is defined, is parsed in finitely many steps.  Missing: the other texts, see below. -/
theorem C37_terminates_partial (dns : List Char → Option Int) (garbage : Int) (t : List Char) (h0 : '\x00' ∉ t)
    (hb : hasBom t = false) (hs : NoSub (significant t)) : Terminates dns garbage t := by
  rcases terminates_or_diverges dns garbage t with h | h
  · exact h
  · obtain ⟨w, hw⟩ := h (t.length + 2)
    refine absurd hw ?_
    unfold parseLogger
    rw [hb]
    simp only [Bool.false_eq_true, if_false, Nat.zero_add]
    exact loggerLoop_nosub t h0 w _ 0 _ (Nat.zero_le _) hs (by omega)

/-- **C37**, partial.  With macros and variables too, parsing ends, except where a macro or variable is
defined as itself: then, and only then, the replacement loop does not end. -/
theorem C37_macros_partial (dns : List Char → Option Int) (garbage : Int) (t : List Char) (h0 : '\x00' ∉ t)
    (hb : hasBom t = false) :
    Terminates dns garbage t ∨
      ∀ fuel, 2 * t.length + 3 < fuel → ∃ key, parseLogger dns garbage fuel t = .running (some (key, key)) := by
  rcases terminates_or_diverges dns garbage t with h | h
  · exact Or.inl h
  · right
    intro fuel hf
    obtain ⟨w, hw⟩ := h fuel
    have ha := parseLogger_lines (dns := dns) (garbage := garbage) h0 hb hf
    rw [hw] at ha
    cases w with
    | none => cases hl : linesLogger dns (significant t).length (significant t) { shmKey := garbage } with
      | none => rw [hl] at ha; exact False.elim ha
      | some g => rw [hl] at ha; exact False.elim ha
    | some x =>
      obtain ⟨k, v⟩ := x
      have : k = v := by
        cases hl : linesLogger dns (significant t).length (significant t) { shmKey := garbage } with
        | none => rw [hl] at ha; exact ha
        | some g => rw [hl] at ha; exact ha
      exact ⟨k, by rw [hw, this]⟩

/-- A text with a byte order mark is never accepted: the end of the text is computed as three characters
behind the real end (1405-1414). -/
theorem C37_bom_never_accepted (dns : List Char → Option Int) (garbage : Int) (t : List Char) (hb : hasBom t = true)
    (g : Config) : ¬ Accepts dns garbage t g := by
  rintro ⟨fuel, h⟩
  have hlen : 3 ≤ t.length := by
    unfold hasBom at hb
    obtain ⟨r, hr⟩ := isPrefixOf_iff.mp hb
    rw [hr]; simp
  unfold parseLogger at h
  rw [hb] at h
  simp only [if_true] at h
  exact loggerLoop_short fuel t 3 _ g (by omega) hlen h

/-- A file that consists of a byte order mark only: the parser never returns. -/
theorem C37_bom_counterexample (dns : List Char → Option Int) (garbage : Int) :
    Diverges dns garbage ['\xef', '\xbb', '\xbf'] := by
  have hl : lex ['\xef', '\xbb', '\xbf'] 6 3 = .ok ({ chars := 1 }, 3) := by decide
  have : ∀ fuel g, loggerLoop dns 6 fuel ['\xef', '\xbb', '\xbf'] 3 g = .running none := by
    intro fuel
    induction fuel with
    | zero => intro g; rfl
    | succ fuel ih =>
      intro g
      unfold loggerLoop
      rw [hl]
      simp only [PRes.bind]
      rw [if_neg (by omega)]
      exact ih g
  intro fuel
  exact ⟨none, this fuel _⟩

/-- A NUL character in the text: the parser never returns. -/
theorem C37_nul_counterexample (dns : List Char → Option Int) (garbage : Int) :
    Diverges dns garbage "hot_update: true\n\x00\n".toList := by
  have hb : hasBom "hot_update: true\n\x00\n".toList = false := by decide
  have hlen : "hot_update: true\n\x00\n".toList.length = 19 := by decide
  have hl : lex "hot_update: true\n\x00\n".toList 19 17 = .ok ({ chars := 1 }, 17) := by decide
  have hl0 : ∃ ln, lex "hot_update: true\n\x00\n".toList 19 0 = .ok (ln, 17) ∧ ln.key = some .hotUpdate :=
    ⟨{ chars := 17, block := .clean, key := some .hotUpdate, keyEnd := 10, valBegin := 12, valEnd := 16 }, by decide, rfl⟩
  obtain ⟨ln, hl0, hk⟩ := hl0
  have hrun : ∀ fuel g, loggerLoop dns 19 fuel "hot_update: true\n\x00\n".toList 17 g = .running none := by
    intro fuel
    induction fuel with
    | zero => intro g; rfl
    | succ fuel ih =>
      intro g
      unfold loggerLoop
      rw [hl]
      simp only [PRes.bind]
      rw [if_neg (by omega)]
      exact ih g
  intro fuel
  refine ⟨none, ?_⟩
  unfold parseLogger
  rw [hb, hlen]
  simp only [Bool.false_eq_true, if_false, Nat.zero_add]
  cases fuel with
  | zero => rfl
  | succ fuel =>
    unfold loggerLoop
    rw [hl0]
    simp only [PRes.bind, hk]
    rw [if_pos (by omega)]
    exact hrun fuel _

/-- A first line that defines a macro as itself, and an occurrence of it: the parser never returns. -/
theorem self_define {dns : List Char → Option Int} {garbage : Int} {t key : List Char} {ln : Line} {cur o : Nat}
    (hb : hasBom t = false) (hl0 : lex t t.length 0 = .ok (ln, cur)) (hk : ln.key = some .define)
    (hlv : (lineVal t ln).1 = key ++ ' ' :: key) (hkey : key ≠ [] ∧ ' ' ∉ key ∧ ∀ c r, key = c :: r → isBlank c = false)
    (hf1 : find t key ln.valEnd = some o) (hf2 : find t key o = some o)
    (hbo : boundsOk t key.length true true o = true) : Diverges dns garbage t := by
  have htw : (key ++ ' ' :: key).takeWhile (· != ' ') = key := by
    have : ∀ k : List Char, ' ' ∉ k → (k ++ ' ' :: key).takeWhile (· != ' ') = k := by
      intro k
      induction k with
      | nil => intro _; rfl
      | cons c k ih =>
        intro h
        have hc : c ≠ ' ' := fun e => h (e ▸ List.mem_cons_self)
        rw [List.cons_append, List.takeWhile_cons, if_pos (by simpa using hc), ih (fun m => h (List.mem_cons_of_mem _ m))]
    exact this key hkey.2.1
  have hpad : padTo key.length key = key := by unfold padTo; simp
  have hov : overwrite t key o = t := by
    obtain ⟨_, _, ⟨r, h3⟩, _⟩ := find_some hf2
    unfold overwrite
    rw [← List.drop_drop, h3, List.drop_left, List.append_assoc, ← h3, List.take_append_drop]
  have hin : ∀ fuel, inplaceLoop key key true true fuel t ln.valEnd = .running (some (key, key)) := by
    intro fuel
    cases fuel with
    | zero => rfl
    | succ fuel =>
      unfold inplaceLoop
      rw [hf1]
      simp only [hbo, if_true, hov]
      exact inplaceLoop_forever hf2 hbo fuel
  have hmac : ∀ fuel, predefinedMacro fuel t (lineVal t ln).1 ln.valEnd = .running (some (key, key)) := by
    intro fuel
    unfold predefinedMacro
    rw [hlv, if_pos (by simp), htw]
    simp only
    rw [if_neg hkey.1, List.drop_left]
    have : (' ' :: key).dropWhile isBlank = key := by
      rw [List.dropWhile_cons, if_pos (by decide)]
      exact dropWhile_head hkey.2.2
    rw [this]
    unfold predefinedInplace
    rw [if_neg (by omega), hpad]
    exact hin fuel
  intro fuel
  cases fuel with
  | zero => exact ⟨none, rfl⟩
  | succ fuel =>
    refine ⟨some (key, key), ?_⟩
    unfold parseLogger
    rw [hb]
    simp only [Bool.false_eq_true, if_false, Nat.zero_add]
    unfold loggerLoop
    rw [hl0]
    simp only [PRes.bind, hk]
    rw [hmac]

/-- A macro defined as itself, and used: the parser never returns. -/
theorem C37_self_define_counterexample (dns : List Char → Option Int) (garbage : Int) :
    Diverges dns garbage "define: sync sync\n- channel: 0\n  sync: sync\n".toList := by
  refine self_define (key := "sync".toList) (o := 33) (cur := 18)
    (ln := { chars := 18, block := .clean, key := some .define, keyEnd := 6, valBegin := 8, valEnd := 17 })
    (by decide +kernel) (by decide +kernel) rfl (by decide +kernel) ⟨by decide, by decide, ?_⟩ (by decide +kernel)
    (by decide +kernel) (by decide +kernel)
  rintro c r h
  rw [← (List.cons.inj h).1]; decide

/-- A text that meets the conditions of `C37_terminates_partial`. -/
example : '\x00' ∉ "- channel: 0\n".toList ∧ hasBom "- channel: 0\n".toList = false ∧
    NoSub (significant "- channel: 0\n".toList) ∧
    parseLogger (fun _ => none) 0 40 "- channel: 0\n".toList = .ok { channels := [{}] } := by
  refine ⟨by decide, by decide, ?_, by decide +kernel⟩
  have : significant "- channel: 0\n".toList = ["- channel: 0".toList] := by decide
  rw [this]
  intro l hl b v
  rw [List.mem_singleton.mp hl]
  have hr : readLine "- channel: 0".toList = some (some (0, .channel, ['0'])) := by decide
  rw [hr]
  exact ⟨nofun, nofun⟩

/-! ## C38 -/

/-- **C38.** Whatever text is accepted, the configuration is well-formed: at most two channels, at most 20
devices each, all numbered from 0 on, the texts fit with their NUL into their arrays, priorities are
priorities and switches are 0 or 1. -/
theorem C38_well_formed (dns : List Char → Option Int) (garbage : Int) (t : List Char) (g : Config)
    (h : Accepts dns garbage t g) :
    g.channels.length ≤ 2 ∧ (∀ i c, g.channels[i]? = some c → GoodChannel i c) ∧
      g.name.length < 250 ∧ g.desc.length < 50 := by
  obtain ⟨fuel, h⟩ := h
  refine loggerLoop_inv
    (fun g => g.channels.length ≤ 2 ∧ (∀ i c, g.channels[i]? = some c → GoodChannel i c) ∧
      g.name.length < 250 ∧ g.desc.length < 50)
    (fun i c => ∀ n : Nat, i = n → GoodChannel n c) ?_ ?_ ?_ ?_ ?_ ?_ _ fuel t _ _ g ?_ h
  · rintro i t en indent fuel cur c' e hc n rfl
    exact parseChannel_inv (GoodChannel n) (fun i d => ∀ m : Nat, i = m → GoodDevice m d)
      (fun k v tail c c' => goodChannel_field n k v tail c c')
      (fun k v tail i d d' hd hf m hm => goodDevice_field m k v tail d d' (hd m hm) hf)
      (fun i m hm => by rw [hm]; exact goodDevice_init m)
      (fun c d hc hl hd => goodChannel_add n c d hc hl (hd _ rfl)) t en indent fuel cur _ c' e (goodChannel_init n) hc
  · rintro g c ⟨h1, h2, h3, h4⟩ hl hc
    refine ⟨?_, ?_, h3, h4⟩
    · simp only [List.length_append, List.length_singleton]
      unfold MAX_CHANNEL_SIZE at hl; omega
    · intro j c' hj
      simp only [List.getElem?_append] at hj
      split at hj
      · exact h2 j c' hj
      · cases hj' : j - g.channels.length with
        | zero =>
          rw [hj'] at hj
          have : j = g.channels.length := by omega
          rw [this, ← Option.some.inj hj]
          exact hc _ rfl
        | succ n => rw [hj'] at hj; exact absurd hj (by simp)
  · rintro g b ⟨h1, h2, h3, h4⟩; exact ⟨h1, h2, h3, h4⟩
  · rintro g v ⟨h1, h2, h3, h4⟩
    refine ⟨h1, h2, ?_, h4⟩
    show (parseString LOGGER_NAME_LEN v).length < 250
    unfold parseString LOGGER_NAME_LEN; rw [List.length_take]; omega
  · rintro g v ⟨h1, h2, h3, h4⟩
    refine ⟨h1, h2, h3, ?_⟩
    show (parseString LOGGER_DESC_LEN v).length < 50
    unfold parseString LOGGER_DESC_LEN; rw [List.length_take]; omega
  · rintro g v ⟨h1, h2, h3, h4⟩; exact ⟨h1, h2, h3, h4⟩
  · exact ⟨by simp, by simp, by simp, by simp⟩

/-- **C38.** No line of an accepted text sets an output type to null. -/
theorem C38_out_type (dns : List Char → Option Int) (v tail : List Char) (d d' : Device)
    (h : devField dns .outType v tail d = .ok d') : d'.outType ≠ .null := by
  unfold devField at h
  simp only at h
  split at h
  · exact absurd h (by nofun)
  · rename_i hne
    rw [← PRes.ok.inj h]; exact hne

example : Accepts (fun _ => none) 7 "- channel: 0\n - device: 0\n  disable: false\n  out_type: file\n  file: a\n - device: 1\n- channel: 1\n".toList
    { channels := [{ devices := [{ outType := .file, file := ['a'], cfg := { able := 1 } }, { id := 1 }] }, { id := 1 }],
      shmKey := 7 } := ⟨200, by decide +kernel⟩

/-! ## C40 -/

/-- **C40**, partial.  Texts with the same significant lines give the same configuration.  Two exceptions:
the configuration must have a channel, and the other text must not use a macro that is defined as itself
(it may do so in a comment).  Both are needed, see below. -/
theorem C40_irrelevant_partial (dns : List Char → Option Int) (garbage : Int) (t t' : List Char) (g : Config)
    (h0 : '\x00' ∉ t) (h0' : '\x00' ∉ t') (hb' : hasBom t' = false)
    (hsame : significant t = significant t') (hg : g.channels ≠ []) (h : Accepts dns garbage t g) :
    Accepts dns garbage t' g ∨
      ∀ fuel, 2 * t'.length + 3 < fuel → ∃ key, parseLogger dns garbage fuel t' = .running (some (key, key)) := by
  have hb : hasBom t = false := by
    cases hb : hasBom t with
    | false => rfl
    | true => exact absurd h (C37_bom_never_accepted dns garbage t hb g)
  obtain ⟨fuel, h⟩ := h
  have hlarge : parseLogger dns garbage (max fuel (2 * t.length + 4)) t = .ok g := by
    rw [parseLogger_stable (Nat.le_max_left _ _) (by rw [h]; exact nofun), h]
  have ha := parseLogger_lines (dns := dns) (garbage := garbage) h0 hb
    (by omega : 2 * t.length + 3 < max fuel (2 * t.length + 4))
  rw [hlarge] at ha
  have hl : linesLogger dns (significant t').length (significant t') { shmKey := garbage } = some g := by
    rw [← hsame]
    cases hx : linesLogger dns (significant t).length (significant t) { shmKey := garbage } with
    | none => rw [hx] at ha; exact False.elim ha
    | some g' => rw [hx] at ha; rw [show g = g' from ha]
  by_cases hex : ∃ fuel', 2 * t'.length + 3 < fuel' ∧ ∀ key, parseLogger dns garbage fuel' t' ≠ .running (some (key, key))
  · left
    obtain ⟨fuel', hf', hne⟩ := hex
    refine ⟨fuel', ?_⟩
    have ha' := parseLogger_lines (dns := dns) (garbage := garbage) h0' hb' hf'
    rw [hl] at ha'
    cases hp : parseLogger dns garbage fuel' t' with
    | ok g' => rw [hp] at ha'; rw [show g' = g from ha']
    | err e => rw [hp] at ha'; exact absurd ha'.2 hg
    | ub => rw [hp] at ha'; exact False.elim ha'
    | running w =>
      rw [hp] at ha'
      cases w with
      | none => exact False.elim ha'
      | some x =>
        obtain ⟨k, v⟩ := x
        have : k = v := ha'
        subst this
        exact absurd hp (hne k)
  · right
    intro fuel' hf'
    apply Classical.byContradiction
    intro hn
    exact hex ⟨fuel', hf', fun key hk => hn ⟨key, hk⟩⟩

/-- **C40.** Without macros and variables, what the lines say is all that matters: indentation, key and
value (so blanks at the end of lines do not matter either). -/
theorem C40_reading (dns : List Char → Option Int) (garbage : Int) (t t' : List Char) (g : Config)
    (h0 : '\x00' ∉ t) (h0' : '\x00' ∉ t') (hb' : hasBom t' = false) (hns : NoSub (significant t))
    (hsame : (significant t).map readLine = (significant t').map readLine) (hg : g.channels ≠ [])
    (h : Accepts dns garbage t g) : Accepts dns garbage t' g := by
  have hb : hasBom t = false := by
    cases hb : hasBom t with
    | false => rfl
    | true => exact absurd h (C37_bom_never_accepted dns garbage t hb g)
  have hns' : NoSub (significant t') := by
    intro l' hl' b v
    have hm : readLine l' ∈ (significant t').map readLine := List.mem_map_of_mem hl'
    rw [← hsame] at hm
    obtain ⟨l, hl, he⟩ := List.mem_map.mp hm
    rw [← he]
    exact hns l hl b v
  obtain ⟨fuel, h⟩ := h
  have hlarge : parseLogger dns garbage (max fuel (2 * t.length + 4)) t = .ok g := by
    rw [parseLogger_stable (Nat.le_max_left _ _) (by rw [h]; exact nofun), h]
  have ha := parseLogger_lines (dns := dns) (garbage := garbage) h0 hb
    (by omega : 2 * t.length + 3 < max fuel (2 * t.length + 4))
  rw [hlarge] at ha
  have hl : linesLogger dns (significant t').length (significant t') { shmKey := garbage } = some g := by
    rw [← same_length hsame, ← linesLogger_same _ _ _ _ hsame hns]
    cases hx : linesLogger dns (significant t).length (significant t) { shmKey := garbage } with
    | none => rw [hx] at ha; exact False.elim ha
    | some g' => rw [hx] at ha; rw [show g = g' from ha]
  obtain ⟨fuel', r, hne, hr⟩ := C37_terminates_partial dns garbage t' h0' hb' hns'
  refine ⟨max fuel' (2 * t'.length + 4), ?_⟩
  have hr' := hr _ (Nat.le_max_left fuel' (2 * t'.length + 4))
  have ha' := parseLogger_lines (dns := dns) (garbage := garbage) h0' hb'
    (by omega : 2 * t'.length + 3 < max fuel' (2 * t'.length + 4))
  rw [hl] at ha'
  rw [hr'] at ha' ⊢
  cases r with
  | ok g' => rw [show g' = g from ha']
  | err e => exact absurd ha'.2 hg
  | ub => exact False.elim ha'
  | running w => exact absurd rfl (hne w)

/-- Blanks at the end of a line do not matter for what it says. -/
theorem C40_trailing_blanks (l b : List Char) (h : Blanks b) : readLine (l ++ b) = readLine l := by
  apply readLine_trailing
  intro c hc
  unfold isBlank
  rcases h c hc with rfl | rfl | rfl | rfl <;> decide

/-- Inserting a line of blanks and comment leaves the significant lines as they are. -/
theorem C40_insert_line (a b l : List Char) (nl nl' : Char) (hnl : nl = '\r' ∨ nl = '\n') (hnl' : nl' = '\r' ∨ nl' = '\n')
    (hl : ∀ c ∈ l, c ≠ '\r' ∧ c ≠ '\n') (hb : blankLine (stripComment l) = true) :
    significant (a ++ nl :: (l ++ nl' :: b)) = significant (a ++ nl :: b) := by
  rw [significant_split hnl, significant_split hnl, significant_split hnl', significant_plain hl]
  have : single (cut l) = [] := if_pos hb
  rw [this, List.nil_append]

/-- Appending a comment to a line leaves the significant lines as they are. -/
theorem C40_append_comment (a b l c : List Char) (nl nl' : Char) (hnl : nl = '\r' ∨ nl = '\n')
    (hnl' : nl' = '\r' ∨ nl' = '\n') (hl : ∀ x ∈ l, x ≠ '\r' ∧ x ≠ '\n') (hc : ∀ x ∈ c, x ≠ '\r' ∧ x ≠ '\n') :
    significant (a ++ nl :: ((l ++ '#' :: c) ++ nl' :: b)) = significant (a ++ nl :: (l ++ nl' :: b)) := by
  rw [significant_split hnl, significant_split hnl, significant_split hnl', significant_split hnl',
    significant_plain hl, significant_plain (p := l ++ '#' :: c)]
  · congr 3
    unfold cut
    rcases hash_split l with h | ⟨p, q, rfl, hp⟩
    · rw [takeWhile_hash h, takeWhile_nohash h]
    · rw [List.append_assoc, List.cons_append, takeWhile_hash hp, takeWhile_hash hp]
  · intro x hx
    rcases List.mem_append.mp hx with h | h
    · exact hl x h
    · rcases List.mem_cons.mp h with rfl | h
      · decide
      · exact hc x h

/-- Line feeds can be replaced by carriage return and line feed. -/
theorem C40_crlf (t : List Char) : significant (crlf t) = significant t := by
  have hsplit : ∀ (n : Nat) (t : List Char), t.length ≤ n → significant (crlf t) = significant t := by
    intro n
    induction n with
    | zero => intro t h; rw [List.eq_nil_of_length_eq_zero (by omega : t.length = 0)]; rfl
    | succ n ih =>
      intro t h
      by_cases hm : '\n' ∈ t
      · obtain ⟨a, b, rfl⟩ := List.append_of_mem hm
        simp only [List.length_append, List.length_cons] at h
        have : crlf (a ++ '\n' :: b) = crlf a ++ '\r' :: ([] ++ '\n' :: crlf b) := by
          unfold crlf
          rw [List.flatMap_append, List.flatMap_cons, if_pos rfl]; rfl
        rw [this, significant_split (Or.inl rfl), significant_split (Or.inr rfl), significant_split (Or.inr rfl),
          ih a (by omega), ih b (by omega)]
        rfl
      · have : crlf t = t := by
          unfold crlf
          clear h
          induction t with
          | nil => rfl
          | cons c t ih =>
            have hc : c ≠ '\n' := fun e => hm (e ▸ List.mem_cons_self)
            rw [List.flatMap_cons, if_neg hc, ih (fun h => hm (List.mem_cons_of_mem _ h))]
            rfl
        rw [this]
  exact hsplit _ t (Nat.le_refl _)

/-- Texts with the same significant lines, one is refused, the other is accepted (without any channel): the
last line of the first is not a comment. -/
theorem C40_no_channel_counterexample (dns : List Char → Option Int) (garbage : Int) :
    significant "hot_update: true\n".toList = significant "hot_update: true\n#\n".toList ∧
    (∀ g, ¬ Accepts dns garbage "hot_update: true\n".toList g) ∧
    Accepts dns garbage "hot_update: true\n#\n".toList { hotUpdate := true, shmKey := garbage } := by
  refine ⟨by decide +kernel, ?_, ?_⟩
  · rintro g ⟨fuel, h⟩
    have he : parseLogger dns garbage 2 "hot_update: true\n".toList = .err .invalidChannelSize := rfl
    rcases Nat.le_total fuel 2 with hf | hf
    · rw [parseLogger_stable hf (by rw [h]; exact nofun), h] at he
      exact absurd he (by nofun)
    · rw [parseLogger_stable hf (by rw [he]; exact nofun), he] at h
      exact absurd h (by nofun)
  · exact ⟨5, rfl⟩

/-- The conditions of `C40_irrelevant_partial` for a text with comments and other line ends. -/
example :
    significant "- channel: 0\n - device: 0\n".toList =
      significant "# a\r\n- channel: 0# b\r\n\t \r\n - device: 0\r\n#\r\n".toList ∧
    Accepts (fun _ => none) 0 "- channel: 0\n - device: 0\n".toList { channels := [{ devices := [{}] }] } :=
  ⟨by decide +kernel, 100, by decide +kernel⟩

/-! ## C42 -/

/-- **C42.** A successful replacement keeps the length of the text and everything before its definition,
for every key and value; a value longer than the name is refused. -/
theorem C42_in_place (fuel : Nat) (t : List Char) (off : Nat) (key val : List Char) (pre suf : Bool) (hk : key ≠ [])
    (hoff : off ≤ t.length) :
    (∀ t', predefinedInplace fuel t off key val pre suf = .ok t' →
      t'.length = t.length ∧ t'.take off = t.take off) ∧
    (val.length > key.length → predefinedInplace fuel t off key val pre suf = .err .definedTargetTooLong) := by
  refine ⟨?_, fun h => by unfold predefinedInplace; rw [if_pos h]⟩
  intro t' h
  refine ⟨predefinedInplace_length h, ?_⟩
  have hst : ∀ d, predefinedInplace (fuel + d) t off key val pre suf = .ok t' := by
    intro d
    induction d with
    | zero => exact h
    | succ d ih => rw [← Nat.add_assoc, predefinedInplace_stable _ _ _ _ _ _ _ (by rw [ih]; exact nofun), ih]
  rcases predefinedInplace_cases (val := val) (pre := pre) (suf := suf) (fuel := fuel + (t.length + 3)) hk hoff (by omega)
    with ⟨_, h2⟩ | ⟨_, _, h2⟩ | ⟨_, h2⟩
  · rw [hst] at h2; exact absurd h2 (by nofun)
  · rw [hst] at h2; exact absurd h2 (by nofun)
  · rw [hst] at h2
    rw [PRes.ok.inj h2, List.take_left']
    rw [List.length_take]; omega

/-- **C42.** `define: KEY VALUE` replaces exactly the names `KEY` behind the definition, whole names only, by
the value filled up with blanks.  `valEnd` is the end of the value; what follows there is no name
character (a line end, a blank or a closing quote). -/
theorem C42_define (fuel : Nat) (t key val : List Char) (valEnd : Nat) (hk : key ≠ [])
    (hn : ∀ c ∈ key, nameChar c = true) (hl : val.length ≤ key.length)
    (hne : val ++ List.replicate (key.length - val.length) ' ' ≠ key) (hoff : valEnd ≤ t.length)
    (hend : ∀ c r, t.drop valEnd = c :: r → nameChar c = false) (hb : ∀ c r, val = c :: r → isBlank c = false)
    (hf : t.length + 2 < fuel) :
    predefinedMacro fuel t (key ++ ' ' :: val) valEnd =
      .ok (t.take valEnd ++
        replaceName key (val ++ List.replicate (key.length - val.length) ' ') (t.drop valEnd)) := by
  have hsp : ' ' ∉ key := fun h => absurd (hn _ h) (by decide)
  have htw : (key ++ ' ' :: val).takeWhile (· != ' ') = key := by
    have : ∀ k : List Char, ' ' ∉ k → (k ++ ' ' :: val).takeWhile (· != ' ') = k := by
      intro k
      induction k with
      | nil => intro _; rfl
      | cons c k ih =>
        intro h
        have hc : c ≠ ' ' := fun e => h (e ▸ List.mem_cons_self)
        rw [List.cons_append, List.takeWhile_cons, if_pos (by simpa using hc), ih (fun m => h (List.mem_cons_of_mem _ m))]
    exact this key hsp
  unfold predefinedMacro
  rw [if_pos (by simp), htw]
  simp only
  rw [if_neg hk, List.drop_left]
  have : (' ' :: val).dropWhile isBlank = val := by
    rw [List.dropWhile_cons, if_pos (by decide)]
    exact dropWhile_head hb
  rw [this]
  have hn' : ∀ c ∈ key, isValidName c = true := fun c hc => by rw [← nameChar_eq]; exact hn c hc
  rcases predefinedInplace_cases (val := val) (pre := true) (suf := true) hk hoff hf with ⟨h1, _⟩ | ⟨_, h1, _⟩ | ⟨_, h2⟩
  · omega
  · exact absurd h1 hne
  · rw [h2]
    congr 2
    exact rep_names hk (padTo_length hl) hne hn' _ _ _ (Nat.le_refl _)
      (Or.inr fun c r h => by rw [← nameChar_eq]; exact hend c r h)

example : predefinedMacro 100 "define: FILE ab\n FILE FILE_ xFILE FILE-FILE\n".toList "FILE ab".toList 15 =
    .ok "define: FILE ab\n ab   FILE_ xFILE ab  -ab  \n".toList := by decide +kernel

/-- **C42.** An assignment `NAME=VALUE` of a variable replaces, behind the definition, first all `${NAME}`
from left to right, then all `$NAME` that do not go on with a name character, by the value filled up with
blanks. -/
theorem C42_var (fuel : Nat) (t : List Char) (x : Char) (name val : List Char) (valEnd : Nat)
    (hs : nameStart x = true) (hne : '=' ∉ x :: name) (hnb : dropBack (x :: name) = x :: name)
    (hvb : dropBack val = val) (hl : val.length ≤ name.length + 2) (hd : '$' ∉ val) (hoff : valEnd ≤ t.length)
    (hf : t.length + 2 < fuel) :
    varItem fuel t (x :: name ++ '=' :: val) valEnd =
      let pad (n : Nat) := val ++ List.replicate (n - val.length) ' '
      .ok (t.take valEnd ++
        replaceOcc ('$' :: x :: name) (pad (name.length + 2)) true (t.length - valEnd)
          (replaceOcc ('$' :: '{' :: x :: name ++ ['}']) (pad (name.length + 4)) false (t.length - valEnd)
            (t.drop valEnd))) := by
  have hx : isValidNameFirst x = true := by rw [← nameStart_eq]; exact hs
  have htw : (x :: name ++ '=' :: val).takeWhile (· != '=') = x :: name ∧
      (x :: name ++ '=' :: val).dropWhile (· != '=') = '=' :: val := by
    have : ∀ k : List Char, '=' ∉ k → (k ++ '=' :: val).takeWhile (· != '=') = k ∧
        (k ++ '=' :: val).dropWhile (· != '=') = '=' :: val := by
      intro k
      induction k with
      | nil => intro _; exact ⟨rfl, rfl⟩
      | cons c k ih =>
        intro h
        have hc : c ≠ '=' := fun e => h (e ▸ List.mem_cons_self)
        obtain ⟨h1, h2⟩ := ih (fun m => h (List.mem_cons_of_mem _ m))
        rw [List.cons_append, List.takeWhile_cons, List.dropWhile_cons, if_pos (by simpa using hc), h1, h2,
          if_pos (by simpa using hc)]
        exact ⟨rfl, rfl⟩
    exact this _ hne
  have hxb : isBlank x = false := by
    cases h : isBlank x with
    | false => rfl
    | true =>
      exfalso
      unfold isBlank at h
      simp only [Bool.or_eq_true, beq_iff_eq] at h
      rcases h with ((rfl | rfl) | rfl) | rfl <;> exact absurd hx (by decide)
  unfold varItem
  rw [if_neg (by simp), htw.1, htw.2, hnb]
  simp only
  rw [if_neg (by rw [hx]; decide), hxb]
  simp only [Bool.false_eq_true, if_false, List.drop_succ_cons, List.drop_zero]
  rw [hvb]
  have hk1 : ("${".toList ++ x :: name ++ "}".toList) = '$' :: '{' :: x :: name ++ ['}'] := rfl
  have hk2 : ("$".toList ++ x :: name) = '$' :: x :: name := rfl
  have hl1 : ('$' :: '{' :: x :: name ++ ['}']).length = name.length + 4 := by simp
  have hl2 : ('$' :: x :: name).length = name.length + 2 := by simp
  rw [hk1, hk2]
  have hdp : ∀ n, '$' ∉ padTo n val := by
    intro n h
    unfold padTo at h
    rcases List.mem_append.mp h with h | h
    · exact hd h
    · exact absurd (List.eq_of_mem_replicate h) (by decide)
  have step1 : predefinedInplace fuel t valEnd ('$' :: '{' :: x :: name ++ ['}']) val false false =
      .ok (t.take valEnd ++ replaceOcc ('$' :: '{' :: x :: name ++ ['}']) (padTo (name.length + 4) val) false
        (t.length - valEnd) (t.drop valEnd)) := by
    rcases predefinedInplace_cases (key := '$' :: '{' :: x :: name ++ ['}']) (val := val) (pre := false) (suf := false)
        (by simp) hoff hf with ⟨h1, _⟩ | ⟨_, h1, _⟩ | ⟨_, h2⟩
    · rw [hl1] at h1; omega
    · rw [hl1] at h1
      exact absurd (by rw [h1]; simp) (hdp (name.length + 4))
    · rw [h2, hl1]
      congr 2
      exact rep_occ (k := '$') (ks := '{' :: x :: name ++ ['}']) rfl
        (Eq.trans (padTo_length (by omega)) hl1.symm) (hdp _)
        (t.length - valEnd) _ _ (by rw [List.length_drop]; exact Nat.le_refl _)
  rw [step1]
  simp only [PRes.bind]
  obtain ⟨u, eu⟩ : ∃ u, u = replaceOcc ('$' :: '{' :: x :: name ++ ['}']) (padTo (name.length + 4) val) false
        (t.length - valEnd) (t.drop valEnd) := ⟨_, rfl⟩
  have hlen := predefinedInplace_length step1
  rw [← eu] at hlen ⊢
  have htl : (t.take valEnd).length = valEnd := by rw [List.length_take]; omega
  have hul : u.length = t.length - valEnd := by rw [List.length_append, htl] at hlen; omega
  have htake : (t.take valEnd ++ u).take valEnd = t.take valEnd := by rw [List.take_left' htl]
  have hdrop : (t.take valEnd ++ u).drop valEnd = u := by rw [List.drop_left' htl]
  rcases predefinedInplace_cases (t := t.take valEnd ++ u) (off := valEnd) (fuel := fuel) (key := '$' :: x :: name)
      (val := val) (pre := false) (suf := true) (by simp) (by omega) (by omega) with ⟨h1, _⟩ | ⟨_, h1, _⟩ | ⟨_, h2⟩
  · rw [hl2] at h1; omega
  · rw [hl2] at h1
    exact absurd (by rw [h1]; simp) (hdp (name.length + 2))
  · rw [h2, hl2, htake, hdrop]
    rw [rep_occ (k := '$') (ks := x :: name) rfl (by rw [hl2]; exact padTo_length hl) (hdp _)
        (t.length - valEnd) _ _ (by omega)]
    rw [eu]
    rfl

example : varItem 100 "var: id=7\n${id} $id $idx ${idx}\n".toList "id=7".toList 9 =
    .ok "var: id=7\n7     7   $idx ${idx}\n".toList := by decide +kernel

/-- An assignment of a variable whose name does not begin with a letter or the underscore is refused. -/
theorem C42_var_refused (fuel : Nat) (t : List Char) (x : Char) (name val : List Char) (valEnd : Nat)
    (hs : nameStart x = false) (hb : isBlank x = false) (hx : x ≠ '=') :
    varItem fuel t (x :: name ++ '=' :: val) valEnd = .err .illegalVarName := by
  have hx' : isValidNameFirst x = false := by rw [← nameStart_eq]; exact hs
  unfold varItem
  rw [if_neg (by simp)]
  simp only [List.cons_append]
  rw [List.takeWhile_cons, if_pos (by simpa using hx)]
  obtain ⟨r, hr⟩ : ∃ r, r = (name ++ '=' :: val).takeWhile (· != '=') := ⟨_, rfl⟩
  rw [← hr]
  have : ∃ q, dropBack (x :: r) = x :: q := by
    have key : ∀ u : List Char, ∃ v, (u ++ [x]).dropWhile isBlank = v ++ [x] := by
      intro u
      induction u with
      | nil => exact ⟨[], by rw [List.nil_append, List.dropWhile_cons, hb]; rfl⟩
      | cons c u ih =>
        rw [List.cons_append, List.dropWhile_cons]
        split
        · exact ih
        · exact ⟨c :: u, rfl⟩
    obtain ⟨v, hv⟩ := key r.reverse
    refine ⟨v.reverse, ?_⟩
    unfold dropBack
    rw [List.reverse_cons, hv]
    simp
  obtain ⟨q, hq⟩ := this
  rw [hq]
  simp only
  rw [if_pos hx']

example : varItem 100 "var: 1d=7\n".toList "1d=7".toList 9 = .err .illegalVarName :=
  C42_var_refused 100 _ '1' ['d'] ['7'] 9 (by decide) (by decide) (by decide)

/-! ## C44 -/

/-- **C44**, partial.  The content of `shm_key_` before the call is the only thing besides the text (and the
resolver) that can matter, and it can only end up as the key itself: either it does not matter at all, or
it is handed through. -/
theorem C44_only_the_key_partial (dns : List Char → Option Int) (fuel : Nat) (t : List Char) :
    (∀ garbage, parseLogger dns garbage fuel t = parseLogger dns 0 fuel t) ∨
    (∀ garbage, parseLogger dns garbage fuel t = (parseLogger dns 0 fuel t).mapCfg fun g => { g with shmKey := garbage }) := by
  exact loggerLoop_keyWise fuel t _ {}

private theorem key_any {dns : List Char → Option Int} {fuel : Nat} {t : List Char} {g g1 : Config} (garbage : Int)
    (hg1 : g1 = { g with shmKey := 1 }) (h0 : parseLogger dns 0 fuel t = .ok g) (h1 : parseLogger dns 1 fuel t = .ok g1)
    (hk : g.shmKey = 0 := by rfl) :
    parseLogger dns garbage fuel t = .ok { g with shmKey := garbage } := by
  rcases C44_only_the_key_partial dns fuel t with h | h
  · have := h 1
    rw [h0, h1, hg1] at this
    have := congrArg Config.shmKey (PRes.ok.inj this)
    rw [hk] at this
    exact absurd this (by show ¬ (1 : Int) = 0; decide)
  · rw [h garbage, h0]; rfl

/-- Without a `shm_key` line, the configuration has whatever was in memory as its key, although the manual
says that the default is 0. -/
theorem C44_counterexample (garbage : Int) :
    Accepts (fun _ => none) garbage "- channel: 0\n".toList { channels := [{}], shmKey := garbage } :=
  ⟨40, key_any (g := { channels := [{}] }) (g1 := { channels := [{}], shmKey := 1 }) garbage rfl (by decide +kernel)
    (by decide +kernel)⟩

/-! ## C40, continued -/

/-- A comment can make the parser run forever: the macro defined as itself does no harm before. -/
theorem C40_self_define_counterexample (garbage : Int) :
    significant "define: xx xx\n- channel: 0\n".toList = significant "define: xx xx\n- channel: 0\n# xx\n".toList ∧
    Accepts (fun _ => none) garbage "define: xx xx\n- channel: 0\n".toList { channels := [{}], shmKey := garbage } ∧
    Diverges (fun _ => none) garbage "define: xx xx\n- channel: 0\n# xx\n".toList := by
  refine ⟨by decide +kernel, ⟨40, key_any (g := { channels := [{}] }) (g1 := { channels := [{}], shmKey := 1 }) garbage rfl (by decide +kernel) (by decide +kernel)⟩, ?_⟩
  refine self_define (key := "xx".toList) (o := 29) (cur := 14)
    (ln := { chars := 14, block := .clean, key := some .define, keyEnd := 6, valBegin := 8, valEnd := 13 })
    (by decide +kernel) (by decide +kernel) rfl (by decide +kernel) ⟨by decide, by decide, ?_⟩ (by decide +kernel)
    (by decide +kernel) (by decide +kernel)
  rintro c r h
  rw [← (List.cons.inj h).1]; decide

end FNLog
