import Verif.Model.Parse

/-! # `PredefinedInplace` as a scan over the text -/

namespace FNLog

/-- Is the character at this place of the rest of the text one of a name? -/
def nameAt (cs : List Char) (n : Nat) : Bool := ((cs[n]?).map isValidName).getD false

/-- Is the key replaced at the beginning of `cs`?  `p`: the character before is one of a name. -/
def hit (key : List Char) (pre suf p : Bool) (cs : List Char) : Bool :=
  key.isPrefixOf cs && !(pre && p) && !(suf && nameAt cs key.length)

/-- Scan over `cs`, at most `n` characters: replace where the key is, go on with the next character. -/
def repN (key val : List Char) (pre suf : Bool) : Nat → Bool → List Char → List Char
  | 0, _, cs => cs
  | n + 1, p, cs =>
    match (if hit key pre suf p cs then val ++ cs.drop key.length else cs) with
    | [] => []
    | d :: ds => d :: repN key val pre suf n (isValidName d) ds

/-- The scan over the whole of `cs`. -/
def rep (key val : List Char) (pre suf p : Bool) (cs : List Char) : List Char :=
  repN key val pre suf cs.length p cs

section
variable {key val : List Char} {pre suf : Bool}

theorem isPrefixOf_iff {key cs : List Char} : key.isPrefixOf cs = true ↔ ∃ r, cs = key ++ r := by
  rw [List.isPrefixOf_iff_prefix]
  exact ⟨fun ⟨r, h⟩ => ⟨r, h.symm⟩, fun ⟨r, h⟩ => ⟨r, h.symm⟩⟩

theorem hit_prefix {p : Bool} {cs : List Char} (h : hit key pre suf p cs = true) : ∃ r, cs = key ++ r := by
  unfold hit at h
  simp only [Bool.and_eq_true] at h
  exact isPrefixOf_iff.mp h.1.1

theorem hit_length {p : Bool} {cs : List Char} (h : hit key pre suf p cs = true) : key.length ≤ cs.length := by
  obtain ⟨r, rfl⟩ := hit_prefix h
  simp

theorem rep_nil (p : Bool) : rep key val pre suf p [] = [] := rfl

theorem rep_no {p : Bool} {c : Char} {cs : List Char} (h : hit key pre suf p (c :: cs) = false) :
    rep key val pre suf p (c :: cs) = c :: rep key val pre suf (isValidName c) cs := by
  unfold rep
  simp only [List.length_cons, repN, h, Bool.false_eq_true, if_false]

theorem not_hit_val (hl : val.length = key.length) (hne : val ≠ key) (p : Bool) (r : List Char) :
    hit key pre suf p (val ++ r) = false := by
  cases h : hit key pre suf p (val ++ r) with
  | false => rfl
  | true =>
    obtain ⟨r', h'⟩ := hit_prefix h
    exact absurd (List.append_inj h' hl).1 hne

theorem rep_yes (hl : val.length = key.length) (hne : val ≠ key) {p : Bool} {cs : List Char}
    (h : hit key pre suf p cs = true) :
    rep key val pre suf p cs = rep key val pre suf p (val ++ cs.drop key.length) := by
  have hlen := hit_length h
  have hlen' : (val ++ cs.drop key.length).length = cs.length := by
    simp only [List.length_append, List.length_drop]; omega
  unfold rep
  rw [hlen']
  cases n : cs.length with
  | zero =>
    exfalso
    have hk : key = [] := List.eq_nil_of_length_eq_zero (by omega)
    have hv : val = [] := List.eq_nil_of_length_eq_zero (by omega)
    exact hne (by rw [hk, hv])
  | succ n => simp only [repN, h, if_true, not_hit_val hl hne, Bool.false_eq_true, if_false]

theorem repN_length (hl : val.length = key.length) : ∀ n p cs, (repN key val pre suf n p cs).length = cs.length := by
  intro n
  induction n with
  | zero => intro p cs; rfl
  | succ n ih =>
    intro p cs
    unfold repN
    by_cases h : hit key pre suf p cs = true
    · have hlen := hit_length h
      have hlen' : (val ++ cs.drop key.length).length = cs.length := by
        simp only [List.length_append, List.length_drop]; omega
      simp only [h, if_true]
      rw [← hlen']
      cases val ++ cs.drop key.length with
      | nil => rfl
      | cons d ds => simp only [List.length_cons, ih]
    · simp only [h, Bool.false_eq_true, if_false]
      cases cs with
      | nil => rfl
      | cons d ds => simp only [List.length_cons, ih]

theorem rep_length (hl : val.length = key.length) (p : Bool) (cs : List Char) :
    (rep key val pre suf p cs).length = cs.length := repN_length hl _ _ _

theorem repN_mem (x : Char) : ∀ n p cs, x ∈ repN key val pre suf n p cs → x ∈ cs ∨ x ∈ val := by
  intro n
  induction n with
  | zero => intro p cs h; exact Or.inl h
  | succ n ih =>
    intro p cs h
    unfold repN at h
    have hw : ∀ y, y ∈ (if hit key pre suf p cs then val ++ cs.drop key.length else cs) → y ∈ cs ∨ y ∈ val := by
      intro y hy
      split at hy
      · rcases List.mem_append.mp hy with h1 | h1
        · exact Or.inr h1
        · exact Or.inl (List.mem_of_mem_drop h1)
      · exact Or.inl hy
    generalize (if hit key pre suf p cs then val ++ cs.drop key.length else cs) = w at h hw
    cases w with
    | nil => cases h
    | cons d ds =>
      rcases List.mem_cons.mp h with rfl | h
      · exact hw _ List.mem_cons_self
      · rcases ih _ _ h with h | h
        · exact hw _ (List.mem_cons_of_mem _ h)
        · exact Or.inr h

theorem rep_mem {x : Char} {p : Bool} {cs : List Char} (h : x ∈ rep key val pre suf p cs) : x ∈ cs ∨ x ∈ val :=
  repN_mem x _ _ _ h

/-- Without an occurrence the scan changes nothing. -/
theorem rep_skip : ∀ (n : Nat) (p : Bool) (cs : List Char), n ≤ cs.length →
    (∀ j, j < n → ¬ ∃ r, cs.drop j = key ++ r) →
    rep key val pre suf p cs =
      cs.take n ++ rep key val pre suf (if n = 0 then p else nameAt cs (n - 1)) (cs.drop n) := by
  intro n
  induction n with
  | zero => intro p cs _ _; rfl
  | succ n ih =>
    intro p cs hn hj
    cases cs with
    | nil => exact absurd hn (by simp)
    | cons c cs =>
      have h0 : hit key pre suf p (c :: cs) = false := by
        cases h : hit key pre suf p (c :: cs) with
        | false => rfl
        | true => exact absurd (hit_prefix h) (hj 0 (by omega))
      rw [rep_no h0, ih (isValidName c) cs (by simpa using hn) (fun j h => by simpa using hj (j + 1) (by omega))]
      simp only [List.take_succ_cons, List.drop_succ_cons, List.cons_append, Nat.add_sub_cancel,
        Nat.succ_ne_zero, if_false]
      congr 2
      congr 1
      cases n with
      | zero => rfl
      | succ n => simp [nameAt]

/-- At a character that is neither in the key, nor in the value, nor in names, the scan falls apart. -/
theorem rep_split (hl : val.length = key.length) (hk : key ≠ []) {s : Char} (hs : s ∉ key)
    (hn : isValidName s = false) (b : List Char) : ∀ (n : Nat) (a : List Char) (p : Bool), a.length = n →
    rep key val pre suf p (a ++ s :: b) = rep key val pre suf p a ++ s :: rep key val pre suf false b := by
  intro n
  induction n with
  | zero =>
    intro a p ha
    have : a = [] := List.eq_nil_of_length_eq_zero ha
    subst this
    have h0 : hit key pre suf p (s :: b) = false := by
      cases h : hit key pre suf p (s :: b) with
      | false => rfl
      | true =>
        obtain ⟨r, hr⟩ := hit_prefix h
        cases key with
        | nil => exact absurd rfl hk
        | cons k ks =>
          have := (List.cons.inj hr).1
          exact absurd (this ▸ List.mem_cons_self) hs
    rw [List.nil_append, rep_no h0, rep_nil, hn]; rfl
  | succ n ih =>
    intro a p ha
    have hhit : hit key pre suf p (a ++ s :: b) = hit key pre suf p a := by
      have hpre : key.isPrefixOf (a ++ s :: b) = key.isPrefixOf a := by
        rw [Bool.eq_iff_iff, isPrefixOf_iff, isPrefixOf_iff]
        constructor
        · rintro ⟨r, hr⟩
          rcases Nat.lt_or_ge a.length key.length with h | h
          · exfalso
            have h1 := congrArg (fun l => l[a.length]?) hr
            simp only [List.getElem?_append_right (Nat.le_refl _), Nat.sub_self, List.getElem?_cons_zero] at h1
            rw [List.getElem?_append_left h] at h1
            exact hs (List.mem_of_getElem? h1.symm)
          · refine ⟨a.drop key.length, ?_⟩
            have h1 := congrArg (List.take key.length) hr
            rw [List.take_append_of_le_length h, List.take_left] at h1
            conv => lhs; rw [← List.take_append_drop key.length a]
            rw [h1]
        · rintro ⟨r, hr⟩
          exact ⟨r ++ s :: b, by rw [hr, List.append_assoc]⟩
      unfold hit
      rw [hpre]
      by_cases h : key.isPrefixOf a = true
      · obtain ⟨r, rfl⟩ := isPrefixOf_iff.mp h
        have : nameAt (key ++ r ++ s :: b) key.length = nameAt (key ++ r) key.length := by
          unfold nameAt
          rw [List.append_assoc, List.getElem?_append_right (Nat.le_refl _), List.getElem?_append_right (Nat.le_refl _)]
          simp only [Nat.sub_self]
          cases r with
          | nil => simp [hn]
          | cons c r => simp
        rw [this]
      · simp [h]
    unfold rep
    have hlen : (a ++ s :: b).length = n + (b.length + 1) + 1 := by simp; omega
    rw [hlen, ha]
    have hcond : (if hit key pre suf p (a ++ s :: b) then val ++ (a ++ s :: b).drop key.length else a ++ s :: b) =
        (if hit key pre suf p a then val ++ a.drop key.length else a) ++ s :: b := by
      rw [hhit]
      split
      · rename_i h
        rw [List.drop_append_of_le_length (hit_length h), List.append_assoc]
      · rfl
    have hwl : (if hit key pre suf p a then val ++ a.drop key.length else a).length = n + 1 := by
      split
      · rename_i h
        have := hit_length h
        simp only [List.length_append, List.length_drop]; omega
      · exact ha
    rw [show n + (b.length + 1) + 1 = (n + (b.length + 1)) + 1 from rfl]
    obtain ⟨m, hm⟩ : ∃ m, m = n + (b.length + 1) := ⟨_, rfl⟩
    rw [← hm]
    simp only [repN]
    rw [hcond]
    generalize (if hit key pre suf p a then val ++ a.drop key.length else a) = w at hwl
    cases w with
    | nil => exact absurd hwl (by simp)
    | cons d ds =>
      have hds : ds.length = n := by simpa using hwl
      simp only [List.cons_append]
      have := ih ds (isValidName d) hds
      unfold rep at this
      have hl2 : (ds ++ s :: b).length = n + (b.length + 1) := by simp; omega
      rw [hl2, hds, ← hm] at this
      rw [this]

/-- The key does not occur in a text without its first character. -/
theorem rep_id {k : Char} {ks : List Char} (hk : key = k :: ks) :
    ∀ (cs : List Char) (p : Bool), k ∉ cs → rep key val pre suf p cs = cs := by
  intro cs
  induction cs with
  | nil => intro p _; rfl
  | cons c cs ih =>
    intro p h
    have h0 : hit key pre suf p (c :: cs) = false := by
      cases hh : hit key pre suf p (c :: cs) with
      | false => rfl
      | true =>
        obtain ⟨r, hr⟩ := hit_prefix hh
        rw [hk] at hr
        exact absurd ((List.cons.inj hr).1 ▸ List.mem_cons_self) h
    rw [rep_no h0, ih _ (fun hm => h (List.mem_cons_of_mem _ hm))]

/-- Replacing the key by itself changes nothing. -/
theorem rep_self : ∀ (cs : List Char) (p : Bool), rep key key pre suf p cs = cs := by
  intro cs
  induction cs with
  | nil => intro p; rfl
  | cons c cs ih =>
    intro p
    unfold rep
    have : (if hit key pre suf p (c :: cs) then key ++ (c :: cs).drop key.length else c :: cs) = c :: cs := by
      split
      · rename_i h
        obtain ⟨r, hr⟩ := hit_prefix h
        rw [hr, List.drop_left]
      · rfl
    simp only [List.length_cons, repN]
    rw [this]
    exact congrArg (c :: ·) (ih _)

/-! ## The search -/

theorem findFrom_some {cs : List Char} {off o : Nat} (h : findFrom key cs off = some o) :
    off ≤ o ∧ o - off ≤ cs.length ∧ (∃ r, cs.drop (o - off) = key ++ r) ∧
      ∀ j, j < o - off → ¬ ∃ r, cs.drop j = key ++ r := by
  induction cs generalizing off with
  | nil =>
    unfold findFrom at h
    split at h
    · rename_i hk
      obtain rfl := Option.some.inj h
      refine ⟨Nat.le_refl _, by simp, ⟨[], by simp [hk]⟩, fun j hj => by omega⟩
    · exact absurd h (by nofun)
  | cons c cs ih =>
    unfold findFrom at h
    split at h
    · rename_i hp
      obtain rfl := Option.some.inj h
      refine ⟨Nat.le_refl _, by simp, ?_, fun j hj => by omega⟩
      rw [Nat.sub_self]
      exact isPrefixOf_iff.mp hp
    · rename_i hp
      obtain ⟨h1, h2, h3, h4⟩ := ih h
      have he : o - off = o - (off + 1) + 1 := by omega
      refine ⟨by omega, by simp only [List.length_cons]; omega, ?_, ?_⟩
      · rw [he, List.drop_succ_cons]; exact h3
      · intro j hj
        cases j with
        | zero => intro hr; exact hp (isPrefixOf_iff.mpr hr)
        | succ j => rw [List.drop_succ_cons]; exact h4 j (by omega)

theorem findFrom_none {cs : List Char} {off : Nat} (h : findFrom key cs off = none) :
    ∀ j, j ≤ cs.length → ¬ ∃ r, cs.drop j = key ++ r := by
  induction cs generalizing off with
  | nil =>
    unfold findFrom at h
    split at h
    · exact absurd h (by nofun)
    · rename_i hk
      intro j _
      rintro ⟨r, hr⟩
      rw [List.drop_nil] at hr
      exact hk (List.append_eq_nil_iff.mp hr.symm).1
  | cons c cs ih =>
    unfold findFrom at h
    split at h
    · exact absurd h (by nofun)
    · rename_i hp
      intro j hj
      cases j with
      | zero => intro hr; exact hp (isPrefixOf_iff.mpr hr)
      | succ j => rw [List.drop_succ_cons]; exact ih h j (by simpa using hj)

theorem find_some {t : List Char} {off o : Nat} (h : find t key off = some o) :
    off ≤ o ∧ o ≤ t.length ∧ (∃ r, t.drop o = key ++ r) ∧
      ∀ j, off ≤ j → j < o → ¬ ∃ r, t.drop j = key ++ r := by
  unfold find at h
  split at h
  · rename_i hoff
    obtain ⟨h1, h2, h3, h4⟩ := findFrom_some h
    rw [List.length_drop] at h2
    refine ⟨h1, by omega, ?_, ?_⟩
    · rw [List.drop_drop] at h3
      rwa [show off + (o - off) = o by omega] at h3
    · intro j hj1 hj2
      have := h4 (j - off) (by omega)
      rw [List.drop_drop] at this
      rwa [show off + (j - off) = j by omega] at this
  · exact absurd h (by nofun)

theorem find_none {t : List Char} {off : Nat} (hoff : off ≤ t.length) (h : find t key off = none) :
    ∀ j, off ≤ j → j ≤ t.length → ¬ ∃ r, t.drop j = key ++ r := by
  unfold find at h
  rw [if_pos hoff] at h
  intro j hj1 hj2
  have := findFrom_none h (j - off) (by rw [List.length_drop]; omega)
  rw [List.drop_drop] at this
  rwa [show off + (j - off) = j by omega] at this

/-! ## The loop -/

/-- The character before `off` is one of a name. -/
def prevName (t : List Char) (off : Nat) : Bool := off != 0 && nameAt t (off - 1)

theorem boundsOk_eq {t : List Char} {o : Nat} (h : ∃ r, t.drop o = key ++ r) (hl : val.length = key.length) :
    boundsOk t val.length pre suf o = hit key pre suf (prevName t o) (t.drop o) := by
  have hp : key.isPrefixOf (t.drop o) = true := isPrefixOf_iff.mpr h
  unfold boundsOk hit prevName nameAt
  rw [hp, hl, List.getElem?_drop]
  simp only [Bool.true_and, Bool.and_assoc]
  congr 2
  by_cases he : o + key.length = t.length
  · rw [he, List.getElem?_eq_none (Nat.le_refl _)]; simp
  · have : (o + key.length != t.length) = true := by simpa using he
    rw [this, Bool.true_and]

/-- Where the key stands at `off` now, one more round may be needed. -/
def workLeft (key t : List Char) (off : Nat) : Nat :=
  (t.length + 1 - off) + (if key.isPrefixOf (t.drop off) then 1 else 0)

theorem take_overwrite {t : List Char} {o : Nat} (ho : o ≤ t.length) : (overwrite t val o).take o = t.take o := by
  unfold overwrite
  rw [List.append_assoc, List.take_append_of_le_length (by rw [List.length_take]; omega), List.take_take, Nat.min_self]

theorem drop_overwrite {t : List Char} {o : Nat} (ho : o ≤ t.length) :
    (overwrite t val o).drop o = val ++ t.drop (o + val.length) := by
  unfold overwrite
  rw [List.append_assoc]
  have : (t.take o).length = o := by rw [List.length_take]; omega
  have h2 := List.drop_left (l₁ := t.take o) (l₂ := val ++ t.drop (o + val.length))
  rwa [this] at h2

theorem length_overwrite {t : List Char} {o : Nat} (ho : o + val.length ≤ t.length) :
    (overwrite t val o).length = t.length := by
  unfold overwrite
  simp only [List.length_append, List.length_take, List.length_drop]; omega

theorem prevName_congr {t u : List Char} {o : Nat} (h : t.take o = u.take o) : prevName t o = prevName u o := by
  unfold prevName nameAt
  cases o with
  | zero => rfl
  | succ o =>
    have := congrArg (fun l => l[o]?) h
    simp only [List.getElem?_take, Nat.lt_succ_self, if_true] at this
    simp only [Nat.add_sub_cancel, this]

/-- With a value other than the key the loop ends, and does what the scan does. -/
theorem inplaceLoop_rep (hl : val.length = key.length) (hk : key ≠ []) (hne : val ≠ key) :
    ∀ (fuel : Nat) (t : List Char) (off : Nat), off ≤ t.length → workLeft key t off < fuel →
      inplaceLoop key val pre suf fuel t off =
        .ok (t.take off ++ rep key val pre suf (prevName t off) (t.drop off)) := by
  have hkl : 0 < key.length := by
    cases key with
    | nil => exact absurd rfl hk
    | cons _ _ => simp
  intro fuel
  induction fuel with
  | zero => intro t off _ h; omega
  | succ fuel ih =>
    intro t off hoff hf
    unfold inplaceLoop
    cases hfind : find t key off with
    | none =>
      simp only
      congr 1
      rw [rep_skip (t.drop off).length _ _ (Nat.le_refl _)]
      · rw [List.drop_length, rep_nil, List.append_nil, List.take_length, List.take_append_drop]
      · intro j hj
        rw [List.length_drop] at hj
        rw [List.drop_drop]
        exact find_none hoff hfind _ (by omega) (by omega)
    | some o =>
      simp only
      obtain ⟨h1, h2, h3, h4⟩ := find_some hfind
      have hpre : key.isPrefixOf (t.drop o) = true := isPrefixOf_iff.mpr h3
      have hlen : o + key.length ≤ t.length := by
        obtain ⟨r, hr⟩ := h3
        have := congrArg List.length hr
        simp only [List.length_drop, List.length_append] at this; omega
      rw [boundsOk_eq h3 hl]
      have hskip : rep key val pre suf (prevName t off) (t.drop off) =
          (t.drop off).take (o - off) ++ rep key val pre suf (prevName t o) (t.drop o) := by
        rw [rep_skip (o - off) _ _ (by rw [List.length_drop]; omega)
          (fun j hj => by rw [List.drop_drop]; exact h4 _ (by omega) (by omega))]
        rw [List.drop_drop, show off + (o - off) = o by omega]
        congr 2
        by_cases he : o = off
        · subst he; simp
        · rw [if_neg (by omega)]
          unfold prevName nameAt
          rw [List.getElem?_drop, show off + (o - off - 1) = o - 1 by omega]
          simp; omega
      have htake : t.take off ++ (t.drop off).take (o - off) = t.take o := by
        have := List.take_add (l := t) (i := off) (j := o - off)
        rw [show off + (o - off) = o by omega] at this
        exact this.symm
      have hgoal : ∀ x, t.take off ++ ((t.drop off).take (o - off) ++ x) = t.take o ++ x := by
        intro x; rw [← List.append_assoc, htake]
      cases hh : hit key pre suf (prevName t o) (t.drop o) with
      | true =>
        simp only [if_true]
        have hlo := length_overwrite (val := val) (t := t) (o := o) (by omega)
        have hnp : key.isPrefixOf ((overwrite t val o).drop o) = false := by
          rw [drop_overwrite h2]
          cases hx : key.isPrefixOf (val ++ t.drop (o + val.length)) with
          | false => rfl
          | true =>
            obtain ⟨r, hr⟩ := isPrefixOf_iff.mp hx
            exact absurd (List.append_inj hr hl).1 hne
        have hw : workLeft key (overwrite t val o) o < fuel := by
          unfold workLeft at hf ⊢
          rw [hlo, hnp]
          by_cases he : o = off
          · subst he; rw [hpre] at hf; simp only [if_true] at hf
            simp only [Bool.false_eq_true, if_false]; omega
          · simp only [Bool.false_eq_true, if_false]; split at hf <;> omega
        rw [ih _ _ (by omega) hw, take_overwrite h2, drop_overwrite h2, hskip, hgoal,
          prevName_congr (take_overwrite h2), rep_yes hl hne hh, hl, List.drop_drop]
      | false =>
        simp only [Bool.false_eq_true, if_false]
        have hlt : o < t.length := by omega
        have hw : workLeft key t (o + 1) < fuel := by
          unfold workLeft at hf ⊢
          by_cases he : o = off
          · subst he; rw [hpre] at hf; simp only [if_true] at hf
            split <;> omega
          · split <;> (split at hf <;> omega)
        rw [ih _ _ (by omega) hw, hskip, hgoal]
        congr 1
        have hd : t.drop o = t[o] :: t.drop (o + 1) := List.drop_eq_getElem_cons hlt
        rw [hd] at hh
        rw [hd, rep_no hh, List.take_succ_eq_append_getElem hlt, List.append_assoc]
        congr 2
        unfold prevName nameAt
        simp [List.getElem?_eq_getElem hlt]

/-- With the key itself as value the loop ends with the same text or does not end. -/
theorem inplaceLoop_self : ∀ (fuel : Nat) (t : List Char) (off : Nat),
    inplaceLoop key key pre suf fuel t off = .ok t ∨
    inplaceLoop key key pre suf fuel t off = .running (some (key, key)) := by
  intro fuel
  induction fuel with
  | zero => intro t off; exact Or.inr rfl
  | succ fuel ih =>
    intro t off
    unfold inplaceLoop
    cases hfind : find t key off with
    | none => exact Or.inl rfl
    | some o =>
      obtain ⟨h1, h2, ⟨r, h3⟩, h4⟩ := find_some hfind
      have : overwrite t key o = t := by
        unfold overwrite
        rw [← List.drop_drop, h3, List.drop_left, List.append_assoc, ← h3, List.take_append_drop]
      simp only [this]
      split
      · exact ih _ _
      · exact ih _ _

/-- If a replaceable occurrence stands behind `off`, replacing the key by itself never ends. -/
theorem inplaceLoop_forever {t : List Char} {o : Nat} (hfind : find t key o = some o)
    (hb : boundsOk t key.length pre suf o = true) (fuel : Nat) :
    inplaceLoop key key pre suf fuel t o = .running (some (key, key)) := by
  induction fuel with
  | zero => rfl
  | succ fuel ih =>
    unfold inplaceLoop
    obtain ⟨h1, h2, ⟨r, h3⟩, h4⟩ := find_some hfind
    have : overwrite t key o = t := by
      unfold overwrite
      rw [← List.drop_drop, h3, List.drop_left, List.append_assoc, ← h3, List.take_append_drop]
    simp only [hfind, hb, if_true, this]
    exact ih

end

/-- `PredefinedInplace`, all outcomes. -/
theorem predefinedInplace_cases {fuel : Nat} {t key val : List Char} {off : Nat} {pre suf : Bool} (hk : key ≠ [])
    (hoff : off ≤ t.length) (hf : t.length + 2 < fuel) :
    (val.length > key.length ∧ predefinedInplace fuel t off key val pre suf = .err .definedTargetTooLong) ∨
    (val.length ≤ key.length ∧ padTo key.length val = key ∧
      predefinedInplace fuel t off key val pre suf = .running (some (key, key))) ∨
    (val.length ≤ key.length ∧ predefinedInplace fuel t off key val pre suf =
      .ok (t.take off ++ rep key (padTo key.length val) pre suf (prevName t off) (t.drop off))) := by
  unfold predefinedInplace
  by_cases h : val.length > key.length
  · rw [if_pos h]; exact Or.inl ⟨h, rfl⟩
  · rw [if_neg h]
    have hl : (padTo key.length val).length = key.length := by
      unfold padTo; simp only [List.length_append, List.length_replicate]; omega
    by_cases he : padTo key.length val = key
    · rw [he]
      rcases inplaceLoop_self (key := key) (pre := pre) (suf := suf) fuel t off with h1 | h1
      · refine Or.inr (Or.inr ⟨by omega, ?_⟩)
        rw [h1, rep_self, List.take_append_drop]
      · exact Or.inr (Or.inl ⟨by omega, rfl, h1⟩)
    · refine Or.inr (Or.inr ⟨by omega, ?_⟩)
      refine inplaceLoop_rep hl hk he fuel t off hoff ?_
      unfold workLeft
      split <;> omega

end FNLog
