import Verif.Proof.Rollback

/-!
# Proofs about file names
-/

namespace FNLog

open Spec

theorem zeroPadded_eq (w : Nat) (x : Int) : zeroPadded w x = fixedWidth w x := by
  unfold zeroPadded fixedWidth padLeft
  simp only [toStr_eq]
  by_cases h : x < 0
  · rw [if_pos h, if_pos h]
  · rw [if_neg h, if_neg h, show x.natAbs = x.toNat by omega]

theorem dollar_numeral (n : Nat) : '$' ∉ numeral 10 n := fun h => absurd (isDec_numeral n '$' h) (by decide)

theorem dollar_fixedWidth (w : Nat) (x : Int) : '$' ∉ fixedWidth w x := by
  unfold fixedWidth padLeft
  have h : ∀ (k n : Nat), '$' ∉ List.replicate k '0' ++ numeral 10 n := by
    intro k n h
    rcases List.mem_append.mp h with h | h
    · exact absurd (List.mem_replicate.mp h).2 (by decide)
    · exact dollar_numeral n h
  split
  · intro h'
    rcases List.mem_cons.mp h' with e | e
    · exact absurd e (by decide)
    · exact h _ _ e
  · exact h _ _

/-- The placeholders that FmtName knows. -/
def dollars (p : Proc) (t : Tm) : List (List Char × List Char) := (placeholders p t).take 8

theorem prefix_take {k r : List Char} : k.isPrefixOf r = decide (r.take k.length = k) := by
  by_cases h : r.take k.length = k
  · rw [decide_eq_true h]
    rw [List.isPrefixOf_iff_prefix]
    exact List.prefix_iff_eq_take.mpr h.symm
  · rw [decide_eq_false h]
    apply Bool.eq_false_iff.mpr
    intro h'
    rw [List.isPrefixOf_iff_prefix] at h'
    exact h (List.prefix_iff_eq_take.mp h').symm

theorem fmtReplace_eq (p : Proc) (t : Tm) (x : List Char) :
    fmtReplace p t x = ((dollars p t).find? fun kv => kv.1.isPrefixOf ('$' :: x)).map
      fun kv => kv.2 ++ x.drop (kv.1.length - 1) := by
  unfold fmtReplace dollars placeholders
  simp only [zeroPadded_eq]
  split <;> simp [List.find?, prefix_take] <;> (repeat' split) <;> simp_all <;> cases x <;> simp_all

/-! ## One pass -/

theorem subst_cons_some {T : List (List Char × List Char)} {c : Char} {r : List Char} {kv : List Char × List Char}
    (h : (T.find? fun kv => kv.1.isPrefixOf (c :: r)) = some kv) :
    subst T (c :: r) = kv.2 ++ subst T (r.drop (kv.1.length - 1)) := by
  rw [subst, h]

theorem subst_cons_none {T : List (List Char × List Char)} {c : Char} {r : List Char}
    (h : (T.find? fun kv => kv.1.isPrefixOf (c :: r)) = none) : subst T (c :: r) = c :: subst T r := by
  rw [subst, h]

/-- Every key starts with `$`. -/
theorem dollars_key {p : Proc} {t : Tm} {kv : List Char × List Char} (h : kv ∈ dollars p t) :
    ∃ k, kv.1 = '$' :: k ∧ k ≠ [] ∧ '$' ∉ k ∧ '%' ∉ k ∧ ∀ c ∈ k, c.isUpper = true := by
  have : kv.1 ∈ (dollars p t).map Prod.fst := List.mem_map_of_mem h
  have e : (dollars p t).map Prod.fst = ["$PNAME".toList, "$PID".toList, "$YEAR".toList, "$MON".toList,
   "$DAY".toList, "$HOUR".toList, "$MIN".toList, "$SEC".toList] := rfl
  rw [e] at this
  have all : ∀ x ∈ ["$PNAME".toList, "$PID".toList, "$YEAR".toList, "$MON".toList,
   "$DAY".toList, "$HOUR".toList, "$MIN".toList, "$SEC".toList], x.head? = some '$' ∧ x.tail ≠ [] ∧ '$' ∉ x.tail ∧
     '%' ∉ x.tail ∧ ∀ c ∈ x.tail, c.isUpper = true := by decide
  obtain ⟨h1, h2⟩ := all _ this
  cases hk : kv.1 with
  | nil => rw [hk] at h1; exact absurd h1 (by nofun)
  | cons c k =>
    rw [hk] at h1 h2
    exact ⟨k, by rw [Option.some.inj h1], h2⟩

theorem dollars_find {p : Proc} {t : Tm} {s : List Char} {kv : List Char × List Char}
    (h : ((dollars p t).find? fun kv => kv.1.isPrefixOf s) = some kv) :
    kv ∈ dollars p t ∧ ∃ r, s = kv.1 ++ r := by
  refine ⟨List.mem_of_find?_eq_some h, ?_⟩
  have := List.find?_some h
  rw [List.isPrefixOf_iff_prefix] at this
  obtain ⟨r, hr⟩ := this
  exact ⟨r, hr.symm⟩

theorem dollars_none {p : Proc} {t : Tm} {c : Char} {s : List Char} (hc : c ≠ '$') :
    ((dollars p t).find? fun kv => kv.1.isPrefixOf (c :: s)) = none := by
  rw [List.find?_eq_none]
  intro kv hkv h
  obtain ⟨k, hk, _⟩ := dollars_key hkv
  rw [hk, List.isPrefixOf_iff_prefix] at h
  exact hc (List.cons_prefix_cons.mp h).1.symm

theorem subst_skip {p : Proc} {t : Tm} (a b : List Char) (h : '$' ∉ a) :
    subst (dollars p t) (a ++ b) = a ++ subst (dollars p t) b := by
  induction a with
  | nil => rfl
  | cons c a ih =>
    rw [List.cons_append, subst_cons_none (dollars_none fun e => h (by rw [e]; exact List.mem_cons_self)),
      ih fun e => h (List.mem_cons_of_mem _ e)]
    rfl

theorem value_no_dollar {p : Proc} {t : Tm} (hp : '$' ∉ p.name) {kv : List Char × List Char} (h : kv ∈ dollars p t) :
    '$' ∉ kv.2 := by
  have e : dollars p t = [("$PNAME".toList, p.name), ("$PID".toList, fixedWidth 6 p.pid),
   ("$YEAR".toList, fixedWidth 4 (t.year + 1900)), ("$MON".toList, fixedWidth 2 (t.mon + 1)),
   ("$DAY".toList, fixedWidth 2 t.mday), ("$HOUR".toList, fixedWidth 2 t.hour), ("$MIN".toList, fixedWidth 2 t.min),
   ("$SEC".toList, fixedWidth 2 t.sec)] := rfl
  rw [e] at h
  simp only [List.mem_cons, List.not_mem_nil, or_false] at h
  rcases h with rfl | rfl | rfl | rfl | rfl | rfl | rfl | rfl
  · exact hp
  all_goals exact dollar_fixedWidth _ _

theorem takeWhile_no (s : List Char) : '$' ∉ s.takeWhile (· ≠ '$') := by
  intro h
  have := List.all_eq_true.mp (List.all_takeWhile (p := fun c => decide (c ≠ '$')) (l := s)) '$' h
  exact absurd this (by decide)

/-- FmtName's loop is one pass over the text. -/
theorem fmtLoop_eq {p : Proc} {t : Tm} (hp : '$' ∉ p.name) : ∀ (fuel : Nat) (s : List Char), s.count '$' < fuel →
    fmtLoop p t fuel s = some (subst (dollars p t) s) := by
  intro fuel
  induction fuel with
  | zero => intro s h; omega
  | succ fuel ih =>
    intro s hs
    rw [fmtLoop]
    have hno := takeWhile_no s
    have hsp : s = s.takeWhile (· ≠ '$') ++ s.dropWhile (· ≠ '$') := List.takeWhile_append_dropWhile.symm
    obtain ⟨a, ha⟩ : ∃ a, a = s.takeWhile (· ≠ '$') := ⟨_, rfl⟩
    rw [← ha] at hno hsp ⊢
    have hhead : ∀ c r, s.dropWhile (· ≠ '$') = c :: r → c = '$' := by
      intro c r h
      have := List.head?_dropWhile_not (fun c => decide (c ≠ '$')) s
      rw [h] at this
      simpa using this
    cases hd : s.dropWhile (· ≠ '$') with
    | nil =>
      simp only
      rw [hd] at hsp
      have e : subst (dollars p t) s = s := by
        conv => lhs; rw [hsp, subst_skip _ _ hno]
        rw [subst]; exact hsp.symm
      rw [e]
    | cons d q =>
      obtain rfl := hhead d q hd
      rw [hd] at hsp
      cases q with
      | nil =>
        simp only
        have e : subst (dollars p t) s = s := by
          conv => lhs; rw [hsp, subst_skip _ _ hno]
          have hn : ((dollars p t).find? fun kv => kv.1.isPrefixOf ['$']) = none := by
            rw [List.find?_eq_none]
            intro kv hkv h
            obtain ⟨k, hk, hk', _⟩ := dollars_key hkv
            rw [hk, List.isPrefixOf_iff_prefix] at h
            have := (List.cons_prefix_cons.mp h).2
            exact hk' (List.prefix_nil.mp this)
          rw [subst_cons_none hn, subst]; exact hsp.symm
        rw [e]
      | cons c r =>
        simp only
        have hcnt : s.count '$' = 1 + (c :: r).count '$' := by
          conv => lhs; rw [hsp]
          rw [List.count_append, List.count_eq_zero.mpr hno, List.count_cons_self]; omega
        have hsub : subst (dollars p t) s = a ++ subst (dollars p t) ('$' :: c :: r) := by
          conv => lhs; rw [hsp, subst_skip _ _ hno]
        rw [fmtReplace_eq]
        cases hf : (dollars p t).find? fun kv => kv.1.isPrefixOf ('$' :: c :: r) with
        | none =>
          show (fmtLoop p t fuel (c :: r)).map (a ++ '$' :: ·) = _
          rw [ih _ (by omega), hsub, subst_cons_none hf]; rfl
        | some kv =>
          obtain ⟨hm, w, hw⟩ := dollars_find hf
          have hv := value_no_dollar hp hm
          show (fmtLoop p t fuel (kv.2 ++ (c :: r).drop (kv.1.length - 1))).map (a ++ ·) = _
          have hle : ((c :: r).drop (kv.1.length - 1)).count '$' ≤ (c :: r).count '$' :=
            List.Sublist.count_le _ (List.drop_sublist _ _)
          rw [ih _ (by rw [List.count_append, List.count_eq_zero.mpr hv]; omega), hsub, subst_cons_some hf,
            subst_skip _ _ hv]
          rfl

/-! ## `%F` -/

theorem preFmt_other {c d : Char} {r : List Char} (h : ¬ (c = '%' ∧ d = 'F')) :
    preFmtName (c :: d :: r) = c :: preFmtName (d :: r) := by
  rw [preFmtName, if_neg h]

theorem preFmt_cons {c : Char} {r : List Char} (h : c ≠ '%') : preFmtName (c :: r) = c :: preFmtName r := by
  cases r with
  | nil => rfl
  | cons d r => exact preFmt_other fun e => h e.1

theorem preFmt_key (k r : List Char) (h : '%' ∉ k) : preFmtName (k ++ r) = k ++ preFmtName r := by
  induction k with
  | nil => rfl
  | cons c k ih =>
    rw [List.cons_append, preFmt_cons fun e => h (by rw [e]; exact List.mem_cons_self),
      ih fun e => h (List.mem_cons_of_mem _ e)]
    rfl

/-- What a keyword matches behind the replacement of `%F`, it matched before. -/
theorem prefix_preFmt (k : List Char) : ∀ (s : List Char), '$' ∉ k → '%' ∉ k → k <+: preFmtName s → k <+: s := by
  induction k with
  | nil => intro s _ _ _; exact List.nil_prefix
  | cons c k ih =>
    intro s h1 h2 h
    have hc1 : c ≠ '$' := fun e => h1 (by rw [e]; exact List.mem_cons_self)
    have hc2 : c ≠ '%' := fun e => h2 (by rw [e]; exact List.mem_cons_self)
    cases s with
    | nil => exact h
    | cons x r =>
      by_cases hx : x = '%'
      · subst hx
        exfalso
        cases r with
        | nil => exact hc2 (List.cons_prefix_cons.mp h).1
        | cons d r =>
          by_cases hd : d = 'F'
          · subst hd
            exact hc1 (List.cons_prefix_cons.mp h).1
          · rw [preFmt_other fun e => hd e.2] at h
            exact hc2 (List.cons_prefix_cons.mp h).1
      · rw [preFmt_cons hx] at h
        obtain ⟨e, h⟩ := List.cons_prefix_cons.mp h
        exact List.cons_prefix_cons.mpr ⟨e, ih r (fun e => h1 (List.mem_cons_of_mem _ e))
          (fun e => h2 (List.mem_cons_of_mem _ e)) h⟩

theorem placeholders_eq (p : Proc) (t : Tm) : placeholders p t = dollars p t ++ [("%F".toList,
    fixedWidth 4 (t.year + 1900) ++ '-' :: fixedWidth 2 (t.mon + 1) ++ '-' :: fixedWidth 2 t.mday)] := rfl

theorem find_key {p : Proc} {t : Tm} {kv : List Char × List Char} {k : List Char} (h : kv ∈ dollars p t)
    (hk : kv.1 = '$' :: k) (w : List Char) :
    ((dollars p t).find? fun kv => kv.1.isPrefixOf ('$' :: (k ++ w))) = some kv := by
  have e : dollars p t = [("$PNAME".toList, p.name), ("$PID".toList, fixedWidth 6 p.pid),
   ("$YEAR".toList, fixedWidth 4 (t.year + 1900)), ("$MON".toList, fixedWidth 2 (t.mon + 1)),
   ("$DAY".toList, fixedWidth 2 t.mday), ("$HOUR".toList, fixedWidth 2 t.hour), ("$MIN".toList, fixedWidth 2 t.min),
   ("$SEC".toList, fixedWidth 2 t.sec)] := rfl
  rw [e] at h ⊢
  simp only [List.mem_cons, List.not_mem_nil, or_false] at h
  rcases h with rfl | rfl | rfl | rfl | rfl | rfl | rfl | rfl <;>
  · obtain rfl := (List.cons.inj hk).2
    rfl

theorem preFmt_subst (p : Proc) (t : Tm) : ∀ (n : Nat) (s : List Char), s.length ≤ n →
    subst (dollars p t) (preFmtName s) = subst (placeholders p t) s := by
  intro n
  induction n with
  | zero =>
    intro s h
    have : s = [] := List.length_eq_zero_iff.mp (by omega)
    subst this
    rw [preFmtName, subst, subst]
  | succ n ih =>
    intro s hs
    cases s with
    | nil => rw [preFmtName, subst, subst]
    | cons c r =>
      have hr : r.length ≤ n := by simpa using hs
      by_cases hpf : ∃ w, c :: r = '%' :: 'F' :: w
      · obtain ⟨w, hw⟩ := hpf
        obtain ⟨rfl, rfl⟩ := List.cons.inj hw
        have e1 : (placeholders p t).find? (fun kv => kv.1.isPrefixOf ('%' :: 'F' :: w)) = some ("%F".toList,
            fixedWidth 4 (t.year + 1900) ++ '-' :: fixedWidth 2 (t.mon + 1) ++ '-' :: fixedWidth 2 t.mday) := by
          rw [placeholders_eq, List.find?_append, dollars_none (by decide)]
          rfl
        rw [subst_cons_some e1]
        have e2 : preFmtName ('%' :: 'F' :: w) = '$' :: ("YEAR".toList ++ ('-' :: '$' :: ("MON".toList ++ ('-' :: '$' ::
            ("DAY".toList ++ preFmtName w))))) := by
          rw [preFmtName]; rfl
        rw [e2]
        have f1 : ∀ w, (dollars p t).find? (fun kv => kv.1.isPrefixOf ('$' :: ("YEAR".toList ++ w))) =
            some ("$YEAR".toList, fixedWidth 4 (t.year + 1900)) := fun _ => rfl
        have f2 : ∀ w, (dollars p t).find? (fun kv => kv.1.isPrefixOf ('$' :: ("MON".toList ++ w))) =
            some ("$MON".toList, fixedWidth 2 (t.mon + 1)) := fun _ => rfl
        have f3 : ∀ w, (dollars p t).find? (fun kv => kv.1.isPrefixOf ('$' :: ("DAY".toList ++ w))) =
            some ("$DAY".toList, fixedWidth 2 t.mday) := fun _ => rfl
        have d1 : ∀ w : List Char, ("YEAR".toList ++ w).drop ("$YEAR".toList.length - 1) = w := fun _ => rfl
        have d2 : ∀ w : List Char, ("MON".toList ++ w).drop ("$MON".toList.length - 1) = w := fun _ => rfl
        have d3 : ∀ w : List Char, ("DAY".toList ++ w).drop ("$DAY".toList.length - 1) = w := fun _ => rfl
        rw [subst_cons_some (f1 _)]; simp only []
        rw [d1, subst_cons_none (dollars_none (by decide)), subst_cons_some (f2 _)]; simp only []
        rw [d2, subst_cons_none (dollars_none (by decide)), subst_cons_some (f3 _)]; simp only []
        rw [d3, ih w (by simp at hr; omega)]
        simp
      · have e0 : (placeholders p t).find? (fun kv => kv.1.isPrefixOf (c :: r)) =
            (dollars p t).find? fun kv => kv.1.isPrefixOf (c :: r) := by
          rw [placeholders_eq, List.find?_append]
          have : ([("%F".toList, fixedWidth 4 (t.year + 1900) ++ '-' :: fixedWidth 2 (t.mon + 1) ++ '-' ::
              fixedWidth 2 t.mday)].find? fun kv => kv.1.isPrefixOf (c :: r)) = none := by
            rw [List.find?_eq_none]
            intro kv hkv h
            rw [List.mem_singleton] at hkv
            rw [hkv, List.isPrefixOf_iff_prefix] at h
            obtain ⟨w, hw⟩ := h
            exact hpf ⟨w, hw.symm⟩
          rw [this, Option.or_none]
        have e1 : preFmtName (c :: r) = c :: preFmtName r := by
          cases r with
          | nil => rfl
          | cons d r => exact preFmt_other fun e => hpf ⟨r, by rw [e.1, e.2]⟩
        rw [e1]
        cases hf : (dollars p t).find? fun kv => kv.1.isPrefixOf (c :: r) with
        | none =>
          rw [subst_cons_none (e0.trans hf)]
          have hn : ((dollars p t).find? fun kv => kv.1.isPrefixOf (c :: preFmtName r)) = none := by
            rw [List.find?_eq_none] at hf ⊢
            intro kv hkv h
            obtain ⟨k, hk, _, hk1, hk2, _⟩ := dollars_key hkv
            apply hf kv hkv
            rw [hk, List.isPrefixOf_iff_prefix] at h ⊢
            obtain ⟨e, h⟩ := List.cons_prefix_cons.mp h
            exact List.cons_prefix_cons.mpr ⟨e, prefix_preFmt k r hk1 hk2 h⟩
          rw [subst_cons_none hn, ih r hr]
        | some kv =>
          rw [subst_cons_some (e0.trans hf)]
          obtain ⟨hm, w, hw⟩ := dollars_find hf
          obtain ⟨k, hk, hk0, hk1, hk2, _⟩ := dollars_key hm
          rw [hk, List.cons_append] at hw
          obtain ⟨rfl, rfl⟩ := List.cons.inj hw
          have hf' : ((dollars p t).find? fun kv => kv.1.isPrefixOf ('$' :: preFmtName (k ++ w))) = some kv := by
            rw [preFmt_key k w hk2]
            exact find_key hm hk _
          rw [subst_cons_some hf', preFmt_key k w hk2, hk]
          simp only [List.length_cons, Nat.add_sub_cancel, List.drop_left]
          rw [ih w (by simp at hr; omega)]

theorem count_preFmt : ∀ (n : Nat) (s : List Char), s.length ≤ n → (preFmtName s).count '$' ≤ 2 * s.length := by
  intro n
  induction n with
  | zero =>
    intro s h
    have : s = [] := List.length_eq_zero_iff.mp (by omega)
    subst this; decide
  | succ n ih =>
    intro s hs
    cases s with
    | nil => decide
    | cons c r =>
      have hr : r.length ≤ n := by simpa using hs
      have one : ∀ w : List Char, (c :: preFmtName w).count '$' ≤ 1 + (preFmtName w).count '$' := by
        intro w
        rw [List.count_cons]; split <;> omega
      cases r with
      | nil => exact Nat.le_trans (one []) (show 1 + 0 ≤ 2 by omega)
      | cons d r =>
        by_cases h : c = '%' ∧ d = 'F'
        · obtain ⟨rfl, rfl⟩ := h
          rw [preFmtName, if_pos ⟨rfl, rfl⟩, List.count_append]
          have := ih r (by simp at hr; omega)
          have e : "$YEAR-$MON-$DAY".toList.count '$' = 3 := by decide
          rw [e]; simp; omega
        · rw [preFmt_other h]
          have := ih (d :: r) hr
          have := one (d :: r)
          simp at *; omega

theorem fmtName_eq {p : Proc} {t : Tm} (hp : '$' ∉ p.name) {fuel : Nat} {s : List Char} (hf : 2 * s.length < fuel) :
    fmtName p t fuel s = some (subst (placeholders p t) s) := by
  unfold fmtName
  by_cases h : s = []
  · rw [if_pos h, h, subst]
  · rw [if_neg h, fmtLoop_eq hp _ _ (Nat.lt_of_le_of_lt (count_preFmt _ s (Nat.le_refl _)) hf),
      preFmt_subst p t _ s (Nat.le_refl _)]

/-! ## The end of the name -/

/-- Removing a keyword from the front of a text that ends in `.log` leaves such a text. -/
theorem log_suffix_tail {c : Char} {r : List Char} (hc : c ∉ ".log".toList) (h : ".log".toList <:+ c :: r) :
    ".log".toList <:+ r := by
  rcases List.suffix_cons_iff.mp h with h | h
  · exact absurd (by rw [h]; exact List.mem_cons_self) hc
  · exact h

theorem log_suffix_drop (k : List Char) : ∀ {r : List Char}, (∀ c ∈ k, c ∉ ".log".toList) → ".log".toList <:+ k ++ r →
    ".log".toList <:+ r := by
  induction k with
  | nil => intro r _ h; exact h
  | cons c k ih =>
    intro r hk h
    exact ih (fun x hx => hk x (List.mem_cons_of_mem _ hx))
      (log_suffix_tail (hk c List.mem_cons_self) h)

theorem suffix_append_left {a b : List Char} (x : List Char) (h : a <:+ b) : a <:+ x ++ b :=
  h.trans (List.suffix_append x b)

theorem upper_not_log {c : Char} (h : c.isUpper = true) : c ∉ ".log".toList := by
  intro hc
  have : ∀ c ∈ ".log".toList, c.isUpper = false := by decide
  rw [this c hc] at h
  exact absurd h (by nofun)

theorem fmtReplace_log {p : Proc} {t : Tm} {x new : List Char} (h : fmtReplace p t x = some new)
    (hx : ".log".toList <:+ x) : ".log".toList <:+ new := by
  rw [fmtReplace_eq] at h
  obtain ⟨kv, hf, rfl⟩ := Option.map_eq_some_iff.mp h
  obtain ⟨hm, w, hw⟩ := dollars_find hf
  obtain ⟨k, hk, _, _, _, hu⟩ := dollars_key hm
  rw [hk] at hw ⊢
  obtain rfl := (List.cons.inj hw).2
  apply suffix_append_left
  simp only [List.length_cons, Nat.add_sub_cancel, List.append_eq, List.drop_left]
  exact log_suffix_drop k (fun c hc => upper_not_log (hu c hc)) hx

theorem preFmt_log : ∀ (n : Nat) (s : List Char), s.length ≤ n → ".log".toList <:+ s →
    ".log".toList <:+ preFmtName s := by
  intro n
  induction n with
  | zero =>
    intro s h h'
    have : s = [] := List.length_eq_zero_iff.mp (by omega)
    rw [this] at h'
    exact absurd (List.suffix_nil.mp h') (by decide)
  | succ n ih =>
    intro s hs hl
    cases s with
    | nil => exact absurd (List.suffix_nil.mp hl) (by decide)
    | cons c r =>
      have hr : r.length ≤ n := by simpa using hs
      cases r with
      | nil =>
        obtain ⟨x, hx⟩ := hl
        have := congrArg List.length hx
        simp at this
      | cons d r =>
        by_cases h : c = '%' ∧ d = 'F'
        · obtain ⟨rfl, rfl⟩ := h
          rw [preFmtName, if_pos ⟨rfl, rfl⟩]
          apply suffix_append_left
          exact ih r (by simp at hr; omega) (log_suffix_drop ['%', 'F'] (by decide) hl)
        · rw [preFmt_other h]
          rcases List.suffix_cons_iff.mp hl with e | e
          · rw [← preFmt_other h, ← e]
            exact List.suffix_refl _
          · exact (ih _ hr e).trans (List.suffix_cons _ _)

theorem fmtLoop_log {p : Proc} {t : Tm} : ∀ (fuel : Nat) (s o : List Char), ".log".toList <:+ s →
    fmtLoop p t fuel s = some o → ".log".toList <:+ o := by
  intro fuel
  induction fuel with
  | zero => intro s o _ h; exact absurd h (by nofun)
  | succ fuel ih =>
    intro s o hs h
    rw [fmtLoop] at h
    have hsp : s = s.takeWhile (· ≠ '$') ++ s.dropWhile (· ≠ '$') := List.takeWhile_append_dropWhile.symm
    obtain ⟨a, ha⟩ : ∃ a, a = s.takeWhile (· ≠ '$') := ⟨_, rfl⟩
    rw [← ha] at hsp h
    cases hd : s.dropWhile (· ≠ '$') with
    | nil => rw [hd] at h; exact Option.some.inj h ▸ hs
    | cons d q =>
      have hhead : d = '$' := by
        have := List.head?_dropWhile_not (fun c => decide (c ≠ '$')) s
        rw [hd] at this
        simpa using this
      subst hhead
      cases q with
      | nil => rw [hd] at h; exact Option.some.inj h ▸ hs
      | cons c r =>
        rw [hd] at h hsp
        simp only at h
        have hs' : ".log".toList <:+ c :: r := by
          rw [hsp] at hs
          -- the text behind the `$` is long enough to contain `.log`
          rcases Nat.lt_or_ge (c :: r).length ".log".toList.length with hlt | hge
          · exfalso
            have h1 : '$' :: c :: r <:+ a ++ '$' :: c :: r := List.suffix_append _ _
            have h2 : '$' :: c :: r <:+ ".log".toList := List.suffix_of_suffix_length_le h1 hs (by
              simp only [List.length_cons] at hlt ⊢; omega)
            have : '$' ∈ ".log".toList := h2.subset List.mem_cons_self
            exact absurd this (by decide)
          · exact List.suffix_of_suffix_length_le hs
              ((List.suffix_cons '$' (c :: r)).trans (List.suffix_append a _)) hge
        cases hf : fmtReplace p t (c :: r) with
        | none =>
          rw [hf] at h
          obtain ⟨o', ho, rfl⟩ := Option.map_eq_some_iff.mp h
          exact suffix_append_left a ((ih _ _ hs' ho).trans (List.suffix_cons _ _))
        | some new =>
          rw [hf] at h
          obtain ⟨o', ho, rfl⟩ := Option.map_eq_some_iff.mp h
          exact suffix_append_left a (ih _ _ (fmtReplace_log hf hs') ho)

theorem fmtName_log {p : Proc} {t : Tm} {fuel : Nat} {s o : List Char} (hs : ".log".toList <:+ s)
    (h : fmtName p t fuel s = some o) : ".log".toList <:+ o := by
  unfold fmtName at h
  by_cases he : s = []
  · rw [he] at hs; exact absurd (List.suffix_nil.mp hs) (by decide)
  · rw [if_neg he] at h
    exact fmtLoop_log _ _ _ (preFmt_log _ s (Nat.le_refl _) hs) h

theorem fullPath_log {p : Proc} {t : Tm} {fuel : Nat} {d : Device} {ch : Int} {F : List Char}
    (h : fullPath p t fuel d ch = some F) : ".log".toList <:+ F := by
  unfold fullPath at h
  cases hn : makeFileName p t fuel d.file ch d.id with
  | none => rw [hn] at h; exact absurd h (by nofun)
  | some name =>
    rw [hn] at h
    cases hp : fmtName p t fuel d.path with
    | none => rw [hp] at h; exact absurd h (by nofun)
    | some path =>
      rw [hp] at h
      obtain rfl := Option.some.inj h
      exact suffix_append_left _ (fmtName_log (List.suffix_append _ _) hn)

/-- A name ending in `.log` is no name of a backup. -/
theorem plain_log {F : List Char} (h : ".log".toList <:+ F) : Plain F := by
  intro b ds e
  obtain ⟨x, hx⟩ := h
  have e1 : x ++ ".log".toList = x ++ ".lo".toList ++ ['g'] := by simp
  rw [e1, e] at hx
  cases hds : ds.reverse with
  | nil =>
    have : ds = [] := by simpa using hds
    subst this
    have := congrArg List.getLast? hx
    simp at this
  | cons c r =>
    have hd : ds = r.reverse ++ [c] := by
      have := congrArg List.reverse hds
      simpa using this
    rw [hd] at hx ⊢
    have := congrArg List.getLast? hx
    have hc : 'g' = c := by
      have e3 : b ++ '.' :: (r.reverse ++ [c]) = (b ++ '.' :: r.reverse) ++ [c] := by simp
      rw [e3, List.getLast?_concat, List.getLast?_concat] at this
      exact Option.some.inj this
    exact ⟨c, by simp, by rw [← hc]; decide⟩

theorem fullPath_plain {p : Proc} {t : Tm} {fuel : Nat} {d : Device} {ch : Int} {F : List Char}
    (h : fullPath p t fuel d ch = some F) : Plain F := plain_log (fullPath_log h)

theorem dirPath_eq (x : List Char) : dirPath x =
    x.map (fun c => if c = '\\' then '/' else c) ++ (if x.map (fun c => if c = '\\' then '/' else c) = [] ∨
      (x.map (fun c => if c = '\\' then '/' else c)).getLast? = some '/' then [] else ['/']) := by
  unfold dirPath
  by_cases h : x = []
  · subst h; rfl
  · rw [if_neg h]
    have hne : x.map (fun c => if c = '\\' then '/' else c) ≠ [] := by simpa using h
    simp only
    by_cases hl : (x.map (fun c => if c = '\\' then '/' else c)).getLast? = some '/'
    · rw [if_pos hl, if_pos (Or.inr hl), List.append_nil]
    · rw [if_neg hl, if_neg (by intro e; rcases e with e | e; exact hne e; exact hl e)]

theorem intStr_eq (x : Int) : intStr x = decimal x := by
  unfold intStr decimal
  rw [toStr_eq]
  by_cases h : x < 0
  · rw [if_pos h, if_pos h, show x.natAbs = (-x).toNat by omega]
  · rw [if_neg h, if_neg h, show x.natAbs = x.toNat by omega]

theorem fullPath_eq {p : Proc} {t : Tm} (hp : '$' ∉ p.name) {fuel : Nat} {d : Device} {ch : Int}
    (h1 : 2 * (nameOf d ch ++ ".log".toList).length < fuel) (h2 : 2 * d.path.length < fuel) :
    fullPath p t fuel d ch = some (pathSpec p t d ch) := by
  unfold fullPath makeFileName pathSpec
  have e : (if d.file = [] then "$PNAME_$YEAR$MON$DAY_$PID.".toList ++ intStr ch ++ intStr d.id else d.file) =
      nameOf d ch := by
    unfold nameOf; rw [intStr_eq, intStr_eq]
  simp only [e]
  rw [fmtName_eq hp h1, fmtName_eq hp h2]
  show some _ = some _
  rw [dirPath_eq]

end FNLog
