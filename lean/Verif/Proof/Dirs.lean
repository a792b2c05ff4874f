import Verif.Spec.Dirs

/-!
# Directories: path resolution and create_dir
-/

namespace FNLog
open Spec

/-! ## Texts -/

theorem splitSlash_ne (s : List Char) : splitSlash s ≠ [] := by
  induction s with
  | nil => simp [splitSlash]
  | cons c r ih =>
    unfold splitSlash
    split
    · simp
    · split <;> simp

theorem splitSlash_append (a b : List Char) : splitSlash (a ++ '/' :: b) = splitSlash a ++ splitSlash b := by
  induction a with
  | nil => simp [splitSlash]
  | cons c r ih =>
    rw [List.cons_append]
    simp only [splitSlash, ih]
    split
    · rfl
    · cases h : splitSlash r with
      | nil => exact absurd h (splitSlash_ne r)
      | cons x y => rfl

theorem splitSlash_plain (s : List Char) (h : '/' ∉ s) : splitSlash s = [s] := by
  induction s with
  | nil => rfl
  | cons c r ih =>
    simp only [List.mem_cons, not_or] at h
    simp only [splitSlash, ih h.2, if_neg (Ne.symm h.1)]

theorem rawComps_append (a b : List Char) : rawComps (a ++ '/' :: b) = rawComps a ++ rawComps b := by
  simp only [rawComps, splitSlash_append, List.filter_append]

theorem rawComps_nil : rawComps [] = [] := by decide

theorem rawComps_slash (a : List Char) : rawComps (a ++ ['/']) = rawComps a := by
  rw [rawComps_append, rawComps_nil, List.append_nil]

theorem rawComps_plain (s : List Char) (h : '/' ∉ s) (hs : s ≠ []) : rawComps s = [s] := by
  simp [rawComps, splitSlash_plain s h, hs]

theorem startOf_append (cwd : Loc) (a b : List Char) (h : a ≠ []) : startOf cwd (a ++ b) = startOf cwd a := by
  cases a with
  | nil => exact absurd rfl h
  | cons x y => rfl

/-- A `/` in a text that ends with one more `/`. -/
theorem slash_snoc {a b cur : List Char} (h : cur ++ ['/'] = a ++ '/' :: b) :
    a = cur ∨ ∃ b', cur = a ++ '/' :: b' := by
  rcases List.eq_nil_or_concat b with rfl | ⟨b', x, rfl⟩
  · left
    exact ((List.append_inj' h rfl).1).symm
  · right
    refine ⟨b', ?_⟩
    rw [List.concat_eq_append] at h
    have : cur ++ ['/'] = (a ++ '/' :: b') ++ [x] := by rw [h]; simp
    exact (List.append_inj' this rfl).1

/-- A `/` in a text that ends with another character. -/
theorem slash_other {a b cur : List Char} {c : Char} (hc : c ≠ '/') (h : cur ++ [c] = a ++ '/' :: b) :
    ∃ b', cur = a ++ '/' :: b' := by
  rcases List.eq_nil_or_concat b with rfl | ⟨b', x, rfl⟩
  · have := (List.append_inj' h rfl).2
    simp at this
    exact absurd this hc
  · refine ⟨b', ?_⟩
    rw [List.concat_eq_append] at h
    have : cur ++ [c] = (a ++ '/' :: b') ++ [x] := by rw [h]; simp
    exact (List.append_inj' this rfl).1

/-! ## Trees -/

theorem Spec.Keeps.refl (t : Tree) : Keeps t t := fun _ _ h => h

theorem Spec.Keeps.trans {a b c : Tree} (h : Keeps a b) (g : Keeps b c) : Keeps a c :=
  fun l e he => g l e (h l e he)

theorem isDir_iff {t : Tree} {l : Loc} : t.isDir l = true ↔ ∃ r, t l = some (.dir r) := by
  unfold Tree.isDir
  split
  · next r h => exact ⟨fun _ => ⟨r, h⟩, fun _ => rfl⟩
  · next h =>
    constructor
    · intro h'; exact absurd h' (by nofun)
    · rintro ⟨r, hr⟩; exact absurd hr (h r)

theorem isDir_keeps {t t' : Tree} (h : Keeps t t') {l : Loc} (hl : t.isDir l = true) : t'.isDir l = true := by
  obtain ⟨r, hr⟩ := isDir_iff.1 hl
  exact isDir_iff.2 ⟨r, h _ _ hr⟩

theorem walk_keeps {t t' : Tree} (h : Keeps t t') (cs : List (List Char)) :
    ∀ {l m : Loc}, t.walk l cs = some m → t'.walk l cs = some m := by
  induction cs with
  | nil => intro l m hm; exact hm
  | cons c r ih =>
    intro l m hm
    simp only [Tree.walk] at hm ⊢
    split at hm
    · next hd => rw [if_pos (isDir_keeps h hd)]; exact ih hm
    · exact absurd hm (by nofun)

theorem walk_place {t : Tree} (cs : List (List Char)) : ∀ {l m : Loc}, t.walk l cs = some m →
    m = cs.foldl descend l := by
  induction cs with
  | nil => intro l m hm; simp [Tree.walk] at hm; simp [hm]
  | cons c r ih =>
    intro l m hm
    simp only [Tree.walk] at hm
    split at hm
    · exact ih hm
    · exact absurd hm (by nofun)

theorem walk_append {t : Tree} (cs ds : List (List Char)) : ∀ {l : Loc},
    t.walk l (cs ++ ds) = (t.walk l cs).bind fun m => t.walk m ds := by
  induction cs with
  | nil => intro l; rfl
  | cons c r ih =>
    intro l
    simp only [List.cons_append, Tree.walk]
    split
    · exact ih
    · rfl

theorem walk_one {t : Tree} (l : Loc) (c : List Char) :
    t.walk l [c] = if t.isDir l then some (descend l c) else none := by
  simp only [Tree.walk]

theorem lookup_keeps {t t' : Tree} (h : Keeps t t') {cwd : Loc} {p : List Char} {e : Entry}
    (he : t.lookup cwd p = some e) : t'.lookup cwd p = some e := by
  unfold Tree.lookup at he ⊢
  split at he
  · exact absurd he (by nofun)
  · next hp =>
    rw [if_neg hp]
    cases hw : t.walk (startOf cwd p) (rawComps p) with
    | none => rw [hw] at he; exact absurd he (by nofun)
    | some m =>
      rw [hw] at he
      rw [walk_keeps h _ hw]
      exact h _ _ he

theorem lookup_place {t : Tree} {cwd : Loc} {p : List Char} {e : Entry} (he : t.lookup cwd p = some e) :
    t (placeOf cwd p) = some e := by
  unfold Tree.lookup at he
  split at he
  · exact absurd he (by nofun)
  · cases hw : t.walk (startOf cwd p) (rawComps p) with
    | none => rw [hw] at he; exact absurd he (by nofun)
    | some m =>
      rw [hw] at he
      have := walk_place _ hw
      rw [placeOf, ← this]
      exact he

/-! ## mkdir -/

theorem descend_plain {l : Loc} {c : List Char} (h : ¬(c = ['.'] ∨ c = ['.', '.'])) : descend l c = l ++ [c] := by
  simp only [not_or] at h
  simp only [descend, if_neg h.1, if_neg h.2]

/-- What a successful `mkdir` does. -/
theorem mkdir_some {grant : Loc → Bool} {t t' : Tree} {cwd : Loc} {p : List Char}
    (h : mkdirCall grant t cwd p = some t') :
    t (placeOf cwd p) = none ∧ t'.lookup cwd p = some (.dir true) ∧ grant (placeOf cwd p) = true ∧
      (∀ q, q ≠ placeOf cwd p → t' q = t q) ∧ t' (placeOf cwd p) = some (.dir true) ∧
      (∃ l c, placeOf cwd p = l ++ [c] ∧ t.isDir l = true) := by
  unfold mkdirCall at h
  split at h
  · exact absurd h (by nofun)
  · next c hc =>
    split at h
    · exact absurd h (by nofun)
    · next hn =>
      split at h
      · exact absurd h (by nofun)
      · next l hl =>
        split at h
        · next hcond =>
          have h' := Option.some.inj h
          have hcomps : rawComps p = (rawComps p).dropLast ++ [c] := by
            have hne : rawComps p ≠ [] := by intro h0; rw [h0] at hc; exact absurd hc (by nofun)
            have := List.dropLast_concat_getLast hne
            rw [List.getLast?_eq_some_getLast hne, Option.some.injEq] at hc
            rw [hc] at this
            exact this.symm
          have hplace : placeOf cwd p = l ++ [c] := by
            rw [placeOf, hcomps, List.foldl_append, ← walk_place _ hl]
            exact descend_plain hn
          have hk : Keeps t t' := by
            intro q e he
            rw [← h']
            simp only
            split
            · next hq => rw [hq, hcond.2.1] at he; exact absurd he (by nofun)
            · exact he
          have hp : p ≠ [] := by
            intro hp
            rw [hp, rawComps_nil] at hc
            exact absurd hc (by nofun)
          refine ⟨by rw [hplace]; exact hcond.2.1, ?_, by rw [hplace]; exact hcond.2.2, ?_, ?_, l, c, hplace, hcond.1⟩
          · rw [Tree.lookup, if_neg hp, hcomps, walk_append, walk_keeps hk _ hl]
            simp only [Option.bind_some, walk_one]
            rw [if_pos (isDir_keeps hk hcond.1), descend_plain hn, Option.bind_some, ← h']
            simp
          · intro q hq
            rw [← h']
            simp only
            rw [hplace] at hq
            rw [if_neg hq]
          · rw [hplace, ← h']
            simp
        · exact absurd h (by nofun)

theorem mkdir_keeps {grant : Loc → Bool} {t t' : Tree} {cwd : Loc} {p : List Char}
    (h : mkdirCall grant t cwd p = some t') : Keeps t t' := by
  obtain ⟨hn, _, _, ho, _⟩ := mkdir_some h
  intro q e he
  by_cases hq : q = placeOf cwd p
  · rw [hq, hn] at he; exact absurd he (by nofun)
  · rw [ho q hq]; exact he

theorem mkdir_wf {grant : Loc → Bool} {t t' : Tree} {cwd : Loc} {p : List Char}
    (h : mkdirCall grant t cwd p = some t') (hw : WellFormed t) : WellFormed t' := by
  obtain ⟨hn, _, _, ho, _, l, c, hp, hl⟩ := mkdir_some h
  have hk := mkdir_keeps h
  refine ⟨isDir_keeps hk hw.1, fun m d e he => ?_⟩
  by_cases hq : m ++ [d] = placeOf cwd p
  · rw [hp] at hq
    rw [(List.append_inj' hq rfl).1]
    exact isDir_keeps hk hl
  · rw [ho _ hq] at he
    exact isDir_keeps hk (hw.2 m d e he)

/-! ## One round -/

theorem isDirCall_iff {t : Tree} {cwd : Loc} {p : List Char} :
    isDirCall t cwd p = true ↔ t.lookup cwd p = some (.dir true) := by
  simp [isDirCall]

theorem one_keeps {grant : Loc → Bool} {w : World} (hw : Polite w) {k : Nat} {cwd : Loc} {cur : List Char} {t : Tree} :
    Keeps t (createOne grant w k cwd cur t).2 := by
  unfold createOne
  split
  · dsimp only
    split
    · exact hw _ _
    · split
      · exact (hw _ _).trans (hw _ _)
      · next h => exact ((hw _ _).trans (hw _ _)).trans (mkdir_keeps h)
  · exact Keeps.refl t

theorem one_true {grant : Loc → Bool} {w : World} {k : Nat} {cwd : Loc} {cur : List Char} {t t' : Tree}
    (hc : cur ≠ []) (h : createOne grant w k cwd cur t = (true, t')) : t'.lookup cwd cur = some (.dir true) := by
  unfold createOne at h
  rw [if_pos (List.length_pos_iff.2 hc)] at h
  dsimp only at h
  split at h
  · next hd => rw [← (Prod.mk.inj h).2]; exact isDirCall_iff.1 hd
  · split at h
    · exact absurd (Prod.mk.inj h).1 (by nofun)
    · next hm => rw [← (Prod.mk.inj h).2]; exact (mkdir_some hm).2.1

/-! ## The loop -/

theorem loop_keeps {grant : Loc → Bool} {w : World} (hw : Polite w) {cwd : Loc} (rest : List Char) :
    ∀ (k : Nat) (cur : List Char) (t : Tree), Keeps t (createLoop grant w cwd k cur rest t).2 := by
  induction rest with
  | nil => intro k cur t; exact Keeps.refl t
  | cons c r ih =>
    intro k cur t
    simp only [createLoop]
    split
    · have h1 := one_keeps (grant := grant) hw (k := k) (cwd := cwd) (cur := cur) (t := t)
      cases h : createOne grant w k cwd cur t with
      | mk b t1 =>
        rw [h] at h1
        cases b with
        | false => exact h1
        | true => exact h1.trans (ih _ _ _)
    · exact ih _ _ _

theorem loop_true {grant : Loc → Bool} {w : World} (hw : Polite w) {cwd : Loc} (rest : List Char) :
    ∀ (k : Nat) (cur : List Char) (t t' : Tree), createLoop grant w cwd k cur rest t = (true, t') →
      (∀ a, DirPrefix a cur → t.lookup cwd a = some (.dir true)) →
      ∀ a, DirPrefix a (cur ++ rest) → t'.lookup cwd a = some (.dir true) := by
  induction rest with
  | nil =>
    intro k cur t t' h hd a ha
    rw [List.append_nil] at ha
    simp only [createLoop, Prod.mk.injEq, true_and] at h
    rw [← h]
    exact hd a ha
  | cons c r ih =>
    intro k cur t t' h hd a ha
    simp only [createLoop] at h
    have ha' : DirPrefix a (cur ++ [c] ++ r) := by simpa using ha
    split at h
    · next hc =>
      subst hc
      have h1 := one_keeps (grant := grant) hw (k := k) (cwd := cwd) (cur := cur) (t := t)
      cases h2 : createOne grant w k cwd cur t with
      | mk b t1 =>
        rw [h2] at h h1
        cases b with
        | false => exact absurd (Prod.mk.inj h).1 (by nofun)
        | true =>
          refine ih _ _ _ _ h (fun a ⟨hne, b, hb⟩ => ?_) a ha'
          rcases slash_snoc hb with rfl | ⟨b', hb'⟩
          · exact one_true hne h2
          · exact lookup_keeps h1 (hd a ⟨hne, b', hb'⟩)
    · next hc =>
      refine ih _ _ _ _ h (fun a ⟨hne, b, hb⟩ => ?_) a ha'
      obtain ⟨b', hb'⟩ := slash_other hc hb
      exact hd a ⟨hne, b', hb'⟩

/-- Alone, only places of the path are made. -/
theorem loop_only {grant : Loc → Bool} {cwd : Loc} (rest : List Char) :
    ∀ (k : Nat) (cur : List Char) (t : Tree) (l : Loc) (e : Entry), t l = none →
      (createLoop grant quiet cwd k cur rest t).2 l = some e →
      e = .dir true ∧ grant l = true ∧ ∃ a, DirPrefix a (cur ++ rest) ∧ l = placeOf cwd a := by
  induction rest with
  | nil =>
    intro k cur t l e hn he
    rw [createLoop] at he
    dsimp only at he
    rw [hn] at he
    exact absurd he (by nofun)
  | cons c r ih =>
    intro k cur t l e hn he
    simp only [createLoop] at he
    have happ : cur ++ c :: r = cur ++ [c] ++ r := by simp
    split at he
    · next hc =>
      subst hc
      have key : ∀ e, (createOne grant quiet k cwd cur t).2 l = some e →
          e = .dir true ∧ grant l = true ∧ ∃ a, DirPrefix a (cur ++ '/' :: r) ∧ l = placeOf cwd a := by
        intro e he
        unfold createOne at he
        split at he
        · next hcur =>
          dsimp only [quiet] at he
          split at he
          · dsimp only at he; rw [hn] at he; exact absurd he (by nofun)
          · split at he
            · dsimp only at he; rw [hn] at he; exact absurd he (by nofun)
            · next hm =>
              dsimp only at he
              obtain ⟨_, _, hg, ho, hp, _⟩ := mkdir_some hm
              by_cases hl : l = placeOf cwd cur
              · subst hl
                rw [hp] at he
                exact ⟨(Option.some.inj he).symm, hg, cur, ⟨List.length_pos_iff.1 hcur, r, rfl⟩, rfl⟩
              · rw [ho l hl, hn] at he; exact absurd he (by nofun)
        · dsimp only at he; rw [hn] at he; exact absurd he (by nofun)
      cases h2 : createOne grant quiet k cwd cur t with
      | mk b t1 =>
        rw [h2] at he key
        cases b with
        | false => exact key e he
        | true =>
          dsimp only at he key
          cases h3 : t1 l with
          | none => rw [happ]; exact ih _ _ _ _ _ h3 he
          | some e' =>
            have h4 := loop_keeps (grant := grant) (w := quiet) (cwd := cwd) (fun _ t => Keeps.refl t) r (k + 1)
              (cur ++ ['/']) t1 l e' h3
            rw [h4] at he
            rw [← Option.some.inj he]
            exact key e' h3
    · rw [happ]; exact ih _ _ _ _ _ hn he

/-! ## Why a call fails -/

/-- The directory around the place of `cur` exists. -/
def ParentOk (t : Tree) (cwd : Loc) (cur : List Char) : Prop :=
  ∃ pre seg m, cur = pre ++ seg ∧ '/' ∉ seg ∧ (pre = [] ∨ ∃ p', pre = p' ++ ['/']) ∧
    t.walk (startOf cwd cur) (rawComps pre) = some m ∧ t.isDir m = true

theorem comps_of {pre seg : List Char} (hs : '/' ∉ seg) (hp : pre = [] ∨ ∃ p', pre = p' ++ ['/']) (hne : seg ≠ []) :
    rawComps (pre ++ seg) = rawComps pre ++ [seg] := by
  rcases hp with rfl | ⟨p', rfl⟩
  · rw [List.nil_append, rawComps_nil, List.nil_append, rawComps_plain seg hs hne]
  · rw [List.append_assoc, List.singleton_append, rawComps_append, rawComps_slash, rawComps_plain seg hs hne]

theorem wf_dropLast {t : Tree} (hw : WellFormed t) {m : Loc} (h : t.isDir m = true) : t.isDir m.dropLast = true := by
  rcases List.eq_nil_or_concat m with rfl | ⟨l, c, rfl⟩
  · exact h
  · rw [List.concat_eq_append, List.dropLast_concat]
    rw [List.concat_eq_append] at h
    obtain ⟨r, hr⟩ := isDir_iff.1 h
    exact hw.2 l c _ hr

/-- A directory that is there and can not be opened is one that can not be read. -/
theorem unread {t t' : Tree} {cwd : Loc} {cur : List Char} {m : Loc} (hk : Keeps t t') (hcur : cur ≠ [])
    (hw : t.walk (startOf cwd cur) (rawComps cur) = some m) (hd : t.isDir m = true)
    (hn : ¬isDirCall t cwd cur = true) : ∃ e, t' (placeOf cwd cur) = some e ∧ e ≠ .dir true := by
  obtain ⟨r, hr⟩ := isDir_iff.1 hd
  have hm := walk_place _ hw
  refine ⟨.dir r, ?_, ?_⟩
  · rw [placeOf, ← hm]; exact hk _ _ hr
  · intro h
    apply hn
    rw [isDirCall_iff, Tree.lookup, if_neg hcur, hw, Option.bind_some, hr, h]

theorem one_false {grant : Loc → Bool} {w : World} (hw : Polite w) (hwf : ∀ k t, WellFormed t → WellFormed (w k t))
    {k : Nat} {cwd : Loc} {cur : List Char} {t t' : Tree} (ht : WellFormed t) (hcur : cur ≠ [])
    (hpar : ParentOk t cwd cur) (h : createOne grant w k cwd cur t = (false, t')) :
    grant (placeOf cwd cur) = false ∨ (∃ e, t' (placeOf cwd cur) = some e ∧ e ≠ .dir true) ∨
      (∃ t1, Keeps t t1 ∧ t1 (placeOf cwd cur) = none ∧ w (2 * k + 1) t1 (placeOf cwd cur) = some (.dir true) ∧
        t' = w (2 * k + 1) t1) := by
  unfold createOne at h
  rw [if_pos (List.length_pos_iff.2 hcur)] at h
  dsimp only at h
  split at h
  · exact absurd (Prod.mk.inj h).1 (by nofun)
  · next hnd =>
    split at h
    · next hm =>
      have ht' := (Prod.mk.inj h).2
      obtain ⟨pre, seg, m, hcs, hseg, hpre, hwalk, hdir⟩ := hpar
      have k1 : Keeps t (w (2 * k) t) := hw _ _
      have k2 : Keeps (w (2 * k) t) t' := ht' ▸ hw _ _
      have k3 := k1.trans k2
      have w1 := walk_keeps k1 _ hwalk
      have d1 := isDir_keeps k1 hdir
      by_cases hs0 : seg = []
      · subst hs0
        rw [List.append_nil] at hcs
        rw [← hcs] at w1
        exact .inr (.inl (unread k2 hcur w1 d1 hnd))
      · have hcomps := comps_of hseg hpre hs0
        rw [← hcs] at hcomps
        have w2 : (w (2 * k) t).walk (startOf cwd cur) (rawComps cur) = some (descend m seg) := by
          rw [hcomps, walk_append, w1, Option.bind_some, walk_one, if_pos d1]
        by_cases hdot : seg = ['.'] ∨ seg = ['.', '.']
        · refine .inr (.inl (unread k2 hcur w2 ?_ hnd))
          rcases hdot with rfl | rfl
          · exact d1
          · exact wf_dropLast (hwf _ _ ht) d1
        · have hplace : placeOf cwd cur = m ++ [seg] := by
            rw [placeOf, ← walk_place _ w2, descend_plain hdot]
          unfold mkdirCall at hm
          rw [hcomps, List.getLast?_concat] at hm
          dsimp only at hm
          rw [if_neg hdot, List.dropLast_concat, ht', walk_keeps k2 _ w1] at hm
          dsimp only at hm
          split at hm
          · exact absurd hm (by nofun)
          · next hcond =>
            rw [hplace]
            cases hg : grant (m ++ [seg]) with
            | false => exact .inl rfl
            | true =>
              right
              cases he : t' (m ++ [seg]) with
              | none => exact absurd ⟨isDir_keeps k2 d1, he, hg⟩ hcond
              | some e =>
                by_cases hE : e = .dir true
                · right
                  subst hE
                  refine ⟨w (2 * k) t, k1, ?_, by rw [ht', he], ht'.symm⟩
                  cases h1 : (w (2 * k) t) (m ++ [seg]) with
                  | none => rfl
                  | some e1 =>
                    have := k2 _ _ h1
                    rw [he] at this
                    have := Option.some.inj this
                    subst this
                    exfalso
                    apply hnd
                    rw [isDirCall_iff, Tree.lookup, if_neg hcur, w2, Option.bind_some, descend_plain hdot, h1]
                · exact .inl ⟨e, rfl, hE⟩
    · exact absurd (Prod.mk.inj h).1 (by nofun)

theorem one_wf {grant : Loc → Bool} {w : World} (hwf : ∀ k t, WellFormed t → WellFormed (w k t)) {k : Nat} {cwd : Loc}
    {cur : List Char} {t : Tree} (ht : WellFormed t) : WellFormed (createOne grant w k cwd cur t).2 := by
  unfold createOne
  split
  · dsimp only
    split
    · exact hwf _ _ ht
    · split
      · exact hwf _ _ (hwf _ _ ht)
      · next h => exact mkdir_wf h (hwf _ _ (hwf _ _ ht))
  · exact ht

theorem loop_wf {grant : Loc → Bool} {w : World} (hwf : ∀ k t, WellFormed t → WellFormed (w k t)) {cwd : Loc}
    (rest : List Char) : ∀ (k : Nat) (cur : List Char) (t : Tree), WellFormed t →
      WellFormed (createLoop grant w cwd k cur rest t).2 := by
  induction rest with
  | nil => intro k cur t ht; exact ht
  | cons c r ih =>
    intro k cur t ht
    simp only [createLoop]
    split
    · have h1 := one_wf (grant := grant) hwf (k := k) (cwd := cwd) (cur := cur) ht
      cases h : createOne grant w k cwd cur t with
      | mk b t1 =>
        rw [h] at h1
        cases b with
        | false => exact h1
        | true => exact ih _ _ _ h1
    · exact ih _ _ _ ht

theorem ParentOk.keeps {t t' : Tree} {cwd : Loc} {cur : List Char} (hk : Keeps t t') (h : ParentOk t cwd cur) :
    ParentOk t' cwd cur := by
  obtain ⟨pre, seg, m, a, b, c, d, e⟩ := h
  exact ⟨pre, seg, m, a, b, c, walk_keeps hk _ d, isDir_keeps hk e⟩

theorem loop_false {grant : Loc → Bool} {w : World} (hw : Polite w) (hwf : ∀ k t, WellFormed t → WellFormed (w k t))
    {cwd : Loc} (rest : List Char) :
    ∀ (k : Nat) (cur : List Char) (t t' : Tree), createLoop grant w cwd k cur rest t = (false, t') →
      WellFormed t → (∃ s, s = startOf cwd (cur ++ rest) ∧ t.isDir s = true) → (cur = [] ∨ cur ≠ [] ∧ ParentOk t cwd cur) →
      ∃ a, DirPrefix a (cur ++ rest) ∧ (grant (placeOf cwd a) = false ∨
        (∃ e, t' (placeOf cwd a) = some e ∧ e ≠ .dir true) ∨
        (∃ j t1, Keeps t t1 ∧ t1 (placeOf cwd a) = none ∧ w j t1 (placeOf cwd a) = some (.dir true) ∧ t' = w j t1)) := by
  induction rest with
  | nil => intro k cur t t' h; exact absurd (Prod.mk.inj h).1 (by nofun)
  | cons c r ih =>
    intro k cur t t' h ht ⟨s, hs, hsd⟩ hp
    simp only [createLoop] at h
    have happ : cur ++ c :: r = cur ++ [c] ++ r := by simp
    split at h
    · next hc =>
      subst hc
      have hk1 := one_keeps (grant := grant) hw (k := k) (cwd := cwd) (cur := cur) (t := t)
      have hw1 := one_wf (grant := grant) hwf (k := k) (cwd := cwd) (cur := cur) ht
      cases h2 : createOne grant w k cwd cur t with
      | mk b t1 =>
        rw [h2] at h hk1 hw1
        cases b with
        | false =>
          have := (Prod.mk.inj h).2
          subst this
          by_cases hcur : cur = []
          · subst hcur
            simp [createOne] at h2
          · rcases hp with hp | hp
            · exact absurd hp hcur
            · refine ⟨cur, ⟨hcur, r, rfl⟩, ?_⟩
              rcases one_false hw hwf ht hcur hp.2 h2 with h | h | ⟨t1, h⟩
              · exact .inl h
              · exact .inr (.inl h)
              · exact .inr (.inr ⟨2 * k + 1, t1, h⟩)
        | true =>
          have hpar : ParentOk t1 cwd (cur ++ ['/']) := by
            by_cases hcur : cur = []
            · subst hcur
              exact ⟨['/'], [], [], rfl, by nofun, .inr ⟨[], rfl⟩, rfl, hw1.1⟩
            · have hl := one_true hcur h2
              refine ⟨cur ++ ['/'], [], placeOf cwd cur, (List.append_nil _).symm, by nofun, .inr ⟨cur, rfl⟩, ?_,
                isDir_iff.2 ⟨true, lookup_place hl⟩⟩
              rw [rawComps_slash, startOf_append _ _ _ hcur]
              rw [Tree.lookup, if_neg hcur] at hl
              cases hwk : t1.walk (startOf cwd cur) (rawComps cur) with
              | none => rw [hwk] at hl; exact absurd hl (by nofun)
              | some m => rw [placeOf, ← walk_place _ hwk]
          rw [happ] at hs
          obtain ⟨a, ha, hr⟩ := ih _ _ _ _ h hw1 ⟨s, hs, isDir_keeps hk1 hsd⟩ (.inr ⟨by simp, hpar⟩)
          refine ⟨a, by rw [happ]; exact ha, ?_⟩
          rcases hr with h | h | ⟨j, t2, g1, g2⟩
          · exact .inl h
          · exact .inr (.inl h)
          · exact .inr (.inr ⟨j, t2, hk1.trans g1, g2⟩)
    · next hc =>
      have hpar : ParentOk t cwd (cur ++ [c]) := by
        rcases hp with rfl | ⟨hcur, pre, seg, m, h1, h2, h3, h4, h5⟩
        · refine ⟨[], [c], s, rfl, ?_, .inl rfl, ?_, hsd⟩
          · simp [Ne.symm hc]
          · rw [hs, rawComps_nil]
            rfl
        · refine ⟨pre, seg ++ [c], m, by rw [h1, List.append_assoc], ?_, h3, ?_, h5⟩
          · simp [h2, Ne.symm hc]
          · rw [startOf_append _ _ _ hcur]; exact h4
      rw [happ] at hs ⊢
      exact ih _ _ _ _ h ht ⟨s, hs, hsd⟩ (.inr ⟨by simp, hpar⟩)

end FNLog
