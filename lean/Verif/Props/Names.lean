import Verif.Props.File
import Verif.Proof.Dispatch
import Verif.Proof.KernelRfl

/-! # C71: default file names of different devices are different -/

namespace FNLog
open Spec

theorem fmtLoop_mono {p : Proc} {t : Tm} : ∀ {fuel : Nat} {s r : List Char}, fmtLoop p t fuel s = some r →
    ∀ k, fmtLoop p t (fuel + k) s = some r := by
  intro fuel
  induction fuel with
  | zero => intro s r h; exact absurd h (by simp [fmtLoop])
  | succ fuel ih =>
    intro s r h k
    rw [show fuel + 1 + k = (fuel + k) + 1 by omega]
    rw [fmtLoop] at h ⊢
    revert h
    split
    · exact id
    · exact id
    · split
      · intro h
        obtain ⟨x, hx, e⟩ := Option.map_eq_some_iff.mp h
        rw [ih hx k, Option.map_some, e]
      · intro h
        obtain ⟨x, hx, e⟩ := Option.map_eq_some_iff.mp h
        rw [ih hx k, Option.map_some, e]

theorem fmtName_mono {p : Proc} {t : Tm} {fuel : Nat} {s r : List Char} (h : fmtName p t fuel s = some r) (k : Nat) :
    fmtName p t (fuel + k) s = some r := by
  unfold fmtName at *
  split
  · rename_i e; rw [if_pos e] at h; exact h
  · rename_i e; rw [if_neg e] at h; exact fmtLoop_mono h k

/-- A path that was computed is the specified one. -/
theorem fullPath_spec {p : Proc} {t : Tm} (hp : '$' ∉ p.name) {fuel : Nat} {d : Device} {ch : Int} {F : List Char}
    (h : fullPath p t fuel d ch = some F) : F = pathSpec p t d ch := by
  obtain ⟨n, hn⟩ := C53_path (p := p) (t := t) hp d ch
  have h1 := hn (fuel + n) (by omega)
  simp only [fullPath, Option.bind_eq_bind, Option.bind_eq_some_iff, Option.pure_def, Option.some.injEq] at h
  obtain ⟨name, hname, path, hpath, rfl⟩ := h
  have e1 : makeFileName p t (fuel + n) d.file ch d.id = some name := by
    unfold makeFileName at *
    exact fmtName_mono hname n
  simp only [fullPath, Option.bind_eq_bind] at h1
  rw [e1, Option.bind_some, fmtName_mono hpath n, Option.bind_some] at h1
  exact Option.some.inj h1

theorem digit_inj : ∀ a b : Fin 10, digit a.val = digit b.val → a = b := by decide

/-- The part of a default name that tells devices apart. -/
def numbers (ch id : Int) : List Char := decimal ch ++ decimal id

theorem numbers_isDec {ch id : Int} (h1 : 0 ≤ ch) (h2 : 0 ≤ id) : ∀ c ∈ numbers ch id, isDec c = true := by
  intro c hc
  unfold numbers decimal at hc
  rw [if_neg (by omega), if_neg (by omega)] at hc
  rcases List.mem_append.mp hc with h | h <;> exact isDec_numeral _ _ h

theorem numbers_inj {a b i j : Int} (ha : 0 ≤ a ∧ a < 10) (hb : 0 ≤ b ∧ b < 10) (hi : 0 ≤ i) (hj : 0 ≤ j)
    (h : numbers a i = numbers b j) : a = b ∧ i = j := by
  unfold numbers decimal at h
  rw [if_neg (by omega), if_neg (by omega), if_neg (by omega), if_neg (by omega),
    numeral_lt (n := a.toNat) (by omega), numeral_lt (n := b.toNat) (by omega)] at h
  have e1 := congrArg Fin.val (digit_inj ⟨a.toNat, by omega⟩ ⟨b.toNat, by omega⟩ (List.cons.inj h).1)
  have e2 := numeral_inj (List.cons.inj h).2
  simp only at e1
  omega

theorem subst_plain {p : Proc} {t : Tm} {s : List Char} (h1 : '$' ∉ s) (h2 : '%' ∉ s) :
    subst (placeholders p t) s = s := by
  induction s with
  | nil => rw [subst]
  | cons c s ih =>
    rw [subst_cons_none, ih (fun h => h1 (by simp [h])) (fun h => h2 (by simp [h]))]
    have hc1 : ('$' == c) = false := by
      simp only [beq_eq_false_iff_ne, ne_eq]; intro e; exact h1 (e ▸ List.mem_cons_self)
    have hc2 : ('%' == c) = false := by
      simp only [beq_eq_false_iff_ne, ne_eq]; intro e; exact h2 (e ▸ List.mem_cons_self)
    simp [placeholders, List.isPrefixOf, hc1, hc2]

/-- The default name ends in a dot, the numbers of channel and device, and `.log`. -/
theorem default_name {p : Proc} {t : Tm} {d : Device} {ch : Int} (hf : d.file = []) (h1 : 0 ≤ ch) (h2 : 0 ≤ d.id) :
    ∃ X, pathSpec p t d ch = X ++ '.' :: (numbers ch d.id ++ ".log".toList) := by
  have hrest : subst (placeholders p t) ('.' :: (numbers ch d.id ++ ".log".toList)) =
      '.' :: (numbers ch d.id ++ ".log".toList) := by
    have hd := numbers_isDec h1 h2
    have key : ∀ x : Char, isDec x = false → x ∉ ".log".toList → x ∉ '.' :: (numbers ch d.id ++ ".log".toList) := by
      intro x hx hl hm
      rcases List.mem_cons.mp hm with h | h
      · subst h; exact hl (by decide)
      · rcases List.mem_append.mp h with h | h
        · rw [hd x h] at hx; exact absurd hx (by decide)
        · exact hl h
    exact subst_plain (key '$' (by decide) (by decide)) (key '%' (by decide) (by decide))
  have hname : nameOf d ch ++ ".log".toList =
      "$PNAME_$YEAR$MON$DAY_$PID".toList ++ '.' :: (numbers ch d.id ++ ".log".toList) := by
    unfold nameOf numbers
    rw [if_pos hf]
    simp
  have hsub : ∃ Y, subst (placeholders p t) (nameOf d ch ++ ".log".toList) =
      Y ++ '.' :: (numbers ch d.id ++ ".log".toList) := by
    rw [hname]
    generalize '.' :: (numbers ch d.id ++ ".log".toList) = r at hrest ⊢
    refine ⟨p.name ++ '_' :: (fixedWidth 4 (t.year + 1900) ++ (fixedWidth 2 (t.mon + 1) ++ (fixedWidth 2 t.mday ++
      '_' :: fixedWidth 6 p.pid))), ?_⟩
    show subst (placeholders p t) ('$' :: 'P' :: 'N' :: 'A' :: 'M' :: 'E' :: '_' :: '$' :: 'Y' :: 'E' :: 'A' :: 'R' ::
      '$' :: 'M' :: 'O' :: 'N' :: '$' :: 'D' :: 'A' :: 'Y' :: '_' :: '$' :: 'P' :: 'I' :: 'D' :: r) = _
    rw [subst_cons_some (kv := ("$PNAME".toList, p.name)) rfl]
    rw [show ∀ x : List Char, List.drop ((("$PNAME".toList, p.name) : List Char × List Char).1.length - 1)
      ('P' :: 'N' :: 'A' :: 'M' :: 'E' :: x) = x from fun _ => rfl]
    rw [subst_cons_none rfl, subst_cons_some (kv := ("$YEAR".toList, fixedWidth 4 (t.year + 1900))) rfl]
    rw [show ∀ x : List Char, List.drop ((("$YEAR".toList, fixedWidth 4 (t.year + 1900)) : List Char × List Char).1.length - 1)
      ('Y' :: 'E' :: 'A' :: 'R' :: x) = x from fun _ => rfl]
    rw [subst_cons_some (kv := ("$MON".toList, fixedWidth 2 (t.mon + 1))) rfl]
    rw [show ∀ x : List Char, List.drop ((("$MON".toList, fixedWidth 2 (t.mon + 1)) : List Char × List Char).1.length - 1)
      ('M' :: 'O' :: 'N' :: x) = x from fun _ => rfl]
    rw [subst_cons_some (kv := ("$DAY".toList, fixedWidth 2 t.mday)) rfl]
    rw [show ∀ x : List Char, List.drop ((("$DAY".toList, fixedWidth 2 t.mday) : List Char × List Char).1.length - 1)
      ('D' :: 'A' :: 'Y' :: x) = x from fun _ => rfl]
    rw [subst_cons_none rfl, subst_cons_some (kv := ("$PID".toList, fixedWidth 6 p.pid)) rfl]
    rw [show ∀ x : List Char, List.drop ((("$PID".toList, fixedWidth 6 p.pid) : List Char × List Char).1.length - 1)
      ('P' :: 'I' :: 'D' :: x) = x from fun _ => rfl]
    rw [hrest]
    simp only [List.append_assoc, List.cons_append]
  obtain ⟨Y, hY⟩ := hsub
  unfold pathSpec
  simp only
  rw [hY]
  exact ⟨_, by rw [← List.append_assoc]⟩

/-- The numbers read back from a path. -/
def numbersIn (q : List Char) : List Char :=
  let r := q.reverse
  let r := match r.dropWhile isDec with
    | '.' :: x => x
    | _ => r
  ((r.drop 4).takeWhile isDec).reverse

theorem numbersIn_backup (X D : List Char) (hD : ∀ c ∈ D, isDec c = true) (i : Nat) :
    numbersIn (backup (X ++ '.' :: (D ++ ".log".toList)) i) = D := by
  have key : ((("gol.".toList ++ (D.reverse ++ '.' :: X.reverse)).drop 4).takeWhile isDec).reverse = D := by
    show ((D.reverse ++ '.' :: X.reverse).takeWhile isDec).reverse = D
    rw [List.takeWhile_append_of_pos (fun c hc => hD c (List.mem_reverse.mp hc)), List.takeWhile_cons_of_neg (by decide),
      List.append_nil, List.reverse_reverse]
  have hrev : (X ++ '.' :: (D ++ ".log".toList)).reverse = "gol.".toList ++ (D.reverse ++ '.' :: X.reverse) := by
    simp
  unfold numbersIn backup
  by_cases hi : i = 0
  · rw [if_pos hi, hrev]
    exact key
  · rw [if_neg hi, List.reverse_append, List.reverse_cons, hrev, List.append_assoc]
    simp only
    rw [List.dropWhile_append_of_pos (fun c hc => isDec_numeral i c (List.mem_reverse.mp hc))]
    exact key

/-- **C71**: two file devices without a configured name, of channels with a one-digit number, never have a file in common:
neither their log files nor the backups, at whatever times, and whatever their directories are. -/
theorem C71_default_names_partial {E : FileEnv} (hp : '$' ∉ E.proc.name) {a b : Int} {d e : Device}
    (hd : d.file = []) (he : e.file = []) (ha : 0 ≤ a ∧ a < 10) (hb : 0 ≤ b ∧ b < 10) (hi : 0 ≤ d.id) (hj : 0 ≤ e.id)
    (hne : (a, d.id) ≠ (b, e.id)) (q : List Char) : ¬ (FilesOf E a d q ∧ FilesOf E b e q) := by
  rintro ⟨⟨t1, F, i, hF, rfl⟩, ⟨t2, G, j, hG, h⟩⟩
  have e1 := fullPath_spec hp hF
  have e2 := fullPath_spec hp hG
  obtain ⟨X, hX⟩ := default_name (p := E.proc) (t := E.tm t1) hd ha.1 hi
  obtain ⟨Y, hY⟩ := default_name (p := E.proc) (t := E.tm t2) he hb.1 hj
  rw [e1, hX, e2, hY] at h
  have h1 := numbersIn_backup X (numbers a d.id) (numbers_isDec ha.1 hi) i
  rw [h, numbersIn_backup Y (numbers b e.id) (numbers_isDec hb.1 hj) j] at h1
  obtain ⟨rfl, h2⟩ := numbers_inj ha hb hi hj h1.symm
  exact hne (by rw [h2])

/-- **C71**: hence a channel whose file devices have no configured names has different files for all of them
(`FilesApart`, a hypothesis of C64). -/
theorem C71_channel_apart {E : FileEnv} (hp : '$' ∉ E.proc.name) {ch : Int} (hc : 0 ≤ ch ∧ ch < 10) {devices : List Device}
    (hid : ∀ (k : Nat) (d : Device), devices[k]? = some d → d.id = k)
    (hd : ∀ d ∈ devices, d.outType = .file → d.file = []) : FilesApart E ch devices := by
  intro i j a b hij ha hb hfa hfb q
  have h1 := hid i a ha
  have h2 := hid j b hb
  refine C71_default_names_partial hp (hd a (List.mem_of_getElem? ha) hfa) (hd b (List.mem_of_getElem? hb) hfb) hc hc
    (by omega) (by omega) ?_ q
  intro h
  have := (Prod.mk.inj h).2
  omega

/-- **C71** fails for channels with more digits: device 11 of channel 1 and device 1 of channel 11 write to the same file.
(The number of channels and of devices can be set at compile time.) -/
theorem C71_collision_counterexample (p : Proc) (t : Tm) (fuel : Nat) (path : List Char) :
    fullPath p t fuel { id := 11, outType := .file, path := path } 1 =
      fullPath p t fuel { id := 1, outType := .file, path := path } 11 := by
  have e : makeFileName p t fuel [] 1 11 = makeFileName p t fuel [] 11 1 := by
    unfold makeFileName
    rw [show (if ([] : List Char) = [] then "$PNAME_$YEAR$MON$DAY_$PID.".toList ++ intStr 1 ++ intStr 11 else []) =
      (if ([] : List Char) = [] then "$PNAME_$YEAR$MON$DAY_$PID.".toList ++ intStr 11 ++ intStr 1 else []) from by
        rw [if_pos rfl, if_pos rfl, List.append_assoc, List.append_assoc]
        congr 1
        decide +kernel]
  unfold fullPath
  rw [e]

/-- A channel that meets the hypotheses of `C71_channel_apart`, with a name. -/
example : FilesApart ⟨⟨"srv".toList, 77⟩, fun _ => ⟨126, 10, 16, 11, 33, 20⟩, id, id, 200⟩ 1
    [{ id := 0, outType := .file }, { id := 1, outType := .screen }, { id := 2, outType := .file, path := "log".toList }] ∧
    fullPath ⟨"srv".toList, 77⟩ ⟨126, 10, 16, 11, 33, 20⟩ 200 { id := 2, outType := .file, path := "log".toList } 1 =
      some "log/srv_20261116_000077.12.log".toList := by
  refine ⟨C71_channel_apart (by decide) (by decide) ?_ ?_, by kernel_rfl⟩
  · intro k d h
    match k with
    | 0 => obtain rfl := Option.some.inj h; rfl
    | 1 => obtain rfl := Option.some.inj h; rfl
    | 2 => obtain rfl := Option.some.inj h; rfl
    | k + 3 => exact absurd h (by simp)
  · intro d h _
    simp only [List.mem_cons, List.not_mem_nil, or_false] at h
    rcases h with rfl | rfl | rfl <;> rfl

end FNLog
