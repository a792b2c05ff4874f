import Verif.Proof.Dirs
import Verif.Proof.KernelRfl

/-!
# C80-C82: directories, the directory of a log file, whole files and the name of the process
-/

namespace FNLog
open Spec

/-! ## C80: create_dir makes the directories of a path -/

/-- A tree for the examples: the root, `/home` that can or can not be read, `/home/me` and a file. -/
def demoTree (readable : Bool) : Tree := fun l =>
  if l = [] then some (.dir true)
  else if l = ["home".toList] then some (.dir readable)
  else if l = ["home".toList, "me".toList] then some (.dir true)
  else if l = ["home".toList, "me".toList, "f".toList] then some .file
  else none

theorem demoTree_wf (r : Bool) : WellFormed (demoTree r) := by
  refine ⟨by simp [Tree.isDir, demoTree], fun l c e h => ?_⟩
  unfold demoTree at h
  split at h
  · next h0 => simp at h0
  · split at h
    · next h0 =>
      have h0 : l ++ [c] = [] ++ ["home".toList] := h0
      have := (List.append_inj' h0 rfl).1
      subst this
      simp [Tree.isDir, demoTree]
    · split at h
      · next h0 =>
        have h0 : l ++ [c] = ["home".toList] ++ ["me".toList] := h0
        have := (List.append_inj' h0 rfl).1
        subst this
        simp [Tree.isDir, demoTree]
      · split at h
        · next h0 =>
          have h0 : l ++ [c] = ["home".toList, "me".toList] ++ ["f".toList] := h0
          have := (List.append_inj' h0 rfl).1
          subst this
          simp [Tree.isDir, demoTree]
        · exact absurd h (by nofun)

theorem quiet_polite : Polite quiet := fun _ t => Keeps.refl t

/-- If create_dir returns true then the text in front of every `/` of the path names a directory that can be opened,
whatever other processes add meanwhile. -/
theorem C80_creates {grant : Loc → Bool} {w : World} (hw : Polite w) {cwd : Loc} {path : List Char} {t t' : Tree}
    (h : createDir grant w cwd path t = (true, t')) {a : List Char} (ha : DirPrefix a path) :
    t'.lookup cwd a = some (.dir true) := by
  unfold createDir at h
  split at h
  · next h0 =>
    obtain ⟨_, b, hb⟩ := ha
    rw [List.length_eq_zero_iff.1 h0] at hb
    exact absurd hb.symm (by simp)
  · exact loop_true hw path 0 [] t t' h (fun a ⟨_, b, hb⟩ => absurd hb.symm (by simp)) a ha

/-- Nothing that existed is removed or changed, whatever create_dir returns. -/
theorem C80_keeps {grant : Loc → Bool} {w : World} (hw : Polite w) (cwd : Loc) (path : List Char) (t : Tree) :
    Keeps t (createDir grant w cwd path t).2 := by
  unfold createDir
  split
  · exact Keeps.refl t
  · exact loop_keeps hw path 0 [] t

/-- Without other processes, everything new is a directory of the path, made with permission. -/
theorem C80_only {grant : Loc → Bool} {cwd : Loc} {path : List Char} {t : Tree} {l : Loc} {e : Entry}
    (hn : t l = none) (he : (createDir grant quiet cwd path t).2 l = some e) :
    e = .dir true ∧ grant l = true ∧ ∃ a, DirPrefix a path ∧ l = placeOf cwd a := by
  unfold createDir at he
  split at he
  · dsimp only at he; rw [hn] at he; exact absurd he (by nofun)
  · exact loop_only path 0 [] t l e hn he

/-- Where the path begins is a directory. -/
theorem start_dir {t : Tree} (ht : WellFormed t) {cwd : Loc} (hc : t.isDir cwd = true) (path : List Char) :
    t.isDir (startOf cwd path) = true := by
  unfold startOf
  split
  · exact ht.1
  · exact hc

/-- Why create_dir returns false: permission for a directory is refused, or its place is taken by a file or by a
directory that can not be opened, or another process made it between the look and `mkdir`.  In the last case there
is one missing directory less than before. -/
theorem C80_failure {grant : Loc → Bool} {w : World} (hw : Polite w) (hwf : ∀ k t, WellFormed t → WellFormed (w k t))
    {cwd : Loc} {path : List Char} {t t' : Tree} (ht : WellFormed t) (hc : t.isDir cwd = true)
    (h : createDir grant w cwd path t = (false, t')) :
    ∃ a, DirPrefix a path ∧ (grant (placeOf cwd a) = false ∨
      (∃ e, t' (placeOf cwd a) = some e ∧ e ≠ .dir true) ∨
      (t (placeOf cwd a) = none ∧ t' (placeOf cwd a) = some (.dir true) ∧
        ∃ j t1, t1 (placeOf cwd a) = none ∧ w j t1 (placeOf cwd a) = some (.dir true))) := by
  unfold createDir at h
  split at h
  · exact absurd (Prod.mk.inj h).1 (by nofun)
  · obtain ⟨a, ha, hr⟩ := loop_false hw hwf path 0 [] t t' h ht ⟨_, rfl, start_dir ht hc _⟩ (.inl rfl)
    refine ⟨a, ha, ?_⟩
    rcases hr with h1 | h1 | ⟨j, t1, hk, hn, hd, he⟩
    · exact .inl h1
    · exact .inr (.inl h1)
    · refine .inr (.inr ⟨?_, by rw [he]; exact hd, j, t1, hn, hd⟩)
      cases h0 : t (placeOf cwd a) with
      | none => rfl
      | some e => rw [hk _ _ h0] at hn; exact absurd hn (by nofun)

/-- Alone, with permission, and with nothing but directories that can be opened in its way, create_dir returns true.
Partial: not if another process makes the same directories at the same time, and not if a directory on the way
exists and can only be passed through. -/
theorem C80_alone_partial {grant : Loc → Bool} {cwd : Loc} {path : List Char} {t : Tree} (ht : WellFormed t)
    (hc : t.isDir cwd = true) (hg : ∀ a, DirPrefix a path → grant (placeOf cwd a) = true)
    (hfree : ∀ a e, DirPrefix a path → t (placeOf cwd a) = some e → e = .dir true) :
    (createDir grant quiet cwd path t).1 = true := by
  cases h : createDir grant quiet cwd path t with
  | mk b t' =>
    cases b with
    | true => rfl
    | false =>
      exfalso
      obtain ⟨a, ha, hr⟩ := C80_failure quiet_polite (fun _ _ h => h) ht hc h
      rcases hr with h1 | ⟨e, h1, h2⟩ | ⟨_, _, j, t1, h1, h2⟩
      · rw [hg a ha] at h1; exact absurd h1 (by nofun)
      · cases h0 : t (placeOf cwd a) with
        | some e0 =>
          have hk := C80_keeps (grant := grant) quiet_polite cwd path t _ _ h0
          rw [h] at hk
          dsimp only at hk
          rw [hk] at h1
          exact h2 (hfree a e ha (h0.trans h1))
        | none =>
          have := C80_only (grant := grant) (cwd := cwd) (path := path) h0 (e := e) (by rw [h]; exact h1)
          exact h2 this.1
      · rw [quiet, h1] at h2; exact absurd h2 (by nofun)

/-- Once made, always made: a second call changes nothing. -/
theorem C80_again {grant : Loc → Bool} {w : World} (hw : Polite w) {cwd : Loc} {path : List Char} {t t' : Tree}
    (h : createDir grant w cwd path t = (true, t')) (grant' : Loc → Bool) :
    (createDir grant' quiet cwd path t').2 = t' := by
  funext l
  cases h0 : t' l with
  | some e => exact C80_keeps quiet_polite cwd path t' l e h0
  | none =>
    cases h1 : (createDir grant' quiet cwd path t').2 l with
    | none => rfl
    | some e =>
      obtain ⟨_, _, a, ha, rfl⟩ := C80_only h0 h1
      have := lookup_place (C80_creates hw h ha)
      rw [h0] at this
      exact absurd this (by nofun)

/-- The theorems apply: two levels are made. -/
example : (createDir (fun _ => true) quiet [] "/home/me/./x/../log//day/".toList (demoTree true)).1 = true ∧
    (createDir (fun _ => true) quiet [] "/home/me/./x/../log//day/".toList (demoTree true)).2
      ["home".toList, "me".toList, "log".toList, "day".toList] = some (.dir true) ∧
    demoTree true ["home".toList, "me".toList, "log".toList, "day".toList] = none := by decide +kernel

/-- A world in which another process makes `/home/me/log` between the look and the call of `mkdir` for it. -/
def rival : World := fun k t l =>
  if k = 7 ∧ l = ["home".toList, "me".toList, "log".toList] ∧ t l = none ∧ t.isDir ["home".toList, "me".toList] = true
  then some (.dir true) else t l

theorem rival_polite : Polite rival := by
  intro k t l e h
  unfold rival
  split
  · next h0 => rw [h0.2.2.1] at h; exact absurd h (by nofun)
  · exact h

theorem rival_wf (k : Nat) (t : Tree) (ht : WellFormed t) : WellFormed (rival k t) := by
  have hk := rival_polite k t
  refine ⟨isDir_keeps hk ht.1, fun l c e h => ?_⟩
  unfold rival at h
  split at h
  · next h0 =>
    have h1 : l ++ [c] = ["home".toList, "me".toList] ++ ["log".toList] := h0.2.1
    have := (List.append_inj' h1 rfl).1
    subst this
    exact isDir_keeps hk h0.2.2.2
  · exact isDir_keeps hk (ht.2 l c e h)

/-- Two processes that start at the same time: create_dir returns false although nothing is refused and nothing is in
the way, and the last directory is not made. -/
theorem C80_race_counterexample : ∃ w, Polite w ∧ (∀ k t, WellFormed t → WellFormed (w k t)) ∧
    (createDir (fun _ => true) w [] "/home/me/log/day/".toList (demoTree true)).1 = false ∧
    (createDir (fun _ => true) w [] "/home/me/log/day/".toList (demoTree true)).2
      ["home".toList, "me".toList, "log".toList] = some (.dir true) ∧
    (createDir (fun _ => true) w [] "/home/me/log/day/".toList (demoTree true)).2
      ["home".toList, "me".toList, "log".toList, "day".toList] = none :=
  ⟨rival, rival_polite, rival_wf, by decide +kernel⟩

/-- A directory on the way that exists but can not be read (`/home` with mode 0711) stops create_dir, although
everything below it could be made. -/
theorem C80_unreadable_counterexample :
    (createDir (fun _ => true) quiet [] "/home/me/log/".toList (demoTree false)).1 = false ∧
    mkdirCall (fun _ => true) (demoTree false) [] "/home/me/log".toList ≠ none ∧
    (createDir (fun _ => true) quiet [] "/home/me/log/".toList (demoTree false)).2
      ["home".toList, "me".toList, "log".toList] = none := by
  refine ⟨by decide +kernel, ?_, by decide +kernel⟩
  rw [← Option.isSome_iff_ne_none]
  decide +kernel

/-! ## C81: the directory of a log file exists when the file is opened -/

theorem lookup_walk {t : Tree} {cwd : Loc} {p : List Char} {r : Bool} (h : t.lookup cwd p = some (.dir r)) :
    p ≠ [] ∧ t.walk (startOf cwd p) (rawComps p) = some (placeOf cwd p) ∧ t.isDir (placeOf cwd p) = true := by
  have hp := lookup_place h
  unfold Tree.lookup at h
  split at h
  · exact absurd h (by nofun)
  · next h0 =>
    refine ⟨h0, ?_, isDir_iff.2 ⟨r, hp⟩⟩
    cases hw : t.walk (startOf cwd p) (rawComps p) with
    | none => rw [hw] at h; exact absurd h (by nofun)
    | some m => rw [placeOf, walk_place _ hw]

theorem fopen_ok {t : Tree} {cwd : Loc} {dir name : List Char} (hd : dir = [] ∨ ∃ x, dir = x ++ ['/'])
    (hn : '/' ∉ name) (h1 : name ≠ []) (h2 : name ≠ ['.']) (h3 : name ≠ ['.', '.'])
    (hw : t.walk (startOf cwd (dir ++ name)) (rawComps dir) = some (placeOf cwd dir))
    (hdir : t.isDir (placeOf cwd dir) = true) (hno : t.isDir (placeOf cwd dir ++ [name]) = false) :
    fopenPlace t cwd (dir ++ name) = some (placeOf cwd dir ++ [name]) := by
  have hlast : (splitSlash (dir ++ name)).getLast? = some name := by
    rcases hd with rfl | ⟨x, rfl⟩
    · rw [List.nil_append, splitSlash_plain name hn]; rfl
    · rw [List.append_assoc, List.singleton_append, splitSlash_append, splitSlash_plain name hn]
      exact List.getLast?_concat
  unfold fopenPlace
  rw [hlast]
  dsimp only
  rw [if_neg (by simp [h1, h2, h3]), comps_of hn hd h1, List.dropLast_concat, hw]
  dsimp only
  rw [if_pos ⟨hdir, hno⟩]

theorem dirPath_slash {path : List Char} (h : path ≠ []) : ∃ x, dirPath path = x ++ ['/'] := by
  unfold dirPath
  rw [if_neg h]
  dsimp only
  split
  · next hl =>
    have hne : (path.map fun c => if c = '\\' then '/' else c) ≠ [] := by simpa using h
    have := List.dropLast_concat_getLast hne
    rw [List.getLast?_eq_some_getLast hne, Option.some.injEq] at hl
    rw [hl] at this
    exact ⟨_, this.symm⟩
  · exact ⟨_, rfl⟩

/-- After lines 262-272 of fn_out_file_device.h the file can be opened: its directory exists.  Partial: the file name
contains no `/`; nobody else makes the same directories; see C80. -/
theorem C81_open_partial {grant : Loc → Bool} {cwd : Loc} {path name : List Char} {t : Tree} (ht : WellFormed t)
    (hc : t.isDir cwd = true) (hg : ∀ a, DirPrefix a (dirPath path) → grant (placeOf cwd a) = true)
    (hfree : ∀ a e, DirPrefix a (dirPath path) → t (placeOf cwd a) = some e → e = .dir true)
    (hn : '/' ∉ name) (h1 : name ≠ []) (h2 : name ≠ ['.']) (h3 : name ≠ ['.', '.'])
    (hno : (prepareDir grant quiet cwd path t).isDir (placeOf cwd (dirPath path) ++ [name]) = false) :
    fopenPlace (prepareDir grant quiet cwd path t) cwd (dirPath path ++ name) =
      some (placeOf cwd (dirPath path) ++ [name]) := by
  by_cases hp : path = []
  · subst hp
    have hs : startOf cwd name = cwd := by
      unfold startOf
      cases name with
      | nil => exact absurd rfl h1
      | cons c r =>
        rw [if_neg]
        intro h
        have := Option.some.inj h
        exact hn (by rw [this]; exact List.mem_cons_self)
    have hpl : placeOf cwd (dirPath []) = cwd := rfl
    exact fopen_ok (.inl rfl) hn h1 h2 h3
      (by rw [hpl]; show Tree.walk _ (startOf cwd name) [] = _; rw [hs]; rfl) (by rw [hpl]; exact hc) hno
  · obtain ⟨x, hx⟩ := dirPath_slash hp
    have key : (prepareDir grant quiet cwd path t).walk (startOf cwd (dirPath path)) (rawComps (dirPath path)) =
        some (placeOf cwd (dirPath path)) ∧
        (prepareDir grant quiet cwd path t).isDir (placeOf cwd (dirPath path)) = true := by
      unfold prepareDir
      rw [if_neg hp]
      split
      · next hd => exact (lookup_walk (isDirCall_iff.1 hd)).2
      · have hok := C80_alone_partial (grant := grant) ht hc hg hfree
        by_cases hx0 : x = []
        · subst hx0
          rw [hx]
          exact ⟨rfl, isDir_keeps (C80_keeps quiet_polite _ _ _) ht.1⟩
        · have hl := C80_creates quiet_polite (t' := (createDir grant quiet cwd (dirPath path) t).2)
            (Prod.ext hok rfl : createDir grant quiet cwd (dirPath path) t = (true, _)) ⟨hx0, [], hx⟩
          have := lookup_walk hl
          rw [hx] at this ⊢
          have hpl : placeOf cwd (x ++ ['/']) = placeOf cwd x := by
            rw [placeOf, rawComps_slash, startOf_append _ _ _ hx0]; rfl
          rw [hpl, startOf_append _ _ _ hx0, rawComps_slash]
          exact this.2
    have hne : dirPath path ≠ [] := by rw [hx]; simp
    exact fopen_ok (.inr ⟨x, hx⟩) hn h1 h2 h3 (by rw [startOf_append _ _ _ hne]; exact key.1) key.2 hno

/-- The theorem applies to a path with a back slash, a missing and an existing directory. -/
example : fopenPlace (prepareDir (fun _ => true) quiet [] "/home\\me/log".toList (demoTree true)) []
    (dirPath "/home\\me/log".toList ++ "a.log".toList) =
      some ["home".toList, "me".toList, "log".toList, "a.log".toList] := by decide +kernel

/-- What is opened as a file is what the path names, and no directory. -/
theorem C81_no_directory {t : Tree} {cwd : Loc} {p : List Char} {l : Loc} (h : fopenPlace t cwd p = some l) :
    t.lookup cwd p = t l ∧ ∀ r, t.lookup cwd p ≠ some (.dir r) := by
  unfold fopenPlace at h
  split at h
  · exact absurd h (by nofun)
  · next c hc =>
    split at h
    · exact absurd h (by nofun)
    · next hn =>
      simp only [not_or] at hn
      obtain ⟨ys, hy⟩ := List.getLast?_eq_some_iff.mp hc
      have hr : rawComps p = ys.filter (· ≠ []) ++ [c] := by
        unfold rawComps
        rw [hy, List.filter_append]
        simp [hn.1]
      have hp : p ≠ [] := by
        rintro rfl
        rw [rawComps_nil] at hr
        exact absurd hr (by simp)
      rw [hr, List.dropLast_concat] at h
      split at h
      · exact absurd h (by nofun)
      · next m hm =>
        split at h
        · next hd =>
          cases h
          have hl : t.lookup cwd p = t (m ++ [c]) := by
            unfold Tree.lookup
            rw [if_neg hp, hr, walk_append, hm]
            simp only [Option.bind_some]
            rw [walk_one, if_pos hd.1]
            simp only [Option.bind_some]
            unfold descend
            rw [if_neg hn.2.1, if_neg hn.2.2]
          refine ⟨hl, fun r hr => ?_⟩
          rw [hl] at hr
          have := hd.2
          unfold Tree.isDir at this
          rw [hr] at this
          exact absurd this (by nofun)
        · exact absurd h (by nofun)

example : fopenPlace (demoTree true) [] "/home/a.log".toList = some ["home".toList, "a.log".toList] ∧
    fopenPlace (demoTree true) [] "/home/.".toList = none ∧ fopenPlace (demoTree true) [] "/home/..".toList = none ∧
    fopenPlace (demoTree true) [] "/home/".toList = none := by decide +kernel

/-- A file name with a directory in it (`file: "net/in"`) is not prepared: the file can not be opened although every
directory could be made. -/
theorem C81_counterexample :
    fopenPlace (prepareDir (fun _ => true) quiet [] "/home/me".toList (demoTree true)) []
      (dirPath "/home/me".toList ++ "net/in.log".toList) = none ∧
    fopenPlace (createDir (fun _ => true) quiet [] "/home/me/net/in.log".toList (demoTree true)).2 []
      (dirPath "/home/me".toList ++ "net/in.log".toList) ≠ none := by decide +kernel

/-! ## C82: whole files and the name of the process -/

/-- read_content returns every byte that can be read, whatever the size of the buffer. -/
theorem C82_content (n : Nat) (good : List Char) : readContent n good = good := by
  induction hl : good.length using Nat.strongRecOn generalizing good with
  | ind k ih =>
    rw [readContent]
    split
    · next h =>
      rw [List.length_take] at h
      rw [ih (good.drop (n + 1)).length (by rw [List.length_drop]; omega) _ rfl, List.take_append_drop]
    · next h =>
      rw [List.length_take] at h
      exact List.take_of_length_le (by omega)

theorem takeWhile_holds {p : Char → Bool} {s : List Char} {c : Char} (h : c ∈ s.takeWhile p) : p c = true := by
  induction s with
  | nil => exact absurd h (by nofun)
  | cons x y ih =>
    rw [List.takeWhile_cons] at h
    split at h
    · next hx => rcases List.mem_cons.1 h with rfl | h
                 · exact hx
                 · exact ih h
    · exact absurd h (by nofun)

/-- Whatever the command line is, the name contains no `/` and no NUL and has at most 499 bytes: it can not lead out
of the directory of the logs.  Without a command line it is `process`. -/
theorem C82_name_safe (cmdline : Option (List Char)) :
    '/' ∉ processName cmdline ∧ Char.ofNat 0 ∉ processName cmdline ∧ (processName cmdline).length ≤ 499 ∧
      (cmdline = none → String.ofList (processName cmdline) = "process") := by
  unfold processName
  split
  · exact ⟨by decide, by decide, by decide, fun _ => by decide⟩
  · next s =>
    have hsub : ∀ c ∈ afterSlash (readTextLine s), c ∈ readTextLine s := by
      intro c hc
      have := (List.takeWhile_sublist (fun x : Char => decide (x ≠ '/')) (l := (readTextLine s).reverse)).subset
        (List.mem_reverse.1 hc)
      exact List.mem_reverse.1 this
    refine ⟨fun h => ?_, fun h => ?_, ?_, nofun⟩
    · have := takeWhile_holds (List.mem_reverse.1 h)
      simp at this
    · have := takeWhile_holds (hsub _ h)
      simp at this
    · have h1 : (afterSlash (readTextLine s)).length ≤ (readTextLine s).length := by
        unfold afterSlash
        rw [List.length_reverse]
        exact Nat.le_trans (List.takeWhile_sublist _).length_le (by rw [List.length_reverse]; exact Nat.le_refl _)
      have h2 : (readTextLine s).length ≤ (fgets 500 s).length := (List.takeWhile_sublist _).length_le
      have h3 : (fgets 500 s).length ≤ 499 := by
        unfold fgets
        rw [List.length_take]
        omega
      omega

/-- The content of `/proc/<pid>/cmdline`: every argument with a NUL behind it. -/
def cmdlineOf (args : List (List Char)) : List Char := args.flatMap (· ++ [Char.ofNat 0])

theorem takeWhile_upto {p : Char → Bool} {s r : List Char} {c : Char} (h : ∀ x ∈ s, p x = true) (hc : p c = false) :
    (s ++ c :: r).takeWhile p = s := by
  induction s with
  | nil => rw [List.nil_append, List.takeWhile_cons, hc]; rfl
  | cons x y ih =>
    rw [List.cons_append, List.takeWhile_cons, if_pos (h x List.mem_cons_self),
      ih fun c hc => h c (List.mem_cons_of_mem _ hc)]

theorem takeWhile_longer {p : Char → Bool} {s r : List Char} (h : ∀ x ∈ s, p x = true) :
    ∃ q, (s ++ r).takeWhile p = s ++ q := by
  induction s with
  | nil => exact ⟨_, rfl⟩
  | cons x y ih =>
    obtain ⟨q, hq⟩ := ih fun c hc => h c (List.mem_cons_of_mem _ hc)
    exact ⟨q, by rw [List.cons_append, List.takeWhile_cons, if_pos (h x List.mem_cons_self), hq]; rfl⟩

/-- The name of the process is the last component of the first argument.  Partial: a first argument of at most 498
bytes and without line feed. -/
theorem C82_name_partial (prog : List Char) (args : List (List Char)) (h0 : Char.ofNat 0 ∉ prog) (hn : '\n' ∉ prog)
    (hl : prog.length ≤ 498) :
    '/' ∉ processName (some (cmdlineOf (prog :: args))) ∧
    ∃ d, prog = d ++ processName (some (cmdlineOf (prog :: args))) ∧ (d = [] ∨ ∃ x, d = x ++ ['/']) := by
  refine ⟨(C82_name_safe _).1, ?_⟩
  have hline : readTextLine (cmdlineOf (prog :: args)) = prog := by
    have hs : cmdlineOf (prog :: args) = (prog ++ [Char.ofNat 0]) ++ cmdlineOf args := by
      simp [cmdlineOf]
    have hall : ∀ x ∈ prog ++ [Char.ofNat 0], decide (x ≠ '\n') = true := by
      intro x hx
      rw [decide_eq_true_iff]
      rintro rfl
      rcases List.mem_append.1 hx with h | h
      · exact hn h
      · exact absurd h (by decide)
    obtain ⟨q, hq⟩ := takeWhile_longer (r := cmdlineOf args) hall
    have : ∃ q', fgets 500 (cmdlineOf (prog :: args)) = prog ++ Char.ofNat 0 :: q' := by
      unfold fgets
      rw [hs, hq]
      dsimp only
      split
      · refine ⟨(q ++ ['\n']).take (499 - (prog ++ [Char.ofNat 0]).length), ?_⟩
        rw [List.append_assoc, List.take_append, List.take_of_length_le (by simp; omega)]
        simp
      · refine ⟨q.take (499 - (prog ++ [Char.ofNat 0]).length), ?_⟩
        rw [List.take_append, List.take_of_length_le (by simp; omega)]
        simp
    obtain ⟨q', hq'⟩ := this
    unfold readTextLine
    rw [hq']
    refine takeWhile_upto (fun x hx => ?_) (by decide)
    rw [decide_eq_true_iff]
    rintro rfl
    exact h0 hx
  show ∃ d, prog = d ++ afterSlash (readTextLine (cmdlineOf (prog :: args))) ∧ _
  rw [hline]
  refine ⟨(prog.reverse.dropWhile (· ≠ '/')).reverse, ?_, ?_⟩
  · unfold afterSlash
    rw [← List.reverse_append, List.takeWhile_append_dropWhile, List.reverse_reverse]
  · cases hd : prog.reverse.dropWhile (· ≠ '/') with
    | nil => exact .inl rfl
    | cons c r =>
      right
      have hc : c = '/' := by
        have := List.head_dropWhile_not (fun x : Char => decide (x ≠ '/')) (l := prog.reverse) (by rw [hd]; simp)
        simp only [hd, List.head_cons] at this
        simpa using this
      exact ⟨r.reverse, by rw [hc]; simp⟩

/-- The theorem applies. -/
example : processName (some (cmdlineOf ["/usr/bin/server".toList, "-c".toList, "/etc/x".toList])) =
    "server".toList := by decide +kernel

/-- A program with a longer path gets a wrong name: the last component begins behind byte 499. -/
theorem C82_name_counterexample :
    processName (some (cmdlineOf [List.replicate 250 'd' ++ '/' :: List.replicate 250 'e' ++ "/server".toList])) ≠
      "server".toList := by decide +kernel

end FNLog
