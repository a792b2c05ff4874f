import Verif.Proof.Prefix

/-!
# Properties of log statements (C23 - C27, C29, C30)

`Rec` is the record of a log statement: `LOG_SIZE` (= `E.N`) bytes and the recorded length.
-/

namespace FNLog
open Spec

/-! ## C23 -/

/-- **C23.** Every sequence of stream operations on a record (in any state with a length up to LOG_SIZE, and
whatever dates the thread has printed before) is defined: no byte outside of the record is written, the
recorded length stays at most LOG_SIZE, and what was in the record before stays in front.
Missing: the arguments excluded by `Val.Fine`, see `C23_counterexample`. -/
theorem C23_inside_record_partial (E : Env) (hlib : E.lib.Sane) (hz : E.zone.Sane) (r : Rec)
    (hr : r.content.length = E.N) (hl : r.len ≤ E.N) (dates : List Int) (vs : List Val)
    (hv : ∀ v ∈ vs, Val.All (Val.Fine (fun _ _ => True) (fun _ => True)) v) :
    ∃ r' c', streamAll E ⟨some r, cacheAfter E.zone dates⟩ vs = some ⟨some r', c'⟩ ∧
      r'.content.length = E.N ∧ r.len ≤ r'.len ∧ r'.len ≤ E.N ∧ r'.content.take r.len = r.content.take r.len := by
  obtain ⟨r', c', e, _, w⟩ := execAll_wrote E hlib hz (vs.flatMap Val.prims) r (cacheAfter E.zone dates) hr hl
    (cacheAfter_ok _ _) (fun p hp => (line_fine hv p hp).1)
  refine ⟨r', c', e, w.size, by have := w.len; omega, w.bound, ?_⟩
  have h1 : r'.content.take r.len = (r'.content.take r'.len).take r.len := by
    rw [List.take_take, Nat.min_eq_left (by have := w.len; omega)]
  rw [h1, w.text, List.take_append_of_le_length (by rw [List.length_take]; omega), List.take_take, Nat.min_self]

/-- The hypotheses about the environment can be met: a C library and the calendar in UTC+8. -/
def demoEnv (N : Nat) : Env := ⟨N, ⟨fun _ => "1e+20".toList, fun _ => "0.00001".toList⟩, fixedZone 28800⟩

theorem demoEnv_ok (N : Nat) : (demoEnv N).lib.Sane ∧ (demoEnv N).zone.Sane ∧ (demoEnv N).zone.Uniform ∧
    (demoEnv N).zone.Covers :=
  ⟨fun _ => ⟨show 5 ≤ 29 by omega, show 7 ≤ 29 by omega⟩, fixedZone_sane _, fixedZone_uniform _, fixedZone_covers _⟩

/-- A record of 48 bytes: numbers do not fit any more, text is cut. -/
example :
    let vs : List Val := [.str "0123456789".toList, .int (-42), .container "vector:".toList [.uns 1, .uns 2],
      .pair (.bool true) (.chr 'x'), .str "tail tail tail".toList]
    (∀ v ∈ vs, Val.All (Val.Fine (fun _ _ => True) (fun _ => True)) v) ∧
    (streamAll (demoEnv 48) ⟨some ⟨List.replicate 48 '.', 0⟩, .zero⟩ vs).map
      (fun s => s.data.map fun r => (r.content.take r.len, r.len)) =
        some (some ("0123456789-42vector:()[, ]<true:x>tail tail tail".toList, 48)) := by
  refine ⟨?_, by decide +kernel⟩
  intro v hv
  simp only [List.mem_cons, List.not_mem_nil, or_false] at hv
  rcases hv with rfl | rfl | rfl | rfl | rfl <;> simp [Val.All, Val.AllIn, Val.Fine]

/-- **C23 is false in general**: with room left, streaming the smallest 64-bit integer is undefined (its
negation overflows), and so is dumping a block with a zero byte (`__builtin_clzll(0)`). -/
theorem C23_counterexample (E : Env) (r : Rec) (c : DateCache) (hr : r.len + 30 < E.N) :
    streamAll E ⟨some r, c⟩ [.int (-(2 ^ 63))] = none ∧ exec E ⟨some r, c⟩ (.hexRow [0]) = none := by
  refine ⟨?_, ?_⟩
  · have hw : writeDecS 0 r.content r.len (-(2 ^ 63)) = none := by
      unfold writeDecS
      rw [if_pos (by omega)]
      cases writeAt r.content r.len ['-'] with
      | none => rfl
      | some b' => rfl
    simp only [streamAll, List.flatMap_cons, List.flatMap_nil, Val.prims, List.append_nil, execAll, exec]
    rw [if_pos (by omega)]
    simp only [Rec.fmt, hw]
    rfl
  · simp only [exec, hexRow]
    rw [if_neg (by omega)]
    rfl

/-- `write_binary` on a single zero byte contains that primitive write. -/
example : Prim.hexRow [0] ∈ (Val.binary 4096 [0]).prims := by decide

/-! ## C24 -/

/-- **C24.** Publishing a record of any content and length gives a line of length
`min len (LOG_SIZE - 2) + 1`: the first `min len (LOG_SIZE - 2)` bytes and a newline, with a NUL behind it
that is still inside of the record. -/
theorem C24_published_line (N : Nat) (hN : 2 ≤ N) (r : Rec) (h : r.content.length = N) :
    ∃ r', sealRec N r = some r' ∧ r'.content.length = N ∧ r'.len = min r.len (N - 2) + 1 ∧ r'.len < N ∧
      r'.content.take r'.len = r.content.take (min r.len (N - 2)) ++ ['\n'] ∧
      r'.content[r'.len]? = some '\x00' := by
  obtain ⟨r', h1, h2, h3, h4, h5⟩ := seal_line hN r h
  exact ⟨r', h1, h2, h3, by omega, h4, h5⟩

example : (sealRec 8 ⟨"abcdefgh".toList, 8⟩).map (fun r => (r.content, r.len)) =
    some ("abcdef\n\x00".toList, 7) := by decide

/-! ## C25 -/

/-- **C25.** If the text fits with 40 bytes to spare (and an alignment to column `n` with `n` bytes), then
the published line is what was in the record (the prefix), followed by the texts of the values in their
order and a newline. -/
theorem C25_line_is_the_text_partial (E : Env) (hlib : E.lib.Sane) (hz : E.zone.Sane) (hu : E.zone.Uniform)
    (hc : E.zone.Covers) (r : Rec) (hr : r.content.length = E.N) (dates : List Int) (vs : List Val)
    (text : List Char) (ht : text = lineText ⟨doubleText E.lib, localDate E.zone⟩ r.len vs)
    (hroom : r.len + text.length + 40 < E.N)
    (hv : ∀ v ∈ vs, Val.All (Val.Fine E.zone.Plain (fun n => r.len + text.length + n < E.N)) v) :
    ∃ r' c' r'', streamAll E ⟨some r, cacheAfter E.zone dates⟩ vs = some ⟨some r', c'⟩ ∧
      sealRec E.N r' = some r'' ∧ r''.content.take r''.len = r.content.take r.len ++ text ++ ['\n'] := by
  have hfine := line_fine hv
  have hcc := cacheAfter_ok E.zone dates
  obtain ⟨r', c', e, _, w⟩ := execAll_wrote E hlib hz (vs.flatMap Val.prims) r (cacheAfter E.zone dates) hr
    (by omega) hcc (fun p hp => (hfine p hp).1)
  have hT := lineText_prims ⟨doubleText E.lib, localDate E.zone⟩ vs r.len
  rw [← ht] at hT
  have hfull := putAll_full E ⟨doubleText E.lib, localDate E.zone⟩ (vs.flatMap Val.prims) (cacheAfter E.zone dates)
    r.len hcc ⟨rfl, fun ts ms hm c hc' => (dateOut_plain hu hc ((hfine _ hm).2.1 ts ms rfl) hc').1⟩
    (fun p hp => (hfine p hp).1) (by rw [← hT]; exact hroom)
    (fun n hn => by rw [← hT]; exact (hfine _ hn).2.2 n rfl)
  rw [hfull, ← hT] at w
  obtain ⟨r'', s1, s2, s3, s4, s5⟩ := seal_line (by omega) r' w.size
  refine ⟨r', c', r'', e, s1, ?_⟩
  have hmin : min r'.len (E.N - 2) = r'.len := by have := w.len; omega
  rw [s4, hmin, w.text]

/-- A line with a prefix of three characters, a date, a number, an alignment to column 40 and a pair. -/
example :
    let E := demoEnv 200
    let vs : List Val := [.stamp 1794800000 417, .str " n=".toList, .int (-7), .blank 40,
      .pair (.uns 1) (.cstr none)]
    let text := lineText ⟨doubleText E.lib, localDate E.zone⟩ 3 vs
    text = "[20261116 11:33:20.417] n=-7         <1:null>".toList ∧
    (∀ v ∈ vs, Val.All (Val.Fine E.zone.Plain (fun n => 3 + text.length + n < E.N)) v) := by
  refine ⟨by decide +kernel, ?_⟩
  intro v hv
  simp only [List.mem_cons, List.not_mem_nil, or_false] at hv
  have hlen : (lineText ⟨doubleText (demoEnv 200).lib, localDate (demoEnv 200).zone⟩ 3
    [.stamp 1794800000 417, .str " n=".toList, .int (-7), .blank 40, .pair (.uns 1) (.cstr none)]).length = 45 := by
    decide +kernel
  rcases hv with rfl | rfl | rfl | rfl | rfl
  · simp only [Val.All, Val.Fine]
    refine ⟨by omega, ⟨?_, ?_, ?_⟩, by omega⟩ <;> decide +kernel
  · simp [Val.All, Val.Fine]
  · simp [Val.All, Val.Fine]
  · simp only [Val.All, Val.Fine]
    rw [hlen]; decide
  · simp [Val.All, Val.Fine]

/-- The extra room for alignments is needed: a line of 10 bytes aligned to column 100 in a record of 105
bytes would fit but gets no blanks. -/
theorem C25_alignment_counterexample (c : DateCache) :
    (streamAll (demoEnv 105) ⟨some ⟨List.replicate 105 '.', 10⟩, c⟩ [.blank 100]).map
      (fun s => s.data.map Rec.len) = some (some 10) ∧
    10 + (lineText ⟨doubleText (demoEnv 105).lib, localDate (demoEnv 105).zone⟩ 10 [.blank 100]).length = 100 := by
  refine ⟨?_, by decide +kernel⟩
  simp only [streamAll, List.flatMap_cons, List.flatMap_nil, Val.prims, List.append_nil, execAll, exec]
  rw [if_neg (by decide)]
  rfl

/-! ## C26 -/

theorem putAll_strings (E : Env) (ss : List (List Char)) : ∀ (c : DateCache) (col : Nat),
    (putAll E c col (ss.map Prim.buf)).flatten = ss.flatten.take (E.N - col) := by
  induction ss with
  | nil => intro c col; simp [putAll]
  | cons s ss ih =>
    intro c col
    simp only [List.map_cons, putAll, List.flatten_cons, ih, primPut, cacheStep]
    rw [List.take_append]
    congr 1
    rw [List.length_take]
    congr 1
    omega

/-- **C26**, strings: the published line is the longest beginning of the intended text that fits in
LOG_SIZE - 2 bytes, and a newline. -/
theorem C26_strings_truncated (E : Env) (hlib : E.lib.Sane) (hz : E.zone.Sane) (hN : 2 ≤ E.N) (r : Rec)
    (hr : r.content.length = E.N) (hl : r.len ≤ E.N) (dates : List Int) (ss : List (List Char)) :
    ∃ r' c' r'', streamAll E ⟨some r, cacheAfter E.zone dates⟩ (ss.map Val.str) = some ⟨some r', c'⟩ ∧
      sealRec E.N r' = some r'' ∧
      r''.content.take r''.len = (r.content.take r.len ++ ss.flatten).take (E.N - 2) ++ ['\n'] := by
  have hp : (ss.map Val.str).flatMap Val.prims = ss.map Prim.buf := by
    induction ss with
    | nil => rfl
    | cons s ss ih => rw [List.map_cons, List.flatMap_cons, ih]; simp [Val.prims]
  obtain ⟨r', c', e, _, w⟩ := execAll_wrote E hlib hz (ss.map Prim.buf) r (cacheAfter E.zone dates) hr hl
    (cacheAfter_ok _ _) (fun p hp => by
      obtain ⟨s, _, rfl⟩ := List.mem_map.mp hp
      trivial)
  rw [putAll_strings] at w
  obtain ⟨r'', s1, s2, s3, s4, s5⟩ := seal_line hN r' w.size
  refine ⟨r', c', r'', by rw [streamAll, hp]; exact e, s1, ?_⟩
  rw [s4]
  congr 1
  have h1 : r'.content.take (min r'.len (E.N - 2)) = (r'.content.take r'.len).take (E.N - 2) := by
    rw [List.take_take, Nat.min_comm]
  rw [h1, w.text, List.take_append, List.take_append, List.take_take, List.length_take]
  have e1 : min (E.N - 2 - min r.len r.content.length) (E.N - r.len) = E.N - 2 - min r.len r.content.length := by
    omega
  rw [List.take_take, e1]

/-- A record of 10 bytes that contains "ab" gets two strings of together 11 bytes. -/
example :
    ((streamAll (demoEnv 10) ⟨some ⟨"ab........".toList, 2⟩, .zero⟩ (["cdef".toList, "ghijklm".toList].map Val.str)).bind
      (fun s => s.data.bind (sealRec 10))).map (fun r => r.content.take r.len) = some "abcdefgh\n".toList := by
  decide +kernel

theorem primPut_kept (E : Env) (c : DateCache) (col : Nat) (p : Prim) :
    Kept (textsOf E c) p (primPut (textsOf E c) E.N col p) := by
  unfold primPut
  split
  · exact Or.inr (Or.inr (Or.inl ⟨_, rfl, List.take_prefix _ _⟩))
  · exact Or.inr (Or.inr (Or.inr ⟨_, _, rfl, List.take_prefix _ _, rfl⟩))
  · split
    · exact Or.inr (Or.inl ⟨col, rfl⟩)
    · exact Or.inl rfl

/-- **C26**, arbitrary operations: the record consists of one piece for each primitive write, in order;
each piece is the whole text of that write, or nothing, or, for plain text only, a beginning of it (for a
row of a dump: the text of the first bytes).  Dates are those of some cache that the thread can have. -/
theorem C26_pieces (E : Env) (hlib : E.lib.Sane) (hz : E.zone.Sane) (r : Rec)
    (hr : r.content.length = E.N) (hl : r.len ≤ E.N) (dates : List Int) (vs : List Val)
    (hv : ∀ v ∈ vs, Val.All (Val.Fine (fun _ _ => True) (fun _ => True)) v) :
    ∃ (r' : Rec) (c' : DateCache) (pieces : List (List Char)), streamAll E ⟨some r, cacheAfter E.zone dates⟩ vs = some ⟨some r', c'⟩ ∧
      r'.content.take r'.len = r.content.take r.len ++ List.flatten pieces ∧
      pieces.length = (vs.flatMap Val.prims).length ∧
      ∀ (i : Nat) p t, (vs.flatMap Val.prims)[i]? = some p → pieces[i]? = some t →
        ∃ c, CacheFrom E.zone c ∧ Kept (textsOf E c) p t := by
  obtain ⟨r', c', e, _, w⟩ := execAll_wrote E hlib hz (vs.flatMap Val.prims) r (cacheAfter E.zone dates) hr hl
    (cacheAfter_ok _ _) (fun p hp => (line_fine hv p hp).1)
  refine ⟨r', c', _, e, w.text, ?_, ?_⟩
  · generalize vs.flatMap Val.prims = ps
    generalize cacheAfter E.zone dates = c0
    generalize r.len = col
    induction ps generalizing c0 col with
    | nil => rfl
    | cons p ps ih => simp only [putAll, List.length_cons, ih]
  · have hc0 := cacheAfter_ok E.zone dates
    generalize vs.flatMap Val.prims = ps
    generalize cacheAfter E.zone dates = c0 at hc0
    generalize r.len = col
    induction ps generalizing c0 col with
    | nil => intro i p t h; exact absurd h (by simp)
    | cons q ps ih =>
      intro i p t h1 h2
      cases i with
      | zero =>
        simp only [putAll, List.getElem?_cons_zero, Option.some.injEq] at h1 h2
        rw [← h1, ← h2]
        exact ⟨c0, hc0, primPut_kept E c0 col q⟩
      | succ i =>
        simp only [putAll, List.getElem?_cons_succ] at h1 h2
        exact ih _ (cacheStep_from hc0 _ _) _ i p t h1 h2

/-! ## C27 -/

/-- **C27.** For every prefix mask other than 0, an empty record gets exactly the selected fields in the
order timestamp, priority, thread, logger name, description, file and line, function, and a blank.
The file name is the longest end of the path with at most two separators.  Everything stays inside of
the record if the shortened file name and the function name together have at most LOG_SIZE - 398 bytes. -/
theorem C27_prefix (E : Env) (hlib : E.lib.Sane) (hz : E.zone.Sane) (hu : E.zone.Uniform)
    (hc : E.zone.Covers) (a : PrefixArgs) (ha : a.Ok) (hd : E.zone.Plain a.timestamp a.precise)
    (hm : a.mask ≠ 0) (file : List Char) (hfile : FileField a.file file)
    (hsize : file.length + (funcField a.func).length + 398 ≤ E.N)
    (content : List Char) (hcon : content.length = E.N) (dates : List Int) :
    ∃ r c', ctorPrefix E a ⟨some ⟨content, 0⟩, cacheAfter E.zone dates⟩ = some ⟨some r, c'⟩ ∧
      r.content.length = E.N ∧ r.len ≤ E.N ∧
      r.content.take r.len = prefixText
        [(a.mask.testBit 0, localDate E.zone a.timestamp a.precise),
         (a.mask.testBit 1, bracket (priorityText a.priority.toNat)),
         (a.mask.testBit 2, bracket (numeral 10 a.thread)),
         (a.mask.testBit 3, bracket a.name),
         (a.mask.testBit 4, bracket a.desc),
         (a.mask.testBit 5, bracket (file ++ [':'] ++ numeral 10 a.line.toNat)),
         (a.mask.testBit 6, ['('] ++ funcField a.func ++ [')'])] := by
  have hD := fun c hc' => (dateOut_plain hu hc hd (c := c) hc').1
  have hL := (dateOut_plain hu hc hd (c := DateCache.zero) (Or.inl rfl)).2
  obtain ⟨_, h⟩ := ctorPrefix_adds hlib hz a ha _ hD (by omega) hm
  rw [fileText_eq hfile, funcText_eq] at h
  obtain ⟨r, c', e, _, w⟩ := h ⟨content, 0⟩ (cacheAfter E.zone dates) hcon (by show 0 + _ ≤ _; rw [Nat.zero_add]; exact hsize) (cacheAfter_ok _ _)
  refine ⟨r, c', e, w.size, w.bound, ?_⟩
  rw [w.text]
  have hbit : ∀ i, decide (a.mask &&& 2 ^ i ≠ 0) = a.mask.testBit i := by
    intro i
    cases hb : a.mask.testBit i with
    | true =>
      refine decide_eq_true fun h0 => ?_
      have h1 : (a.mask &&& 2 ^ i).testBit i = true := by
        rw [Nat.testBit_and, hb, Nat.testBit_two_pow_self]; rfl
      rw [h0, Nat.zero_testBit] at h1
      exact Bool.noConfusion h1
    | false =>
      refine decide_eq_false (fun h0 => h0 (Nat.eq_of_testBit_eq fun j => ?_))
      rw [Nat.testBit_and, Nat.zero_testBit, Nat.testBit_two_pow]
      by_cases hj : i = j
      · rw [← hj, hb]; rfl
      · rw [decide_eq_false hj, Bool.and_false]
  unfold prefixFields
  have b0 := hbit 0; have b1 := hbit 1; have b2 := hbit 2; have b3 := hbit 3
  have b4 := hbit 4; have b5 := hbit 5; have b6 := hbit 6
  simp only [Nat.reducePow] at b0 b1 b2 b3 b4 b5 b6
  rw [b0, b1, b2, b3, b4, b5, b6, fileText_eq hfile, funcText_eq]
  rfl

/-- Without any field nothing is written, not even the blank. -/
theorem C27_no_prefix (E : Env) (a : PrefixArgs) (s : Strm) (h : a.mask = 0) : ctorPrefix E a s = some s := by
  unfold ctorPrefix; rw [if_pos h]

/-- The default prefix: time, priority, file and function. -/
def demoArgs : PrefixArgs where
  mask := 0x63
  timestamp := 1794800000
  precise := 417
  priority := 2
  thread := 4711
  name := "main".toList
  desc := []
  file := some "/home/u/src/net/tcp.cpp".toList
  line := 17
  func := some "send".toList

example : demoArgs.Ok ∧ (fixedZone 28800).Plain demoArgs.timestamp demoArgs.precise ∧
    FileField demoArgs.file "src/net/tcp.cpp".toList ∧
    (ctorPrefix (demoEnv 500) demoArgs ⟨some ⟨List.replicate 500 '.', 0⟩, .zero⟩).map
      (fun s => s.data.map fun r => r.content.take r.len) =
      some (some "[20261116 11:33:20.417][INFO ][src/net/tcp.cpp:17](send) ".toList) := by
  refine ⟨⟨by decide, by decide, by decide, by decide, by decide⟩, ?_, ?_, by decide +kernel⟩
  · refine ⟨by decide, ⟨?_, ?_, ?_⟩, by decide⟩ <;> decide +kernel
  · have h := shortPath_spec "/home/u/src/net/tcp.cpp".toList
    have e : "/home/u/src/net/tcp.cpp".toList.drop (shortPath "/home/u/src/net/tcp.cpp".toList) =
      "src/net/tcp.cpp".toList := by decide +kernel
    rw [e] at h
    exact h

/-- The bound is needed: the prefix is written without looking at the room.  A function name of 20 bytes
and a record of 16 bytes. -/
theorem C27_long_name_counterexample (E : Env) (c : DateCache) (content : List Char)
    (h : content.length = 16) :
    ctorPrefix E { demoArgs with mask := 0x40, func := some (List.replicate 20 'f') } ⟨some ⟨content, 0⟩, c⟩ = none := by
  have h1 : ∀ b : List Char, b.length = 16 → writeAt b 1 (List.replicate 20 'f') = none := by
    intro b hb; unfold writeAt; rw [if_neg (by rw [hb]; decide)]
  have h2 : writeAt content 0 ['('] = some (put content 0 ['(']) := writeAt_put (by rw [h]; decide)
  have h3 := put_length (b := content) (s := ['(']) (off := 0) (by rw [h]; decide)
  unfold ctorPrefix
  rw [if_neg (by decide)]
  simp only [whenBit, demoArgs]
  simp (decide := true) only [if_false, Option.bind_eq_bind, Option.bind_some]
  rw [if_pos (by decide)]
  simp only [prefixFunc, pushText, onRec, Rec.pushUnsafe, h2, Option.bind_eq_bind, Option.bind_some, Option.map_some,
    List.length_cons, List.length_nil, List.length_replicate]
  rw [if_pos (by decide)]
  rw [h1 _ (by rw [h3, h])]
  rfl

/-! ## C29 -/

/-- **C29.** Streaming a container (with enough room) prints its kind, its number of elements in
parentheses, and in brackets the texts of at most the first five elements separated by ", ", followed by
"..., " exactly if there are more than five. -/
theorem C29_container (E : Env) (hlib : E.lib.Sane) (hz : E.zone.Sane) (hu : E.zone.Uniform)
    (hc : E.zone.Covers) (r : Rec) (hr : r.content.length = E.N) (dates : List Int) (name : List Char) (es : List Val)
    (texts : List (List Char))
    (ht : texts = Val.texts ⟨doubleText E.lib, localDate E.zone⟩
      (r.len + (name ++ "(".toList ++ numeral 10 es.length ++ ")[".toList).length) es)
    (line : List Char)
    (hline : line = name ++ "(".toList ++ numeral 10 es.length ++ ")[".toList ++
      List.intercalate ", ".toList (texts.take 5) ++ (if 5 < es.length then "..., ".toList else []) ++ "]".toList)
    (hroom : r.len + line.length + 40 < E.N)
    (hv : Val.All (Val.Fine E.zone.Plain (fun n => r.len + line.length + n < E.N)) (.container name es)) :
    texts.length = es.length ∧
    ∃ r' c' r'', streamAll E ⟨some r, cacheAfter E.zone dates⟩ [.container name es] = some ⟨some r', c'⟩ ∧
      sealRec E.N r' = some r'' ∧ r''.content.take r''.len = r.content.take r.len ++ line ++ ['\n'] := by
  have hlen : ∀ (T : Texts) (l : List Val) (col : Nat), (Val.texts T col l).length = l.length := by
    intro T l
    induction l with
    | nil => intro _; rfl
    | cons v l ih => intro col; simp only [Val.texts, List.length_cons, ih]
  have htl : texts.length = es.length := by rw [ht, hlen]
  have hl : line = lineText ⟨doubleText E.lib, localDate E.zone⟩ r.len [.container name es] := by
    simp only [lineText, Val.text, List.append_nil, containerBody]
    rw [hline]
    have e : "(".toList = ['('] := rfl
    rw [e] at ht ⊢
    rw [← ht, htl]
    simp only [List.append_assoc]
    rfl
  refine ⟨htl, ?_⟩
  exact C25_line_is_the_text_partial E hlib hz hu hc r hr dates [.container name es] line hl hroom
    (fun v hv' => by
      rw [List.mem_singleton.mp hv']
      exact hv)

example : let es : List Val := [.uns 1, .uns 2, .uns 3, .uns 4, .uns 5, .uns 6, .uns 7]
    Val.All (Val.Fine (fixedZone 28800).Plain (fun n => 0 + 34 + n < 100)) (.container "vector:".toList es) ∧
    (streamAll (demoEnv 100) ⟨some ⟨List.replicate 100 '.', 0⟩, .zero⟩ [.container "vector:".toList es]).map
      (fun s => s.data.map fun r => r.content.take r.len) =
      some (some "vector:(7)[1, 2, 3, 4, 5..., ]".toList) := by
  refine ⟨by simp [Val.All, Val.AllIn, Val.Fine], by decide +kernel⟩

/-! ## C30 -/

/-- **C30.** LOG_FORMAT on a record with a prefix shorter than LOG_SIZE: the record holds the prefix
followed by the formatted text cut to the room left (one byte is kept for the NUL), at most
LOG_SIZE - 1 bytes; if the format cannot be processed the record is unchanged. -/
theorem C30_format (N : Nat) (r : Rec) (h : r.content.length = N) (hl : r.len < N) :
    (∀ t, ∃ r', formatRec N r (some t) = some r' ∧ r'.content.length = N ∧ r'.len ≤ N - 1 ∧
      r'.content.take r'.len = r.content.take r.len ++ t.take (N - 1 - r.len)) ∧
    formatRec N r none = some r := by
  refine ⟨fun t => ?_, rfl⟩
  obtain ⟨r', e, w⟩ := format_wrote r h hl t
  have e1 : N - r.len - 1 = N - 1 - r.len := by omega
  have hlen := w.len
  rw [List.length_take] at hlen
  refine ⟨r', e, w.size, by omega, ?_⟩
  rw [← e1]; exact w.text

example : (formatRec 8 ⟨"ab......".toList, 2⟩ (some "0123456789".toList)).map (fun r => (r.content, r.len)) =
    some ("ab01234\x00".toList, 7) := by decide

end FNLog
