import Verif.Proof.Stream

/-! # The prefix of a log line, the terminator and printf-style logging -/

namespace FNLog
open Spec

/-! ## Short file names -/

theorem separators_cons (c : Char) (s : List Char) :
    separators (c :: s) = separators s + (if c = '/' ∨ c = '\\' then 1 else 0) := by
  unfold separators
  rw [List.countP_cons]
  simp only [decide_eq_true_eq]

theorem drop_cons_of_getElem? {path : List Char} {i : Nat} {c : Char} (h : path[i]? = some c) :
    path.drop i = c :: path.drop (i + 1) := by
  obtain ⟨hi, rfl⟩ := List.getElem?_eq_some_iff.mp h
  exact List.drop_eq_getElem_cons hi

theorem shortPathLoop_spec (path : List Char) : ∀ (i count : Nat), i ≤ path.length → 1 ≤ count → count ≤ 3 →
    separators (path.drop i) = 3 - count →
    let k := shortPathLoop path i count
    separators (path.drop k) ≤ 2 ∧ (k = 0 ∨ ∃ j, k = j + 1 ∧ separators (path.drop j) = 3) := by
  intro i
  induction i with
  | zero =>
    intro count _ h1 _ h
    exact ⟨by show separators (path.drop 0) ≤ 2; omega, Or.inl rfl⟩
  | succ i ih =>
    intro count hi h1 h3 h
    obtain ⟨c, hc⟩ : ∃ c, path[i]? = some c := ⟨path[i], List.getElem?_eq_getElem (by omega)⟩
    have hd := drop_cons_of_getElem? hc
    have hs := separators_cons c (path.drop (i + 1))
    rw [← hd, h] at hs
    simp only [shortPathLoop, hc, Option.some.injEq]
    by_cases hsep : c = '/' ∨ c = '\\'
    · rw [if_pos hsep] at hs
      rw [if_pos hsep]
      by_cases h0 : count - 1 = 0
      · rw [if_pos h0]
        exact ⟨by rw [h]; omega, Or.inr ⟨i, rfl, by omega⟩⟩
      · rw [if_neg h0]
        exact ih (count - 1) (by omega) (by omega) (by omega) (by omega)
    · rw [if_neg hsep] at hs
      rw [if_neg hsep]
      exact ih count (by omega) h1 h3 (by omega)

theorem shortPath_spec (path : List Char) : ShortName path (path.drop (shortPath path)) := by
  have h := shortPathLoop_spec path path.length 3 (Nat.le_refl _) (by omega) (by omega) (by simp [separators])
  refine ⟨List.drop_suffix _ _, h.1, ?_⟩
  intro s' hs' h2
  have hsub : ∀ j, s'.length ≥ (path.drop j).length → j ≤ path.length → separators (path.drop j) ≤ separators s' := by
    intro j hj hjl
    have : path.drop j <:+ s' := List.suffix_of_suffix_length_le (List.drop_suffix _ _) hs' hj
    exact this.sublist.countP_le
  rcases h.2 with h0 | ⟨j, hj, h3⟩
  · have : shortPath path = 0 := h0
    rw [this]
    exact hs'.length_le
  · have hk : shortPath path = j + 1 := hj
    rw [hk]
    rcases Nat.lt_or_ge ((path.drop (j + 1)).length) s'.length with hlt | hge
    · have hjl : j ≤ path.length := by
        rcases Nat.lt_or_ge path.length j with hl | hl
        · rw [List.drop_eq_nil_of_le (by omega)] at h3
          cases h3
        · exact hl
      have := hsub j (by rw [List.length_drop] at hlt ⊢; omega) hjl
      omega
    · exact hge

/-! ## The terminator -/

theorem seal_line {N : Nat} (hN : 2 ≤ N) (r : Rec) (h : r.content.length = N) :
    ∃ r', sealRec N r = some r' ∧ r'.content.length = N ∧ r'.len = min r.len (N - 2) + 1 ∧
      r'.content.take r'.len = r.content.take (min r.len (N - 2)) ++ ['\n'] ∧
      r'.content[r'.len]? = some '\x00' := by
  obtain ⟨n, hn⟩ : ∃ n, n = min r.len (N - 2) := ⟨_, rfl⟩
  have h1 : n + ['\n'].length ≤ r.content.length := by simp only [List.length_cons, List.length_nil]; omega
  have h2 : n + 1 + ['\x00'].length ≤ (put r.content n ['\n']).length := by
    rw [put_length h1]; simp only [List.length_cons, List.length_nil]; omega
  refine ⟨⟨put (put r.content n ['\n']) (n + 1) ['\x00'], n + 1⟩, ?_, ?_, ?_, ?_, ?_⟩
  · unfold sealRec
    simp only [← hn]
    rw [writeAt_put h1]
    simp only [Option.bind_eq_bind, Option.bind_some]
    rw [writeAt_put h2]; rfl
  · rw [put_length h2, put_length h1, h]
  · rw [← hn]
  · rw [← hn]
    show (put (put r.content n ['\n']) (n + 1) ['\x00']).take (n + 1) = _
    have := put_take h1
    simp only [List.length_cons, List.length_nil, Nat.zero_add] at this
    rw [← this]
    have e := put_take h2
    rw [← List.take_of_length_le (l := (put r.content n ['\n']).take (n + 1)) (i := n + 1)
      (by rw [List.length_take]; omega)]
    have e2 : (put (put r.content n ['\n']) (n + 1) ['\x00']).take (n + 1) =
        ((put (put r.content n ['\n']) (n + 1) ['\x00']).take (n + 1 + ['\x00'].length)).take (n + 1) := by
      rw [List.take_take, Nat.min_eq_left (by omega)]
    rw [e2, e, List.take_append_of_le_length (by rw [List.length_take]; omega), List.take_take]
  · show (put (put r.content n ['\n']) (n + 1) ['\x00'])[n + 1]? = _
    rw [put_getElem? h2, if_pos ⟨by omega, by simp only [List.length_cons, List.length_nil]; omega⟩]
    simp

/-! ## printf-style logging -/

theorem format_wrote {N : Nat} (r : Rec) (h : r.content.length = N) (hl : r.len < N) (t : List Char) :
    ∃ r', formatRec N r (some t) = some r' ∧ Wrote N r r' (t.take (N - r.len - 1)) := by
  unfold formatRec
  have hs : ((N : Int) - r.len).toNat = N - r.len := by omega
  simp only [hs]
  rw [if_pos (by omega)]
  have hlen : (t.take (N - r.len - 1)).length = min (N - r.len - 1) t.length := List.length_take
  have hf : r.len + (t.take (N - r.len - 1) ++ ['\x00']).length ≤ r.content.length := by
    rw [List.length_append, hlen]; simp only [List.length_cons, List.length_nil]; omega
  rw [writeAt_put hf]
  simp only [Option.bind_eq_bind, Option.bind_some]
  refine ⟨_, rfl, ?_, ?_, ?_, ?_⟩
  · rw [put_length hf, h]
  · rw [hlen]
    simp only
    split <;> omega
  · simp only
    split <;> omega
  · have hL : (↑r.len + if (↑t.length : Int) ≥ ↑N - ↑r.len then (N : Int) - ↑r.len - 1 else ↑t.length).toNat =
        r.len + (t.take (N - r.len - 1)).length := by
      rw [hlen]; split <;> omega
    simp only [hL]
    obtain ⟨T, hT⟩ : ∃ T, T = t.take (N - r.len - 1) := ⟨_, rfl⟩
    rw [← hT] at hf ⊢
    have e := put_take hf
    have e2 : (put r.content r.len (T ++ ['\x00'])).take (r.len + T.length) =
        ((put r.content r.len (T ++ ['\x00'])).take (r.len + (T ++ ['\x00']).length)).take (r.len + T.length) := by
      rw [List.take_take, List.length_append, Nat.min_eq_left (by omega)]
    rw [e2, e, ← List.append_assoc]
    have e3 : (r.content.take r.len ++ T).length = r.len + T.length := by
      rw [List.length_append, List.length_take]; omega
    rw [← e3, List.take_left']
    rfl

/-! ## The prefix -/

/-- `f` appends `t` to any record with `need` bytes of room. -/
def Adds (E : Env) (f : Strm → Option Strm) (t : List Char) (need : Nat) : Prop :=
  t.length ≤ need ∧ ∀ (r : Rec) (c : DateCache), r.content.length = E.N → r.len + need ≤ E.N → CacheFrom E.zone c →
    ∃ r' c', f ⟨some r, c⟩ = some ⟨some r', c'⟩ ∧ CacheFrom E.zone c' ∧ Wrote E.N r r' t

theorem Adds.comp {E : Env} {f g : Strm → Option Strm} {t u : List Char} {n m : Nat} (hf : Adds E f t n)
    (hg : Adds E g u m) : Adds E (fun s => (f s).bind g) (t ++ u) (n + m) := by
  refine ⟨by rw [List.length_append]; have := hf.1; have := hg.1; omega, ?_⟩
  intro r c h hr hc
  obtain ⟨r1, c1, e1, hc1, w1⟩ := hf.2 r c h (by omega) hc
  obtain ⟨r2, c2, e2, hc2, w2⟩ := hg.2 r1 c1 w1.size (by have := hf.1; rw [w1.len]; omega) hc1
  exact ⟨r2, c2, by simp only [e1, Option.bind_some]; exact e2, hc2, w1.trans w2⟩

theorem Adds.push (E : Env) (t : List Char) : Adds E (pushText t) t t.length := by
  refine ⟨Nat.le_refl _, ?_⟩
  intro r c h hr hc
  obtain ⟨r', e, w⟩ := push_wrote h hr
  exact ⟨r', c, by simp [pushText, onRec, e], hc, w⟩

theorem Adds.fmt {E : Env} {f : List Char → Nat → Option (List Char × Nat)} {t : List Char} {n : Nat} (hn : t.length ≤ n)
    (h : ∀ b dst, dst + n ≤ b.length → Emits (f b dst) b dst t) : Adds E (onRec (fun r => r.fmt f)) t n := by
  refine ⟨hn, ?_⟩
  intro r c hl hr hc
  obtain ⟨r', e, w⟩ := fmt_wrote hl (h r.content r.len (by omega)) (by omega)
  exact ⟨r', c, by simp [onRec, e], hc, w⟩

theorem Adds.whenBit {E : Env} {f : Strm → Option Strm} {t : List Char} {n : Nat} (mask bit : Nat)
    (h : Adds E f t n) : Adds E (fun s => whenBit mask bit s f) (if mask &&& bit ≠ 0 then t else []) n := by
  refine ⟨by split; exact h.1; exact Nat.zero_le _, ?_⟩
  intro r c hl hr hc
  unfold FNLog.whenBit
  split
  · exact h.2 r c hl hr hc
  · exact ⟨r, c, rfl, hc, .refl hl (by omega)⟩

theorem Adds.mono {E : Env} {f : Strm → Option Strm} {t : List Char} {n m : Nat} (h : Adds E f t n) (hm : n ≤ m) :
    Adds E f t m :=
  ⟨Nat.le_trans h.1 hm, fun r c hl hr hc => h.2 r c hl (by omega) hc⟩

theorem Adds.date {E : Env} (hz : E.zone.Sane) (a : PrefixArgs) (D : List Char)
    (hD : ∀ c, CacheFrom E.zone c → dateOut (refreshDate E.zone c a.timestamp).1.date
      (refreshDate E.zone c a.timestamp).2 a.precise = D) (hl : D.length ≤ 39) : Adds E (prefixDate E a) D 39 := by
  refine ⟨hl, ?_⟩
  intro r c h hr hc
  have hb := refreshDate_bounds hz hc a.timestamp
  have hlen := dateParts_length (d := (refreshDate E.zone c a.timestamp).1.date)
    (s := (refreshDate E.zone c a.timestamp).2) a.precise
    hb.1 hb.2.1 hb.2.2.1 hb.2.2.2.1 hb.2.2.2.2.1 hb.2.2.2.2.2
  obtain ⟨b', e', hbl, ht⟩ := writeDate_emits E.zone c r.content r.len a.timestamp a.precise D _
    (refreshDate E.zone c a.timestamp).2 (refreshDate E.zone c a.timestamp).1 rfl rfl (hD c hc).symm (by omega)
  refine ⟨⟨b', r.len + D.length⟩, (refreshDate E.zone c a.timestamp).1, by simp [prefixDate, e'], refreshDate_ok _ _ _ hc, ?_⟩
  exact ⟨by rw [hbl, h], rfl, by simp only; omega, ht⟩

theorem Adds.priority (E : Env) (p : Nat) (hp : p ≤ 6) :
    Adds E (onRec (fun r => r.fmt (fun b d => writePriority b d (p : Int)))) (bracket (priorityText p)) 7 := by
  have key : ∀ p : Fin 7, (bracket (priorityText p.val)).length = 7 ∧
      ((priorityNames[p.val]?).map String.toList = some (bracket (priorityText p.val))) := by decide +kernel
  obtain ⟨h1, h2⟩ := key ⟨p, by omega⟩
  refine Adds.fmt (Nat.le_of_eq h1) ?_
  intro b dst hf
  obtain ⟨name, hn, hn2⟩ := Option.map_eq_some_iff.mp h2
  unfold writePriority
  have e : ((p : Int)).tmod 7 = p := by rw [Int.tmod_eq_emod_of_nonneg (by omega)]; omega
  simp only [e]
  rw [if_neg (by omega), show ((p : Int)).toNat = p from rfl, hn]
  simp only [Option.bind_eq_bind, Option.bind_some]
  rw [hn2]
  exact emit_emits (by rw [h1]; exact hf)

theorem Adds.thread (E : Env) (t : Nat) (ht : t < 2 ^ 32) :
    Adds E (onRec (fun r => r.fmt (fun b d => writeThread b d t))) (bracket (numeral 10 t)) 12 := by
  have hl := numeral_length_le 10 (by omega) 9 t (by omega)
  have hb : (bracket (numeral 10 t)).length = (numeral 10 t).length + 2 := by
    unfold bracket
    simp only [List.length_append, List.length_cons, List.length_nil]; omega
  refine Adds.fmt (by omega) ?_
  intro b dst hf
  have h1 : dst + ['['].length ≤ b.length := by simp only [List.length_cons, List.length_nil]; omega
  have h2 : dst + (['['] ++ numeral 10 t).length ≤ b.length := by
    simp only [List.length_append, List.length_cons, List.length_nil]; omega
  have h3 : dst + (['['] ++ numeral 10 t ++ [']']).length ≤ b.length := by
    simp only [List.length_append, List.length_cons, List.length_nil]; omega
  unfold writeThread
  rw [writeAt_put h1]
  simp only [Option.bind_eq_bind, Option.bind_some]
  rw [writeDecU_put 0 (by omega) _ _ t (by omega) (by rw [put_length h1, padLeft_zero]; omega), padLeft_zero]
  simp only [Option.bind_some]
  have e1 : put (put b dst ['[']) (dst + 1) (numeral 10 t) = put b dst (['['] ++ numeral 10 t) := put_put_right h2
  have e2 : dst + 1 + (numeral 10 t).length = dst + (['['] ++ numeral 10 t).length := by
    simp only [List.length_append, List.length_cons, List.length_nil]; omega
  rw [e1, e2, writeAt_put (by
    rw [put_length h2]
    simp only [List.length_append, List.length_cons, List.length_nil] at h3 ⊢
    omega)]
  simp only [Option.bind_some]
  rw [put_put_right h3]
  exact Emits_put h3 (by simp only [List.length_append, List.length_cons, List.length_nil])

theorem Adds.ull {E : Env} (hlib : E.lib.Sane) (hz : E.zone.Sane) (n : Nat) (hn : n < 2 ^ 64) :
    Adds E (fun s => exec E s (.ull 0 n)) (numeral 10 n) 30 := by
  refine ⟨by have := numeral_length_u64 n hn; omega, ?_⟩
  intro r c h hr hc
  obtain ⟨r', e, w⟩ := exec_wrote E hlib hz r c (.ull 0 n) h (by omega) hc ⟨by omega, hn⟩
  have hp : primPut (textsOf E c) E.N r.len (.ull 0 n) = numeral 10 n := by
    unfold primPut
    exact (if_pos hr).trans (padLeft_zero _)
  rw [hp] at w
  exact ⟨r', c, e, hc, w⟩

/-- The text of the file field. -/
def fileText (a : PrefixArgs) : List Char :=
  match a.file with
  | some f => if f.length > 0 then f.drop (shortPath f) else "nofile".toList
  | none => "nofile".toList

/-- The text of the function field. -/
def funcText (a : PrefixArgs) : List Char :=
  match a.func with
  | some f => if f.length > 0 then f else "null".toList
  | none => "null".toList

theorem Adds.field (E : Env) (n : List Char) : Adds E (fun s => do
      let s ← pushText ['['] s; let s ← pushText n s; pushText [']'] s) (bracket n) (n.length + 2) := by
  have := (Adds.push E ['[']).comp ((Adds.push E n).comp (Adds.push E [']']))
  exact (this.mono (m := n.length + 2) (by simp only [List.length_cons, List.length_nil]; omega))

theorem Adds.file {E : Env} (hlib : E.lib.Sane) (hz : E.zone.Sane) (a : PrefixArgs) (h0 : 0 ≤ a.line)
    (h1 : a.line < 2 ^ 31) :
    Adds E (prefixFile E a) (bracket (fileText a ++ [':'] ++ numeral 10 a.line.toNat)) ((fileText a).length + 33) := by
  have e1 : toULL a.line = a.line.toNat := toULL_nonneg h0 (by omega)
  have hc := (Adds.push E ['[']).comp ((Adds.push E (fileText a)).comp ((Adds.push E [':']).comp
    ((Adds.ull hlib hz a.line.toNat (by omega)).comp (Adds.push E [']']))))
  have hf : prefixFile E a = fun s => (pushText ['['] s).bind fun s => (pushText (fileText a) s).bind fun s =>
      (pushText [':'] s).bind fun s => (exec E s (.ull 0 a.line.toNat)).bind (pushText [']']) := by
    funext s
    unfold prefixFile fileText
    rw [e1]
    simp only [Option.bind_eq_bind]
    cases a.file with
    | none => rfl
    | some f =>
      simp only
      by_cases hfl : f.length > 0
      · simp only [if_pos hfl]
      · simp only [if_neg hfl]
  rw [hf]
  have := hc.mono (m := (fileText a).length + 33) (by simp only [List.length_cons, List.length_nil]; omega)
  simpa only [bracket, List.append_assoc] using this

theorem Adds.func (E : Env) (a : PrefixArgs) :
    Adds E (prefixFunc a) (['('] ++ funcText a ++ [')']) ((funcText a).length + 2) := by
  have hc := (Adds.push E ['(']).comp ((Adds.push E (funcText a)).comp (Adds.push E [')']))
  have hf : prefixFunc a = fun s => (pushText ['('] s).bind fun s => (pushText (funcText a) s).bind (pushText [')']) := by
    funext s
    unfold prefixFunc funcText
    simp only [Option.bind_eq_bind]
    cases a.func with
    | none => rfl
    | some f =>
      simp only
      by_cases hfl : f.length > 0
      · simp only [if_pos hfl]
      · simp only [if_neg hfl]
  rw [hf]
  have := hc.mono (m := (funcText a).length + 2) (by simp only [List.length_cons, List.length_nil]; omega)
  simpa only [List.append_assoc] using this

/-- The fields of a prefix. -/
def prefixFields (a : PrefixArgs) (D : List Char) : List (Bool × List Char) :=
  [(a.mask &&& 0x1 ≠ 0, D),
   (a.mask &&& 0x2 ≠ 0, bracket (priorityText a.priority.toNat)),
   (a.mask &&& 0x4 ≠ 0, bracket (numeral 10 a.thread)),
   (a.mask &&& 0x8 ≠ 0, bracket a.name),
   (a.mask &&& 0x10 ≠ 0, bracket a.desc),
   (a.mask &&& 0x20 ≠ 0, bracket (fileText a ++ [':'] ++ numeral 10 a.line.toNat)),
   (a.mask &&& 0x40 ≠ 0, ['('] ++ funcText a ++ [')'])]

/-- Limits of the prefix arguments. -/
structure PrefixArgs.Ok (a : PrefixArgs) : Prop where
  priority : 0 ≤ a.priority ∧ a.priority ≤ 6
  thread : a.thread < 2 ^ 32
  name : a.name.length ≤ 250
  desc : a.desc.length ≤ 50
  line : 0 ≤ a.line ∧ a.line < 2 ^ 31

theorem ctorPrefix_adds {E : Env} (hlib : E.lib.Sane) (hz : E.zone.Sane) (a : PrefixArgs) (ha : a.Ok) (D : List Char)
    (hD : ∀ c, CacheFrom E.zone c → dateOut (refreshDate E.zone c a.timestamp).1.date
      (refreshDate E.zone c a.timestamp).2 a.precise = D) (hl : D.length ≤ 39) (hm : a.mask ≠ 0) :
    Adds E (ctorPrefix E a) (prefixText (prefixFields a D)) ((fileText a).length + (funcText a).length + 398) := by
  have hpr : ((a.priority.toNat : Nat) : Int) = a.priority := Int.toNat_of_nonneg ha.priority.1
  have hprio := Adds.priority E a.priority.toNat (by have := ha.priority; omega)
  rw [hpr] at hprio
  have := ((Adds.date hz a D hD hl).whenBit a.mask 0x1).comp ((hprio.whenBit a.mask 0x2).comp
    (((Adds.thread E a.thread ha.thread).whenBit a.mask 0x4).comp (((Adds.field E a.name).whenBit a.mask 0x8).comp
    (((Adds.field E a.desc).whenBit a.mask 0x10).comp (((Adds.file hlib hz a ha.line.1 ha.line.2).whenBit a.mask 0x20).comp
    (((Adds.func E a).whenBit a.mask 0x40).comp (Adds.push E [' '])))))))
  have h2 := this.mono (m := (fileText a).length + (funcText a).length + 398) (by
    have := ha.name; have := ha.desc
    simp only [List.length_cons, List.length_nil]; omega)
  have ht : prefixText (prefixFields a D) =
      (if a.mask &&& 0x1 ≠ 0 then D else []) ++ ((if a.mask &&& 0x2 ≠ 0 then bracket (priorityText a.priority.toNat) else []) ++
      ((if a.mask &&& 0x4 ≠ 0 then bracket (numeral 10 a.thread) else []) ++
      ((if a.mask &&& 0x8 ≠ 0 then bracket a.name else []) ++ ((if a.mask &&& 0x10 ≠ 0 then bracket a.desc else []) ++
      ((if a.mask &&& 0x20 ≠ 0 then bracket (fileText a ++ [':'] ++ numeral 10 a.line.toNat) else []) ++
      ((if a.mask &&& 0x40 ≠ 0 then ['('] ++ funcText a ++ [')'] else []) ++ [' '])))))) := by
    simp only [prefixText, prefixFields, List.flatMap_cons, List.flatMap_nil, decide_eq_true_eq, List.append_assoc,
      List.append_nil]
  rw [ht]
  refine ⟨h2.1, fun r c h3 h4 h5 => ?_⟩
  unfold ctorPrefix
  rw [if_neg hm]
  exact h2.2 r c h3 h4 h5

theorem shortName_unique {path s t : List Char} (hs : ShortName path s) (ht : ShortName path t) : s = t := by
  have h1 := hs.2.2 t ht.1 ht.2.1
  have h2 := ht.2.2 s hs.1 hs.2.1
  have h3 := List.suffix_of_suffix_length_le hs.1 ht.1 h2
  exact h3.eq_of_length (by omega)

theorem fileText_eq {a : PrefixArgs} {t : List Char} (h : FileField a.file t) : fileText a = t := by
  unfold fileText
  match hf : a.file with
  | none => rw [hf] at h; exact h.symm
  | some [] => rw [hf] at h; exact h.symm
  | some (c :: cs) =>
    rw [hf] at h
    simp only [List.length_cons]
    rw [if_pos (by omega)]
    exact shortName_unique (shortPath_spec (c :: cs)) h

theorem funcText_eq (a : PrefixArgs) : funcText a = funcField a.func := by
  unfold funcText funcField
  match hf : a.func with
  | none => rfl
  | some [] => rfl
  | some (c :: cs) => simp

end FNLog
