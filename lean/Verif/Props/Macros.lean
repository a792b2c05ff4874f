import Verif.Proof.Macros
import Verif.Spec.Macros
import Verif.Props.Statement

/-!
# Properties of the logging macros (C85)
-/

namespace FNLog
open Spec

/-- **C85**: the macros with the names of a priority exist, all 56 of them, and no others, and none twice. -/
theorem C85_names : (macros.map (·.name)).Nodup ∧
    (∀ n, n ∈ macros.map (·.name) ↔ ∃ k < 7, n ∈ fullNames k ∨ n ∈ shortNames k) := by
  refine ⟨by decide +kernel, fun n => ?_⟩
  have h1 : ∀ n ∈ macros.map (·.name), ∃ k < 7, n ∈ fullNames k ∨ n ∈ shortNames k := by decide +kernel
  have h2 : ∀ k < 7, ∀ n ∈ fullNames k ++ shortNames k, n ∈ macros.map (·.name) := by decide +kernel
  exact ⟨h1 n, fun ⟨k, hk, h⟩ => h2 k hk n (List.mem_append.mpr h)⟩

/-- What a macro should be: priority `k`, the given or the default channel, category and identify, the place of the statement
and the default prefix. -/
structure Macro.Is (m : Macro) (k : Nat) : Prop where
  priority : ∀ c x i w, (m.call c x i w).priority = k
  full : m.name ∈ fullNames k → m.full = true ∧ ∀ c x i w, (m.call c x i w).channelId = c ∧ (m.call c x i w).category = x ∧
    (m.call c x i w).identify = i
  short : m.name ∈ shortNames k → m.full = false ∧ ∀ c x i w, (m.call c x i w).channelId = 0 ∧ (m.call c x i w).category = 0 ∧
    (m.call c x i w).identify = 0
  place : ∀ c x i w, (m.call c x i w).file = some w.file ∧ (m.call c x i w).line = w.line ∧
    (m.call c x i w).func = some w.func
  time : ∀ c x i w, (m.call c x i w).ts = w.ts ∧ (m.call c x i w).precise = w.precise ∧ (m.call c x i w).thread = w.thread
  mask : ∀ c x i w, (m.call c x i w).mask = 0x63
  slot : ∀ c x i w, (m.call c x i w).junk = w.junk

/-- How a macro is made. -/
def Macro.Made (m : Macro) (k : Nat) : Prop :=
  (m.name ∈ fullNames k ∧ m.full = true ∧ ∀ c x i w, m.call c x i w = LOG_STREAM_ORIGIN c k x i 0x63 w) ∨
  (m.name ∈ shortNames k ∧ m.full = false ∧ ∀ c x i w, m.call c x i w = LOG_STREAM_ORIGIN 0 k 0 0 0x63 w)

theorem streamMacros_made : ∀ m ∈ streamMacros, ∃ k < 7, m.Made k := by
  intro m h
  simp only [streamMacros, List.mem_cons, List.not_mem_nil, or_false] at h
  rcases h with rfl | rfl | rfl | rfl | rfl | rfl | rfl
  · exact ⟨0, by decide, Or.inl ⟨by decide, rfl, fun _ _ _ _ => rfl⟩⟩
  · exact ⟨1, by decide, Or.inl ⟨by decide, rfl, fun _ _ _ _ => rfl⟩⟩
  · exact ⟨2, by decide, Or.inl ⟨by decide, rfl, fun _ _ _ _ => rfl⟩⟩
  · exact ⟨3, by decide, Or.inl ⟨by decide, rfl, fun _ _ _ _ => rfl⟩⟩
  · exact ⟨4, by decide, Or.inl ⟨by decide, rfl, fun _ _ _ _ => rfl⟩⟩
  · exact ⟨5, by decide, Or.inl ⟨by decide, rfl, fun _ _ _ _ => rfl⟩⟩
  · exact ⟨6, by decide, Or.inl ⟨by decide, rfl, fun _ _ _ _ => rfl⟩⟩

theorem streamShorts_made : ∀ m ∈ streamShorts, ∃ k < 7, m.Made k := by
  intro m h
  simp only [streamShorts, List.mem_cons, List.not_mem_nil, or_false] at h
  rcases h with rfl | rfl | rfl | rfl | rfl | rfl | rfl
  · exact ⟨0, by decide, Or.inr ⟨by decide, rfl, fun _ _ _ _ => rfl⟩⟩
  · exact ⟨1, by decide, Or.inr ⟨by decide, rfl, fun _ _ _ _ => rfl⟩⟩
  · exact ⟨2, by decide, Or.inr ⟨by decide, rfl, fun _ _ _ _ => rfl⟩⟩
  · exact ⟨3, by decide, Or.inr ⟨by decide, rfl, fun _ _ _ _ => rfl⟩⟩
  · exact ⟨4, by decide, Or.inr ⟨by decide, rfl, fun _ _ _ _ => rfl⟩⟩
  · exact ⟨5, by decide, Or.inr ⟨by decide, rfl, fun _ _ _ _ => rfl⟩⟩
  · exact ⟨6, by decide, Or.inr ⟨by decide, rfl, fun _ _ _ _ => rfl⟩⟩

theorem packMacros_made : ∀ m ∈ packMacros, ∃ k < 7, m.Made k := by
  intro m h
  simp only [packMacros, List.mem_cons, List.not_mem_nil, or_false] at h
  rcases h with rfl | rfl | rfl | rfl | rfl | rfl | rfl
  · exact ⟨0, by decide, Or.inl ⟨by decide, rfl, fun _ _ _ _ => rfl⟩⟩
  · exact ⟨1, by decide, Or.inl ⟨by decide, rfl, fun _ _ _ _ => rfl⟩⟩
  · exact ⟨2, by decide, Or.inl ⟨by decide, rfl, fun _ _ _ _ => rfl⟩⟩
  · exact ⟨3, by decide, Or.inl ⟨by decide, rfl, fun _ _ _ _ => rfl⟩⟩
  · exact ⟨4, by decide, Or.inl ⟨by decide, rfl, fun _ _ _ _ => rfl⟩⟩
  · exact ⟨5, by decide, Or.inl ⟨by decide, rfl, fun _ _ _ _ => rfl⟩⟩
  · exact ⟨6, by decide, Or.inl ⟨by decide, rfl, fun _ _ _ _ => rfl⟩⟩

theorem packShorts_made : ∀ m ∈ packShorts, ∃ k < 7, m.Made k := by
  intro m h
  simp only [packShorts, List.mem_cons, List.not_mem_nil, or_false] at h
  rcases h with rfl | rfl | rfl | rfl | rfl | rfl | rfl
  · exact ⟨0, by decide, Or.inr ⟨by decide, rfl, fun _ _ _ _ => rfl⟩⟩
  · exact ⟨1, by decide, Or.inr ⟨by decide, rfl, fun _ _ _ _ => rfl⟩⟩
  · exact ⟨2, by decide, Or.inr ⟨by decide, rfl, fun _ _ _ _ => rfl⟩⟩
  · exact ⟨3, by decide, Or.inr ⟨by decide, rfl, fun _ _ _ _ => rfl⟩⟩
  · exact ⟨4, by decide, Or.inr ⟨by decide, rfl, fun _ _ _ _ => rfl⟩⟩
  · exact ⟨5, by decide, Or.inr ⟨by decide, rfl, fun _ _ _ _ => rfl⟩⟩
  · exact ⟨6, by decide, Or.inr ⟨by decide, rfl, fun _ _ _ _ => rfl⟩⟩

theorem chainMacros_made : ∀ m ∈ chainMacros, ∃ k < 7, m.Made k := by
  intro m h
  simp only [chainMacros, List.mem_cons, List.not_mem_nil, or_false] at h
  rcases h with rfl | rfl | rfl | rfl | rfl | rfl | rfl
  · exact ⟨0, by decide, Or.inl ⟨by decide, rfl, fun _ _ _ _ => rfl⟩⟩
  · exact ⟨1, by decide, Or.inl ⟨by decide, rfl, fun _ _ _ _ => rfl⟩⟩
  · exact ⟨2, by decide, Or.inl ⟨by decide, rfl, fun _ _ _ _ => rfl⟩⟩
  · exact ⟨3, by decide, Or.inl ⟨by decide, rfl, fun _ _ _ _ => rfl⟩⟩
  · exact ⟨4, by decide, Or.inl ⟨by decide, rfl, fun _ _ _ _ => rfl⟩⟩
  · exact ⟨5, by decide, Or.inl ⟨by decide, rfl, fun _ _ _ _ => rfl⟩⟩
  · exact ⟨6, by decide, Or.inl ⟨by decide, rfl, fun _ _ _ _ => rfl⟩⟩

theorem chainShorts_made : ∀ m ∈ chainShorts, ∃ k < 7, m.Made k := by
  intro m h
  simp only [chainShorts, List.mem_cons, List.not_mem_nil, or_false] at h
  rcases h with rfl | rfl | rfl | rfl | rfl | rfl | rfl
  · exact ⟨0, by decide, Or.inr ⟨by decide, rfl, fun _ _ _ _ => rfl⟩⟩
  · exact ⟨1, by decide, Or.inr ⟨by decide, rfl, fun _ _ _ _ => rfl⟩⟩
  · exact ⟨2, by decide, Or.inr ⟨by decide, rfl, fun _ _ _ _ => rfl⟩⟩
  · exact ⟨3, by decide, Or.inr ⟨by decide, rfl, fun _ _ _ _ => rfl⟩⟩
  · exact ⟨4, by decide, Or.inr ⟨by decide, rfl, fun _ _ _ _ => rfl⟩⟩
  · exact ⟨5, by decide, Or.inr ⟨by decide, rfl, fun _ _ _ _ => rfl⟩⟩
  · exact ⟨6, by decide, Or.inr ⟨by decide, rfl, fun _ _ _ _ => rfl⟩⟩

theorem formatMacros_made : ∀ m ∈ formatMacros, ∃ k < 7, m.Made k := by
  intro m h
  simp only [formatMacros, List.mem_cons, List.not_mem_nil, or_false] at h
  rcases h with rfl | rfl | rfl | rfl | rfl | rfl | rfl
  · exact ⟨0, by decide, Or.inl ⟨by decide, rfl, fun _ _ _ _ => rfl⟩⟩
  · exact ⟨1, by decide, Or.inl ⟨by decide, rfl, fun _ _ _ _ => rfl⟩⟩
  · exact ⟨2, by decide, Or.inl ⟨by decide, rfl, fun _ _ _ _ => rfl⟩⟩
  · exact ⟨3, by decide, Or.inl ⟨by decide, rfl, fun _ _ _ _ => rfl⟩⟩
  · exact ⟨4, by decide, Or.inl ⟨by decide, rfl, fun _ _ _ _ => rfl⟩⟩
  · exact ⟨5, by decide, Or.inl ⟨by decide, rfl, fun _ _ _ _ => rfl⟩⟩
  · exact ⟨6, by decide, Or.inl ⟨by decide, rfl, fun _ _ _ _ => rfl⟩⟩

theorem formatShorts_made : ∀ m ∈ formatShorts, ∃ k < 7, m.Made k := by
  intro m h
  simp only [formatShorts, List.mem_cons, List.not_mem_nil, or_false] at h
  rcases h with rfl | rfl | rfl | rfl | rfl | rfl | rfl
  · exact ⟨0, by decide, Or.inr ⟨by decide, rfl, fun _ _ _ _ => rfl⟩⟩
  · exact ⟨1, by decide, Or.inr ⟨by decide, rfl, fun _ _ _ _ => rfl⟩⟩
  · exact ⟨2, by decide, Or.inr ⟨by decide, rfl, fun _ _ _ _ => rfl⟩⟩
  · exact ⟨3, by decide, Or.inr ⟨by decide, rfl, fun _ _ _ _ => rfl⟩⟩
  · exact ⟨4, by decide, Or.inr ⟨by decide, rfl, fun _ _ _ _ => rfl⟩⟩
  · exact ⟨5, by decide, Or.inr ⟨by decide, rfl, fun _ _ _ _ => rfl⟩⟩
  · exact ⟨6, by decide, Or.inr ⟨by decide, rfl, fun _ _ _ _ => rfl⟩⟩

theorem macros_made : ∀ m ∈ macros, ∃ k < 7, m.Made k := by
  intro m h
  simp only [macros, List.mem_append] at h
  rcases h with ((((((h | h) | h) | h) | h) | h) | h) | h
  · exact streamMacros_made m h
  · exact streamShorts_made m h
  · exact packMacros_made m h
  · exact packShorts_made m h
  · exact chainMacros_made m h
  · exact chainShorts_made m h
  · exact formatMacros_made m h
  · exact formatShorts_made m h

theorem names_apart {k j : Nat} (hk : k < 7) (hj : j < 7) :
    (∀ n ∈ fullNames k, n ∉ shortNames j ∧ (n ∈ fullNames j → j = k)) ∧ (∀ n ∈ shortNames k, n ∈ shortNames j → j = k) := by
  have h1 : ∀ k < 7, ∀ j < 7, ∀ n ∈ fullNames k, n ∉ shortNames j := by decide +kernel
  have h2 : ∀ k < 7, ∀ j < 7, ∀ n ∈ fullNames k, ¬ (n ∈ fullNames j ∧ j ≠ k) := by decide +kernel
  have h3 : ∀ k < 7, ∀ j < 7, ∀ n ∈ shortNames k, ¬ (n ∈ shortNames j ∧ j ≠ k) := by decide +kernel
  refine ⟨fun n hn => ⟨h1 k hk j hj n hn, fun h => ?_⟩, fun n hn h => ?_⟩
  · exact Decidable.byContradiction fun hne => h2 k hk j hj n hn ⟨h, hne⟩
  · exact Decidable.byContradiction fun hne => h3 k hk j hj n hn ⟨h, hne⟩

theorem names_known {k : Nat} {n : String} (h : n ∈ fullNames k ∨ n ∈ shortNames k) : k < 7 := by
  rcases Nat.lt_or_ge k 7 with h7 | h7
  · exact h7
  · have : levelWords[k]? = none := List.getElem?_eq_none h7
    unfold fullNames shortNames at h
    rw [this] at h
    simp at h

theorem made_of_name {m : Macro} {k : Nat} (h : m ∈ macros) (hn : m.name ∈ fullNames k ∨ m.name ∈ shortNames k) : m.Made k := by
  obtain ⟨j, hj, hm⟩ := macros_made m h
  have hk := names_known hn
  have h1 := names_apart hk hj
  have h2 := names_apart hj hk
  have e : j = k := by
    rcases hm with ⟨hm, _⟩ | ⟨hm, _⟩ <;> rcases hn with hn | hn
    · exact (h1.1 _ hn).2 hm
    · exact absurd hn (h2.1 _ hm).1
    · exact absurd hm (h1.1 _ hn).1
    · exact h1.2 _ hn hm
  exact e ▸ hm

/-- **C85**: a macro logs with the priority of its name, at the place and time of the statement, with date, priority, file and
function as prefix; to the channel and with the category and identify given, or to channel 0 with category and identify 0. -/
theorem C85_call {m : Macro} {k : Nat} (h : m ∈ macros) (hn : m.name ∈ fullNames k ∨ m.name ∈ shortNames k) : m.Is k := by
  have hk := names_known hn
  have hap := (names_apart hk hk).1
  rcases made_of_name h hn with ⟨h1, h2, h3⟩ | ⟨h1, h2, h3⟩
  · refine ⟨?_, fun _ => ⟨h2, ?_⟩, fun hs => absurd hs (hap _ h1).1, ?_, ?_, ?_, ?_⟩ <;> intro c x i w <;> rw [h3] <;>
      simp [LOG_STREAM_ORIGIN]
  · refine ⟨?_, fun hs => absurd h1 (hap _ hs).1, fun _ => ⟨h2, ?_⟩, ?_, ?_, ?_, ?_⟩ <;> intro c x i w <;> rw [h3] <;>
      simp [LOG_STREAM_ORIGIN]

/-- **C85**: a pack and a chain are the same as a sequence of `<<`. -/
theorem C85_values {m : Macro} (S : Setup) (c x i : Int) (w : Site) (vals : List Val) (text : Option (List Char)) (s : Sys)
    (h : m.style ≠ .format) : m.run S c x i w vals text s = statement S (m.call c x i w) (vals.map .put) s := by
  unfold Macro.run
  cases hs : m.style with
  | stream => rfl
  | pack => exact pack_eq ..
  | chain => rfl
  | format => exact absurd hs h

/-- **C85**: a printf-style macro logs what streaming the formatted text would log.  With a hook the text has to fit into the
record. -/
theorem C85_format {S : Setup} (hS : Ready S) {m : Macro} (hm : m.style = .format) (c x i : Int) (w : Site) (vals : List Val)
    {t : List Char} (hs : Sound S (m.call c x i w) [.put (.str t)]) {s : Sys} (dates : List Int)
    (hc : s.cache = cacheAfter S.env.zone dates)
    (hh : S.hook = false ∨ ∀ file, FileField (m.call c x i w).file file →
      (prefixOf S.env.zone ((m.call c x i w).prefixArgs S.names) file).length + t.length < S.env.N) :
    m.run S c x i w vals (some t) s = statement S (m.call c x i w) [.put (.str t)] s := by
  obtain ⟨file, hf⟩ := hs.fits
  have hr : m.run S c x i w vals (some t) s = LOG_FORMAT S (m.call c x i w) (some t) s := by
    unfold Macro.run
    rw [hm]
  rw [hr]
  refine format_statement hS hf (by rw [hc]; exact cacheAfter_ok _ _) ?_
  rcases hh with hh | hh
  · exact Or.inl hh
  · exact Or.inr (hh file hf.short)

/-- **C85**: if the format cannot be processed, the line has nothing but its prefix. -/
theorem C85_format_error (S : Setup) {m : Macro} (hm : m.style = .format) (c x i : Int) (w : Site) (vals : List Val) (s : Sys) :
    m.run S c x i w vals none s = statement S (m.call c x i w) [] s := by
  have hr : m.run S c x i w vals none s = LOG_FORMAT S (m.call c x i w) none s := by
    unfold Macro.run
    rw [hm]
  rw [hr]
  exact format_error S _ s

/-- The prefix that `LOG_PREFIX_DEFAULT` selects. -/
theorem prefix_default {z : Zone} {a : PrefixArgs} (ha : a.mask = 0x63) {k : Nat} (hk : k < 7) (hp : a.priority = k) {w : Site}
    (h1 : a.timestamp = w.ts) (h2 : a.precise = w.precise) (h3 : a.line = w.line) (h4 : a.func = some w.func) (file : List Char) :
    prefixOf z a file = macroPrefix z k w file := by
  unfold prefixOf
  rw [if_neg (by rw [ha]; decide), ha, hp, h1, h2, h3, h4]
  have t0 : (0x63 : Nat).testBit 0 = true := by decide
  have t1 : (0x63 : Nat).testBit 1 = true := by decide
  have t2 : (0x63 : Nat).testBit 2 = false := by decide
  have t3 : (0x63 : Nat).testBit 3 = false := by decide
  have t4 : (0x63 : Nat).testBit 4 = false := by decide
  have t5 : (0x63 : Nat).testBit 5 = true := by decide
  have t6 : (0x63 : Nat).testBit 6 = true := by decide
  have hb : bracket (priorityText k) = levelText k := by
    have : ∀ k < 7, bracket (priorityText k) = levelText k := by decide +kernel
    exact this k hk
  rw [t0, t1, t2, t3, t4, t5, t6]
  simp only [prefixText, macroPrefix, List.flatMap_cons, List.flatMap_nil, if_true, Bool.false_eq_true, if_false,
    Int.toNat_natCast, hb, List.nil_append, List.append_nil, List.append_assoc]
  simp only [bracket, List.append_assoc]

theorem written_puts (vals : List Val) : written (vals.map .put) = vals := by
  induction vals with
  | nil => rfl
  | cons v vs ih => simp only [List.map_cons, written, ih]

theorem category_puts (c : Int) (vals : List Val) : lastCategory c (vals.map .put) = c := by
  induction vals with
  | nil => rfl
  | cons v vs ih => simp only [List.map_cons, lastCategory, ih]

/-- **C85**: an admitted statement with any of the macros adds one line, and it begins with the date and time of the statement,
the priority in the name of the macro, file and line, and the function; then come the values, if they fit. -/
theorem C85_line {S : Setup} (hS : Ready S) {m : Macro} (h : m ∈ macros) {k : Nat}
    (hn : m.name ∈ fullNames k ∨ m.name ∈ shortNames k) (hm : m.style ≠ .format) (c x i : Int) (w : Site) (vals : List Val)
    (text : Option (List Char)) (ha : Sound S (m.call c x i w) (vals.map .put)) {s : Sys}
    (hl : Live S.cfg S.thread s.ring) (dates : List Int) (hc : s.cache = cacheAfter S.env.zone dates)
    (hadm : Admitted S.lg (m.call c x i w).channelId k (m.call c x i w).category (m.call c x i w).identify) :
    ∃ hd t file s', m.run S c x i w vals text s = some s' ∧
      s'.ring.out = s.ring.out ++ [(s.ring.out.length, cellOf hd (lineOf S.env.N (macroPrefix S.env.zone k w file ++ t)))] ∧
      FileField (some w.file) file ∧ hd.priority = k ∧ hd.ts = w.ts ∧ hd.channelId = (if m.full then c else 0) ∧
      hd.category = (if m.full then x else 0) ∧ hd.identify = (if m.full then i else 0) ∧
      (Roomy S.env S.names (m.call c x i w) (vals.map .put) file →
        t = lineText ⟨doubleText S.env.lib, localDate S.env.zone⟩ (macroPrefix S.env.zone k w file).length vals) := by
  have hk := names_known hn
  have his := C85_call h hn
  have hpre : ∀ file, prefixOf S.env.zone ((m.call c x i w).prefixArgs S.names) file = macroPrefix S.env.zone k w file := by
    intro file
    exact prefix_default (a := (m.call c x i w).prefixArgs S.names) (his.mask c x i w) hk (his.priority c x i w)
      (his.time c x i w).1 (his.time c x i w).2.1 (his.place c x i w).2.1 (his.place c x i w).2.2 file
  rw [← his.priority c x i w] at hadm
  rw [C85_values S c x i w vals text s hm]
  rcases statement_ok hS ha hl (by rw [hc]; exact cacheAfter_ok _ _) with ⟨hno, _⟩ |
    ⟨_, file, t, s1, s', hf, ht, hst, _, _, _, _, hout, _⟩
  · exact absurd hadm hno
  · obtain ⟨u, hu⟩ := ht.start
    rw [hpre] at hu
    refine ⟨_, u, file, s', hst, by rw [hout, ← hu], by rw [← (his.place c x i w).1]; exact hf, his.priority c x i w,
      (his.time c x i w).1, ?_, ?_, ?_, ?_⟩
    · rcases hn with hn | hn
      · rw [(his.full hn).1]; exact ((his.full hn).2 c x i w).1
      · rw [(his.short hn).1]; exact ((his.short hn).2 c x i w).1
    · show lastCategory _ _ = _
      rw [category_puts]
      rcases hn with hn | hn
      · rw [(his.full hn).1]; exact ((his.full hn).2 c x i w).2.1
      · rw [(his.short hn).1]; exact ((his.short hn).2 c x i w).2.1
    · rcases hn with hn | hn
      · rw [(his.full hn).1]; exact ((his.full hn).2 c x i w).2.2
      · rw [(his.short hn).1]; exact ((his.short hn).2 c x i w).2.2
    · intro hroom
      have he := ht.all hroom
      rw [← hu] at he
      unfold textOf at he
      rw [hpre, written_puts] at he
      exact List.append_cancel_left he

/-- **C85** for the printf-style macros: the line has the formatted text behind the prefix. -/
theorem C85_line_format {S : Setup} (hS : Ready S) {m : Macro} (h : m ∈ macros) {k : Nat}
    (hn : m.name ∈ fullNames k ∨ m.name ∈ shortNames k) (hm : m.style = .format) (c x i : Int) (w : Site) (vals : List Val)
    {t : List Char} (ha : Sound S (m.call c x i w) [.put (.str t)]) {s : Sys}
    (hl : Live S.cfg S.thread s.ring) (dates : List Int) (hc : s.cache = cacheAfter S.env.zone dates)
    (hadm : Admitted S.lg (m.call c x i w).channelId k (m.call c x i w).category (m.call c x i w).identify)
    (hroom : ∀ file, FileField (some w.file) file → (macroPrefix S.env.zone k w file).length + t.length + 40 < S.env.N) :
    ∃ hd file s', m.run S c x i w vals (some t) s = some s' ∧
      s'.ring.out = s.ring.out ++ [(s.ring.out.length, cellOf hd (macroPrefix S.env.zone k w file ++ t ++ ['\n']))] ∧
      FileField (some w.file) file ∧ hd.priority = k := by
  have hk := names_known hn
  have his := C85_call h hn
  have hpre : ∀ file, prefixOf S.env.zone ((m.call c x i w).prefixArgs S.names) file = macroPrefix S.env.zone k w file := by
    intro file
    exact prefix_default (a := (m.call c x i w).prefixArgs S.names) (his.mask c x i w) hk (his.priority c x i w)
      (his.time c x i w).1 (his.time c x i w).2.1 (his.place c x i w).2.1 (his.place c x i w).2.2 file
  rw [← his.priority c x i w] at hadm
  rw [C85_format hS hm c x i w vals ha dates hc (Or.inr fun file hf => by
    rw [hpre]
    have := hroom file (by rw [← (his.place c x i w).1]; exact hf)
    omega)]
  rcases statement_ok hS ha hl (by rw [hc]; exact cacheAfter_ok _ _) with ⟨hno, _⟩ |
    ⟨_, file, u, s1, s', hf, ht, hst, _, _, _, _, hout, _⟩
  · exact absurd hadm hno
  · have hf' : FileField (some w.file) file := by rw [← (his.place c x i w).1]; exact hf
    have hr := hroom file hf'
    have htext : textOf S.env S.names (m.call c x i w) [.put (.str t)] file = macroPrefix S.env.zone k w file ++ t := by
      unfold textOf
      rw [hpre]
      simp [written, lineText, Val.text]
    have hu : u = macroPrefix S.env.zone k w file ++ t := by
      rw [← htext]
      refine ht.all ⟨by rw [htext, List.length_append]; exact hr, ?_⟩
      intro v hv
      simp only [written, List.mem_cons, List.not_mem_nil, or_false] at hv
      subst hv
      simp [Val.All, Val.Fine]
    refine ⟨headOf S.env S.names (m.call c x i w) [.put (.str t)] file, file, s', hst, ?_, hf', his.priority c x i w⟩
    rw [hout, hu]
    unfold lineOf
    rw [List.take_of_length_le (by rw [List.length_append]; omega)]

/-- A macro, a place and a text for which the hypotheses of `C85_line`, `C85_line_format` and `C85_format` hold. -/
def demoSite : Site := ⟨"a.cpp".toList, 17, "f".toList, 1794800000, 417, 1, List.replicate 500 '.'⟩

theorem demo_macro_sound (v : List Char) : Sound demoSetup (demoCall 2) [.put (.str v)] := by
  refine ⟨rfl, ⟨⟨by decide, by decide, by decide, by decide, Or.inl (by decide), Or.inl (by decide)⟩, demo_defined _ _⟩,
    demo_defined _ _, _, demo_fits 2 (by decide) _ ?_⟩
  intro u hu
  simp only [written, List.mem_cons, List.not_mem_nil, or_false] at hu
  rcases hu with rfl
  simp [Val.All, Val.Fine]

example : ∃ m ∈ macros, m.name = "LOGI" ∧ m.style = .chain ∧ "LOGI" ∈ shortNames 2 ∧
    Sound demoSetup (m.call 5 6 7 demoSite) [.put (.str "hello".toList)] :=
  ⟨⟨"LOGI", .chain, false, fun _ _ _ => LOGI⟩, by simp [macros, chainShorts], rfl, rfl, by decide, demo_macro_sound _⟩

example : ∃ m ∈ macros, m.name = "LOGFMT_INFO" ∧ m.style = .format ∧ "LOGFMT_INFO" ∈ fullNames 2 ∧
    Sound demoSetup (m.call 0 0 0 demoSite) [.put (.str "hello".toList)] ∧
    (prefixOf demoSetup.env.zone ((m.call 0 0 0 demoSite).prefixArgs demoSetup.names) "a.cpp".toList).length + 40 + 5 < demoSetup.env.N :=
  ⟨⟨"LOGFMT_INFO", .format, true, LOGFMT_INFO⟩, by simp [macros, formatMacros], rfl, rfl, by decide, demo_macro_sound _,
    by decide +kernel⟩

/-- A line of `LOGFMTI`. -/
example : (LOG_FORMAT demoSetup (LOGFMTI demoSite) (some "hello".toList) demoSys).map (fun s => s.ring.out.map fun r => decode r.2) =
    (statement demoSetup (LogInfo demoSite) [.put (.str "hello".toList)] demoSys).map (fun s => s.ring.out.map fun r => decode r.2) ∧
    (LOG_FORMAT demoSetup (LOGFMTI demoSite) (some "hello".toList) demoSys).map (fun s => s.ring.out.map fun r => (decode r.2).map Prod.snd) =
    some [some "[20261116 11:33:20.417][INFO ][a.cpp:17](f) hello\n".toList] := by decide +kernel

/-- With a hook and a text that fills the record, printf-style and streamed text differ: the hook finds one byte less. -/
example : (formatRec 8 ⟨"ab......".toList, 2⟩ (some "0123456789".toList)).map Rec.len = some 7 ∧
    (writeBuffer 8 ⟨"ab......".toList, 2⟩ "0123456789".toList).map Rec.len = some 8 := by decide

end FNLog
