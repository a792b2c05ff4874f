import Verif.Proof.DiagPlace
import Verif.Proof.KernelRfl

/-!
# C118: what is reported about a refused configuration

`DebugErrno` (fn_parse.h 39-119), `line_no_` and `current_` of the parser (fn_parse.h 934-1512) and the message of
`InitFromYMAL` (fn_load.h 169-196).
-/

namespace FNLog
open Spec

/-- The parser with its place is the parser. -/
theorem C118_same_verdict (dns : List Char → Option Int) (garbage : Int) (fuel : Nat) (t : List Char) :
    (parseLoggerD dns garbage fuel t).erase id = parseLogger dns garbage fuel t := parseLoggerD_erase _ _ _ _

/-- The line number and the place reported for a refused text belong together, and the line is the one to blame: it can
not be read, or what it says is refused.  Two exceptions: a key that is known elsewhere is reported one line further, and
a text without a channel is reported at its end. -/
theorem C118_line_partial {dns : List Char → Option Int} {garbage : Int} {fuel : Nat} {t : List Char} {e : PErr}
    {line pos : Nat} {u : List Char} (h : parseLoggerD dns garbage fuel t = .err e line pos u) (h0 : '\x00' ∉ t)
    (hb : hasBom t = false) :
    LineAt t line pos ∧ ∃ w,
      ((unknownKey e = true ∧ ∃ q, LineAt t (line - 1) q ∧ q < t.length ∧ Reached t w q ∧ Blames dns w q e) ∨
       (unknownKey e = false ∧ pos < t.length ∧ Reached t w pos ∧ Blames dns w pos e) ∨
       (e = .invalidChannelSize ∧ pos = t.length ∧ Reached t w pos)) := by
  have hp := parseLoggerD_place (dns := dns) (garbage := garbage) (fuel := fuel) h0 hb
  rw [h] at hp
  obtain ⟨_, hl, w, hp⟩ := hp
  refine ⟨hl.lineAt, w, ?_⟩
  rcases hp with ⟨h1, q, h2, h3, h4, h5, _⟩ | hp | hp
  · exact Or.inl ⟨h1, q, h2.lineAt, h3, h4, h5⟩
  · exact Or.inr (Or.inl hp)
  · exact Or.inr (Or.inr hp)

/-- For every other error than those: the line reported is the one to blame. -/
theorem C118_line_of_error {dns : List Char → Option Int} {garbage : Int} {fuel : Nat} {t : List Char} {e : PErr}
    {line pos : Nat} {u : List Char} (h : parseLoggerD dns garbage fuel t = .err e line pos u) (h0 : '\x00' ∉ t)
    (hb : hasBom t = false) (he : unknownKey e = false) (hc : e ≠ .invalidChannelSize) :
    LineAt t line pos ∧ line ≤ (configLines t).length ∧ ∃ w, Reached t w pos ∧ Blames dns w pos e := by
  obtain ⟨hl, w, ⟨h1, _⟩ | ⟨_, h2, h3, h4⟩ | ⟨h1, _⟩⟩ := C118_line_partial h h0 hb
  · rw [he] at h1; exact absurd h1 (by decide)
  · refine ⟨hl, ?_, w, h3, h4⟩
    obtain ⟨a, b, c⟩ := hl
    apply Decidable.byContradiction
    intro hgt
    rw [List.take_of_length_le (by omega), configLines_flatten t.length t (Nat.le_refl _)] at c
    omega
  · exact absurd h1 hc

/-- The text the message is taken from has the lines of the file, at the same places. -/
theorem C118_same_lines {dns : List Char → Option Int} {garbage : Int} {fuel : Nat} {t : List Char} {e : PErr}
    {line pos : Nat} {u : List Char} (h : parseLoggerD dns garbage fuel t = .err e line pos u) (h0 : '\x00' ∉ t)
    (hb : hasBom t = false) : (configLines u).map List.length = (configLines t).map List.length ∧ '\x00' ∉ u := by
  have hp := parseLoggerD_place (dns := dns) (garbage := garbage) (fuel := fuel) h0 hb
  rw [h] at hp
  exact ⟨hp.1.lines.symm, hp.1.nul h0⟩

/-- The violation: whenever a key is refused because it does not belong there, the message names the line behind it, and
the excerpt begins behind the line. -/
theorem C118_unknown_key_late {dns : List Char → Option Int} {garbage : Int} {fuel : Nat} {t : List Char} {e : PErr}
    {line pos : Nat} {u : List Char} (h : parseLoggerD dns garbage fuel t = .err e line pos u) (h0 : '\x00' ∉ t)
    (hb : hasBom t = false) (he : unknownKey e = true) :
    ∃ q w ln, LineAt t (line - 1) q ∧ q < pos ∧ Reached t w q ∧ Blames dns w q e ∧ lex w w.length q = .ok (ln, pos) ∧
      LineAt t line pos := by
  have hp := parseLoggerD_place (dns := dns) (garbage := garbage) (fuel := fuel) h0 hb
  rw [h] at hp
  obtain ⟨_, hl, w, ⟨_, q, h2, h3, h4, h5, ln, h6⟩ | ⟨h1, _⟩ | ⟨h1, _⟩⟩ := hp
  · refine ⟨q, w, ln, h2.lineAt, ?_, h4, h5, h6, hl.lineAt⟩
    -- the lines before line `line` are longer than those before line `line - 1`
    obtain ⟨_, pre, a1, a2, a3⟩ := h2
    obtain ⟨_, pre', b1, b2, b3⟩ := hl
    apply Decidable.byContradiction
    intro hge
    have hlen : pre.length + 1 = pre'.length := by omega
    have hne : configLines ((t.map mask).drop q) ≠ [] := by
      intro e0
      have hf := configLines_flatten _ ((t.map mask).drop q) (Nat.le_refl _)
      rw [e0] at hf
      have := congrArg List.length hf
      rw [List.length_drop, List.length_map] at this
      simp only [List.flatten_nil, List.length_nil] at this
      omega
    obtain ⟨x, xs, hx⟩ := List.exists_cons_of_ne_nil hne
    rw [hx] at a1
    have e1 : pre' = pre ++ [x] := by
      have h1 := congrArg (List.take (pre.length + 1)) (a1.symm.trans b1)
      rw [hlen, List.take_left' rfl, ← hlen, List.take_append] at h1
      simp only [List.take_of_length_le (Nat.le_succ _), Nat.add_sub_cancel_left, List.take_succ_cons,
        List.take_zero] at h1
      exact h1.symm
    rw [e1, List.flatten_append, List.length_append] at b2
    have hx0 : x ≠ [] := configLines_ne hx
    have : 0 < x.length := List.length_pos_iff.mpr hx0
    simp only [List.flatten_cons, List.flatten_nil, List.append_nil] at b2
    omega
  · rw [he] at h1; exact absurd h1 (by decide)
  · rw [h1] at he; exact absurd he (by decide)

/-- The excerpt: the text from the place on; all of it, or at least 380 characters and then up to the end of a line. -/
theorem C118_excerpt {u : List Char} {pos : Nat} (h0 : '\x00' ∉ u) :
    ∃ r, u.drop pos = excerpt u pos ++ r ∧ (r = [] ∨ (∃ r', r = '\n' :: r') ∧ 380 ≤ (excerpt u pos).length) := by
  obtain ⟨r, h1, h2⟩ := excerptFrom_prefix (u.drop pos) 0 fun h => h0 (List.mem_of_mem_drop h)
  rw [Nat.zero_add] at h2
  exact ⟨r, h1, h2⟩

/-- A line of up to 380 characters is shown whole. -/
theorem C118_excerpt_has_line {u l rest : List Char} {pos : Nat} (h0 : '\x00' ∉ u) (hd : u.drop pos = l ++ rest)
    (hl : l.length ≤ 380) : ∃ r, excerpt u pos = l ++ r := by
  obtain ⟨r, h1, h2⟩ := C118_excerpt (pos := pos) h0
  have hle : l.length ≤ (excerpt u pos).length := by
    rcases h2 with rfl | ⟨_, h2⟩
    · rw [List.append_nil] at h1
      rw [← h1, hd, List.length_append]; omega
    · omega
  refine ⟨(excerpt u pos).drop l.length, ?_⟩
  have : (excerpt u pos).take l.length = l := by
    have h3 := congrArg (List.take l.length) (h1.symm.trans hd)
    rwa [List.take_append_of_le_length hle, List.take_left' rfl] at h3
  conv => lhs; rw [← List.take_append_drop l.length (excerpt u pos), this]

/-- The name printed for an error says what it is, except for a variable without `=` and for the read error of
LoadSharedMemory: those are "unknown error.". -/
theorem C118_names (c : Code) :
    debugErrno c.number = "unknown error." ↔ c = .parse .illegalVarValue ∨ c = .load .badRead := by
  cases c with
  | parse e => cases e <;> simp [Code.number, PErr.number, debugErrno]
  | load e => cases e <;> simp [Code.number, LoadCode.number, debugErrno]
  | _ => simp [Code.number, debugErrno]

/-- Different errors of the parser have different numbers, none of them 0. -/
theorem C118_numbers (a b : PErr) (h : a.number = b.number) : a = b := by
  cases a <;> cases b <;> first | rfl | (exact absurd h (by decide))

theorem C118_number_pos (a : PErr) : 0 < a.number := by cases a <;> decide

/-- The enumerator returned for an error of the parser. -/
def PErr.enumerator : PErr → String
  | .nonsupportSyntax => "PEC_NONSUPPORT_SYNTAX" | .illegalKey => "PEC_ILLEGAL_KEY" | .illegalVarName => "PEC_ILLEGAL_VAR_NAME"
  | .illegalVarValue => "PEC_ILLEGAL_VAR_VALUE" | .notClosure => "PEC_NOT_CLOSURE" | .illegalAddrIp => "PEC_ILLEGAL_ADDR_IP"
  | .illegalAddrPort => "PEC_ILLEGAL_ADDR_PORT" | .definedTargetTooLong => "PEC_DEFINED_TARGET_TOO_LONG"
  | .undefinedDeviceKey => "PEC_UNDEFINED_DEVICE_KEY" | .undefinedDeviceType => "PEC_UNDEFINED_DEVICE_TYPE"
  | .undefinedChannelKey => "PEC_UNDEFINED_CHANNEL_KEY" | .undefinedGlobalKey => "PEC_UNDEFINED_GLOBAL_KEY"
  | .invalidChannelSize => "E_INVALID_CHANNEL_SIZE" | .channelNotSequence => "E_CHANNEL_NOT_SEQUENCE"
  | .outOfDeviceSize => "E_OUT_OF_DEVICE_SIZE" | .deviceNotSequence => "E_DEVICE_NOT_SEQUENCE"

/-- The enumerator returned by a function of the logger; `none` for the `-10` of LoadSharedMemory, which has none. -/
def Code.enumerator : Code → Option String
  | .ok => some "E_SUCCESS" | .parse e => some e.enumerator
  | .load .ok => some "E_SUCCESS" | .load .probeError => some "E_SHMGET_PROBE_ERROR"
  | .load .createError => some "E_SHMGET_CREATE_ERROR" | .load .attachError => some "E_SHMAT_ERROR"
  | .load .versionWrong => some "E_SHM_VERSION_WRONG" | .load .badRead => none
  | .inUse => some "E_LOGGER_IN_USE" | .notInit => some "E_LOGGER_NOT_INIT" | .notRunning => some "E_LOGGER_NOT_RUNNING"
  | .invalidConfigPath => some "E_INVALID_CONFIG_PATH" | .invalidChannelSize => some "E_INVALID_CHANNEL_SIZE"
  | .threadFailed => some "E_CHANNEL_THREAD_FAILED" | .versionMismatch => some "E_VERSION_MISMATCH"
  | .disableHotUpdate => some "E_DISABLE_HOTUPDATE" | .noConfigPath => some "E_NO_CONFIG_PATH"
  | .noChange => some "E_CONFIG_NO_CHANGE"

/-- Every error has the number of its enumerator. -/
theorem C118_enumerators (c : Code) (n : String) (h : c.enumerator = some n) :
    ∃ i : Nat, c.number = i ∧ errorEnum[i]? = some n := by
  suffices hd : errorEnum[c.number.toNat]? = some n ∧ 0 ≤ c.number from ⟨c.number.toNat, by omega, hd.1⟩
  cases c with
  | parse e =>
    cases e <;> simp only [Code.enumerator, PErr.enumerator, Option.some.injEq] at h <;> subst h <;> decide +kernel
  | load e =>
    cases e <;> simp only [Code.enumerator, Option.some.injEq, reduceCtorEq] at h <;> subst h <;> decide +kernel
  | _ => simp only [Code.enumerator, Option.some.injEq] at h; subst h; decide +kernel

/-- DebugErrno prints the name of the kind an enumerator belongs to, "unknown error." for one that is in no kind, and for
every number that belongs to no enumerator. -/
theorem C118_messages (n : Int) :
    debugErrno n =
      match (if 0 ≤ n then errorEnum[n.toNat]? else none) with
      | none => "unknown error."
      | some e => ((errorKinds.find? fun k => k.1.contains e).map Prod.snd).getD "unknown error." := by
  have small : ∀ i : Fin 34, debugErrno (i.val : Int) =
      ((errorKinds.find? fun k => k.1.contains (errorEnum[i.val]?.getD "")).map Prod.snd).getD "unknown error." := by
    decide +kernel
  by_cases h0 : 0 ≤ n
  · obtain ⟨i, rfl⟩ := Int.eq_ofNat_of_zero_le h0
    rw [if_pos h0, Int.toNat_natCast]
    by_cases hi : i < 34
    · rw [small ⟨i, hi⟩, List.getElem?_eq_getElem (show i < errorEnum.length from hi)]
      rfl
    · rw [List.getElem?_eq_none (show errorEnum.length ≤ i from by show 34 ≤ i; omega)]
      simp only [debugErrno]
      split <;> first | rfl | (exfalso; omega)
  · rw [if_neg h0]
    simp only [debugErrno]
    split <;> first | rfl | (exfalso; omega)

/-! ## Concrete cases -/

/-- A text with an unreadable line: reported where it is. -/
def badWord : List Char := "- channel: 0\n    sync: sync\n    colour: 3\n    -device: 0\n".toList

theorem C118_case_line : parseLoggerD (fun _ => none) 0 100 badWord = .err .illegalKey 3 28 badWord := by
  have h : (parseLoggerD (fun _ => none) 0 100 badWord == .err .illegalKey 3 28 badWord) = true := by kernel_rfl
  exact of_decide_eq_true h

theorem C118_case_lineAt : LineAt badWord 3 28 := by
  unfold LineAt
  decide +kernel

theorem C118_case_message : refusal .illegalKey 3 28 badWord =
    "ParseLogger has error:<23 unknown key> in line:[3]  before:\n    colour: 3\n    -device: 0\n\n".toList := by
  decide +kernel

/-- The violation: `hot_update` in line 2, inside a channel, is reported in line 3, and the excerpt is line 3. -/
def misplaced : List Char := "- channel: 0\n    hot_update: true\n    sync: sync\n    -device: 0\n".toList

theorem C118_counterexample : ∃ line pos, parseLoggerD (fun _ => none) 0 100 misplaced =
      .err .undefinedChannelKey line pos misplaced ∧
    line = 3 ∧ (configLines misplaced)[1]? = some "    hot_update: true\n".toList ∧
    refusal .undefinedChannelKey line pos misplaced =
      "ParseLogger has error:<32 undefined type> in line:[3]  before:\n    sync: sync\n    -device: 0\n\n".toList := by
  refine ⟨3, 34, ?_, rfl, ?_, ?_⟩
  · have h : (parseLoggerD (fun _ => none) 0 100 misplaced == .err .undefinedChannelKey 3 34 misplaced) = true := by
      kernel_rfl
    exact of_decide_eq_true h
  · decide +kernel
  · decide +kernel

/-- The second violation: a variable without `=` is refused with "unknown error.". -/
def noValue : List Char := "- variable: abc\n- channel: 0\n    -device: 0\n".toList

theorem C118_name_counterexample : parseLoggerD (fun _ => none) 0 100 noValue = .err .illegalVarValue 1 0 noValue ∧
    debugErrno PErr.illegalVarValue.number = "unknown error." := by
  refine ⟨?_, by decide⟩
  have h : (parseLoggerD (fun _ => none) 0 100 noValue == .err .illegalVarValue 1 0 noValue) = true := by kernel_rfl
  exact of_decide_eq_true h

/-- Files of Windows and of Unix have the lines one sees. -/
theorem C118_lines_unix {l rest : List Char} (hl : ∀ c ∈ l, c ≠ '\r' ∧ c ≠ '\n') (hr : rest.head? ≠ some '\r') :
    configLines (l ++ '\n' :: rest) = (l ++ ['\n']) :: configLines rest := configLines_unix hl hr

theorem C118_lines_windows {l rest : List Char} (hl : ∀ c ∈ l, c ≠ '\r' ∧ c ≠ '\n') :
    configLines (l ++ '\r' :: '\n' :: rest) = (l ++ ['\r', '\n']) :: configLines rest := configLines_windows hl

end FNLog
