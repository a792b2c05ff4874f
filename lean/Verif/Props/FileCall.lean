import Verif.Spec.FileUse
import Verif.Props.FileUse

/-!
# C127: one output
-/

namespace FNLog
open FileUse Spec

namespace FileUse

/-- The answer at a place. -/
def answerAt (a : FileAnswers) : PC → Bool
  | .outQ _ => a.refused
  | .rotate _ => a.rotate
  | .name _ => a.nameTooLong
  | .oOpen _ => a.opens
  | .oStat _ => a.stat
  | .wWrite _ => a.wholeWrite
  | _ => true

/-- Thread `t` makes steps while no other does. -/
def alone (t : Nat) (a : FileAnswers) : Nat → St → Option St
  | 0, s => some s
  | n + 1, s => (stepT s t (answerAt a (s.pc t))).bind (alone t a n)

@[simp] theorem alone_zero (t : Nat) (a : FileAnswers) (s : St) : alone t a 0 s = some s := rfl

/-- A state, with thread `t` at a place. -/
def mk (t : Nat) (pc : Nat → PC) (file : Option Nat) (live : List Nat) (next : Nat) (lock : Option Nat) (written : List (Nat × List Char)) (p : PC) : St :=
  ⟨file, live, next, fun u => if u = t then p else pc u, lock, written⟩

section
variable (t : Nat) (pc : Nat → PC) (file : Option Nat) (live : List Nat) (next : Nat) (lock : Option Nat) (written : List (Nat × List Char)) (p q : PC)

theorem mk_pc : (mk t pc file live next lock written p).pc t = p := if_pos rfl
theorem mk_others {u : Nat} (h : u ≠ t) : (mk t pc file live next lock written p).pc u = pc u := if_neg h
theorem mk_file : (mk t pc file live next lock written p).file = file := rfl
theorem mk_go : (mk t pc file live next lock written p).go t q = mk t pc file live next lock written q := by
  unfold mk St.go
  congr 1
  funext u
  by_cases h : u = t <;> simp [h]
theorem mk_leave : (mk t pc file live next lock written p).leave t = mk t pc file live next none written .idle := mk_go t pc file live next none written p .idle
theorem mk_null : { mk t pc file live next lock written p with file := none } = mk t pc none live next lock written p := rfl
theorem mk_stream (g : Nat) : (mk t pc (some g) [g] next lock written p).stream = some g := by simp [mk, St.stream]
theorem mk_fclose (g : Nat) : (mk t pc (some g) [g] next lock written p).fclose = some (mk t pc (some g) [] next lock written p) := by
  simp [mk, St.fclose, St.stream]
theorem mk_fopen : (mk t pc file [] next lock written p).fopen true = mk t pc (some next) [next] (next + 1) lock written p := rfl
theorem mk_fopen' : (mk t pc file live next lock written p).fopen false = mk t pc none live next lock written p := rfl
theorem mk_write (x : List (Nat × List Char)) : { mk t pc file live next lock written p with written := x } = mk t pc file live next lock x p := rfl
theorem mk_written : (mk t pc file live next lock written p).written = written := rfl

theorem mk_after_null (x : List Char) (k : After) : ({ mk t pc file live next lock written p with file := none } : St).after t x k =
    (mk t pc none live next lock written p).after t x k := rfl

variable (a : FileAnswers) (n : Nat) (x : List Char)

theorem alone_idle : alone t a n (mk t pc file live next lock written .idle) = some (mk t pc file live next lock written .idle) := by
  induction n with
  | zero => rfl
  | succ n ih =>
    unfold alone stepT
    rw [mk_pc]
    exact ih

/-- One step. -/
theorem alone_step {s' : St} (h : stepT (mk t pc file live next lock written p) t (answerAt a p) = some s') :
    alone t a (n + 1) (mk t pc file live next lock written p) = alone t a n s' := by
  conv => lhs; unfold alone
  rw [mk_pc, h]
  rfl

/-- `close()` of the stream. -/
theorem alone_close (g : Nat) (k : After) : alone t a (n + 4) (mk t pc (some g) [g] next lock written (.cTest x k)) =
    alone t a n ((mk t pc none [] next lock written (.cNull x k)).after t x k) := by
  rw [alone_step (s' := mk t pc (some g) [g] next lock written (.cSync x k)) (h := by simp [stepT, mk_pc, mk_file, mk_go]),
    alone_step (s' := mk t pc (some g) [g] next lock written (.cClose x k)) (h := by simp [stepT, mk_pc, mk_file, mk_go, mk_stream]),
    alone_step (s' := mk t pc (some g) [] next lock written (.cNull x k)) (h := by simp [stepT, mk_pc, mk_fclose, mk_go]),
    alone_step (s' := (mk t pc none [] next lock written (.cNull x k)).after t x k) (h := by simp [stepT, mk_pc, mk_after_null])]

/-- The end, with a stream. -/
theorem alone_write (g : Nat) : alone t a (n + 7) (mk t pc (some g) [g] next lock written (.wQ x)) =
    some (mk t pc (if x = [] ∨ a.wholeWrite = true then some g else none) (if x = [] ∨ a.wholeWrite = true then [g] else []) next none
      (written ++ if x = [] then [] else [(g, x)]) .idle) := by
  rw [alone_step (s' := mk t pc (some g) [g] next lock written (.wTest x)) (h := by simp [stepT, mk_pc, mk_file, mk_go])]
  by_cases hx : x = []
  · rw [alone_step (s' := mk t pc (some g) [g] next none written .idle) (h := by simp [stepT, mk_pc, mk_leave, hx]), alone_idle]
    simp [hx]
  · rw [alone_step (s' := mk t pc (some g) [g] next lock written (.wWrite x)) (h := by simp [stepT, mk_pc, mk_file, mk_go, hx])]
    have hs : ∀ b, stepT (mk t pc (some g) [g] next lock written (.wWrite x)) t b =
        some (if b then mk t pc (some g) [g] next none (written ++ [(g, x)]) .idle
          else mk t pc (some g) [g] next lock (written ++ [(g, x)]) (.cTest x .leave)) := by
      intro b
      unfold stepT
      rw [mk_pc]
      simp only [mk_stream, Option.map_some, mk_written]
      cases b
      · exact congrArg some (mk_go t pc (some g) [g] next lock (written ++ [(g, x)]) _ _)
      · exact congrArg some (mk_leave t pc (some g) [g] next lock (written ++ [(g, x)]) _)
    cases hw : a.wholeWrite with
    | true =>
      rw [alone_step (s' := mk t pc (some g) [g] next none (written ++ [(g, x)]) .idle) (h := by rw [hs]; simp [answerAt, hw]), alone_idle]
      simp [hx]
    | false =>
      rw [alone_step (s' := mk t pc (some g) [g] next lock (written ++ [(g, x)]) (.cTest x .leave)) (h := by rw [hs]; simp [answerAt, hw]),
        alone_close]
      simp only [St.after, mk_leave, alone_idle]
      simp [hx]

/-- The end, without. -/
theorem alone_none : alone t a (n + 1) (mk t pc none [] next lock written (.wQ x)) = some (mk t pc none [] next none written .idle) := by
  rw [alone_step (s' := mk t pc none [] next none written .idle) (h := by simp [stepT, mk_pc, mk_file, mk_leave]), alone_idle]

/-- From the test whether the file is to be opened, with the file closed. -/
theorem alone_open : alone t a (n + 13) (mk t pc none [] next lock written (.openQ x)) =
    if !a.nameTooLong && a.opens && a.stat then alone t a (n + 7) (mk t pc (some next) [next] (next + 1) lock written (.wQ x))
    else some (mk t pc none [] (if !a.nameTooLong && a.opens then next + 1 else next) none written .idle) := by
  rw [alone_step (s' := mk t pc none [] next lock written (.name x)) (h := by simp [stepT, mk_pc, mk_file, mk_go])]
  cases h1 : a.nameTooLong with
  | true =>
    rw [alone_step (s' := mk t pc none [] next lock written (.wQ x)) (h := by simp [stepT, mk_pc, mk_go, answerAt, h1]), alone_none]
    simp
  | false =>
    rw [alone_step (s' := mk t pc none [] next lock written (.oTest x)) (h := by simp [stepT, mk_pc, mk_go, answerAt, h1]),
      alone_step (s' := mk t pc none [] next lock written (.oOpen x)) (h := by simp [stepT, mk_pc, mk_go, mk_file])]
    cases h2 : a.opens with
    | false =>
      rw [alone_step (s' := mk t pc none [] next lock written (.oTest2 x)) (h := by simp [stepT, mk_pc, mk_go, answerAt, h2, mk_fopen']),
        alone_step (s' := mk t pc none [] next lock written (.wQ x)) (h := by simp [stepT, mk_pc, mk_go, mk_file]), alone_none]
      simp
    | true =>
      rw [alone_step (s' := mk t pc (some next) [next] (next + 1) lock written (.oTest2 x)) (h := by simp [stepT, mk_pc, mk_go, answerAt, h2, mk_fopen]),
        alone_step (s' := mk t pc (some next) [next] (next + 1) lock written (.oStat x)) (h := by simp [stepT, mk_pc, mk_go, mk_file])]
      cases h3 : a.stat with
      | true =>
        rw [show n + 7 = n + 7 from rfl,
          alone_step (s' := mk t pc (some next) [next] (next + 1) lock written (.wQ x)) (h := by simp [stepT, mk_pc, mk_go, mk_stream, answerAt, h3])]
        simp
      | false =>
        rw [alone_step (s' := mk t pc (some next) [next] (next + 1) lock written (.oFail x)) (h := by simp [stepT, mk_pc, mk_go, mk_stream, answerAt, h3]),
          alone_step (s' := mk t pc (some next) [] (next + 1) lock written (.oFailNull x)) (h := by simp [stepT, mk_pc, mk_go, mk_fclose]),
          alone_step (s' := mk t pc none [] (next + 1) lock written (.wQ x)) (h := by
            unfold stepT; rw [mk_pc]; exact congrArg some (mk_go t pc none [] (next + 1) lock written _ _)), alone_none]
        simp

/-- From there, whether the file is open or not. -/
theorem alone_openQ : ∃ n', alone t a (n + 13) (mk t pc file file.toList next lock written (.openQ x)) =
    match (match file with | some g => some g | none => if !a.nameTooLong && a.opens && a.stat then some next else none : Option Nat) with
    | none => some (mk t pc none [] n' none written .idle)
    | some g => some (mk t pc (if x = [] ∨ a.wholeWrite = true then some g else none) (if x = [] ∨ a.wholeWrite = true then [g] else []) n' none
      (written ++ if x = [] then [] else [(g, x)]) .idle) := by
  cases file with
  | some g =>
    refine ⟨next, ?_⟩
    rw [alone_step (s' := mk t pc (some g) [g] next lock written (.wQ x)) (h := by simp [stepT, mk_pc, mk_file, mk_go]),
      show n + 12 = (n + 5) + 7 from rfl, alone_write]
  | none =>
    refine ⟨if !a.nameTooLong && a.opens then next + 1 else next, ?_⟩
    show alone t a (n + 13) (mk t pc none [] next lock written (.openQ x)) = _
    rw [alone_open]
    cases h : (!a.nameTooLong && a.opens && a.stat) with
    | false => rfl
    | true =>
      have h' : (!a.nameTooLong && a.opens) = true := by
        revert h; cases a.nameTooLong <;> cases a.opens <;> simp
      simp only [if_true]
      rw [alone_write, h']
      rfl
end

end FileUse

/-- One output alone ends after at most 20 steps, with the stream and the text written as specified, nothing else open, and the lock released. -/
theorem C127_call (t : Nat) (a : FileAnswers) (s : FileUse.St) (x : List Char) (hp : s.pc t = .outQ x) (ho : FileUse.Owns s) :
    ∃ s', FileUse.alone t a 20 s = some s' ∧ s'.pc t = .idle ∧ (∀ u, u ≠ t → s'.pc u = s.pc u) ∧ s'.lock = none ∧ FileUse.Owns s' ∧
      s'.file = (fileCall a s.file s.next x).1 ∧ s'.written = s.written ++ (fileCall a s.file s.next x).2 := by
  obtain ⟨file, live, next, pc, lock, written⟩ := s
  have hl : live = file.toList := ho
  subst hl
  have e : (⟨file, file.toList, next, pc, lock, written⟩ : St) = mk t pc file file.toList next lock written (.outQ x) := by
    unfold mk
    congr 1
    funext u
    by_cases h : u = t
    · rw [if_pos h, h]; exact hp
    · rw [if_neg h]
  suffices ∃ n', FileUse.alone t a 20 (mk t pc file file.toList next lock written (.outQ x)) =
      some (mk t pc (fileCall a file next x).1 (fileCall a file next x).1.toList n' none (written ++ (fileCall a file next x).2) .idle) by
    obtain ⟨n', h⟩ := this
    rw [e, h]
    exact ⟨_, rfl, mk_pc .., fun u hu => (mk_others _ _ _ _ _ _ _ _ hu).trans (mk_others _ _ _ _ _ _ _ _ hu).symm, rfl, rfl, rfl, rfl⟩
  clear e ho hp
  by_cases hr : file = none ∧ a.refused = true
  · refine ⟨next, ?_⟩
    have : fileCall a file next x = (none, []) := by unfold fileCall; rw [if_pos hr]
    rw [this, hr.1]
    rw [alone_step (s' := mk t pc none [] next none written .idle) (h := by simp [FileUse.stepT, mk_pc, mk_file, mk_leave, answerAt, hr.2]), alone_idle]
    simp
  · have fc : ∀ f', keptStream a file = f' → ∀ (m : Nat) (lk : Option Nat), (∃ n', alone t a (m + 13) (mk t pc f' f'.toList next lk written (.openQ x)) =
        some (mk t pc (fileCall a file next x).1 (fileCall a file next x).1.toList n' none (written ++ (fileCall a file next x).2) .idle)) := by
      intro f' hf m lk
      obtain ⟨n', h⟩ := alone_openQ t pc f' next lk written a m x
      refine ⟨n', h.trans ?_⟩
      unfold fileCall targetStream
      rw [if_neg hr, hf]
      cases f' with
      | some g => by_cases hx : x = [] <;> cases a.wholeWrite <;> simp [hx]
      | none =>
        cases (!a.nameTooLong && a.opens && a.stat) with
        | false => simp
        | true => by_cases hx : x = [] <;> cases a.wholeWrite <;> simp [hx]
    rw [alone_step (s' := mk t pc file file.toList next lock written (.rotate x)) (h := by
      unfold FileUse.stepT; rw [mk_pc]
      refine (congrArg some (if_neg ?_)).trans (congrArg some (mk_go ..))
      exact hr)]
    cases hro : a.rotate with
    | false =>
      rw [alone_step (s' := mk t pc file file.toList next lock written (.openQ x)) (h := by simp [FileUse.stepT, mk_pc, mk_go, answerAt, hro])]
      exact fc file (by simp [keptStream, hro]) 5 lock
    | true =>
      rw [alone_step (s' := mk t pc file file.toList next lock written (.closeQ x)) (h := by simp [FileUse.stepT, mk_pc, mk_go, answerAt, hro])]
      have fc' := fc none (by simp [keptStream, hro])
      cases file with
      | none =>
        rw [alone_step (s' := mk t pc none [] next lock written (.openQ x)) (h := by simp [FileUse.stepT, mk_pc, mk_go, mk_file])]
        exact fc' 4 lock
      | some g =>
        rw [alone_step (s' := mk t pc (some g) [g] next lock written (.cTest x .reopen)) (h := by simp [FileUse.stepT, mk_pc, mk_go, mk_file]),
          alone_close]
        simp only [St.after, mk_go]
        exact fc' 0 lock

/-- A record for which the file is rotated and whose write is short: the new stream has the text and is closed. -/
theorem C127_case_call : fileCall ⟨false, true, false, true, true, false⟩ (some 3) 7 "a".toList = (none, [(7, "a".toList)]) ∧
    fileCall ⟨true, false, false, true, true, true⟩ (some 3) 7 "a".toList = (some 3, [(3, "a".toList)]) ∧
    fileCall ⟨true, false, false, true, true, true⟩ none 7 "a".toList = (none, []) := by
  refine ⟨rfl, rfl, rfl⟩

end FNLog
