import Verif.Proof.Move

/-! # Property theorems C117: stream objects that are moved -/

namespace FNLog
open Spec Move

/-- **C117.** A program that constructs, moves, uses and destroys stream objects as C++ allows never follows a null pointer. -/
theorem C117_defined {V : Type} (as : List (Act V)) :
    (run (World.start V) as).isSome = (aliveAfter [] as).isSome :=
  run_alive Inv.start (fun i => by simp [World.start])

/-- **C117.** A statement that is let in gets what is streamed to its object and, after a move, to the object that was constructed from it,
in order, and nothing else; it is pushed once, with the index it was given, when the object that then holds it is destroyed, and not
otherwise. -/
theorem C117_statement {V : Type} (pre post : List (Act V)) (i idx : Nat) (w : World V)
    (e : run (World.start V) (pre ++ .make i (some idx) :: post) = some w) :
    w.texts (letIn pre) = operands i post ∧
    w.pushes.filter (fun p => p.1 = letIn pre) = if ends i post then [(letIn pre, (idx : Int))] else [] := by
  rw [run_append] at e
  cases h1 : run (World.start V) pre with
  | none => rw [h1] at e; cases e
  | some w1 =>
    rw [h1] at e
    have hI := Inv.run Inv.start h1
    have hn : w1.next = letIn pre := by
      have := next_run h1
      rw [this]
      show 0 + _ = _
      omega
    replace e : run w1 (.make i (some idx) :: post) = some w := e
    unfold Move.run at e
    cases ho : w1.objs i with
    | some o => simp only [act, ho] at e; cases e
    | none =>
      simp only [act, ho] at e
      have ha : act w1 (.make i (some idx)) = some { w1 with objs := upd w1.objs i (some ⟨true, some w1.next, (idx : Int)⟩), next := w1.next + 1 } := by
        simp only [act, ho]
      obtain ⟨t, ps, hp, hf⟩ := held (hI.step ha) (i := i) (k := w1.next) (x := (idx : Int)) (upd_same _ _ _) e
      rw [← hn]
      refine ⟨?_, ?_⟩
      · rw [t]
        show w1.texts w1.next ++ _ = _
        rw [hI.empty _ (Nat.le_refl _), List.nil_append]
      · rw [hp, List.filter_append, hf, List.filter_eq_nil_iff.mpr, List.nil_append]
        intro p hm
        simp only [decide_eq_true_eq]
        have := hI.pushed p.1 p.2 hm
        omega

/-- **C117.** If every object is destroyed in the end, then the calls of PushLog are one for each statement that was let in. -/
theorem C117_all_pushed {V : Type} (as : List (Act V)) (w : World V) (e : run (World.start V) as = some w)
    (hend : aliveAfter [] as = some []) (pre post : List (Act V)) (i idx : Nat) (has : as = pre ++ .make i (some idx) :: post) :
    (w.pushes.filter (fun p => p.1 = letIn pre)) = [(letIn pre, (idx : Int))] := by
  subst has
  have h := (C117_statement pre post i idx w e).2
  have key : ∀ (post : List (Act V)) (i : Nat) (l : List Nat), i ∈ l → aliveAfter l post = some [] → ends i post = true := by
    intro post
    induction post with
    | nil => intro i l hi h; cases h; cases hi
    | cons a as ih =>
      intro i l hi h
      simp only [aliveAfter] at h
      cases a with
      | make j x =>
        simp only [aliveStep] at h
        split at h
        · cases h
        · exact ih i _ (List.mem_cons_of_mem _ hi) h
      | put j v =>
        simp only [aliveStep] at h
        split at h
        · exact ih i _ hi h
        · cases h
      | move a b =>
        simp only [aliveStep] at h
        simp only [ends]
        split at h
        · split
          · exact ih b _ List.mem_cons_self h
          · exact ih i _ (List.mem_cons_of_mem _ hi) h
        · cases h
      | drop j =>
        simp only [aliveStep] at h
        simp only [ends]
        split at h
        · split
          · rfl
          · next hji => exact ih i _ (List.mem_filter.mpr ⟨hi, by simp [Ne.symm hji]⟩) h
        · cases h
  have hl := alive_made pre [] hend
  obtain ⟨l, hi, hp⟩ := hl
  rw [key post i l hi hp] at h
  exact h

/-- **C117.** A statement that is refused gets no record: objects without one leave records and calls of PushLog alone. -/
theorem C117_refused {V : Type} (as : List (Act V)) (h : letIn as = 0) (w : World V) (e : run (World.start V) as = some w) :
    w.pushes = [] ∧ ∀ k, w.texts k = [] := by
  have hI := Inv.run Inv.start e
  have hn := next_run e
  rw [h] at hn
  have hn : w.next = 0 := hn
  refine ⟨?_, fun k => hI.empty k (by omega)⟩
  cases hp : w.pushes with
  | nil => rfl
  | cons p ps =>
    have := hI.pushed p.1 p.2 (by rw [hp]; exact List.mem_cons_self)
    omega

/-- `LOG_FORMAT` without elision: the temporary is moved into a variable and destroyed before the text is written. -/
example : (run (World.start String) [.make 0 (some 7), .move 0 1, .drop 0, .put 1 "text", .make 0 none, .put 0 "refused", .drop 0, .drop 1]).map
    (fun w => (w.texts 0, w.pushes)) = some (["text"], [(0, 7)]) := by decide

/-- A statement whose object is moved twice, with one in between of another statement. -/
example : aliveAfter (V := String) [] [.make 0 (some 7), .put 0 "a", .move 0 1, .put 0 "lost", .make 2 (some 8), .put 1 "b", .drop 0, .put 2 "x", .move 1 0, .put 0 "c",
    .drop 2, .drop 1, .drop 0] = some [] ∧
    operands 0 [.put 0 "a", .move 0 1, .put 0 "lost", .make 2 (some 8), .put 1 "b", .drop 0, .put 2 "x", .move 1 0, .put 0 "c",
    .drop 2, .drop 1, .drop 0] = ["a", "b", "c"] := by decide

end FNLog
