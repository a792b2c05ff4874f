import Verif.Model.FileUse
import Verif.Proof.KernelRfl

/-!
# C127: a stream is used while it is open
-/

namespace FNLog
open FileUse

namespace FileUse

@[simp] theorem go_pc (s : St) (t u : Nat) (p : PC) : (s.go t p).pc u = if u = t then p else s.pc u := rfl
@[simp] theorem go_self (s : St) (t : Nat) (p : PC) : (s.go t p).pc t = p := if_pos rfl
@[simp] theorem go_file (s : St) (t : Nat) (p : PC) : (s.go t p).file = s.file := rfl
@[simp] theorem go_live (s : St) (t : Nat) (p : PC) : (s.go t p).live = s.live := rfl
@[simp] theorem go_lock (s : St) (t : Nat) (p : PC) : (s.go t p).lock = s.lock := rfl
@[simp] theorem leave_pc (s : St) (t u : Nat) : (s.leave t).pc u = if u = t then .idle else s.pc u := rfl
@[simp] theorem leave_self (s : St) (t : Nat) : (s.leave t).pc t = .idle := if_pos rfl
@[simp] theorem leave_file (s : St) (t : Nat) : (s.leave t).file = s.file := rfl
@[simp] theorem leave_live (s : St) (t : Nat) : (s.leave t).live = s.live := rfl
@[simp] theorem leave_lock (s : St) (t : Nat) : (s.leave t).lock = none := rfl

/-- The device has exactly the stream it knows of. -/
def Owns (s : St) : Prop := s.live = s.file.toList

theorem Owns.stream {s : St} (h : Owns s) {g : Nat} (hg : s.file = some g) : s.stream = some g := by
  unfold Owns at h
  rw [hg] at h
  simp [St.stream, hg, h]

/-! ## One at a time -/

/-- What is true at a place, when nobody else is active. -/
def Fits (s : St) : PC → Prop
  | .cNull _ _ | .oNull _ | .oFailNull _ => s.live = []
  | .cSync _ _ | .cClose _ _ | .oClose _ | .oStat _ | .oFail _ | .wWrite _ | .fFlush => Owns s ∧ s.file ≠ none
  | .oOpen _ => Owns s ∧ s.file = none
  | _ => Owns s

/-- Nothing begins while something is in progress: the output of a record, a flush, StopLogger closing the file. -/
def Serial : St → List Ev → Prop
  | _, [] => True
  | s, e :: es => (match e with | .run _ _ => True | _ => ∀ u, s.pc u = .idle) ∧ ∀ s', step s e = some s' → Serial s' es

structure Only (s : St) (t : Nat) : Prop where
  others : ∀ u, u ≠ t → s.pc u = .idle
  fits : Fits s (s.pc t)

theorem Only.go {s s' : St} {t : Nat} (h : Only s t) (hp : s'.pc = s.pc) {p : PC} (hf : Fits s' p) : Only (s'.go t p) t := by
  refine ⟨fun u hu => by rw [go_pc, if_neg hu, hp]; exact h.others u hu, ?_⟩
  rw [go_self]
  revert hf
  cases p <;> exact id

theorem Only.leave {s s' : St} {t : Nat} (h : Only s t) (hp : s'.pc = s.pc) (hf : Owns s') : Only (s'.leave t) t :=
  h.go (s' := { s' with lock := none }) hp hf

theorem Only.after {s s' : St} {t : Nat} (h : Only s t) (hp : s'.pc = s.pc) (hf : Owns s') (x : List Char) (k : After) :
    Only (s'.after t x k) t := by
  cases k
  · exact h.go hp hf
  · exact h.leave hp hf
  · exact h.go hp hf

theorem Owns.fclose {s : St} (h : Owns s) (hn : s.file ≠ none) : ∃ s', s.fclose = some s' ∧ s'.pc = s.pc ∧ s'.live = [] := by
  cases hg : s.file with
  | none => exact absurd hg hn
  | some g =>
    refine ⟨{ s with live := s.live.filter (· ≠ g) }, ?_, rfl, ?_⟩
    · simp only [St.fclose, h.stream hg, Option.map_some]
    · unfold Owns at h
      rw [hg] at h
      simp [h]

theorem Only.stepT {s : St} {t : Nat} (h : Only s t) (u : Nat) (b : Bool) : ∃ s', stepT s u b = some s' ∧ Only s' t := by
  by_cases hu : u = t
  · subst hu
    have hf := h.fits
    unfold FileUse.stepT
    have str : Owns s → s.file ≠ none → ∃ g, s.stream = some g := by
      intro ho hn
      cases hg : s.file with
      | none => exact absurd hg hn
      | some g => exact ⟨g, ho.stream hg⟩
    cases hp : s.pc u <;> rw [hp] at hf <;> dsimp only
    case idle => exact ⟨s, rfl, h⟩
    case outQ x =>
      refine ⟨_, rfl, ?_⟩
      split
      · exact h.leave rfl hf
      · exact h.go rfl hf
    case rotate x => refine ⟨_, rfl, h.go rfl ?_⟩; split <;> exact hf
    case closeQ x => refine ⟨_, rfl, h.go rfl ?_⟩; split <;> exact hf
    case cTest x k =>
      refine ⟨_, rfl, ?_⟩
      split
      · exact h.after rfl hf x k
      · rename_i hn; exact h.go rfl ⟨hf, hn⟩
    case cSync x k =>
      obtain ⟨g, hg⟩ := str hf.1 hf.2
      rw [if_neg hf.2, hg]
      exact ⟨_, rfl, h.go rfl hf⟩
    case cClose x k =>
      obtain ⟨s', e, h1, h2⟩ := hf.1.fclose hf.2
      rw [e]
      exact ⟨_, rfl, h.go h1 h2⟩
    case cNull x k =>
      exact ⟨_, rfl, h.after (s' := { s with file := none }) rfl hf x k⟩
    case openQ x => refine ⟨_, rfl, h.go rfl ?_⟩; split <;> exact hf
    case name x => refine ⟨_, rfl, h.go rfl ?_⟩; split <;> exact hf
    case oTest x =>
      refine ⟨_, rfl, h.go rfl ?_⟩
      split
      · rename_i hn; exact ⟨hf, hn⟩
      · rename_i hn; exact ⟨hf, hn⟩
    case oClose x =>
      obtain ⟨s', e, h1, h2⟩ := hf.1.fclose hf.2
      rw [e]
      exact ⟨_, rfl, h.go h1 h2⟩
    case oNull x => exact ⟨_, rfl, h.go (s' := { s with file := none }) rfl ⟨hf, rfl⟩⟩
    case oOpen x =>
      have hl : s.live = [] := by have := hf.1; unfold Owns at this; rw [this, hf.2]; rfl
      refine ⟨_, rfl, ?_⟩
      cases b
      · exact h.go (s' := s.fopen false) (p := .oTest2 x) rfl (show (s.fopen false).live = (s.fopen false).file.toList by simp [St.fopen, hl])
      · exact h.go (s' := s.fopen true) (p := .oTest2 x) rfl (show (s.fopen true).live = (s.fopen true).file.toList by simp [St.fopen, hl])
    case oTest2 x =>
      refine ⟨_, rfl, h.go rfl ?_⟩
      split
      · exact hf
      · rename_i hn; exact ⟨hf, hn⟩
    case oStat x =>
      obtain ⟨g, hg⟩ := str hf.1 hf.2
      rw [hg]
      refine ⟨_, rfl, h.go rfl ?_⟩
      split
      · exact hf.1
      · exact hf
    case oFail x =>
      obtain ⟨s', e, h1, h2⟩ := hf.1.fclose hf.2
      rw [e]
      exact ⟨_, rfl, h.go h1 h2⟩
    case oFailNull x => exact ⟨_, rfl, h.go (s' := { s with file := none }) (p := .wQ x) rfl hf⟩
    case wQ x =>
      refine ⟨_, rfl, ?_⟩
      split
      · exact h.leave rfl hf
      · exact h.go rfl hf
    case wTest x =>
      refine ⟨_, rfl, ?_⟩
      split
      · exact h.leave rfl hf
      · rename_i hn; exact h.go rfl ⟨hf, fun e => hn (.inl e)⟩
    case wWrite x =>
      obtain ⟨g, hg⟩ := str hf.1 hf.2
      rw [hg]
      refine ⟨_, rfl, ?_⟩
      split
      · exact h.leave rfl hf.1
      · exact h.go (s' := { s with written := s.written ++ [(g, x)] }) rfl (p := .cTest x .leave) hf.1
    case fTest =>
      refine ⟨_, rfl, h.go rfl ?_⟩
      split
      · exact hf
      · rename_i hn; exact ⟨hf, hn⟩
    case fFlush =>
      obtain ⟨g, hg⟩ := str hf.1 hf.2
      rw [if_neg hf.2, hg]
      exact ⟨_, rfl, h.go rfl hf.1⟩
    case sQ => refine ⟨_, rfl, h.go rfl ?_⟩; split <;> exact hf
  · refine ⟨s, ?_, h⟩
    unfold FileUse.stepT
    rw [h.others u hu]

end FileUse

/-- One after the other – the outputs of records and the flushes of an async channel, whose thread StopLogger waits for before it closes the files, and the
statements of a sync channel that do not overlap – a stream is only used while it is open, whatever the operating system answers and however often the
file is rotated; and when nothing is in progress the device has exactly the stream it knows of. -/
theorem C127_serial_partial (s : FileUse.St) (hi : ∀ t, s.pc t = .idle) (ho : FileUse.Owns s) (es : List FileUse.Ev) (hs : FileUse.Serial s es) :
    ∃ s', FileUse.run s es = some s' ∧ ((∀ t, s'.pc t = .idle) → FileUse.Owns s') := by
  have key : ∀ (es : List FileUse.Ev) (s : FileUse.St) (t : Nat), FileUse.Serial s es → FileUse.Only s t →
      ∃ s' t', FileUse.run s es = some s' ∧ FileUse.Only s' t' := by
    intro es
    induction es with
    | nil => intro s t _ h; exact ⟨s, t, rfl, h⟩
    | cons e es ih =>
      intro s t hs h
      have hidle : (∀ u, s.pc u = .idle) → ∀ u, FileUse.Only s u := by
        intro ha u
        refine ⟨fun v _ => ha v, ?_⟩
        have := h.fits
        rw [ha t] at this
        rw [ha u]; exact this
      have : ∃ s' t', FileUse.step s e = some s' ∧ FileUse.Only s' t' := by
        cases e with
        | run u b =>
          obtain ⟨s', e, h'⟩ := h.stepT u b
          exact ⟨s', t, e, h'⟩
        | enter u x =>
          refine ⟨_, u, rfl, ?_⟩
          have h' := hidle hs.1 u
          have hf := h'.fits
          rw [hs.1 u] at hf
          split
          · exact h'.go (s' := { s with lock := some u }) (p := .outQ x) rfl hf
          · exact h'
        | flush u =>
          refine ⟨_, u, rfl, ?_⟩
          have h' := hidle hs.1 u
          have hf := h'.fits
          rw [hs.1 u] at hf
          split
          · exact h'.go rfl hf
          · exact h'
        | stop u =>
          refine ⟨_, u, rfl, ?_⟩
          have h' := hidle hs.1 u
          have hf := h'.fits
          rw [hs.1 u] at hf
          split
          · exact h'.go rfl hf
          · exact h'
      obtain ⟨s1, t1, e1, h1⟩ := this
      obtain ⟨s2, t2, e2, h2⟩ := ih s1 t1 (hs.2 s1 e1) h1
      exact ⟨s2, t2, by simp only [FileUse.run, e1, Option.bind_some]; exact e2, h2⟩
  obtain ⟨s', t', e, h⟩ := key es s 0 hs ⟨fun u _ => hi u, by rw [hi 0]; exact ho⟩
  refine ⟨s', e, fun ha => ?_⟩
  have := h.fits
  rw [ha t'] at this
  exact this

namespace FileUse

/-- A step ends the call of the thread or keeps the lock. -/
theorem stepT_lock {s s' : St} {t : Nat} {b : Bool} (e : FileUse.stepT s t b = some s') : s'.pc t = .idle ∨ s'.lock = s.lock := by
  have cl : ∀ {s1}, s.fclose = some s1 → s1.lock = s.lock := by
    intro s1 h
    unfold St.fclose at h
    cases hs : s.stream with
    | none => rw [hs] at h; simp at h
    | some g => rw [hs] at h; simp only [Option.map_some, Option.some.injEq] at h; subst h; rfl
  have aft : ∀ (s1 : St) (x : List Char) (k : After), s1.lock = s.lock → (s1.after t x k).pc t = .idle ∨ (s1.after t x k).lock = s.lock := by
    intro s1 x k h
    cases k
    · exact .inr h
    · exact .inl (leave_self _ _)
    · exact .inr h
  unfold FileUse.stepT at e
  cases hp : s.pc t <;> rw [hp] at e <;> dsimp only at e
  case cTest x k =>
    split at e
    · cases e; exact aft s x k rfl
    · cases e; exact .inr rfl
  case cNull x k => cases e; exact aft _ x k rfl
  case cClose x k =>
    cases hc : s.fclose with
    | none => rw [hc] at e; simp at e
    | some s1 => rw [hc] at e; cases e; exact .inr (show s1.lock = s.lock from cl hc)
  case oClose x =>
    cases hc : s.fclose with
    | none => rw [hc] at e; simp at e
    | some s1 => rw [hc] at e; cases e; exact .inr (show s1.lock = s.lock from cl hc)
  case oFail x =>
    cases hc : s.fclose with
    | none => rw [hc] at e; simp at e
    | some s1 => rw [hc] at e; cases e; exact .inr (show s1.lock = s.lock from cl hc)
  case oOpen x => cases e; cases b <;> exact .inr rfl
  case cSync x k =>
    split at e
    · cases e; exact .inr rfl
    · cases hg : s.stream with
      | none => rw [hg] at e; simp at e
      | some g => rw [hg] at e; cases e; exact .inr rfl
  case oStat x =>
    cases hg : s.stream with
    | none => rw [hg] at e; simp at e
    | some g => rw [hg] at e; cases e; exact .inr rfl
  case fFlush =>
    split at e
    · cases e; exact .inr rfl
    · cases hg : s.stream with
      | none => rw [hg] at e; simp at e
      | some g => rw [hg] at e; cases e; exact .inr rfl
  case wWrite x =>
    cases hg : s.stream with
    | none => rw [hg] at e; simp at e
    | some g =>
      rw [hg] at e
      cases b
      · cases e; exact .inr rfl
      · cases e; exact .inl (leave_self _ _)
  case idle => cases e; exact .inr rfl
  all_goals
    cases e
    first
      | exact .inr rfl
      | (split
         · exact .inl (leave_self _ _)
         · exact .inr rfl)

end FileUse

/-- The lock of the channel is enough for the outputs: any number of threads output records, in any interleaving, with every rotation, short write and
failure of `fopen` and `fstat`; without flushes and StopLogger no closed or null stream is used, and when nobody is inside the device has exactly the
stream it knows of. -/
theorem C127_locked_partial (s : FileUse.St) (hi : ∀ t, s.pc t = .idle) (ho : FileUse.Owns s) (es : List FileUse.Ev)
    (hs : ∀ e ∈ es, (∀ t, e ≠ .flush t) ∧ ∀ t, e ≠ .stop t) :
    ∃ s', FileUse.run s es = some s' ∧ ((∀ t, s'.pc t = .idle) → FileUse.Owns s') := by
  have key : ∀ (es : List FileUse.Ev) (s : FileUse.St) (t : Nat), (∀ e ∈ es, (∀ t, e ≠ .flush t) ∧ ∀ t, e ≠ .stop t) → FileUse.Only s t →
      (s.pc t ≠ .idle → s.lock = some t) → ∃ s' t', FileUse.run s es = some s' ∧ FileUse.Only s' t' := by
    intro es
    induction es with
    | nil => intro s t _ h _; exact ⟨s, t, rfl, h⟩
    | cons e es ih =>
      intro s t hs h hk
      have : ∃ s' t', FileUse.step s e = some s' ∧ FileUse.Only s' t' ∧ (s'.pc t' ≠ .idle → s'.lock = some t') := by
        cases e with
        | run u b =>
          obtain ⟨s', e, h'⟩ := h.stepT u b
          refine ⟨s', t, e, h', fun hn => ?_⟩
          by_cases hu : u = t
          · subst hu
            rcases FileUse.stepT_lock e with h1 | h1
            · exact absurd h1 hn
            · rw [h1]
              refine hk fun hid => ?_
              unfold FileUse.stepT at e
              rw [hid] at e
              cases e
              exact hn hid
          · have : s' = s := by
              unfold FileUse.stepT at e
              rw [h.others u hu] at e
              cases e; rfl
            subst this
            exact hk hn
        | enter u x =>
          by_cases hc : s.pc u = .idle ∧ s.lock = none
          · have hid : ∀ v, s.pc v = .idle := by
              intro v
              by_cases hv : v = t
              · subst hv
                refine Classical.byContradiction fun hn => ?_
                have := hk hn
                rw [hc.2] at this
                exact absurd this (by simp)
              · exact h.others v hv
            have hf := h.fits
            rw [hid t] at hf
            have h' : FileUse.Only s u := ⟨fun v _ => hid v, by rw [hid u]; exact hf⟩
            refine ⟨_, u, rfl, ?_, ?_⟩
            · rw [if_pos hc]
              exact h'.go (s' := { s with lock := some u }) (p := .outQ x) rfl hf
            · rw [if_pos hc]; exact fun _ => rfl
          · exact ⟨_, t, rfl, by rw [if_neg hc]; exact h, by rw [if_neg hc]; exact hk⟩
        | flush u => exact absurd rfl ((hs _ List.mem_cons_self).1 u)
        | stop u => exact absurd rfl ((hs _ List.mem_cons_self).2 u)
      obtain ⟨s1, t1, e1, h1, k1⟩ := this
      obtain ⟨s2, t2, e2, h2⟩ := ih s1 t1 (fun e he => hs e (List.mem_cons_of_mem _ he)) h1 k1
      exact ⟨s2, t2, by simp only [FileUse.run, e1, Option.bind_some]; exact e2, h2⟩
  obtain ⟨s', t', e, h⟩ := key es s 0 hs ⟨fun u _ => hi u, by rw [hi 0]; exact ho⟩ (fun hn => absurd (hi 0) hn)
  refine ⟨s', e, fun ha => ?_⟩
  have := h.fits
  rw [ha t'] at this
  exact this

/-! ## Any number of threads, no file closed -/

namespace FileUse

/-- The file is not rotated, `fwrite` writes all, `fstat` succeeds, StopLogger is not called. -/
def Unclosed : St → List Ev → Prop
  | _, [] => True
  | s, e :: es => (match e with
      | .run t b => (∀ x, s.pc t = .rotate x → b = false) ∧ (∀ x, s.pc t = .wWrite x → b = true) ∧ (∀ x, s.pc t = .oStat x → b = true)
      | .stop _ => False
      | _ => True) ∧ ∀ s', step s e = some s' → Unclosed s' es

/-- The places reached then, and what is true there. -/
def Holds (s : St) : PC → Prop
  | .closeQ _ | .cTest _ _ | .cSync _ _ | .cClose _ _ | .cNull _ _ | .oClose _ | .oNull _ | .oFail _ | .oFailNull _ | .sQ => False
  | .name _ | .oTest _ | .oOpen _ => s.file = none
  | .oStat _ | .wTest _ | .wWrite _ | .fFlush => s.file ≠ none
  | _ => True

/-- Under the lock. -/
def Inside : PC → Prop
  | .idle | .fTest | .fFlush | .sQ => False
  | _ => True

structure Calm (s : St) : Prop where
  owns : Owns s
  inside : ∀ u, Inside (s.pc u) → s.lock = some u
  holds : ∀ u, Holds s (s.pc u)

/-- The thread that has the lock goes on, `file_` as it was. -/
theorem Calm.go {s s' : St} (h : Calm s) (t : Nat) {p : PC} (hp : s'.pc = s.pc) (hf : s'.file = s.file) (hl : s'.live = s.live)
    (hk : s'.lock = s.lock) (hi : Inside p → s.lock = some t) (hh : Holds s p) : Calm (s'.go t p) := by
  have same : ∀ q, Holds s q → Holds (s'.go t p) q := by
    intro q hq
    cases q <;> first | exact hq | (show s'.file = none; rw [hf]; exact hq) | (show s'.file ≠ none; rw [hf]; exact hq)
  refine ⟨by show s'.live = _; rw [hl, go_file, hf]; exact h.owns, fun u hu => ?_, fun u => ?_⟩
  · rw [go_pc] at hu
    split at hu
    · rename_i e; subst e; rw [go_lock, hk]; exact hi hu
    · rw [go_lock, hk]; rw [hp] at hu; exact h.inside u hu
  · rw [go_pc]
    split
    · exact same _ hh
    · rw [hp]; exact same _ (h.holds u)

theorem Calm.leave {s s' : St} (h : Calm s) (t : Nat) (hp : s'.pc = s.pc) (hf : s'.file = s.file) (hl : s'.live = s.live)
    (hk : s.lock = some t) : Calm (s'.leave t) := by
  have same : ∀ q, Holds s q → Holds (s'.leave t) q := by
    intro q hq
    cases q <;> first | exact hq | (show s'.file = none; rw [hf]; exact hq) | (show s'.file ≠ none; rw [hf]; exact hq)
  refine ⟨by show s'.live = _; rw [hl, leave_file, hf]; exact h.owns, fun u hu => ?_, fun u => ?_⟩
  · rw [leave_pc] at hu
    split at hu
    · exact absurd hu id
    · rename_i e
      rw [hp] at hu
      have := h.inside u hu
      rw [hk] at this
      exact absurd (Option.some.inj this).symm e
  · rw [leave_pc]
    split
    · trivial
    · rw [hp]; exact same _ (h.holds u)

theorem Calm.stepT {s : St} (h : Calm s) (t : Nat) (b : Bool)
    (hb : (∀ x, s.pc t = .rotate x → b = false) ∧ (∀ x, s.pc t = .wWrite x → b = true) ∧ (∀ x, s.pc t = .oStat x → b = true)) :
    ∃ s', stepT s t b = some s' ∧ Calm s' := by
  have hh := h.holds t
  have hi := h.inside t
  have str : s.file ≠ none → ∃ g, s.stream = some g := by
    intro hn
    cases hg : s.file with
    | none => exact absurd hg hn
    | some g => exact ⟨g, h.owns.stream hg⟩
  unfold FileUse.stepT
  cases hp : s.pc t <;> rw [hp] at hh hi hb <;> dsimp only
  case idle => exact ⟨s, rfl, h⟩
  case outQ x =>
    refine ⟨_, rfl, ?_⟩
    split
    · exact h.leave t rfl rfl rfl (hi trivial)
    · exact h.go t rfl rfl rfl rfl (fun _ => hi trivial) trivial
  case rotate x =>
    rw [hb.1 x rfl]
    exact ⟨_, rfl, h.go t rfl rfl rfl rfl (fun _ => hi trivial) trivial⟩
  case openQ x =>
    refine ⟨_, rfl, h.go t rfl rfl rfl rfl (fun _ => hi trivial) ?_⟩
    split
    · rename_i hn; exact hn
    · trivial
  case name x =>
    refine ⟨_, rfl, h.go t rfl rfl rfl rfl (fun _ => hi trivial) ?_⟩
    split
    · trivial
    · exact hh
  case oTest x =>
    have hn : s.file = none := hh
    rw [if_pos hn]
    exact ⟨_, rfl, h.go t rfl rfl rfl rfl (fun _ => hi trivial) hh⟩
  case oOpen x =>
    have hn : s.file = none := hh
    have hl : s.live = [] := by have := h.owns; unfold Owns at this; rw [this, hn]; rfl
    refine ⟨_, rfl, ?_⟩
    cases b
    · exact h.go t rfl (by simp [St.fopen, hn]) rfl rfl (fun _ => hi trivial) trivial
    · refine ⟨by simp [Owns, St.fopen, hl], fun u hu => ?_, fun u => ?_⟩
      · rw [go_pc] at hu
        split at hu
        · rename_i e; subst e; exact hi trivial
        · exact h.inside u hu
      · rw [go_pc]
        split
        · trivial
        · rename_i hne
          have hu := h.holds u
          have hin : ¬ Inside (s.pc u) := fun e => by
            have := h.inside u e
            rw [hi trivial] at this
            exact hne (Option.some.inj this).symm
          revert hu hin
          show Holds s (s.pc u) → ¬ Inside (s.pc u) → Holds _ (s.pc u)
          cases s.pc u <;> simp [Holds, Inside, St.fopen]
  case oTest2 x =>
    refine ⟨_, rfl, h.go t rfl rfl rfl rfl (fun _ => hi trivial) ?_⟩
    split
    · trivial
    · rename_i hn; exact hn
  case oStat x =>
    obtain ⟨g, hg⟩ := str hh
    rw [hg, hb.2.2 x rfl]
    exact ⟨_, rfl, h.go t rfl rfl rfl rfl (fun _ => hi trivial) trivial⟩
  case wQ x =>
    refine ⟨_, rfl, ?_⟩
    split
    · exact h.leave t rfl rfl rfl (hi trivial)
    · rename_i hn; exact h.go t rfl rfl rfl rfl (fun _ => hi trivial) hn
  case wTest x =>
    refine ⟨_, rfl, ?_⟩
    split
    · exact h.leave t rfl rfl rfl (hi trivial)
    · exact h.go t rfl rfl rfl rfl (fun _ => hi trivial) hh
  case wWrite x =>
    obtain ⟨g, hg⟩ := str hh
    rw [hg, hb.2.1 x rfl]
    exact ⟨_, rfl, h.leave t rfl rfl rfl (hi trivial)⟩
  case fTest =>
    refine ⟨_, rfl, h.go t rfl rfl rfl rfl ?_ ?_⟩
    · split <;> exact fun e => absurd e id
    · split
      · trivial
      · rename_i hn; exact hn
  case fFlush =>
    obtain ⟨g, hg⟩ := str hh
    rw [if_neg hh, hg]
    exact ⟨_, rfl, h.go t rfl rfl rfl rfl (fun e => absurd e id) trivial⟩
  all_goals exact absurd hh id

end FileUse

/-- Any number of threads output records and flush, in any order, while the file is not closed (not rotated, no short write, no StopLogger): no closed or
null stream is used, and there is one stream.  Missing: with a rotation, or with StopLogger, on a sync channel it is false (the counterexamples). -/
theorem C127_steady_partial (es : List FileUse.Ev) (hs : FileUse.Unclosed FileUse.begin es) :
    ∃ s', FileUse.run FileUse.begin es = some s' ∧ FileUse.Owns s' := by
  have key : ∀ (es : List FileUse.Ev) (s : FileUse.St), FileUse.Unclosed s es → FileUse.Calm s →
      ∃ s', FileUse.run s es = some s' ∧ FileUse.Calm s' := by
    intro es
    induction es with
    | nil => intro s _ h; exact ⟨s, rfl, h⟩
    | cons e es ih =>
      intro s hs h
      have : ∃ s', FileUse.step s e = some s' ∧ FileUse.Calm s' := by
        cases e with
        | run u b => exact h.stepT u b hs.1
        | enter u x =>
          refine ⟨_, rfl, ?_⟩
          split
          · rename_i hi
            refine ⟨h.owns, fun v hv => ?_, fun v => ?_⟩
            · rw [go_pc] at hv
              split at hv
              · rename_i e; rw [e]; rfl
              · have := h.inside v hv
                rw [hi.2] at this
                exact absurd this (by simp)
            · rw [go_pc]
              split
              · trivial
              · have := h.holds v
                revert this
                show FileUse.Holds s (s.pc v) → FileUse.Holds _ (s.pc v)
                cases s.pc v <;> exact id
          · exact h
        | flush u =>
          refine ⟨_, rfl, ?_⟩
          split
          · exact h.go u rfl rfl rfl rfl (fun e => absurd e id) trivial
          · exact h
        | stop u => exact absurd hs.1 id
      obtain ⟨s1, e1, h1⟩ := this
      obtain ⟨s2, e2, h2⟩ := ih s1 (hs.2 s1 e1) h1
      exact ⟨s2, by simp only [FileUse.run, e1, Option.bind_some]; exact e2, h2⟩
  obtain ⟨s', e, h⟩ := key es FileUse.begin hs ⟨rfl, fun u hu => absurd hu id, fun u => trivial⟩
  exact ⟨s', e, h.owns⟩

/-! ## Counterexamples -/

/-- Thread 1 opens the file and is about to call `fwrite`. -/
def FileUse.writing : List FileUse.Ev :=
  .enter 1 "a".toList :: [false, false, false, false, false, true, true, true, true, true].map (.run 1)

/-- Sync channel: StopLogger closes the file while a statement is about to write: `fwrite` on a closed stream. -/
theorem C127_write_counterexample :
    (FileUse.run FileUse.begin (FileUse.writing ++ [.stop 2] ++ List.replicate 4 (.run 2 true))).isSome = true ∧
    FileUse.run FileUse.begin (FileUse.writing ++ [.stop 2] ++ List.replicate 4 (.run 2 true) ++ [.run 1 true]) = none := by
  constructor <;> rfl

/-- Or `fwrite` on a null pointer, if StopLogger gets one step further. -/
theorem C127_null_counterexample :
    (FileUse.run FileUse.begin (FileUse.writing ++ [.stop 2] ++ List.replicate 5 (.run 2 true))).map (·.file) = some none ∧
    FileUse.run FileUse.begin (FileUse.writing ++ [.stop 2] ++ List.replicate 5 (.run 2 true) ++ [.run 1 true]) = none := by
  constructor <;> rfl

/-- Sync channel: a statement rotates the file while StopLogger closes it: `fclose` twice. -/
theorem C127_twice_counterexample :
    (FileUse.run FileUse.begin (FileUse.writing ++ [.run 1 true, .enter 1 "b".toList] ++ List.replicate 5 (.run 1 true) ++ [.stop 2] ++
      List.replicate 4 (.run 2 true))).map (fun s => (s.pc 1, s.live)) = some (.cClose "b".toList .reopen, []) ∧
    FileUse.run FileUse.begin (FileUse.writing ++ [.run 1 true, .enter 1 "b".toList] ++ List.replicate 5 (.run 1 true) ++ [.stop 2] ++
      List.replicate 4 (.run 2 true) ++ [.run 1 true]) = none := by
  constructor <;> rfl

/-- Sync channel, without StopLogger: thread 2 flushes the stream that thread 1 has closed to rotate the file. -/
theorem C127_flush_counterexample :
    (FileUse.run FileUse.begin (FileUse.writing ++ [.run 1 true, .flush 2, .run 2 true, .enter 1 "b".toList] ++
      List.replicate 6 (.run 1 true))).map (fun s => (s.pc 2, s.live)) = some (.fFlush, []) ∧
    FileUse.run FileUse.begin (FileUse.writing ++ [.run 1 true, .flush 2, .run 2 true, .enter 1 "b".toList] ++
      List.replicate 6 (.run 1 true) ++ [.run 2 true]) = none := by
  constructor <;> rfl

/-! ## Cases -/

/-- A record, a record for which the file is rotated, a flush, StopLogger: the hypotheses of `C127_serial_partial` are met, each text is in its own file and
nothing stays open. -/
theorem C127_case_serial : let es := FileUse.writing ++ [.run 1 true, .enter 3 "b".toList] ++
      [false, true, true, true, true, true, true, true, false, true, true, true, true, true, true, true].map (.run 3) ++
      [.flush 1, .run 1 true, .run 1 true, .stop 2] ++ List.replicate 5 (.run 2 true)
    FileUse.Serial FileUse.begin es ∧
    (FileUse.run FileUse.begin es).map (fun s => (s.written, s.live, s.file)) = some ([(1, "a".toList), (2, "b".toList)], [], none) := by
  refine ⟨?_, rfl⟩
  simp only [FileUse.writing, List.map, List.replicate, List.cons_append, List.nil_append]
  repeat' (first
    | exact True.intro
    | (refine ⟨True.intro, fun s' h => ?_⟩; cases h)
    | (refine ⟨fun u => ?_, fun s' h => ?_⟩; · match u with | 0 => rfl | 1 => rfl | 2 => rfl | 3 => rfl | _ + 4 => rfl
       cases h))

/-- Threads 1 and 2 output, thread 3 flushes between their steps: the hypothesis of `C127_steady_partial` is met. -/
theorem C127_case_steady : let es := FileUse.writing ++ [.flush 3, .enter 2 "b".toList, .run 3 true, .run 1 true, .enter 2 "b".toList, .run 2 true, .run 3 true] ++
      [false, true, true, true, true].map (.run 2)
    FileUse.Unclosed FileUse.begin es ∧
    (FileUse.run FileUse.begin es).map (fun s => (s.written, s.live, s.file)) = some ([(1, "a".toList), (1, "b".toList)], [1], some 1) := by
  refine ⟨?_, rfl⟩
  simp only [FileUse.writing, List.map, List.cons_append, List.nil_append]
  repeat' (first
    | exact True.intro
    | (refine ⟨True.intro, fun s' h => ?_⟩; cases h)
    | (refine ⟨⟨fun x e => ?_, fun x e => ?_, fun x e => ?_⟩, fun s' h => ?_⟩
       · first | rfl | exact FileUse.PC.noConfusion e
       · first | rfl | exact FileUse.PC.noConfusion e
       · first | rfl | exact FileUse.PC.noConfusion e
       cases h))

end FNLog
