import Verif.Proof.Sessions
import Verif.Proof.KernelRfl

/-! # C111: stop and start again, as often as one likes -/

namespace FNLog
open Spec Ring

/-- **C111**: a logger that is stopped and started again, any number of times, by orderly sessions.  No step is undefined; each
session leaves in the files what the file devices write for the records of this session, one after the other, beginning with
what the session found, and nothing else; the screen shows them; the files are closed; and the next session starts as the first one did, whatever the
sessions before have left in the slots, the statistics and the date caches. -/
theorem C111_sessions {S : Setup} (hS : Ready S) (hap : FilesApart S.fenv S.channel.id S.channel.devices) {o : OutSt}
    (ho : ∀ (j : Nat) (d : Device), S.channel.devices[j]? = some d → d.outType = .file → (o.dev j).handle = none)
    (xs : List Session) (hx : OrderlyAll S xs (fCrew S o)) :
    ∃ hist f', playAll S xs (fCrew S o) = some f' ∧ Went S xs (fCrew S o) hist f' := by
  obtain ⟨hist, f', h1, h2, _⟩ := sessions hS hap xs (rested_fresh ho) hx
  exact ⟨hist, f', h1, h2⟩

/-! ## One file -/

theorem fAct_made {S : Setup} {B : Stdio} {f f' : FCrew} {e : Act} (h : fAct S B f e = some f') :
    ∀ m ∈ f'.crew.made, m ∈ f.crew.made ∨ e = .log m.1 m.2.1 m.2.2 := by
  cases e with
  | started | closing | stop | dates => obtain rfl := Option.some.inj h; exact fun _ hm => Or.inl hm
  | log t a ops =>
    simp only [fAct, FNLog.act, beginLog] at h
    split at h
    · split at h
      · simp only [Option.bind_eq_bind] at h
        cases hfm : formed S a ops (f.crew.caches t) with
        | none => rw [hfm] at h; cases h
        | some y =>
          rw [hfm] at h
          simp only [Option.bind_some, Option.map_some] at h
          obtain rfl := Option.some.inj h
          intro m hm
          rcases List.mem_append.mp hm with hm | hm
          · exact Or.inl hm
          · rw [List.mem_singleton.mp hm]; exact Or.inr rfl
      · obtain rfl := Option.some.inj h; exact fun _ hm => Or.inl hm
    · obtain rfl := Option.some.inj h; exact fun _ hm => Or.inl hm
  | run t =>
    have : f'.crew.made = f.crew.made := by
      have hmv : (runThread S t f.crew).map (f.moved B t) = some f' → f'.crew.made = f.crew.made := by
        intro hx
        rw [Option.map_eq_some_iff] at hx
        obtain ⟨c, hc, rfl⟩ := hx
        exact run_made (S := S) (t := t) hc
      simp only [fAct, fRunThread] at h
      split at h
      · obtain rfl := Option.some.inj h
        unfold flushLook
        (repeat' split) <;> rfl
      · unfold flushCall at h
        split at h
        · cases h
        · obtain rfl := Option.some.inj h; rfl
      · unfold bufRunThread at h
        split at h
        · split at h
          · simp only [bufDispatchNext, Option.bind_eq_bind, Option.bind_eq_some_iff] at h
            obtain ⟨y, _, r, _, f1, h1, h⟩ := h
            obtain rfl := Option.some.inj h
            show f1.crew.made = _
            unfold enterBufIf enterBuf at h1
            split at h1
            · split at h1
              · rw [Option.map_eq_some_iff] at h1
                obtain ⟨b, _, rfl⟩ := h1
                rfl
              · rw [Option.map_eq_some_iff] at h1
                obtain ⟨b, _, rfl⟩ := h1
                rfl
            · obtain rfl := Option.some.inj h1; rfl
          · exact hmv h
        · exact hmv h
    rw [this]
    exact fun _ hm => Or.inl hm

theorem fActs_made {S : Setup} {B : Stdio} : ∀ {es : List Act} {f f' : FCrew}, fActs S B es f = some f' →
    ∀ m ∈ f'.crew.made, m ∈ f.crew.made ∨ .log m.1 m.2.1 m.2.2 ∈ es := by
  intro es
  induction es with
  | nil => intro f f' h; obtain rfl := Option.some.inj h; exact fun _ hm => Or.inl hm
  | cons e es ih =>
    intro f f' h m hm
    simp only [fActs, Option.bind_eq_bind, Option.bind_eq_some_iff] at h
    obtain ⟨f1, h1, h⟩ := h
    rcases ih h m hm with hm | hm
    · rcases fAct_made h1 m hm with hm | e
      · exact Or.inl hm
      · exact Or.inr (by rw [e]; exact List.mem_cons_self ..)
    · exact Or.inr (List.mem_cons_of_mem _ hm)

theorem logged_from {S : Setup} {prog : List (Call × List StreamOp)} {recs : List (Head × List Char)}
    (h : Logged S prog recs) : ∀ r ∈ recs, r.2 ≠ [] ∧ ∃ x ∈ prog, r.1.ts = x.1.ts ∧ r.1.priority = x.1.priority := by
  induction h with
  | nil => intro r hr; exact absurd hr (by simp)
  | refused _ _ ih =>
    intro r hr
    obtain ⟨h1, x, hx, e⟩ := ih r hr
    exact ⟨h1, x, List.mem_cons_of_mem _ hx, e⟩
  | @admitted a ops file t rest recs _ _ _ _ ih =>
    intro r hr
    rcases List.mem_cons.mp hr with rfl | hr
    · exact ⟨by simp [lineOf], (a, ops), List.mem_cons_self, rfl, rfl⟩
    · obtain ⟨h1, x, hx, e⟩ := ih r hr
      exact ⟨h1, x, List.mem_cons_of_mem _ hx, e⟩

theorem inOrder_from {S : Setup} {made : List (Nat × Call × List StreamOp)} {recs : List (Head × List Char)}
    (h : InOrder S made recs) : ∀ r ∈ recs, r.2 ≠ [] ∧ ∃ x ∈ made, r.1.ts = x.2.1.ts ∧ r.1.priority = x.2.1.priority := by
  intro r hr
  unfold InOrder at h
  split at h
  · obtain ⟨own, rfl, h⟩ := h
    obtain ⟨y, hy, rfl⟩ := List.mem_map.mp hr
    obtain ⟨g1, x, hx, e⟩ := logged_from (h y.1) y.2 (List.mem_map.mpr ⟨y, List.mem_filter.mpr ⟨hy, by simp⟩, rfl⟩)
    obtain ⟨z, hz, rfl⟩ := List.mem_map.mp hx
    exact ⟨g1, z, (List.mem_filter.mp hz).1, e⟩
  · obtain ⟨g1, x, hx, e⟩ := logged_from h r hr
    obtain ⟨z, hz, rfl⟩ := List.mem_map.mp hx
    exact ⟨g1, z, hz, e⟩

/-- A file that could be opened does not keep the time of a failure. -/
theorem runs_lastTry {E : FileEnv} {ch : Int} {d : Device} {F : List Char} (hlen : F.length < 250)
    (hF : ∀ ts, fullPath E.proc (E.tm ts) E.fuel d ch = some F) {s t : FileSt} {logs taken : List FileLog}
    (h : Runs E ch d s logs taken t) (hl : ∀ log ∈ logs, log.opens = true ∧ 0 ≤ log.priority ∧ log.priority < 8) :
    t.logs DEVICE_LOG_LAST_TRY_CREATE_TIMESTAMP = s.logs DEVICE_LOG_LAST_TRY_CREATE_TIMESTAMP ∨
      t.logs DEVICE_LOG_LAST_TRY_CREATE_TIMESTAMP = 0 := by
  have one : ∀ {s s' : FileSt} {log : FileLog}, fileDevice E ch d log s = some s' →
      (log.opens = true ∧ 0 ≤ log.priority ∧ log.priority < 8) →
      s'.logs DEVICE_LOG_LAST_TRY_CREATE_TIMESTAMP = s.logs DEVICE_LOG_LAST_TRY_CREATE_TIMESTAMP ∨
      s'.logs DEVICE_LOG_LAST_TRY_CREATE_TIMESTAMP = 0 := by
    intro s s' log h hv
    cases fileDevice_cases h with
    | skipped => exact Or.inl rfl
    | stays path l hh hs hl =>
      rw [accountFile_eq hv.2] at hl
      obtain rfl := Option.some.inj hl
      exact Or.inl (accounted_other (by decide) (by decide))
    | long path ht hf hle =>
      rw [hF] at hf
      obtain rfl := Option.some.inj hf
      omega
    | refused path ht hf hle hop => rw [hv.1] at hop; cases hop
    | opens path s1 l ht hf hle hop hs1 hl =>
      rw [accountFile_eq hv.2] at hl
      obtain rfl := Option.some.inj hl
      obtain ⟨_, _, _, _, _, _, _, _, q, _⟩ := openFile_fs hop hs1
      exact Or.inr ((accounted_other (by decide) (by decide)).trans q)
  induction h with
  | nil => exact Or.inl rfl
  | taken h1 _ _ ih | dropped h1 _ _ ih =>
    rcases ih fun x hx => hl x (List.mem_cons_of_mem _ hx) with e | e
    · rcases one h1 (hl _ (List.mem_cons_self ..)) with e' | e'
      · exact Or.inl (e.trans e')
      · exact Or.inr (e.trans e')
    · exact Or.inr e

/-- **C111** for a device that writes one file: after all sessions the file holds what it held before, and then the lines of the
sessions, each line once, in the order of the sessions and within a session in the order of `Went`. -/
theorem C111_contents {S : Setup} {xs : List Session} {f f' : FCrew} {hist : List (List (Head × List Char))}
    (hx : OrderlyAll S xs f) (hw : Went S xs f hist f') {j : Nat} {d : Device} (hd : S.channel.devices[j]? = some d)
    (hout : d.outType = .file) (hh : (f.crew.out.dev j).handle = none)
    (h1 : d.cfg.rollback ≤ 0) (h2 : d.cfg.limitSize ≤ 0) (h3 : d.cfg.rolldaily = 0) (h4 : d.cfg.rollhourly = 0)
    {F : List Char} (hlen : F.length < 250)
    (hF : ∀ ts, fullPath S.fenv.proc (S.fenv.tm ts) S.fenv.fuel d S.channel.id = some F)
    (hos : ∀ x ∈ xs, ∀ n, (x.os n j).opens = true ∧ (x.os n j).short = none)
    (hts : ∀ x ∈ xs, ∀ t a ops, .log t a ops ∈ x.log →
      5 ≤ a.ts ∧ (f.crew.out.dev j).logs DEVICE_LOG_LAST_TRY_CREATE_TIMESTAMP + 5 ≤ a.ts) :
    (bytesOf f'.crew.out.fs F).getD [] = (bytesOf f.crew.out.fs F).getD [] ++ (hist.flatMap (linesFor d)).flatten := by
  induction hw with
  | nil f => simp
  | @cons x xs f f1 f2 f' recs hist hlog hplay hord hkept hrest ih =>
    obtain ⟨ho, hx⟩ := hx
    have hx := hx f2 hplay
    have hfrom : ∀ r ∈ recs, r.2 ≠ [] ∧ 5 ≤ r.1.ts ∧ (f.crew.out.dev j).logs DEVICE_LOG_LAST_TRY_CREATE_TIMESTAMP + 5 ≤ r.1.ts ∧
        0 ≤ r.1.priority ∧ r.1.priority < 8 := by
      intro r hr
      obtain ⟨g1, m, hm, e1, e2⟩ := inOrder_from hord r hr
      rcases fActs_made hlog m hm with hm | hm
      · exact absurd hm (by simp [fStart])
      · obtain ⟨t1, t2⟩ := hts x (List.mem_cons_self ..) _ _ _ hm
        have hs : Sound (x.on S) m.2.1 m.2.2 := ho.sound _ (List.mem_append_left _ hm)
        obtain ⟨file, hfit⟩ := hs.fits
        have hp : 0 ≤ m.2.1.priority ∧ m.2.1.priority ≤ 6 := hfit.args.priority
        rw [e1, e2]
        exact ⟨g1, t1, t2, hp.1, by omega⟩
    obtain ⟨taken, t, hrun, hbytes, hlogs, hhand⟩ := hkept.file j d hd hout
    have hos1 := hos x (List.mem_cons_self ..)
    obtain ⟨_, e2, _⟩ := simple_runs h1 h2 h3 h4 hlen hF hrun
      (by
        intro log hm
        obtain ⟨m, r, hr, rfl⟩ := handed_mem hm
        exact ⟨(hos1 m).1, (hos1 m).2, (hfrom r hr).1⟩)
      (Or.inr ⟨hh, by
        intro log hm
        obtain ⟨m, r, hr, rfl⟩ := handed_mem hm
        exact (hfrom r hr).2.2.1⟩)
    have hlast := runs_lastTry hlen hF hrun (by
        intro log hm
        obtain ⟨m, r, hr, rfl⟩ := handed_mem hm
        exact ⟨(hos1 m).1, (hfrom r hr).2.2.2⟩)
    rw [handed_lines] at e2
    have key : ∀ (fs : Fs), (bytesOf fs F).getD [] = ((fs F).getD []).flatten := by
      intro fs
      unfold bytesOf
      cases fs F <;> rfl
    have hmem : FilesOf S.fenv S.channel.id d F := ⟨0, F, 0, hF 0, rfl⟩
    have := ih hx hhand (fun y hy => hos y (List.mem_cons_of_mem _ hy)) (by
      intro y hy t' a ops ha
      obtain ⟨t1, t2⟩ := hts y (List.mem_cons_of_mem _ hy) t' a ops ha
      refine ⟨t1, ?_⟩
      rw [hlogs]
      rcases hlast with e | e
      · rw [e]; exact t2
      · rw [e]; simpa using t1)
    rw [this, hbytes F hmem, key, key, e2, List.flatten_append, List.flatMap_cons, List.flatten_append, List.append_assoc]
    rfl

/-! ## Sessions that are orderly -/

def isIdle {α : Type} : PC α → Bool
  | .idle => true
  | _ => false

def isDone {α : Type} : PC α → Bool
  | .done => true
  | _ => false

/-- What is to be computed for an async session with the threads `us`. -/
def asyncOrderly (S : Setup) (x : Session) (us : List Nat) (f : FCrew) : Bool :=
  fOnTimeB S x.stdio (x.log ++ .closing :: .stop :: x.rest) f &&
  ((fActs S x.stdio x.log f).all fun f' => f'.crew.ring.state == .running && us.all fun t => isIdle (f'.crew.ring.pc t)) &&
  (fActs S x.stdio (x.log ++ .closing :: .stop :: x.rest) f).all fun f' => isDone (f'.crew.ring.pc worker)

theorem orderly_of {S : Setup} {x : Session} {us : List Nat} {f : FCrew} (hA : S.cfg.async = true) (hr : Rested S f)
    (hs : ∀ e ∈ x.log ++ x.rest, SoundAct (x.on S) e) (hn : ∀ e ∈ x.log, e.noStop)
    (hth : ∀ e ∈ x.log, ∀ t, e.thread = some t → t = worker ∨ t ∈ us)
    (hb : asyncOrderly (x.on S) x us (fStart S f) = true) : Orderly (x.on S) x (fStart S f) := by
  simp only [asyncOrderly, Bool.and_eq_true] at hb
  obtain ⟨⟨b1, b2⟩, b3⟩ := hb
  refine ⟨hs, hn, fun _ => ⟨fOnTime_of b1, fun f' hf' => ?_, fun f' hf' => ?_⟩, fun h => absurd (hA.symm.trans h) (by simp)⟩
  · rw [hf'] at b2
    simp only [Option.all_some, Bool.and_eq_true, List.all_eq_true, beq_iff_eq] at b2
    refine ⟨b2.1, fun t ht => ?_⟩
    by_cases hu : t ∈ us
    · have := b2.2 t hu
      revert this
      cases f'.crew.ring.pc t <;> simp [isIdle]
    · rw [fActs_pc_other hf' fun e he h => (hth e he t h).elim ht hu]
      show (if S.cfg.async = true ∧ t = worker then _ else _) = _
      rw [if_neg (fun h => ht h.2)]
      exact (hr.thread t fun h => ht h.2).1
  · rw [hf'] at b3
    simp only [Option.all_some] at b3
    revert b3
    cases f'.crew.ring.pc worker <;> simp [isDone]

/-- Two threads log, StopLogger, twice. -/
def demoSession : Session := ⟨demoAsyncSetup.os, demoStdio, demoAsyncRace, demoRuns 0 414⟩

theorem demoSession_acts : (∀ e ∈ demoSession.log ++ demoSession.rest, SoundAct (demoSession.on demoAsyncSetup) e) ∧
    (∀ e ∈ demoSession.log, e.noStop) ∧ ∀ e ∈ demoSession.log, ∀ t, e.thread = some t → t = worker ∨ t ∈ [1, 2] := by
  refine ⟨?_, ?_, ?_⟩
  · intro e he
    simp only [demoSession, demoAsyncRace, demoRuns, List.mem_append, List.mem_cons, List.not_mem_nil, or_false, List.mem_replicate] at he
    rcases he with (((((⟨_, rfl⟩ | rfl | rfl) | ⟨_, rfl⟩) | rfl) | ⟨_, rfl⟩) | ⟨_, rfl⟩) | ⟨_, rfl⟩
    all_goals first
      | trivial
      | exact demoCall_sound demoAsyncSetup rfl rfl rfl rfl rfl _ _
  · intro e he
    simp only [demoSession, demoAsyncRace, demoRuns, List.mem_append, List.mem_cons, List.not_mem_nil, or_false, List.mem_replicate] at he
    rcases he with ((((⟨_, rfl⟩ | rfl | rfl) | ⟨_, rfl⟩) | rfl) | ⟨_, rfl⟩) | ⟨_, rfl⟩ <;> trivial
  · intro e he t ht
    simp only [demoSession, demoAsyncRace, demoRuns, List.mem_append, List.mem_cons, List.not_mem_nil, or_false, List.mem_replicate] at he
    rcases he with ((((⟨_, rfl⟩ | rfl | rfl) | ⟨_, rfl⟩) | rfl) | ⟨_, rfl⟩) | ⟨_, rfl⟩ <;>
      simp only [Act.thread, demoLog, Option.some.injEq, reduceCtorEq] at ht <;> subst ht <;> simp [worker]

/-- The hypotheses of `C111_sessions`, and the file after two sessions. -/
example : Ready demoAsyncSetup ∧ FilesApart demoAsyncSetup.fenv demoAsyncSetup.channel.id demoAsyncSetup.channel.devices ∧
    (∀ j, (demoOut.dev j).handle = none) ∧ OrderlyAll demoAsyncSetup [demoSession, demoSession] (fCrew demoAsyncSetup demoOut) ∧
    (playAll demoAsyncSetup [demoSession, demoSession] (fCrew demoAsyncSetup demoOut)).map
      (fun f => ((f.crew.out.dev 0).handle, bytesOf f.crew.out.fs "a.log".toList)) =
    some (none, some ("[20261116 11:33:20.417][ERROR][a.cpp:17](f) one\n[20261116 11:33:20.417][ERROR][a.cpp:17](f) two\n".toList ++
      "[20261116 11:33:20.417][ERROR][a.cpp:17](f) one\n[20261116 11:33:20.417][ERROR][a.cpp:17](f) two\n".toList)) := by
  have hR : Ready demoAsyncSetup := ⟨demo_ready.lib, demo_ready.zone, by decide, rfl, by decide,
    ⟨_, rfl, rfl⟩, fun h => absurd h (by decide), demo_ready.named⟩
  obtain ⟨d1, d2, d3⟩ := demoSession_acts
  have hr0 : Rested demoAsyncSetup (fCrew demoAsyncSetup demoOut) := rested_fresh fun _ _ _ _ => rfl
  have h1 : Orderly (demoSession.on demoAsyncSetup) demoSession (fStart demoAsyncSetup (fCrew demoAsyncSetup demoOut)) :=
    orderly_of rfl hr0 d1 d2 d3 (by kernel_rfl)
  refine ⟨hR, demo_apart, fun _ => rfl, ⟨h1, fun f' hf' => ⟨?_, fun _ _ => trivial⟩⟩, by kernel_rfl⟩
  obtain ⟨_, f2, p, _, hr⟩ := sessions hR demo_apart [demoSession] hr0 ⟨h1, fun _ _ => trivial⟩
  simp only [playAll, hf', Option.bind_eq_bind, Option.bind_some, Option.some.injEq] at p
  subst p
  refine orderly_of rfl hr d1 d2 d3 ?_
  have hb : (playSession demoAsyncSetup demoSession (fCrew demoAsyncSetup demoOut)).all
      (fun f' => asyncOrderly (demoSession.on demoAsyncSetup) demoSession [1, 2] (fStart demoAsyncSetup f')) = true := by kernel_rfl
  rw [hf'] at hb
  exact hb

theorem serial_alone {S : Setup} {B : Stdio} {t0 : Nat} : ∀ {es : List Act} {f : FCrew},
    (∀ e ∈ es, ∀ t, e.thread = some t → t = t0) → (∀ u, u ≠ t0 → f.crew.ring.pc u = .idle) → Serial S B es f := by
  intro es
  induction es with
  | nil => intro f _ _; trivial
  | cons e es ih =>
    intro f he hi
    have hth := he e (List.mem_cons_self ..)
    refine ⟨fun t ht u hu => hi u (by rw [hth t ht] at hu; exact hu), fun f' hf' => ih (fun x hx => he x (List.mem_cons_of_mem _ hx)) ?_⟩
    intro u hu
    rw [fAct_pc_other hf' (fun h => hu (hth u h))]
    exact hi u hu

/-- **C111**: on a sync channel that one thread uses, a session is orderly as soon as StopLogger is called between two statements. -/
theorem C111_one_thread {S : Setup} {x : Session} {t0 : Nat} {f : FCrew} (hA : S.cfg.async = false) (hr : Rested S f)
    (hs : ∀ e ∈ x.log ++ x.rest, SoundAct (x.on S) e) (hn : ∀ e ∈ x.log, e.noStop)
    (hth : ∀ e ∈ x.log, ∀ t, e.thread = some t → t = t0)
    (hi : ∀ f', fActs (x.on S) x.stdio x.log (fStart S f) = some f' → f'.crew.ring.pc t0 = .idle) :
    Orderly (x.on S) x (fStart S f) := by
  refine ⟨hs, hn, fun h => absurd (hA.symm.trans h) (by simp), fun _ => ⟨serial_alone hth fun u _ => ?_, fun f' hf' e he t ht => ?_⟩⟩
  · show (if S.cfg.async = true ∧ u = worker then _ else _) = _
    rw [if_neg (by rw [hA]; simp)]
    exact (hr.thread u (by rw [hA]; simp)).1
  · rw [hth e he t ht]
    exact hi f' hf'

/-- The hypotheses of `C111_contents` for the file `a.log` of `demoAsyncSetup`. -/
example : demoAsyncSetup.channel.devices[0]? = some (demoFile 0 'a' 1) ∧ (demoFile 0 'a' 1).outType = .file ∧
    (demoFile 0 'a' 1).cfg.rollback ≤ 0 ∧ (demoFile 0 'a' 1).cfg.limitSize ≤ 0 ∧ (demoFile 0 'a' 1).cfg.rolldaily = 0 ∧
    (demoFile 0 'a' 1).cfg.rollhourly = 0 ∧ (∀ n, (demoSession.os n 0).opens = true ∧ (demoSession.os n 0).short = none) ∧
    ∀ t a ops, .log t a ops ∈ demoSession.log →
      5 ≤ a.ts ∧ (demoOut.dev 0).logs DEVICE_LOG_LAST_TRY_CREATE_TIMESTAMP + 5 ≤ a.ts := by
  refine ⟨rfl, rfl, by decide, by decide, rfl, rfl, fun _ => ⟨rfl, rfl⟩, ?_⟩
  intro t a ops h
  simp only [demoSession, demoAsyncRace, demoRuns, demoLog, List.mem_append, List.mem_cons, List.not_mem_nil, or_false,
    List.mem_replicate, Act.log.injEq, reduceCtorEq, and_false, false_or] at h
  rcases h with ⟨_, rfl, _⟩ | ⟨_, rfl, _⟩ <;> decide

/-- One thread on a channel whose file is rotated. -/
def rollSession : Session := ⟨rollSetup.os, demoStdio, rollProgram, []⟩

/-- Two sessions on a sync channel: the hypotheses of `C111_sessions` and `C111_one_thread`; one backup is kept. -/
example : Ready rollSetup ∧ FilesApart rollSetup.fenv rollSetup.channel.id rollSetup.channel.devices ∧
    (∀ j, (demoOut.dev j).handle = none) ∧ OrderlyAll rollSetup [rollSession, rollSession] (fCrew rollSetup demoOut) ∧
    (playAll rollSetup [rollSession, rollSession] (fCrew rollSetup demoOut)).map
      (fun f => (bytesOf f.crew.out.fs "a.log".toList, bytesOf f.crew.out.fs "a.log.1".toList)) =
    some (some "[20261116 11:33:20.417][ERROR][a.cpp:17](f) two\n".toList,
      some "[20261116 11:33:20.417][ERROR][a.cpp:17](f) one\n".toList) := by
  have acts : (∀ e ∈ rollSession.log ++ rollSession.rest, SoundAct (rollSession.on rollSetup) e) ∧
      (∀ e ∈ rollSession.log, e.noStop) ∧ ∀ e ∈ rollSession.log, ∀ t, e.thread = some t → t = 1 := by
    refine ⟨?_, ?_, ?_⟩ <;> intro e he <;> simp only [rollSession, rollProgram, demoRuns, List.append_nil, List.mem_append, List.mem_cons,
      List.not_mem_nil, or_false, List.mem_replicate] at he <;> rcases he with (((rfl | rfl) | ⟨_, rfl⟩) | rfl) | ⟨_, rfl⟩
    all_goals first
      | trivial
      | exact rollCall_sound _ _
      | (intro t ht; cases ht; done)
      | (intro t ht; cases ht; rfl)
  obtain ⟨d1, d2, d3⟩ := acts
  have idle : ∀ {f : FCrew}, (fActs (rollSession.on rollSetup) rollSession.stdio rollSession.log (fStart rollSetup f)).all
      (fun f' => isIdle (f'.crew.ring.pc 1)) = true → ∀ f',
      fActs (rollSession.on rollSetup) rollSession.stdio rollSession.log (fStart rollSetup f) = some f' → f'.crew.ring.pc 1 = .idle := by
    intro f h f' hf'
    rw [hf'] at h
    simp only [Option.all_some] at h
    revert h
    cases f'.crew.ring.pc 1 <;> simp [isIdle]
  have hr0 : Rested rollSetup (fCrew rollSetup demoOut) := rested_fresh fun _ _ _ _ => rfl
  have h1 : Orderly (rollSession.on rollSetup) rollSession (fStart rollSetup (fCrew rollSetup demoOut)) :=
    C111_one_thread rfl hr0 d1 d2 d3 (idle (by kernel_rfl))
  refine ⟨roll_ready, roll_apart, fun _ => rfl, ⟨h1, fun f' hf' => ⟨?_, fun _ _ => trivial⟩⟩, by kernel_rfl⟩
  obtain ⟨_, f2, p, _, hr⟩ := sessions roll_ready roll_apart [rollSession] hr0 ⟨h1, fun _ _ => trivial⟩
  simp only [playAll, hf', Option.bind_eq_bind, Option.bind_some, Option.some.injEq] at p
  subst p
  refine C111_one_thread rfl hr d1 d2 d3 (idle ?_)
  have hb : (playSession rollSetup rollSession (fCrew rollSetup demoOut)).all (fun f' =>
      (fActs (rollSession.on rollSetup) rollSession.stdio rollSession.log (fStart rollSetup f')).all
        (fun f' => isIdle (f'.crew.ring.pc 1))) = true := by kernel_rfl
  rw [hf'] at hb
  exact hb

end FNLog
