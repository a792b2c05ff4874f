import Verif.Props.Rotating
import Verif.Props.Threads

/-!
# From log statements of many threads to rotated files
-/

namespace FNLog
open Spec Ring

theorem statementsOf_mem {t : Nat} {x : Call × List StreamOp} : ∀ {es : List Act}, x ∈ statementsOf t es → .log t x.1 x.2 ∈ es := by
  intro es
  induction es with
  | nil => intro h; exact absurd h (by simp [statementsOf])
  | cons e es ih =>
    intro h
    unfold statementsOf at h
    split at h
    · exact absurd ‹_› (by simp)
    · rename_i u a ops es' heq
      obtain ⟨rfl, rfl⟩ := List.cons.inj heq
      split at h
      · rename_i hu
        rcases List.mem_cons.mp h with rfl | h
        · rw [hu]; exact List.mem_cons_self
        · exact List.mem_cons_of_mem _ (ih h)
      · exact List.mem_cons_of_mem _ (ih h)
    · rename_i heq
      obtain ⟨rfl, rfl⟩ := List.cons.inj heq
      exact List.mem_cons_of_mem _ (ih h)

/-- **C72** and **C49**: threads log concurrently on an async channel, all statements return, the logger is stopped, and the
thread of the channel ends. A file device with any limits and with names that depend on the time, none of whose files was
there, has opened at most as many files as it has backups: then each line that its filter takes has a file name (`w`), and
the backups and the file of each name contain exactly the lines with that name, in the order of the records, which for
each thread is its program order.
Missing: as in `C72_async_complete_partial`. -/
theorem C72_rotated_partial {S : Setup} (hS : Ready S) (hA : S.cfg.async = true)
    (hap : FilesApart S.fenv S.channel.id S.channel.devices)
    {o : OutSt} (ho : ∀ j, (o.dev j).handle = none) {es es' : List Act}
    (he : ∀ e ∈ es ++ .stop :: es', SoundAct S e) (ht : OnTime S (es ++ .stop :: es') (crew S o))
    (hn : ∀ e ∈ es, e.noStop) {s s' : Crew} (hs : acts S es (crew S o) = some s) (hrun : s.ring.state = .running)
    (hidle : ∀ t, t ≠ worker → s.ring.pc t = .idle) (hs' : acts S (es ++ .stop :: es') (crew S o) = some s')
    (hdone : s'.ring.pc worker = .done)
    {k : Nat} {d : Device} (hk : S.channel.devices[k]? = some d) (hd : d.outType = .file) (hr : d.cfg.rollback < 2 ^ 31)
    (hF : ∀ ts, ∃ p, fullPath S.fenv.proc (S.fenv.tm ts) S.fenv.fuel d S.channel.id = some p ∧ p.length < 250)
    (hos : ∀ n, (S.os n k).opens = true ∧ (S.os n k).short = none)
    (hts : ∀ t a ops, .log t a ops ∈ es → (o.dev k).logs DEVICE_LOG_LAST_TRY_CREATE_TIMESTAMP + 5 ≤ a.ts)
    (hfs : ∀ p, FilesOf S.fenv S.channel.id d p → o.fs p = none)
    (hN : (s'.out.dev k).logs DEVICE_LOG_LAST_TRY_CREATE_CNT - (o.dev k).logs DEVICE_LOG_LAST_TRY_CREATE_CNT ≤ backups d) :
    ∃ recs, (∀ t, Logged S (linesOf t s.made) (linesOf t recs)) ∧
      ∃ w : List (List Char × List Char), w.map Prod.snd = linesFor d (recs.map Prod.snd) ∧
        ∀ x ∈ w, kept (backups d) x.1 s'.out.fs = (w.filter fun y => y.1 = x.1).map Prod.snd := by
  obtain ⟨recs, h1, h2, _⟩ := C72_async_complete_partial hS hA hap
    (fun j _ p _ _ h => absurd ((ho j).symm.trans h) (by nofun)) he ht hn hs hrun hidle hs' hdone
  refine ⟨recs, h1, ?_⟩
  obtain ⟨tk, t, hr1, _, hlogs, ha⟩ := h2.device k d hk hd
  have hmade : ∀ t, ∀ x ∈ linesOf t s.made, .log t x.1 x.2 ∈ es := by
    intro t x hx
    obtain ⟨y, g1, g2⟩ := made_acts t hs
    have : linesOf t (crew S o).made = [] := rfl
    rw [g1, this, List.nil_append] at hx
    exact statementsOf_mem (g2.subset hx)
  obtain ⟨w, hw, hx⟩ := rotated_runs hr hF hos hr1 (fun r hm => by
      obtain ⟨y, hy, rfl⟩ := List.mem_map.mp hm
      have hy' : y.2 ∈ linesOf y.1 recs := List.mem_map.mpr ⟨y, List.mem_filter.mpr ⟨hy, by simp⟩, rfl⟩
      obtain ⟨g1, x, hx, e⟩ := logged_lines (h1 y.1) y.2 hy'
      refine ⟨logged_valid (h1 y.1) (fun x hx => ?_) y.2 hy', g1, ?_⟩
      · exact he _ (List.mem_append_left _ (hmade _ x hx))
      · rw [e]; exact hts _ _ _ (hmade _ x hx)) (ho k) hfs (by rw [hlogs]; exact hN)
  refine ⟨w, hw, fun x hm => ?_⟩
  obtain ⟨⟨ts, hFx⟩, e⟩ := hx x hm
  rw [← e]
  exact (kept_congr fun i _ => (ha _ ⟨ts, _, i, hFx, rfl⟩).symm).1

/-! The two threads of the demo of C72, on an async channel with the rotating device of `Props/Rotating.lean`. -/

def rotAsyncSetup : Setup := { demoSetup with
  channel := { rotChannel with type := .async }
  lg := ⟨.running, some [{ rotChannel with type := .async }]⟩
  cfg := { L := 4, async := true, nl := .byte '\n' } }

/-- All hypotheses of `C72_rotated_partial` hold; the line of one thread is in the backup, that of the other in the file. -/
theorem C72_case_rotated : Ready rotAsyncSetup ∧
    FilesApart rotAsyncSetup.fenv rotAsyncSetup.channel.id rotAsyncSetup.channel.devices ∧
    (∀ e ∈ demoAsyncRace ++ .stop :: demoRuns 0 414, SoundAct rotAsyncSetup e) ∧ (∀ e ∈ demoAsyncRace, e.noStop) ∧
    OnTime rotAsyncSetup (demoAsyncRace ++ .stop :: demoRuns 0 414) (crew rotAsyncSetup demoOut) ∧
    (acts rotAsyncSetup demoAsyncRace (crew rotAsyncSetup demoOut)).map
      (fun s => (s.ring.state, s.ring.pc 1, s.ring.pc 2, s.visits.length)) = some (.running, .idle, .idle, 0) ∧
    (∀ ts, ∃ p, fullPath rotAsyncSetup.fenv.proc (rotAsyncSetup.fenv.tm ts) rotAsyncSetup.fenv.fuel rotFile
      rotAsyncSetup.channel.id = some p ∧ p.length < 250) ∧
    (∀ t a ops, .log t a ops ∈ demoAsyncRace → (demoOut.dev 0).logs DEVICE_LOG_LAST_TRY_CREATE_TIMESTAMP + 5 ≤ a.ts) ∧
    (acts rotAsyncSetup (demoAsyncRace ++ .stop :: demoRuns 0 414) (crew rotAsyncSetup demoOut)).map
      (fun s => (s.ring.pc 0, (s.out.dev 0).logs DEVICE_LOG_LAST_TRY_CREATE_CNT, s.out.fs "a.log.1".toList, s.out.fs "a.log".toList)) =
    some (.done, 2, some ["[20261116 11:33:20.417][ERROR][a.cpp:17](f) one\n".toList],
      some ["[20261116 11:33:20.417][ERROR][a.cpp:17](f) two\n".toList]) := by
  refine ⟨?_, ?_, ?_, ?_, onTime_of (by kernel_rfl), by kernel_rfl, fun ts => ⟨_, rot_path ts, by decide⟩, ?_, by kernel_rfl⟩
  · exact ⟨rot_ready.lib, rot_ready.zone, by decide, rfl, by decide,
      ⟨_, rfl, rfl⟩, fun h => absurd h (by decide), rot_ready.named⟩
  · exact C64_case_rotated.2.1
  · intro e he
    simp only [demoAsyncRace, demoRuns, List.mem_append, List.mem_cons, List.not_mem_nil, or_false, List.mem_replicate] at he
    have hd : ∀ c i, ∀ d ∈ rotChannel.devices, DevDefined d c i := by
      intro c i d hd
      simp only [rotChannel, List.mem_cons, List.not_mem_nil, or_false] at hd
      subst hd
      exact ⟨by decide, by decide, by decide, by decide, Or.inl (by decide), Or.inl (by decide)⟩
    have hl : ∀ t text, SoundAct rotAsyncSetup (demoLog t text) := by
      intro t text
      obtain ⟨h1, _, _, file, h4⟩ := demoCall_sound demoSetup rfl rfl rfl rfl rfl t text
      exact ⟨h1, ⟨⟨by decide, by decide, by decide, by decide, Or.inl (by decide), Or.inl (by decide)⟩, hd _ _⟩, hd _ _, file, h4⟩
    rcases he with (((((⟨_, rfl⟩ | rfl | rfl) | ⟨_, rfl⟩) | rfl) | ⟨_, rfl⟩) | ⟨_, rfl⟩) | rfl | ⟨_, rfl⟩
    all_goals first
      | trivial
      | exact hl _ _
  · intro e he
    simp only [demoAsyncRace, demoRuns, List.mem_append, List.mem_cons, List.not_mem_nil, or_false, List.mem_replicate] at he
    rcases he with ((((⟨_, rfl⟩ | rfl | rfl) | ⟨_, rfl⟩) | rfl) | ⟨_, rfl⟩) | ⟨_, rfl⟩ <;> trivial
  · intro t a ops he
    simp only [demoAsyncRace, demoRuns, demoLog, List.mem_append, List.mem_cons, List.not_mem_nil, or_false, List.mem_replicate,
      Act.log.injEq, reduceCtorEq, and_false, false_or] at he
    rcases he with ⟨_, rfl, _⟩ | ⟨_, rfl, _⟩ <;> decide

end FNLog
