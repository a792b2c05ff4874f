import Verif.Proof.Flush

/-! # Threads with buffered files -/

namespace FNLog
open Spec Ring

/-! ## What a device with a buffer does to its buffer and stream -/

theorem flush_writers (b : BufSt) : (b.flush.buf.map Prod.fst).Sublist (b.buf.map Prod.fst) := by
  unfold BufSt.flush
  split
  · exact .refl _
  · exact List.nil_sublist _

theorem bufOpen_writers {E : FileEnv} {ch : Int} {d : Device} {log : FileLog} {b b' : BufSt}
    (h : bufOpenFileDevice E ch d log b = some b') : (b'.buf.map Prod.fst).Sublist (b.buf.map Prod.fst) := by
  unfold bufOpenFileDevice at h
  simp only [Option.bind_eq_bind, Option.pure_def] at h
  have hs : ((if (limitOut d b.logs log.content.length || periodOut d b.logs log.ts) = true then
      { b.close with logs := b.logs.put DEVICE_LOG_CUR_FILE_SIZE 0 } else b).buf.map Prod.fst).Sublist
      (b.buf.map Prod.fst) := by
    split
    · exact flush_writers b
    · exact .refl _
  generalize (if (limitOut d b.logs log.content.length || periodOut d b.logs log.ts) = true then
      { b.close with logs := b.logs.put DEVICE_LOG_CUR_FILE_SIZE 0 } else b) = b0 at h hs
  split at h
  · obtain rfl := Option.some.inj h
    exact hs
  · rw [Option.bind_eq_some_iff] at h
    obtain ⟨p, _, h⟩ := h
    split at h
    · obtain rfl := Option.some.inj h
      exact hs
    · obtain rfl := Option.some.inj h
      unfold bufOpenFile
      simp only
      split
      · exact hs
      · exact List.nil_sublist _

/-- A record adds at most itself to the buffer. -/
theorem bufFile_writers {E : FileEnv} {ch : Int} {t n : Nat} {d : Device} {log : FileLog} {b b' : BufSt}
    (h : bufFileDevice E ch t n d log b = some b') : (b'.buf.map Prod.fst).Sublist (b.buf.map Prod.fst ++ [t]) := by
  unfold bufFileDevice at h
  split at h
  · obtain rfl := Option.some.inj h
    exact List.sublist_append_left _ _
  · simp only [Option.bind_eq_bind, Option.bind_eq_some_iff] at h
    obtain ⟨b1, h1, h⟩ := h
    have hs := bufOpen_writers h1
    split at h
    · obtain rfl := Option.some.inj h
      exact hs.trans (List.sublist_append_left _ _)
    · simp only [Option.bind_eq_some_iff, Option.pure_def] at h
      obtain ⟨l, _, h⟩ := h
      obtain rfl := Option.some.inj h
      show ((bufWriteFile t n log _ b1).buf.map Prod.fst).Sublist _
      unfold bufWriteFile
      split
      · exact hs.trans (List.sublist_append_left _ _)
      · split
        · refine (spill_writers n _).trans ?_
          rw [List.map_append]
          exact hs.append (.refl _)
        · refine (flush_writers _).trans ?_
          show ((b1.buf ++ [(t, _)]).map Prod.fst).Sublist _
          rw [List.map_append]
          exact hs.append (.refl _)

/-- A device without rotation keeps its stream. -/
theorem bufFile_steady {E : FileEnv} {ch : Int} {t n : Nat} {d : Device} {log : FileLog} {b b' : BufSt}
    (hd : d.cfg.rolldaily = 0 ∧ d.cfg.rollhourly = 0 ∧ (d.cfg.limitSize ≤ 0 ∨ d.cfg.rollback ≤ 0)) (hl : log.short = none)
    (h : bufFileDevice E ch t n d log b = some b') (hh : b.handle ≠ none) : b'.handle = b.handle ∧ b'.gen = b.gen := by
  unfold bufFileDevice at h
  rw [if_neg (fun x => hh x.1)] at h
  have hlim : (limitOut d b.logs log.content.length || periodOut d b.logs log.ts) = false := by
    unfold limitOut periodOut
    rw [if_neg (by simp [hd.1]), if_neg (by simp [hd.2.1])]
    rcases hd.2.2 with e | e
    · simp [show ¬ d.cfg.limitSize > 0 by omega]
    · simp [show ¬ d.cfg.rollback > 0 by omega]
  have ho : bufOpenFileDevice E ch d log b = some b := by
    unfold bufOpenFileDevice
    simp only [hlim, Bool.false_eq_true, if_false]
    rw [if_pos hh]
  rw [ho] at h
  simp only [Option.bind_eq_bind, Option.bind_some] at h
  split at h
  · exact absurd ‹_› hh
  · simp only [Option.bind_eq_some_iff, Option.pure_def] at h
    obtain ⟨l, _, h⟩ := h
    obtain rfl := Option.some.inj h
    show (bufWriteFile t n log _ b).handle = _ ∧ (bufWriteFile t n log _ b).gen = _
    unfold bufWriteFile
    split
    · exact ⟨rfl, rfl⟩
    · rw [hl]; exact ⟨rfl, rfl⟩

/-! ## The two states -/

/-- `f` is `s` with part of the files in buffers. -/
structure FRel (S : Setup) (f : FCrew) (s : Crew) : Prop where
  ring : f.crew.ring = s.ring
  caches : f.crew.caches = s.caches
  pos : f.crew.pos = s.pos
  made : f.crew.made = s.made
  visits : f.crew.visits = s.visits
  dev : f.crew.out.dev = s.out.dev
  screen : f.crew.out.screen = s.out.screen
  net : f.crew.out.net = s.out.net
  files : ∀ (j : Nat) (d : Device), S.channel.devices[j]? = some d → d.outType = .file →
    BufRel (FilesOf S.fenv S.channel.id d) (f.file j) (view s.out j)
  foreign : ∀ p, Foreign S.fenv S.channel.id S.channel.devices p → f.crew.out.fs p = s.out.fs p
  noBuf : ∀ j, (∀ d, S.channel.devices[j]? = some d → d.outType ≠ .file) → f.buf j = []

/-- The other devices of a file device do not notice. -/
theorem BufRel.elsewhere {P : List Char → Prop} {b b' : BufSt} {s s' : FileSt} (h : BufRel P b s)
    (h1 : b'.handle = b.handle) (h2 : b'.logs = b.logs) (h3 : b'.buf = b.buf) (h4 : ∀ p, P p → b'.fs p = b.fs p)
    (g1 : s'.handle = s.handle) (g2 : s'.logs = s.logs) (g4 : ∀ p, P p → s'.fs p = s.fs p) : BufRel P b' s' where
  handle := by rw [h1, g1, h.handle]
  logs := by rw [h2, g2, h.logs]
  own := by
    intro p hp
    rw [h1] at hp
    obtain ⟨e1, e2⟩ := h.own p hp
    exact ⟨e1, by rw [h4 p e1]; exact e2⟩
  closed := by rw [h1, h3]; exact h.closed
  files := by
    intro p hp
    have := h.files p hp
    unfold pendingAt bytesOf at this ⊢
    rw [h1, h3, h4 p hp, g4 p hp, this]

theorem setFile_dev_ne (f : FCrew) {i j : Nat} (b : BufSt) (h : i ≠ j) :
    (f.setFile j b).crew.out.dev i = f.crew.out.dev i := by
  show (f.crew.out.setDev j _).dev i = _
  rw [setDev_other _ _ h]

theorem setFile_dev_self (f : FCrew) (j : Nat) (b : BufSt) :
    (f.setFile j b).crew.out.dev j = { f.crew.out.dev j with handle := b.handle, logs := b.logs } := by
  show (f.crew.out.setDev j _).dev j = _
  rw [setDev_self]

theorem setFile_file (f : FCrew) (j : Nat) (b : BufSt) : (f.setFile j b).file j = b := by
  unfold FCrew.file
  rw [setFile_dev_self]
  simp [FCrew.setFile, upd]

/-- Replacing one file device. -/
theorem FRel.setFile {S : Setup} (hap : FilesApart S.fenv S.channel.id S.channel.devices) {f : FCrew} {s : Crew}
    (h : FRel S f s) {j : Nat} {d : Device} (hj : S.channel.devices[j]? = some d) (hd : d.outType = .file) {b : BufSt}
    {o' : OutSt} (hb : BufRel (FilesOf S.fenv S.channel.id d) b (view o' j))
    (hoff : ∀ q, ¬ FilesOf S.fenv S.channel.id d q → b.fs q = f.crew.out.fs q)
    (hoff' : ∀ q, ¬ FilesOf S.fenv S.channel.id d q → o'.fs q = s.out.fs q)
    (hdev : ∀ i, i ≠ j → o'.dev i = s.out.dev i)
    (hself : o'.dev j = { s.out.dev j with handle := b.handle, logs := b.logs })
    (hs : o'.screen = s.out.screen) (hn : o'.net = s.out.net) :
    FRel S (f.setFile j b) { s with out := o' } where
  ring := h.ring
  caches := h.caches
  pos := h.pos
  made := h.made
  visits := h.visits
  dev := by
    funext i
    by_cases e : i = j
    · subst e; rw [setFile_dev_self, hself, h.dev]
    · rw [setFile_dev_ne _ _ e, hdev i e, h.dev]
  screen := by rw [hs]; exact h.screen
  net := by rw [hn]; exact h.net
  files := by
    intro i a hi ha
    by_cases e : i = j
    · subst e
      rw [hj] at hi
      obtain rfl := Option.some.inj hi
      rw [setFile_file]
      exact hb
    · have hne : ∀ p, FilesOf S.fenv S.channel.id a p → ¬ FilesOf S.fenv S.channel.id d p :=
        fun p hp hp' => hap i j a d e hi hj ha hd p ⟨hp, hp'⟩
      refine (h.files i a hi ha).elsewhere ?_ ?_ ?_ ?_ ?_ ?_ ?_
      · simp only [FCrew.file, setFile_dev_ne _ _ e]
      · simp only [FCrew.file, setFile_dev_ne _ _ e]
      · show upd f.buf j b.buf i = _
        rw [upd_ne _ _ e]; rfl
      · intro p hp
        exact hoff p (hne p hp)
      · simp only [view, hdev i e]
      · simp only [view, hdev i e]
      · intro p hp
        exact hoff' p (hne p hp)
  foreign := by
    intro p hp
    have hn' := hp d (List.mem_of_getElem? hj) hd
    show b.fs p = o'.fs p
    rw [hoff p hn', hoff' p hn', h.foreign p hp]
  noBuf := by
    intro i hi
    have e : i ≠ j := by rintro rfl; exact hi d hj hd
    show upd f.buf j b.buf i = _
    rw [upd_ne _ _ e]
    exact h.noBuf i hi

/-- A device does the same with and without buffers. -/
theorem enterBuf_sim {S : Setup} {B : Stdio} (hap : FilesApart S.fenv S.channel.id S.channel.devices) {f : FCrew} {s : Crew}
    (h : FRel S f s) {t n j : Nat} {d : Device} (hj : S.channel.devices[j]? = some d) {log : DevLog} {o' : OutSt}
    (he : enterProcDevice S.fenv S.channel.id j d (S.os n j) log s.out = some o') :
    ∃ f', enterBuf S B t n j d log f = some f' ∧ FRel S f' { s with out := o' } ∧ f'.count = f.count ∧ f'.fl = f.fl ∧
      (∀ i, i ≠ j → f'.buf i = f.buf i ∧ f'.gen i = f.gen i) ∧
      ((f'.buf j).map Prod.fst).Sublist ((f.buf j).map Prod.fst ++ [t]) ∧
      (Steady S → (f.crew.out.dev j).handle ≠ none → (f'.crew.out.dev j).handle ≠ none ∧ f'.gen j = f.gen j) ∧
      (∀ i, i ≠ j → f'.crew.out.dev i = f.crew.out.dev i) := by
  unfold enterBuf
  by_cases hd : d.outType = .file
  · rw [if_pos hd]
    have hf := enter_file hd he
    have hP : ∀ p, fullPath S.fenv.proc (S.fenv.tm log.ts) S.fenv.fuel d S.channel.id = some p →
      FilesOf S.fenv S.channel.id d p := fun p hp => filesOf_path hp
    obtain ⟨b', h1, h2, h3⟩ := bufFileDevice_sim (filesOf_closed _ _ _) hP (t := t) (n := B.spill n j) (h.files j d hj hd) hf
    rw [h1]
    have hself : SameAs (FilesOf S.fenv S.channel.id d) (view s.out j) (view s.out j) :=
      ⟨rfl, rfl, fun _ _ => rfl, fun p hp => ((h.files j d hj hd).own p (by rw [(h.files j d hj hd).handle]; exact hp)).1⟩
    have hoff := (fileDevice_frame (filesOf_closed _ _ _) hP hself hf).2
    refine ⟨_, rfl, ?_, rfl, rfl, ?_, ?_, ?_, ?_⟩
    · unfold enterProcDevice at he
      rw [hd] at he
      simp only [fileOut, Option.map_eq_some_iff] at he
      obtain ⟨s1, hs1, he⟩ := he
      unfold view at hf
      rw [hs1] at hf
      have ef := Option.some.inj hf
      refine h.setFile hap hj hd h2 h3 hoff ?_ ?_ ?_ ?_
      · intro i hi
        rw [← he]
        exact setDev_other _ _ hi
      · have e : o'.dev j = { s.out.dev j with handle := s1.handle, logs := s1.logs } := by
          rw [← he]
          exact setDev_self _ _ _
        have es : s1 = view o' j := ef
        rw [h2.handle, h2.logs, ← es, e]
      · rw [← he]; rfl
      · rw [← he]; rfl
    · intro i hi
      exact ⟨upd_ne _ _ hi, upd_ne _ _ hi⟩
    · show ((upd f.buf j b'.buf j).map Prod.fst).Sublist _
      rw [upd_same]
      exact bufFile_writers h1
    · intro hst hh
      obtain ⟨g1, g2⟩ := bufFile_steady (hst.cfg d (List.mem_of_getElem? hj) hd) (hst.writes n j) h1 hh
      rw [setFile_dev_self]
      show b'.handle ≠ none ∧ upd f.gen j b'.gen j = _
      rw [upd_same, g1, g2]
      exact ⟨hh, rfl⟩
    · intro i hi
      exact setFile_dev_ne _ _ hi
  · rw [if_neg hd]
    obtain ⟨u', x, y, h1, h2, h3, h4, h5, h6, h7⟩ := enter_alike (u := f.crew.out) hd (by rw [h.dev]) he
    rw [h1]
    refine ⟨_, rfl, ?_, rfl, rfl, fun _ _ => ⟨rfl, rfl⟩, List.sublist_append_left _ _, ?_, fun i hi => enter_other h1 hi⟩
    · have hdev : u'.dev = o'.dev := by
        funext i
        by_cases e : i = j
        · subst e; exact h2
        · rw [enter_other h1 e, enter_other he e, h.dev]
      refine ⟨h.ring, h.caches, h.pos, h.made, h.visits, hdev, ?_, ?_, ?_, ?_, h.noBuf⟩
      · show u'.screen = o'.screen
        rw [h3, h4, h.screen]
      · show u'.net = o'.net
        rw [h5, h6, h.net]
      · intro i a hi ha
        have e : i ≠ j := by
          rintro rfl
          rw [hj] at hi
          obtain rfl := Option.some.inj hi
          exact hd ha
        refine (h.files i a hi ha).elsewhere ?_ ?_ rfl ?_ ?_ ?_ ?_
        · simp only [FCrew.file, enter_other h1 e]
        · simp only [FCrew.file, enter_other h1 e]
        · intro p _
          show u'.fs p = _
          rw [h7]; rfl
        · simp only [view, enter_other he e]
        · simp only [view, enter_other he e]
        · intro p _
          show o'.fs p = _
          rw [enter_nofile hd he]; rfl
      · intro p hp
        show u'.fs p = o'.fs p
        rw [h7, enter_nofile hd he, h.foreign p hp]
    · intro hst hh
      refine ⟨?_, rfl⟩
      show (u'.dev j).handle ≠ none
      -- other types of devices leave `handle` alone
      unfold enterProcDevice at h1
      split at h1
      · simp only [screenDevice, Option.bind_eq_bind, Option.bind_eq_some_iff, Option.pure_def, Option.some.injEq] at h1
        obtain ⟨_, _, _, _, rfl⟩ := h1
        show ((f.crew.out.setDev j _).dev j).handle ≠ none
        rw [setDev_self]; exact hh
      · exact absurd ‹_› hd
      · unfold udpDevice at h1
        simp only at h1
        have hu : (if (f.crew.out.dev j).sock = true then f.crew.out.dev j else openSock (S.os n j) (f.crew.out.dev j)).handle =
            (f.crew.out.dev j).handle := by
          split
          · rfl
          · exact openSock_handle _ _
        generalize (if (f.crew.out.dev j).sock = true then f.crew.out.dev j else openSock (S.os n j) (f.crew.out.dev j)) = u at h1 hu
        split at h1
        · obtain rfl := Option.some.inj h1
          rw [setDev_self]
          show u.handle ≠ none
          rw [hu]; exact hh
        · simp only [Option.bind_eq_bind, Option.bind_eq_some_iff, Option.pure_def, Option.some.injEq] at h1
          obtain ⟨_, _, rfl⟩ := h1
          show ((f.crew.out.setDev j _).dev j).handle ≠ none
          rw [setDev_self]
          show u.handle ≠ none
          rw [hu]; exact hh
      · obtain rfl := Option.some.inj h1; exact hh
      · simp only [emptyDevice, Option.bind_eq_bind, Option.bind_eq_some_iff, Option.pure_def, Option.some.injEq] at h1
        obtain ⟨_, _, rfl⟩ := h1
        rw [setDev_self]; exact hh
      · obtain rfl := Option.some.inj h1; exact hh

end FNLog
