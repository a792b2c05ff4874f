import Verif.Proof.Frame
import Verif.Proof.Filter

/-! # Dispatch: every file device gets exactly the records its filter takes, on its own files -/

namespace FNLog
open Spec

theorem filesOf_closed (E : FileEnv) (ch : Int) (d : Device) : Closed (FilesOf E ch d) := by
  rintro q n ⟨ts, F, i, hF, rfl⟩ hn
  exact ⟨ts, F, n, hF, nextPath_backup (fullPath_plain hF) i n hn⟩

theorem filesOf_path {E : FileEnv} {ch : Int} {d : Device} {ts : Int} {p : List Char}
    (h : fullPath E.proc (E.tm ts) E.fuel d ch = some p) : FilesOf E ch d p := ⟨ts, p, 0, h, by simp [backup]⟩

theorem setDev_self (o : OutSt) (k : Nat) (d : DevSt) : (o.setDev k d).dev k = d := by simp [OutSt.setDev]

theorem setDev_other (o : OutSt) {j k : Nat} (d : DevSt) (h : j ≠ k) : (o.setDev k d).dev j = o.dev j := by
  simp [OutSt.setDev, h]

theorem openSock_handle (os : Os) (d : DevSt) : (openSock os d).handle = d.handle := by
  unfold openSock; split <;> rfl

/-- A device changes its own state only. -/
theorem enter_other {E : FileEnv} {ch : Int} {k : Nat} {d : Device} {os : Os} {log : DevLog} {o o' : OutSt}
    (h : enterProcDevice E ch k d os log o = some o') {j : Nat} (hj : j ≠ k) : o'.dev j = o.dev j := by
  unfold enterProcDevice at h
  split at h
  · simp only [screenDevice, Option.bind_eq_bind, Option.bind_eq_some_iff, Option.pure_def, Option.some.injEq] at h
    obtain ⟨_, _, _, _, rfl⟩ := h
    exact setDev_other _ _ hj
  · simp only [fileOut, Option.map_eq_some_iff] at h
    obtain ⟨_, _, rfl⟩ := h
    exact setDev_other _ _ hj
  · unfold udpDevice at h
    simp only at h
    generalize (if (o.dev k).sock = true then o.dev k else openSock os (o.dev k)) = u at h
    split at h
    · obtain rfl := Option.some.inj h
      exact setDev_other _ _ hj
    · simp only [Option.bind_eq_bind, Option.bind_eq_some_iff, Option.pure_def, Option.some.injEq] at h
      obtain ⟨_, _, rfl⟩ := h
      exact setDev_other _ _ hj
  · obtain rfl := Option.some.inj h; rfl
  · simp only [emptyDevice, Option.bind_eq_bind, Option.bind_eq_some_iff, Option.pure_def, Option.some.injEq] at h
    obtain ⟨_, _, rfl⟩ := h
    exact setDev_other _ _ hj
  · obtain rfl := Option.some.inj h; rfl

theorem enter_file {E : FileEnv} {ch : Int} {k : Nat} {d : Device} {os : Os} {log : DevLog} {o o' : OutSt}
    (hd : d.outType = .file) (h : enterProcDevice E ch k d os log o = some o') :
    fileDevice E ch d ⟨log.ts, log.priority, log.text, os.opens, os.short⟩ (view o k) = some (view o' k) := by
  unfold enterProcDevice at h
  rw [hd] at h
  simp only [fileOut, Option.map_eq_some_iff] at h
  obtain ⟨s, hs, rfl⟩ := h
  unfold view
  rw [hs]
  simp [OutSt.setDev]

theorem enter_nofile {E : FileEnv} {ch : Int} {k : Nat} {d : Device} {os : Os} {log : DevLog} {o o' : OutSt}
    (hd : d.outType ≠ .file) (h : enterProcDevice E ch k d os log o = some o') : o'.fs = o.fs := by
  unfold enterProcDevice at h
  split at h
  · simp only [screenDevice, Option.bind_eq_bind, Option.bind_eq_some_iff, Option.pure_def, Option.some.injEq] at h
    obtain ⟨_, _, _, _, rfl⟩ := h
    rfl
  · exact absurd ‹_› hd
  · unfold udpDevice at h
    simp only at h
    generalize (if (o.dev k).sock = true then o.dev k else openSock os (o.dev k)) = u at h
    split at h
    · obtain rfl := Option.some.inj h
      rfl
    · simp only [Option.bind_eq_bind, Option.bind_eq_some_iff, Option.pure_def, Option.some.injEq] at h
      obtain ⟨_, _, rfl⟩ := h
      rfl
  · obtain rfl := Option.some.inj h; rfl
  · simp only [emptyDevice, Option.bind_eq_bind, Option.bind_eq_some_iff, Option.pure_def, Option.some.injEq] at h
    obtain ⟨_, _, rfl⟩ := h
    rfl
  · obtain rfl := Option.some.inj h; rfl

theorem same_of_fs {P : List Char → Prop} {t s s' : FileSt} (h : SameAs P t s) (h1 : s'.handle = s.handle)
    (h2 : s'.logs = s.logs) (h3 : AgreeOn P s.fs s'.fs) : SameAs P t s' :=
  ⟨h.handle.trans h1.symm, h.logs.trans h2.symm, fun p hp => (h.fs p hp).trans (h3 p hp), h.own⟩

theorem enter_tracks {E : FileEnv} {ch : Int} {devices : List Device} (hap : FilesApart E ch devices) {k : Nat} {d : Device}
    (hk : devices[k]? = some d) {os : Os} {log : DevLog} {o o' : OutSt} (ho : Own E ch devices o)
    (h : enterProcDevice E ch k d os log o = some o') :
    Own E ch devices o' ∧
    (∀ j a t, j ≠ k → devices[j]? = some a → a.outType = .file → SameAs (FilesOf E ch a) t (view o j) →
      SameAs (FilesOf E ch a) t (view o' j)) ∧
    (d.outType = .file → ∀ t, SameAs (FilesOf E ch d) t (view o k) →
      ∃ t', fileDevice E ch d ⟨log.ts, log.priority, log.text, os.opens, os.short⟩ t = some t' ∧
        SameAs (FilesOf E ch d) t' (view o' k)) ∧
    (∀ p, Foreign E ch devices p → o'.fs p = o.fs p) := by
  by_cases hd : d.outType = .file
  · have hf := enter_file hd h
    have hP : ∀ p, fullPath E.proc (E.tm log.ts) E.fuel d ch = some p → FilesOf E ch d p := fun p hp => filesOf_path hp
    have hself : SameAs (FilesOf E ch d) (view o k) (view o k) :=
      ⟨rfl, rfl, fun _ _ => rfl, fun p hp => ho k d p hk hd hp⟩
    obtain ⟨⟨t', ht', hs'⟩, hoff⟩ := fileDevice_frame (filesOf_closed E ch d) hP hself hf
    refine ⟨?_, ?_, ?_, ?_⟩
    · intro j a p hj ha hp
      by_cases e : j = k
      · subst e
        rw [hk] at hj
        obtain rfl := Option.some.inj hj
        exact hs'.own p hp
      · rw [enter_other h e] at hp
        exact ho j a p hj ha hp
    · intro j a t e hj ha hs
      refine same_of_fs hs ?_ ?_ ?_
      · simp only [view, enter_other h e]
      · simp only [view, enter_other h e]
      · intro p hp
        exact (hoff p fun hp' => hap j k a d e hj hk ha hd p ⟨hp, hp'⟩).symm
    · intro _ t hs
      have hsym : SameAs (FilesOf E ch d) (view o k) t :=
        ⟨hs.handle.symm, hs.logs.symm, fun p hp => (hs.fs p hp).symm, hself.own⟩
      obtain ⟨⟨u, hu, hsu⟩, _⟩ := fileDevice_frame (filesOf_closed E ch d) hP hsym hf
      exact ⟨u, hu, hsu.handle.symm, hsu.logs.symm, fun p hp => (hsu.fs p hp).symm, fun p hp => hsu.own p (hsu.handle.trans hp)⟩
    · intro p hp
      exact hoff p (hp d (List.mem_of_getElem? hk) hd)
  · have hf := enter_nofile hd h
    refine ⟨?_, ?_, fun e => absurd e hd, fun p _ => by rw [hf]⟩
    · intro j a p hj ha hp
      have e : j ≠ k := by
        rintro rfl
        rw [hk] at hj
        obtain rfl := Option.some.inj hj
        exact hd ha
      rw [enter_other h e] at hp
      exact ho j a p hj ha hp
    · intro j a t e hj ha hs
      refine same_of_fs hs ?_ ?_ ?_
      · simp only [view, enter_other h e]
      · simp only [view, enter_other h e]
      · intro p _
        show o.fs p = o'.fs p
        rw [hf]

theorem dispatchOut_tracks {E : FileEnv} {ch : Int} {devices : List Device} (hap : FilesApart E ch devices) {os : Nat → Os}
    {log : DevLog} {c i : Int} : ∀ {ds : List Device} {k : Nat} {o o' : OutSt}, (∀ n, ds[n]? = devices[k + n]?) →
    Own E ch devices o → dispatchOut E ch os log c i k ds o = some o' →
    Own E ch devices o' ∧
    (∀ j d t, devices[j]? = some d → d.outType = .file → SameAs (FilesOf E ch d) t (view o j) →
      (k ≤ j → DeviceTakes d log.priority c i →
        ∃ t', fileDevice E ch d ⟨log.ts, log.priority, log.text, (os j).opens, (os j).short⟩ t = some t' ∧
          SameAs (FilesOf E ch d) t' (view o' j)) ∧
      (j < k ∨ ¬ DeviceTakes d log.priority c i → SameAs (FilesOf E ch d) t (view o' j))) ∧
    (∀ p, Foreign E ch devices p → o'.fs p = o.fs p) := by
  intro ds
  induction ds with
  | nil =>
    intro k o o' hds ho h
    simp only [dispatchOut, Option.some.injEq] at h
    subst h
    refine ⟨ho, ?_, fun _ _ => rfl⟩
    intro j d t hj _ hs
    refine ⟨fun hkj => ?_, fun _ => hs⟩
    have := hds (j - k)
    rw [show k + (j - k) = j by omega, hj] at this
    exact absurd this (by simp)
  | cons d ds ih =>
    intro k o o' hds ho h
    simp only [dispatchOut, Option.bind_eq_bind, Option.bind_eq_some_iff] at h
    obtain ⟨r, hr, h⟩ := h
    have hspec := dispatchTakes_spec hr
    have hk : devices[k]? = some d := by have := hds 0; simpa using this.symm
    have hds' : ∀ n, ds[n]? = devices[k + 1 + n]? := by
      intro n
      have := hds (n + 1)
      rw [show k + 1 + n = k + (n + 1) by omega]
      simpa using this
    cases r with
    | true =>
      simp only [if_true, Option.bind_eq_some_iff] at h
      obtain ⟨o1, h1, h⟩ := h
      obtain ⟨e1, e2, e3, e4⟩ := enter_tracks hap hk ho h1
      obtain ⟨i1, i2, i3⟩ := ih hds' e1 h
      refine ⟨i1, ?_, fun p hp => (i3 p hp).trans (e4 p hp)⟩
      intro j a t hj ha hs
      by_cases e : j = k
      · subst e
        rw [hk] at hj
        obtain rfl := Option.some.inj hj
        obtain ⟨t', ht', hs'⟩ := e3 ha t hs
        refine ⟨fun _ _ => ⟨t', ht', (i2 j d t' hk ha hs').2 (Or.inl (by omega))⟩, fun hn => ?_⟩
        rcases hn with hn | hn
        · omega
        · exact absurd (hspec.mp rfl) hn
      · obtain ⟨f1, f2⟩ := i2 j a t hj ha (e2 j a t e hj ha hs)
        exact ⟨fun hkj => f1 (by omega), fun hn => f2 (hn.imp (by omega) id)⟩
    | false =>
      simp only [Bool.false_eq_true, if_false] at h
      obtain ⟨i1, i2, i3⟩ := ih hds' ho h
      refine ⟨i1, ?_, i3⟩
      intro j a t hj ha hs
      obtain ⟨f1, f2⟩ := i2 j a t hj ha hs
      refine ⟨fun hkj ht => ?_, fun hn => f2 (hn.imp (by omega) id)⟩
      by_cases e : j = k
      · subst e
        rw [hk] at hj
        obtain rfl := Option.some.inj hj
        exact absurd (hspec.mpr ht) (by simp)
      · exact f1 (by omega) ht

/-! ## Sequences of records -/

/-- The numbered cells of records. -/
def cells : Nat → List (Head × List Char) → List (Nat × List Piece)
  | _, [] => []
  | n, (h, line) :: rest => (n, cellOf h line) :: cells (n + 1) rest

theorem decode_cell (h : Head) (line : List Char) : decode (cellOf h line) = some (h, line) := by
  simp only [decode, cellOf, Option.some.injEq, Prod.mk.injEq, true_and]
  induction line with
  | nil => rfl
  | cons c r ih => simp only [List.map_cons, List.filterMap_cons, ih]

theorem taken_or (E : FileEnv) (ch : Int) (d : Device) {s s' s'' : FileSt} {log : FileLog} {logs taken : List FileLog}
    (h : fileDevice E ch d log s = some s') (hr : Runs E ch d s' logs taken s'') :
    ∃ taken', Runs E ch d s (log :: logs) taken' s'' := by
  by_cases hT : Taken E ch d s log
  · exact ⟨_, .taken h hT hr⟩
  · exact ⟨_, .dropped h hT hr⟩

theorem deliverAll_tracks {S : Setup} (hap : FilesApart S.fenv S.channel.id S.channel.devices) :
    ∀ {recs : List (Head × List Char)} {n : Nat} {o o' : OutSt}, Own S.fenv S.channel.id S.channel.devices o →
    deliverAll S (cells n recs) o = some o' →
    Own S.fenv S.channel.id S.channel.devices o' ∧
    (∀ k d t, S.channel.devices[k]? = some d → d.outType = .file →
      SameAs (FilesOf S.fenv S.channel.id d) t (view o k) →
      ∃ taken t', Runs S.fenv S.channel.id d t (handed S.os k d n recs) taken t' ∧
        SameAs (FilesOf S.fenv S.channel.id d) t' (view o' k)) ∧
    (∀ p, Foreign S.fenv S.channel.id S.channel.devices p → o'.fs p = o.fs p) := by
  intro recs
  induction recs with
  | nil =>
    intro n o o' ho h
    simp only [cells, deliverAll, Option.some.injEq] at h
    subst h
    exact ⟨ho, fun k d t _ _ hs => ⟨_, _, .nil t, hs⟩, fun _ _ => rfl⟩
  | cons r recs ih =>
    obtain ⟨hd, line⟩ := r
    intro n o o' ho h
    simp only [cells, deliverAll, deliver, decode_cell, Option.bind_eq_bind, Option.bind_some,
      Option.bind_eq_some_iff] at h
    obtain ⟨o1, h1, h⟩ := h
    obtain ⟨e1, e2, e3⟩ := dispatchOut_tracks hap (k := 0) (fun m => by rw [Nat.zero_add]) ho h1
    obtain ⟨i1, i2, i3⟩ := ih e1 h
    refine ⟨i1, ?_, fun p hp => (i3 p hp).trans (e3 p hp)⟩
    intro k d t hk hf hs
    obtain ⟨f1, f2⟩ := e2 k d t hk hf hs
    unfold handed
    by_cases ht : DeviceTakes d hd.priority hd.category hd.identify
    · rw [if_pos ht]
      obtain ⟨t1, ht1, hs1⟩ := f1 (Nat.zero_le _) ht
      obtain ⟨tk, t2, hr, hs2⟩ := i2 k d t1 hk hf hs1
      obtain ⟨tk', hr'⟩ := taken_or S.fenv S.channel.id d (log := fileLog (S.os n k) hd line) ht1 hr
      exact ⟨tk', t2, hr', hs2⟩
    · rw [if_neg ht]
      exact i2 k d t hk hf (f2 (Or.inr ht))

end FNLog
