import Verif.Proof.ThreadsEnd

/-! # Statistics of a device that are larger by some amount

The devices add to the counters of lines, bytes and priorities without reading them.
-/

namespace FNLog
open Spec

/-- Larger by `x`. -/
def plus (x f : Fields) : Fields := fun i => f i + x i

/-- Only the counters that no device reads. -/
def Unread (x : Fields) : Prop := ∀ i, i ≤ 6 → x i = 0

theorem plus_zero (f : Fields) : plus (fun _ => 0) f = f := by
  funext i; simp [plus]

theorem incField_plus (x f : Fields) (n : Nat) (e v : Int) :
    incField n (plus x f) e v = (incField n f e v).map (plus x) := by
  unfold incField
  dsimp only
  split
  · rw [Option.map_some]
    congr 1
    funext k
    unfold plus
    dsimp only
    split <;> omega
  · rfl

theorem accountDevice_plus (x f : Fields) (p n : Int) :
    accountDevice (plus x f) p n = (accountDevice f p n).map (plus x) := by
  simp only [accountDevice, Option.bind_eq_bind, incField_plus]
  cases incField DEVICE_LOG_MAX_ID f DEVICE_LOG_TOTAL_WRITE_LINE 1 with
  | none => rfl
  | some f1 =>
    simp only [Option.map_some, Option.bind_some, incField_plus]
    cases incField DEVICE_LOG_MAX_ID f1 DEVICE_LOG_TOTAL_WRITE_BYTE n with
    | none => rfl
    | some f2 => simp only [Option.map_some, Option.bind_some, incField_plus]

theorem accountFile_plus (x f : Fields) (p n : Int) :
    accountFile (plus x f) p n = (accountFile f p n).map (plus x) := by
  simp only [accountFile, Option.bind_eq_bind, incField_plus]
  cases incField DEVICE_LOG_MAX_ID f DEVICE_LOG_TOTAL_WRITE_LINE 1 with
  | none => rfl
  | some f1 =>
    simp only [Option.map_some, Option.bind_some, incField_plus]
    cases incField DEVICE_LOG_MAX_ID f1 DEVICE_LOG_TOTAL_WRITE_BYTE n with
    | none => rfl
    | some f2 =>
      simp only [Option.map_some, Option.bind_some, incField_plus]
      cases incField DEVICE_LOG_MAX_ID f2 DEVICE_LOG_CUR_FILE_SIZE n with
      | none => rfl
      | some f3 => simp only [Option.map_some, Option.bind_some, incField_plus]

theorem put_plus {x : Fields} {k : Nat} (h : x k = 0) (f : Fields) (v : Int) : (plus x f).put k v = plus x (f.put k v) := by
  funext i
  unfold Fields.put plus
  dsimp only
  split
  · subst_vars; rw [h]; omega
  · rfl

theorem read_plus {x : Fields} {k : Nat} (h : x k = 0) (f : Fields) : plus x f k = f k := by
  unfold plus; rw [h]; omega

theorem loseLine_plus (x f : Fields) : loseLine (plus x f) = plus x (loseLine f) := by
  funext i
  unfold loseLine Fields.put plus
  dsimp only
  split
  · subst_vars; omega
  · rfl

/-- A file device with larger statistics. -/
def FileSt.plus (x : Fields) (s : FileSt) : FileSt := { s with logs := FNLog.plus x s.logs }

theorem openFile_plus {x : Fields} (h : Unread x) (E : FileEnv) (log : FileLog) (path : List Char) (s : FileSt) :
    openFile E log path (s.plus x) = (openFile E log path s).plus x := by
  unfold openFile
  split
  · unfold openFailed FileSt.plus
    rw [put_plus (h _ (by decide)), put_plus (h _ (by decide))]
  · unfold FileSt.plus
    dsimp only
    rw [read_plus (h _ (by decide)), put_plus (h _ (by decide)), put_plus (h _ (by decide)), put_plus (h _ (by decide)),
      put_plus (h _ (by decide)), put_plus (h _ (by decide)), put_plus (h _ (by decide)), put_plus (h _ (by decide))]

theorem limitOut_plus {x : Fields} (h : Unread x) (d : Device) (f : Fields) (n : Int) :
    limitOut d (plus x f) n = limitOut d f n := by
  unfold limitOut
  rw [read_plus (h _ (by decide))]

theorem periodOut_plus {x : Fields} (h : Unread x) (d : Device) (f : Fields) (n : Int) :
    periodOut d (plus x f) n = periodOut d f n := by
  unfold periodOut
  rw [read_plus (h _ (by decide)), read_plus (h _ (by decide))]

/-- OpenFileDevice after the decision. -/
def reopen (E : FileEnv) (ch : Int) (d : Device) (log : FileLog) (limit : Bool) (s : FileSt) : Option FileSt :=
  if s.handle ≠ none then some s
  else do
    let path ← fullPath E.proc (E.tm log.ts) E.fuel d ch
    if path.length ≥ 250 then return openFailed 1 log.ts s
    else return openFile E log path { s with fs := rotate d limit path s.fs }

theorem reopen_plus {x : Fields} (h : Unread x) (E : FileEnv) (ch : Int) (d : Device) (log : FileLog) (limit : Bool)
    (s : FileSt) : reopen E ch d log limit (s.plus x) = (reopen E ch d log limit s).map (FileSt.plus x) := by
  unfold reopen
  split
  · rename_i h1
    rw [if_pos (show s.handle ≠ none from h1)]
    rfl
  · rename_i h1
    rw [if_neg (show ¬ s.handle ≠ none from h1)]
    cases fullPath E.proc (E.tm log.ts) E.fuel d ch with
    | none => rfl
    | some path =>
      simp only [Option.bind_eq_bind, Option.bind_some]
      split
      · simp only [Option.pure_def, Option.map_some]
        congr 1
        unfold openFailed FileSt.plus
        rw [put_plus (h _ (by decide)), put_plus (h _ (by decide))]
      · simp only [Option.pure_def, Option.map_some]
        congr 1
        exact openFile_plus h E log path { s with fs := rotate d limit path s.fs }

theorem openFileDevice_plus {x : Fields} (h : Unread x) (E : FileEnv) (ch : Int) (d : Device) (log : FileLog)
    (s : FileSt) : openFileDevice E ch d log (s.plus x) = (openFileDevice E ch d log s).map (FileSt.plus x) := by
  have e : ∀ s, openFileDevice E ch d log s = reopen E ch d log (limitOut d s.logs log.content.length)
      (if limitOut d s.logs log.content.length || periodOut d s.logs log.ts then
        { s with logs := s.logs.put DEVICE_LOG_CUR_FILE_SIZE 0, handle := none } else s) := fun _ => rfl
  rw [e, e, ← reopen_plus h]
  have h1 : (s.plus x).logs = plus x s.logs := rfl
  rw [h1, limitOut_plus h, periodOut_plus h]
  congr 1
  split
  · unfold FileSt.plus
    rw [put_plus (h _ (by decide))]
  · rfl

theorem writeFile_plus (x : Fields) (log : FileLog) (path : List Char) (s : FileSt) :
    writeFile log path (s.plus x) = (writeFile log path s).plus x := by
  unfold writeFile
  split
  · rfl
  · split <;> rfl

theorem fileDevice_plus {x : Fields} (h : Unread x) (E : FileEnv) (ch : Int) (d : Device) (log : FileLog)
    (s : FileSt) : fileDevice E ch d log (s.plus x) = (fileDevice E ch d log s).map (FileSt.plus x) := by
  unfold fileDevice
  have h1 : (s.plus x).logs = plus x s.logs := rfl
  have h2 : (s.plus x).handle = s.handle := rfl
  rw [h1, h2, read_plus (h _ (by decide))]
  split
  · rfl
  · rw [openFileDevice_plus h]
    cases openFileDevice E ch d log s with
    | none => rfl
    | some t =>
      simp only [Option.map_some, Option.bind_eq_bind, Option.bind_some]
      have h3 : (t.plus x).handle = t.handle := rfl
      rw [h3]
      cases t.handle with
      | none => rfl
      | some path =>
        dsimp only
        rw [writeFile_plus]
        have h4 : ((writeFile log path t).plus x).logs = plus x (writeFile log path t).logs := rfl
        rw [h4, accountFile_plus]
        cases accountFile (writeFile log path t).logs log.priority log.content.length with
        | none => rfl
        | some g => rfl

/-- A device with larger statistics. -/
def DevSt.plus (x : Fields) (d : DevSt) : DevSt := { d with logs := FNLog.plus x d.logs }

theorem DevSt.plus_zero (d : DevSt) : d.plus (fun _ => 0) = d := by
  unfold DevSt.plus
  rw [FNLog.plus_zero]

/-- Device `k` with larger statistics. -/
def OutSt.plus (k : Nat) (x : Fields) (o : OutSt) : OutSt := o.setDev k ((o.dev k).plus x)

theorem plus_dev (k : Nat) (x : Fields) (o : OutSt) : (o.plus k x).dev k = (o.dev k).plus x := setDev_self _ _ _

theorem plus_set (k : Nat) (x : Fields) (o : OutSt) (d : DevSt) :
    (o.plus k x).setDev k (d.plus x) = (o.setDev k d).plus k x := by
  unfold OutSt.plus OutSt.setDev
  congr 1
  funext j
  dsimp only
  split
  · rw [if_pos rfl]
  · rfl

theorem openSock_plus (x : Fields) (os : Os) (d : DevSt) : openSock os (d.plus x) = (openSock os d).plus x := by
  unfold openSock
  have e : (d.plus x).openTs = d.openTs := rfl
  rw [e]
  split <;> rfl

theorem enter_plus {x : Fields} (h : Unread x) (E : FileEnv) (ch : Int) (k : Nat) (d : Device) (os : Os) (log : DevLog)
    (o : OutSt) : enterProcDevice E ch k d os log (o.plus k x) = (enterProcDevice E ch k d os log o).map (OutSt.plus k x) := by
  unfold enterProcDevice
  split
  · unfold screenDevice
    have e : ((o.plus k x).dev k).logs = plus x (o.dev k).logs := by rw [plus_dev]; rfl
    rw [e, accountDevice_plus]
    cases accountDevice (o.dev k).logs log.priority log.text.length with
    | none => rfl
    | some g =>
      simp only [Option.map_some, Option.bind_eq_bind, Option.bind_some]
      cases screenText log with
      | none => rfl
      | some t =>
        simp only [Option.map_some, Option.bind_some, Option.pure_def]
        rw [plus_dev]
        have := plus_set k x o { o.dev k with logs := g }
        simp only [DevSt.plus] at this ⊢
        rw [this]
        rfl
  · unfold fileOut
    rw [plus_dev]
    have e : (⟨(o.plus k x).fs, ((o.dev k).plus x).handle, ((o.dev k).plus x).logs⟩ : FileSt) =
        FileSt.plus x ⟨o.fs, (o.dev k).handle, (o.dev k).logs⟩ := rfl
    rw [e, fileDevice_plus h]
    cases fileDevice E ch d ⟨log.ts, log.priority, log.text, os.opens, os.short⟩ ⟨o.fs, (o.dev k).handle, (o.dev k).logs⟩ with
    | none => rfl
    | some t =>
      simp only [Option.map_some]
      have := plus_set k x o { o.dev k with handle := t.handle, logs := t.logs }
      simp only [DevSt.plus, FileSt.plus] at this ⊢
      rw [this]
      rfl
  · unfold udpDevice
    have e : (if ((o.plus k x).dev k).sock = true then (o.plus k x).dev k else openSock os ((o.plus k x).dev k)) =
        DevSt.plus x (if (o.dev k).sock = true then o.dev k else openSock os (o.dev k)) := by
      rw [plus_dev, openSock_plus]
      have : ((o.dev k).plus x).sock = (o.dev k).sock := rfl
      rw [this]
      split <;> rfl
    dsimp only
    rw [e]
    obtain ⟨s, hs⟩ : ∃ s, s = (if (o.dev k).sock = true then o.dev k else openSock os (o.dev k)) := ⟨_, rfl⟩
    rw [← hs]
    have e2 : (s.plus x).sock = s.sock := rfl
    have e3 : (s.plus x).logs = plus x s.logs := rfl
    rw [e2, e3]
    split
    · simp only [Option.map_some]
      have := plus_set k x o { s with logs := loseLine s.logs }
      simp only [DevSt.plus] at this ⊢
      rw [loseLine_plus, this]
    · have e4 : (if os.sent ≤ 0 then loseLine (plus x s.logs) else plus x s.logs) =
          plus x (if os.sent ≤ 0 then loseLine s.logs else s.logs) := by
        split
        · rw [loseLine_plus]
        · rfl
      rw [e4, accountDevice_plus]
      cases accountDevice (if os.sent ≤ 0 then loseLine s.logs else s.logs) log.priority log.text.length with
      | none => rfl
      | some g =>
        simp only [Option.map_some, Option.bind_eq_bind, Option.bind_some, Option.pure_def]
        have := plus_set k x o { s with logs := g }
        simp only [DevSt.plus] at this ⊢
        rw [this]
        rfl
  · rfl
  · unfold emptyDevice
    have e : ((o.plus k x).dev k).logs = plus x (o.dev k).logs := by rw [plus_dev]; rfl
    rw [e, accountDevice_plus]
    cases accountDevice (o.dev k).logs log.priority log.text.length with
    | none => rfl
    | some g =>
      simp only [Option.map_some, Option.bind_eq_bind, Option.bind_some, Option.pure_def]
      rw [plus_dev]
      have := plus_set k x o { o.dev k with logs := g }
      simp only [DevSt.plus] at this ⊢
      rw [this]
  · rfl

end FNLog
