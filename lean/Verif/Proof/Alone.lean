import Verif.Spec.Threads
import Verif.Proof.EndToEnd

/-! # A device sees its own state and its own files only -/

namespace FNLog
open Spec

/-- A device outside of the file system: what it does depends on its own state only. -/
theorem enter_alike {E : FileEnv} {ch : Int} {k : Nat} {d : Device} {os : Os} {log : DevLog} {o o' u : OutSt}
    (hd : d.outType ≠ .file) (hk : u.dev k = o.dev k) (h : enterProcDevice E ch k d os log o = some o') :
    ∃ u' x y, enterProcDevice E ch k d os log u = some u' ∧ u'.dev k = o'.dev k ∧
      o'.screen = o.screen ++ x ∧ u'.screen = u.screen ++ x ∧ o'.net = o.net ++ y ∧ u'.net = u.net ++ y ∧
      u'.fs = u.fs := by
  unfold enterProcDevice at h ⊢
  split at h
  · simp only [screenDevice, Option.bind_eq_bind, Option.bind_eq_some_iff, Option.pure_def, Option.some.injEq] at h
    obtain ⟨lg, h1, tx, h2, rfl⟩ := h
    refine ⟨{ u.setDev k { o.dev k with logs := lg } with screen := u.screen ++ [tx] }, [tx], [], ?_, ?_, rfl, rfl, (List.append_nil _).symm, (List.append_nil _).symm, rfl⟩
    · simp only [screenDevice, hk, h1, h2, Option.bind_eq_bind, Option.bind_some, Option.pure_def]
    · show (u.setDev k _).dev k = (o.setDev k _).dev k
      rw [setDev_self, setDev_self]
  · exact absurd ‹_› hd
  · unfold udpDevice at h ⊢
    simp only at h ⊢
    rw [hk]
    generalize (if (o.dev k).sock = true then o.dev k else openSock os (o.dev k)) = v at h
    split at h
    · rename_i hs
      obtain rfl := Option.some.inj h
      rw [if_pos hs]
      refine ⟨_, [], [], rfl, ?_, (List.append_nil _).symm, (List.append_nil _).symm, (List.append_nil _).symm,
        (List.append_nil _).symm, rfl⟩
      rw [setDev_self, setDev_self]
    · rename_i hs
      rw [if_neg hs]
      simp only [Option.bind_eq_bind, Option.bind_eq_some_iff, Option.pure_def, Option.some.injEq] at h
      obtain ⟨lg, h1, rfl⟩ := h
      refine ⟨{ u.setDev k { v with logs := lg } with
          net := u.net ++ [⟨(d.cfg.udpIp % 2 ^ 32).toNat, (d.cfg.udpPort % 2 ^ 16).toNat, log.text⟩] }, [], [_], ?_, ?_,
        (List.append_nil _).symm, (List.append_nil _).symm, rfl, rfl, rfl⟩
      · simp only [h1, Option.bind_eq_bind, Option.bind_some, Option.pure_def]
      · show (u.setDev k _).dev k = (o.setDev k _).dev k
        rw [setDev_self, setDev_self]
  · obtain rfl := Option.some.inj h
    exact ⟨u, [], [], rfl, hk, (List.append_nil _).symm, (List.append_nil _).symm, (List.append_nil _).symm,
        (List.append_nil _).symm, rfl⟩
  · simp only [emptyDevice, Option.bind_eq_bind, Option.bind_eq_some_iff, Option.pure_def, Option.some.injEq] at h
    obtain ⟨lg, h1, rfl⟩ := h
    refine ⟨u.setDev k { o.dev k with logs := lg }, [], [], ?_, ?_, (List.append_nil _).symm, (List.append_nil _).symm,
      (List.append_nil _).symm, (List.append_nil _).symm, rfl⟩
    · simp only [emptyDevice, hk, h1, Option.bind_eq_bind, Option.bind_some, Option.pure_def]
    · show (u.setDev k _).dev k = (o.setDev k _).dev k
      rw [setDev_self, setDev_self]
  · obtain rfl := Option.some.inj h
    exact ⟨u, [], [], rfl, hk, (List.append_nil _).symm, (List.append_nil _).symm, (List.append_nil _).symm,
        (List.append_nil _).symm, rfl⟩

/-- Any device: what it does depends on its own state and its own files. -/
theorem enter_congr {E : FileEnv} {ch : Int} {k : Nat} {d : Device} {os : Os} {log : DevLog} {o o' u : OutSt}
    (hk : u.dev k = o.dev k) (hf : d.outType = .file → AgreeOn (FilesOf E ch d) o.fs u.fs ∧
      ∀ p, (o.dev k).handle = some p → FilesOf E ch d p)
    (h : enterProcDevice E ch k d os log o = some o') :
    ∃ u' x y, enterProcDevice E ch k d os log u = some u' ∧ u'.dev k = o'.dev k ∧
      o'.screen = o.screen ++ x ∧ u'.screen = u.screen ++ x ∧ o'.net = o.net ++ y ∧ u'.net = u.net ++ y ∧
      (d.outType = .file → AgreeOn (FilesOf E ch d) o'.fs u'.fs) ∧
      (∀ p, ¬ (d.outType = .file ∧ FilesOf E ch d p) → u'.fs p = u.fs p) := by
  by_cases hd : d.outType = .file
  · obtain ⟨f1, f2⟩ := hf hd
    unfold enterProcDevice at h ⊢
    rw [hd] at h ⊢
    simp only [fileOut, Option.map_eq_some_iff] at h ⊢
    obtain ⟨s, hs, rfl⟩ := h
    have hP : ∀ p, fullPath E.proc (E.tm log.ts) E.fuel d ch = some p → FilesOf E ch d p := fun p hp => filesOf_path hp
    have hsame : SameAs (FilesOf E ch d) ⟨o.fs, (o.dev k).handle, (o.dev k).logs⟩ ⟨u.fs, (u.dev k).handle, (u.dev k).logs⟩ :=
      ⟨by rw [hk], by rw [hk], f1, f2⟩
    have hback : SameAs (FilesOf E ch d) ⟨u.fs, (u.dev k).handle, (u.dev k).logs⟩ ⟨o.fs, (o.dev k).handle, (o.dev k).logs⟩ :=
      ⟨by rw [hk], by rw [hk], fun p hp => (f1 p hp).symm, by rw [hk]; exact f2⟩
    obtain ⟨⟨t', ht', hs'⟩, _⟩ := fileDevice_frame (filesOf_closed E ch d) hP hsame hs
    obtain ⟨_, hoff⟩ := fileDevice_frame (filesOf_closed E ch d) hP hback ht'
    refine ⟨_, [], [], ⟨t', ht', rfl⟩, ?_, (List.append_nil _).symm, (List.append_nil _).symm, (List.append_nil _).symm,
      (List.append_nil _).symm, fun _ => hs'.fs, fun p hp => hoff p fun hp' => hp ⟨trivial, hp'⟩⟩
    show (u.setDev k _).dev k = (o.setDev k _).dev k
    rw [setDev_self, setDev_self, hk, hs'.handle, hs'.logs]
  · obtain ⟨u', x, y, h1, h2, h3, h4, h5, h6, h7⟩ := enter_alike hd hk h
    exact ⟨u', x, y, h1, h2, h3, h4, h5, h6, fun e => absurd e hd, fun p _ => by rw [h7]⟩

/-! ## Alone -/

theorem alone_append (S : Setup) (k : Nat) (d : Device) (r q : List (Head × List Char)) : ∀ (n : Nat) (o : OutSt),
    alone S k d n (r ++ q) o = (alone S k d n r o).bind (alone S k d (n + r.length) q) := by
  induction r with
  | nil => intro n o; rfl
  | cons x r ih =>
    obtain ⟨h, l⟩ := x
    intro n o
    simp only [List.cons_append, alone, List.length_cons]
    have e : n + 1 + r.length = n + (r.length + 1) := by omega
    by_cases hT : DeviceTakes d h.priority h.category h.identify
    · rw [if_pos hT, if_pos hT]
      cases enterProcDevice S.fenv S.channel.id k d (S.os n k) (devLog h l) o with
      | none => rfl
      | some o1 => simp only [Option.bind_some]; rw [ih, e]
    · rw [if_neg hT, if_neg hT, ih, e]

/-- A UDP device alone. -/
theorem alone_udp {S : Setup} {k : Nat} {d : Device} (hd : d.outType = .udp) :
    ∀ {recs : List (Head × List Char)} {n : Nat} {o o' : OutSt},
    (∀ r ∈ recs, 0 ≤ r.1.priority ∧ r.1.priority ≤ 6) → alone S k d n recs o = some o' →
    ∃ lost sent, UdpFate S.os k d n recs lost sent ∧ o'.net = o.net ++ sent.map (fun x => datagram d x.1) ∧
      (o'.dev k).logs DEVICE_LOG_TOTAL_LOSE_LINE = (o.dev k).logs DEVICE_LOG_TOTAL_LOSE_LINE + lost +
        (sent.filter fun x => !x.2).length ∧
      (o'.dev k).logs DEVICE_LOG_TOTAL_WRITE_LINE = (o.dev k).logs DEVICE_LOG_TOTAL_WRITE_LINE + sent.length ∧
      ((o.dev k).sock = true → lost = 0) := by
  intro recs
  induction recs with
  | nil =>
    intro n o o' _ h
    simp only [alone, Option.some.injEq] at h
    subst h
    exact ⟨0, [], .nil, by simp, by simp, by simp, fun _ => rfl⟩
  | cons r recs ih =>
    obtain ⟨hr, line⟩ := r
    intro n o o' hp h
    simp only [alone] at h
    have hp0 : 0 ≤ (devLog hr line).priority ∧ (devLog hr line).priority ≤ 6 := hp (hr, line) (by simp)
    by_cases hT : DeviceTakes d hr.priority hr.category hr.identify
    · rw [if_pos hT, Option.bind_eq_some_iff] at h
      obtain ⟨o1, h1, h⟩ := h
      obtain ⟨lost, sent, i1, i2, i3, i4, i5⟩ := ih (fun r hr => hp r (by simp [hr])) h
      have hsock := (enter_net hp0 h1).2 k
      rcases udpDevice_cases (enter_udp hd h1) hp0 with ⟨g1, g2, g3, g4⟩ | ⟨g1, g2, g3, g4⟩
      · refine ⟨lost + 1, sent, .lost hT i1, by rw [i2, g1], ?_, by rw [i4, g4], fun e => ?_⟩
        · rw [i3, g3]; push_cast; omega
        · rw [e] at g2; exact absurd g2 (by decide)
      · refine ⟨lost, _, .sent hT i1, ?_, ?_, ?_, fun e => i5 (hsock e)⟩
        · rw [i2, g1, List.append_assoc]; rfl
        · rw [i3, g3, List.filter_cons]
          by_cases hb : 0 < (S.os n k).sent
          · simp [hb]
          · simp only [hb, decide_false, Bool.not_false, if_true, if_false, List.length_cons]
            push_cast; omega
        · rw [i4, g4, List.length_cons]; push_cast; omega
    · rw [if_neg hT] at h
      obtain ⟨lost, sent, i1, i2⟩ := ih (fun r hr => hp r (by simp [hr])) h
      exact ⟨lost, sent, .refused hT i1, i2⟩

/-- What a screen or empty device adds to its statistics. -/
theorem enter_counts {E : FileEnv} {ch : Int} {k : Nat} {d : Device} {os : Os} {log : DevLog} {o o' : OutSt}
    (hd : d.outType = .screen ∨ d.outType = .empty) (hp : 0 ≤ log.priority ∧ log.priority ≤ 6)
    (h : enterProcDevice E ch k d os log o = some o') :
    (o'.dev k).logs DEVICE_LOG_TOTAL_WRITE_LINE = (o.dev k).logs DEVICE_LOG_TOTAL_WRITE_LINE + 1 ∧
    (o'.dev k).logs DEVICE_LOG_TOTAL_WRITE_BYTE = (o.dev k).logs DEVICE_LOG_TOTAL_WRITE_BYTE + log.text.length := by
  have hp' : log.priority < PRIORITY_MAX := by unfold PRIORITY_MAX; omega
  have key : ∀ g, accountDevice (o.dev k).logs log.priority log.text.length = some g →
      g DEVICE_LOG_TOTAL_WRITE_LINE = (o.dev k).logs DEVICE_LOG_TOTAL_WRITE_LINE + 1 ∧
      g DEVICE_LOG_TOTAL_WRITE_BYTE = (o.dev k).logs DEVICE_LOG_TOTAL_WRITE_BYTE + log.text.length := by
    intro g hg
    obtain ⟨g', hg', w1, w2, _⟩ := C05_device_accounting_partial (o.dev k).logs log.priority log.text.length hp.1 hp'
    rw [hg] at hg'
    obtain rfl := Option.some.inj hg'
    exact ⟨w1, w2⟩
  unfold enterProcDevice at h
  rcases hd with hd | hd
  · rw [hd] at h
    simp only [screenDevice, Option.bind_eq_bind, Option.bind_eq_some_iff, Option.pure_def, Option.some.injEq] at h
    obtain ⟨g, h1, _, _, rfl⟩ := h
    have := key g h1
    show ((o.setDev k _).dev k).logs _ = _ ∧ ((o.setDev k _).dev k).logs _ = _
    rw [setDev_self]
    exact this
  · rw [hd] at h
    simp only [emptyDevice, Option.bind_eq_bind, Option.bind_eq_some_iff, Option.pure_def, Option.some.injEq] at h
    obtain ⟨g, h1, rfl⟩ := h
    rw [setDev_self]
    exact key g h1

/-- A screen or empty device alone. -/
theorem alone_counts {S : Setup} {k : Nat} {d : Device} (hd : d.outType = .screen ∨ d.outType = .empty) :
    ∀ {recs : List (Head × List Char)} {n : Nat} {o o' : OutSt},
    (∀ r ∈ recs, 0 ≤ r.1.priority ∧ r.1.priority ≤ 6) → alone S k d n recs o = some o' →
    (o'.dev k).logs DEVICE_LOG_TOTAL_WRITE_LINE = (o.dev k).logs DEVICE_LOG_TOTAL_WRITE_LINE + (linesFor d recs).length ∧
    (o'.dev k).logs DEVICE_LOG_TOTAL_WRITE_BYTE =
      (o.dev k).logs DEVICE_LOG_TOTAL_WRITE_BYTE + (linesFor d recs).flatten.length := by
  intro recs
  induction recs with
  | nil =>
    intro n o o' _ h
    simp only [alone, Option.some.injEq] at h
    subst h
    simp [linesFor]
  | cons r recs ih =>
    obtain ⟨hr, line⟩ := r
    intro n o o' hp h
    simp only [alone] at h
    have hp0 : 0 ≤ (devLog hr line).priority ∧ (devLog hr line).priority ≤ 6 := hp (hr, line) (by simp)
    by_cases hT : DeviceTakes d hr.priority hr.category hr.identify
    · rw [if_pos hT, Option.bind_eq_some_iff] at h
      obtain ⟨o1, h1, h⟩ := h
      obtain ⟨i1, i2⟩ := ih (fun r hr => hp r (by simp [hr])) h
      obtain ⟨g1, g2⟩ := enter_counts hd hp0 h1
      have e : linesFor d ((hr, line) :: recs) = line :: linesFor d recs := by
        unfold linesFor
        rw [List.filter_cons_of_pos (by simpa using hT)]
        rfl
      have e2 : (devLog hr line).text.length = line.length := rfl
      rw [i1, i2, g1, g2, e, e2, List.length_cons, List.flatten_cons, List.length_append]
      push_cast
      omega
    · rw [if_neg hT] at h
      have e : linesFor d ((hr, line) :: recs) = linesFor d recs := by
        unfold linesFor
        rw [List.filter_cons_of_neg (by simpa using hT)]
      rw [e]
      exact ih (fun r hr => hp r (by simp [hr])) h

end FNLog
