import Verif.Spec.Output
import Verif.Proof.Statement

/-! # Screen and UDP output of dispatched records -/

namespace FNLog
open Spec

theorem screenText_eq {ts p : Int} {text cstr : List Char} (hp : 0 ≤ p ∧ p ≤ 6) :
    screenText ⟨ts, p, text, cstr⟩ =
      some (if p < 2 then cstr else colourOf p ++ cstr ++ "\x1b[0m".toList) := by
  obtain h | h | h | h | h | h | h : p = 0 ∨ p = 1 ∨ p = 2 ∨ p = 3 ∨ p = 4 ∨ p = 5 ∨ p = 6 := by omega
  all_goals subst h; rfl

theorem enter_screen {E : FileEnv} {ch : Int} {k : Nat} {d : Device} {os : Os} {log : DevLog} {o o' : OutSt}
    (hp : 0 ≤ log.priority ∧ log.priority ≤ 6) (h : enterProcDevice E ch k d os log o = some o') :
    o'.screen = o.screen ++ (if d.outType = .screen then
      [if log.priority < 2 then log.cstr else colourOf log.priority ++ log.cstr ++ "\x1b[0m".toList] else []) := by
  obtain ⟨ts, p, text, cstr⟩ := log
  unfold enterProcDevice at h
  split at h
  · rename_i hd
    rw [if_pos hd]
    simp only [screenDevice, screenText_eq hp, Option.bind_eq_bind, Option.bind_some, Option.bind_eq_some_iff,
      Option.pure_def, Option.some.injEq] at h
    obtain ⟨_, _, rfl⟩ := h
    rfl
  · rename_i hd
    rw [if_neg (by rw [hd]; decide), List.append_nil]
    simp only [fileOut, Option.map_eq_some_iff] at h
    obtain ⟨_, _, rfl⟩ := h
    rfl
  · rename_i hd
    rw [if_neg (by rw [hd]; decide), List.append_nil]
    unfold udpDevice at h
    simp only at h
    generalize (if (o.dev k).sock = true then o.dev k else openSock os (o.dev k)) = u at h
    split at h
    · obtain rfl := Option.some.inj h
      rfl
    · simp only [Option.bind_eq_bind, Option.bind_eq_some_iff, Option.pure_def, Option.some.injEq] at h
      obtain ⟨_, _, rfl⟩ := h
      rfl
  · rename_i hd
    rw [if_neg (by rw [hd]; decide), List.append_nil]
    obtain rfl := Option.some.inj h; rfl
  · rename_i hd
    rw [if_neg (by rw [hd]; decide), List.append_nil]
    simp only [emptyDevice, Option.bind_eq_bind, Option.bind_eq_some_iff, Option.pure_def, Option.some.injEq] at h
    obtain ⟨_, _, rfl⟩ := h
    rfl
  · rename_i hd
    rw [if_neg (by rw [hd]; decide), List.append_nil]
    obtain rfl := Option.some.inj h; rfl

open Classical in
theorem takers_cons (ty : OutType) (d : Device) (ds : List Device) (h : Head) :
    takers ty (d :: ds) h =
      (if d.outType = ty ∧ DeviceTakes d h.priority h.category h.identify then [d] else []) ++ takers ty ds h := by
  unfold takers
  rw [List.filter_cons]
  by_cases e : d.outType = ty ∧ DeviceTakes d h.priority h.category h.identify
  · rw [if_pos (by simpa using e), if_pos e]; rfl
  · rw [if_neg (by simpa using e), if_neg e]; rfl

theorem dispatchOut_screen {E : FileEnv} {ch : Int} {os : Nat → Os} {h : Head} {text : List Char}
    (hp : 0 ≤ h.priority ∧ h.priority ≤ 6) : ∀ {ds : List Device} {k : Nat} {o o' : OutSt},
    dispatchOut E ch os (devLog h text) h.category h.identify k ds o = some o' →
    o'.screen = o.screen ++ (takers .screen ds h).map fun _ => shown h.priority text := by
  intro ds
  induction ds with
  | nil =>
    intro k o o' e
    simp only [dispatchOut, Option.some.injEq] at e
    subst e
    simp [takers]
  | cons d ds ih =>
    intro k o o' e
    simp only [dispatchOut, Option.bind_eq_bind, Option.bind_eq_some_iff] at e
    obtain ⟨r, hr, e⟩ := e
    have hspec := dispatchTakes_spec hr
    rw [takers_cons, List.map_append]
    cases r with
    | true =>
      simp only [if_true, Option.bind_eq_some_iff] at e
      obtain ⟨o1, h1, e⟩ := e
      have hT : DeviceTakes d h.priority h.category h.identify := hspec.mp rfl
      rw [ih e, enter_screen hp h1, List.append_assoc]
      congr 1
      congr 1
      by_cases hd : d.outType = .screen
      · rw [if_pos hd, if_pos (c := d.outType = OutType.screen ∧ _) ⟨hd, hT⟩]; rfl
      · rw [if_neg hd, if_neg (c := d.outType = OutType.screen ∧ _) fun x => hd x.1]; rfl
    | false =>
      simp only [Bool.false_eq_true, if_false] at e
      have hT : ¬ DeviceTakes d h.priority h.category h.identify := fun x => absurd (hspec.mpr x) (by simp)
      rw [ih e, if_neg fun x => hT x.2]
      rfl

theorem deliverAll_screen {S : Setup} : ∀ {recs : List (Head × List Char)} {n : Nat} {o o' : OutSt},
    (∀ r ∈ recs, 0 ≤ r.1.priority ∧ r.1.priority ≤ 6) → deliverAll S (cells n recs) o = some o' →
    o'.screen = o.screen ++ screenLines S.channel.devices recs := by
  intro recs
  induction recs with
  | nil =>
    intro n o o' _ h
    simp only [cells, deliverAll, Option.some.injEq] at h
    subst h
    simp [screenLines]
  | cons r recs ih =>
    obtain ⟨hd, line⟩ := r
    intro n o o' hp h
    simp only [cells, deliverAll, deliver, decode_cell, Option.bind_eq_bind, Option.bind_some,
      Option.bind_eq_some_iff] at h
    obtain ⟨o1, h1, h⟩ := h
    rw [ih (fun r hr => hp r (by simp [hr])) h, dispatchOut_screen (hp (hd, line) (by simp)) h1, List.append_assoc]
    rfl

/-! ## UDP -/

theorem udpDevice_cases {k : Nat} {d : Device} {os : Os} {log : DevLog} {o o' : OutSt}
    (h : udpDevice k d os log o = some o') (hp : 0 ≤ log.priority ∧ log.priority ≤ 6) :
    (o'.net = o.net ∧ (o.dev k).sock = false ∧
      (o'.dev k).logs DEVICE_LOG_TOTAL_LOSE_LINE = (o.dev k).logs DEVICE_LOG_TOTAL_LOSE_LINE + 1 ∧
      (o'.dev k).logs DEVICE_LOG_TOTAL_WRITE_LINE = (o.dev k).logs DEVICE_LOG_TOTAL_WRITE_LINE) ∨
    (o'.net = o.net ++ [datagram d log.text] ∧ (o'.dev k).sock = true ∧
      (o'.dev k).logs DEVICE_LOG_TOTAL_LOSE_LINE = (o.dev k).logs DEVICE_LOG_TOTAL_LOSE_LINE + (if 0 < os.sent then 0 else 1) ∧
      (o'.dev k).logs DEVICE_LOG_TOTAL_WRITE_LINE = (o.dev k).logs DEVICE_LOG_TOTAL_WRITE_LINE + 1) := by
  unfold udpDevice at h
  simp only at h
  obtain ⟨u, hu⟩ : ∃ u, u = (if (o.dev k).sock = true then o.dev k else openSock os (o.dev k)) := ⟨_, rfl⟩
  rw [← hu] at h
  have hlogs : u.logs = (o.dev k).logs := by
    rw [hu]; unfold openSock; split
    · rfl
    · split <;> rfl
  split at h
  · rename_i hs
    obtain rfl := Option.some.inj h
    refine Or.inl ⟨rfl, ?_, ?_, ?_⟩
    · cases e : (o.dev k).sock with
      | false => rfl
      | true => rw [e, if_pos rfl] at hu; rw [hu, e] at hs; exact absurd hs (by decide)
    · rw [setDev_self, ← hlogs]
      simp [loseLine, Fields.put]
    · rw [setDev_self, ← hlogs]
      simp [loseLine, Fields.put, DEVICE_LOG_TOTAL_WRITE_LINE, DEVICE_LOG_TOTAL_LOSE_LINE]
  · rename_i hs
    simp only [Option.bind_eq_bind, Option.bind_eq_some_iff, Option.pure_def, Option.some.injEq] at h
    obtain ⟨g, hg, rfl⟩ := h
    obtain ⟨g', hg', w1, _, _, w4⟩ := C05_device_accounting_partial
      (if os.sent ≤ 0 then loseLine u.logs else u.logs) log.priority log.text.length hp.1 (by unfold PRIORITY_MAX; omega)
    rw [hg] at hg'
    obtain rfl := Option.some.inj hg'
    refine Or.inr ⟨rfl, ?_, ?_, ?_⟩
    · show ((o.setDev k _).dev k).sock = true
      rw [setDev_self]
      show u.sock = true
      cases e : u.sock with
      | false => exact absurd e hs
      | true => rfl
    · show ((o.setDev k _).dev k).logs _ = _
      rw [setDev_self]
      show g _ = _
      rw [w4 _ (by decide) (by decide) (by unfold DEVICE_LOG_TOTAL_LOSE_LINE DEVICE_LOG_PRIORITY; omega), ← hlogs]
      by_cases hn : os.sent ≤ 0
      · rw [if_pos hn, if_neg (by omega)]; simp [loseLine, Fields.put]
      · rw [if_neg hn, if_pos (by omega)]; simp
    · show ((o.setDev k _).dev k).logs _ = _
      rw [setDev_self]
      show g _ = _
      rw [w1, ← hlogs]
      split
      · simp [loseLine, Fields.put, DEVICE_LOG_TOTAL_WRITE_LINE, DEVICE_LOG_TOTAL_LOSE_LINE]
      · rfl

theorem enter_nonet {E : FileEnv} {ch : Int} {k : Nat} {d : Device} {os : Os} {log : DevLog} {o o' : OutSt}
    (hd : d.outType ≠ .udp) (h : enterProcDevice E ch k d os log o = some o') :
    o'.net = o.net ∧ ∀ j, (o'.dev j).sock = (o.dev j).sock := by
  have key : ∀ (x : DevSt), x.sock = (o.dev k).sock → ∀ j, ((o.setDev k x).dev j).sock = (o.dev j).sock := by
    intro x hx j
    by_cases e : j = k
    · subst e; rw [setDev_self]; exact hx
    · rw [setDev_other _ _ e]
  unfold enterProcDevice at h
  split at h
  · simp only [screenDevice, Option.bind_eq_bind, Option.bind_eq_some_iff, Option.pure_def, Option.some.injEq] at h
    obtain ⟨_, _, _, _, rfl⟩ := h
    exact ⟨rfl, fun j => by show ((o.setDev k _).dev j).sock = _; exact key _ (by rfl) j⟩
  · simp only [fileOut, Option.map_eq_some_iff] at h
    obtain ⟨_, _, rfl⟩ := h
    exact ⟨rfl, fun j => by show ((o.setDev k _).dev j).sock = _; exact key _ (by rfl) j⟩
  · exact absurd ‹_› hd
  · obtain rfl := Option.some.inj h; exact ⟨rfl, fun _ => rfl⟩
  · simp only [emptyDevice, Option.bind_eq_bind, Option.bind_eq_some_iff, Option.pure_def, Option.some.injEq] at h
    obtain ⟨_, _, rfl⟩ := h
    exact ⟨rfl, fun j => by show ((o.setDev k _).dev j).sock = _; exact key _ (by rfl) j⟩
  · obtain rfl := Option.some.inj h; exact ⟨rfl, fun _ => rfl⟩

theorem enter_udp {E : FileEnv} {ch : Int} {k : Nat} {d : Device} {os : Os} {log : DevLog} {o o' : OutSt}
    (hd : d.outType = .udp) (h : enterProcDevice E ch k d os log o = some o') : udpDevice k d os log o = some o' := by
  unfold enterProcDevice at h
  rw [hd] at h
  exact h

theorem enter_net {E : FileEnv} {ch : Int} {k : Nat} {d : Device} {os : Os} {log : DevLog} {o o' : OutSt}
    (hp : 0 ≤ log.priority ∧ log.priority ≤ 6) (h : enterProcDevice E ch k d os log o = some o') :
    (∃ x, o'.net = o.net ++ x ∧ x.Sublist (if d.outType = .udp then [datagram d log.text] else []) ∧
      ((d.outType = .udp → (o.dev k).sock = true) → x = if d.outType = .udp then [datagram d log.text] else [])) ∧
    ∀ j, (o.dev j).sock = true → (o'.dev j).sock = true := by
  by_cases hd : d.outType = .udp
  · rw [if_pos hd]
    have hj : ∀ j, j ≠ k → (o'.dev j).sock = (o.dev j).sock := fun j e => by rw [enter_other h e]
    rcases udpDevice_cases (enter_udp hd h) hp with ⟨h1, h2, _, _⟩ | ⟨h1, h2, _, _⟩
    · refine ⟨⟨[], by rw [h1, List.append_nil], List.nil_sublist _, fun e => ?_⟩, ?_⟩
      · rw [e hd] at h2
        exact absurd h2 (by decide)
      · intro j hs
        by_cases e : j = k
        · subst e; rw [hs] at h2; exact absurd h2 (by decide)
        · rw [hj j e]; exact hs
    · refine ⟨⟨_, h1, List.Sublist.refl _, fun _ => rfl⟩, ?_⟩
      intro j hs
      by_cases e : j = k
      · subst e; exact h2
      · rw [hj j e]; exact hs
  · rw [if_neg hd]
    obtain ⟨h1, h2⟩ := enter_nonet hd h
    exact ⟨⟨[], by rw [h1, List.append_nil], List.Sublist.refl _, fun _ => rfl⟩, fun j hs => by rw [h2]; exact hs⟩

open Classical in
theorem dispatchOut_net {E : FileEnv} {ch : Int} {os : Nat → Os} {h : Head} {text : List Char}
    (hp : 0 ≤ h.priority ∧ h.priority ≤ 6) : ∀ {ds : List Device} {k : Nat} {o o' : OutSt},
    dispatchOut E ch os (devLog h text) h.category h.identify k ds o = some o' →
    (∃ x, o'.net = o.net ++ x ∧ x.Sublist ((takers .udp ds h).map fun d => datagram d text) ∧
      ((∀ (j : Nat) (d : Device), ds[j]? = some d → d.outType = .udp → (o.dev (k + j)).sock = true) →
        x = (takers .udp ds h).map fun d => datagram d text)) ∧
    ∀ j, (o.dev j).sock = true → (o'.dev j).sock = true := by
  intro ds
  induction ds with
  | nil =>
    intro k o o' e
    simp only [dispatchOut, Option.some.injEq] at e
    subst e
    exact ⟨⟨[], by simp, by simp, fun _ => by simp [takers]⟩, fun _ hs => hs⟩
  | cons d ds ih =>
    intro k o o' e
    simp only [dispatchOut, Option.bind_eq_bind, Option.bind_eq_some_iff] at e
    obtain ⟨r, hr, e⟩ := e
    have hspec := dispatchTakes_spec hr
    rw [takers_cons, List.map_append]
    cases r with
    | true =>
      simp only [if_true, Option.bind_eq_some_iff] at e
      obtain ⟨o1, h1, e⟩ := e
      have hT : DeviceTakes d h.priority h.category h.identify := hspec.mp rfl
      obtain ⟨⟨x, x1, x2, x3⟩, x4⟩ := enter_net hp h1
      obtain ⟨⟨y, y1, y2, y3⟩, y4⟩ := ih e
      have heq : (if d.outType = OutType.udp then [datagram d text] else []) =
          (if d.outType = OutType.udp ∧ DeviceTakes d h.priority h.category h.identify then [d] else []).map
            fun d => datagram d text := by
        by_cases hd : d.outType = .udp
        · rw [if_pos hd, if_pos ⟨hd, hT⟩]; rfl
        · rw [if_neg hd, if_neg fun x => hd x.1]; rfl
      refine ⟨⟨x ++ y, by rw [y1, x1, List.append_assoc], ?_, ?_⟩, fun j hs => y4 j (x4 j hs)⟩
      · rw [← heq]
        exact x2.append y2
      · intro hs
        rw [← heq, y3 ?_, x3 fun hd => hs 0 d rfl hd]
        · rfl
        · intro j a hj ha
          have := hs (j + 1) a (by simpa using hj) ha
          rw [show k + (j + 1) = k + 1 + j by omega] at this
          exact x4 _ this
    | false =>
      simp only [Bool.false_eq_true, if_false] at e
      have hT : ¬ DeviceTakes d h.priority h.category h.identify := fun x => absurd (hspec.mpr x) (by simp)
      obtain ⟨⟨y, y1, y2, y3⟩, y4⟩ := ih e
      rw [if_neg fun x => hT x.2]
      refine ⟨⟨y, y1, y2, fun hs => y3 ?_⟩, y4⟩
      intro j a hj ha
      have := hs (j + 1) a (by simpa using hj) ha
      rwa [show k + (j + 1) = k + 1 + j by omega] at this

theorem deliverAll_net {S : Setup} : ∀ {recs : List (Head × List Char)} {n : Nat} {o o' : OutSt},
    (∀ r ∈ recs, 0 ≤ r.1.priority ∧ r.1.priority ≤ 6) → deliverAll S (cells n recs) o = some o' →
    ∃ x, o'.net = o.net ++ x ∧ x.Sublist (datagrams S.channel.devices recs) ∧
      ((∀ (j : Nat) (d : Device), S.channel.devices[j]? = some d → d.outType = .udp → (o.dev j).sock = true) →
        x = datagrams S.channel.devices recs) := by
  intro recs
  induction recs with
  | nil =>
    intro n o o' _ h
    simp only [cells, deliverAll, Option.some.injEq] at h
    subst h
    exact ⟨[], by simp, by simp, fun _ => by simp [datagrams]⟩
  | cons r recs ih =>
    obtain ⟨hd, line⟩ := r
    intro n o o' hp h
    simp only [cells, deliverAll, deliver, decode_cell, Option.bind_eq_bind, Option.bind_some,
      Option.bind_eq_some_iff] at h
    obtain ⟨o1, h1, h⟩ := h
    obtain ⟨⟨x, x1, x2, x3⟩, x4⟩ := dispatchOut_net (hp (hd, line) (by simp)) h1
    obtain ⟨y, y1, y2, y3⟩ := ih (fun r hr => hp r (by simp [hr])) h
    have e : datagrams S.channel.devices ((hd, line) :: recs) =
      (takers .udp S.channel.devices hd).map (fun d => datagram d line) ++ datagrams S.channel.devices recs := rfl
    rw [e]
    refine ⟨x ++ y, by rw [y1, x1, List.append_assoc], x2.append y2, fun hs => ?_⟩
    rw [y3 fun j d hj hd => x4 j (hs j d hj hd), x3 fun j d hj hd => ?_]
    rw [Nat.zero_add]
    exact hs j d hj hd

/-! ### Statistics of a UDP device -/

/-- Lost or written lines of the statistics. -/
def UdpStep (ok : Bool) (f g : Fields) : Prop :=
  (g DEVICE_LOG_TOTAL_LOSE_LINE = f DEVICE_LOG_TOTAL_LOSE_LINE + 1 ∧
    g DEVICE_LOG_TOTAL_WRITE_LINE = f DEVICE_LOG_TOTAL_WRITE_LINE) ∨
  (g DEVICE_LOG_TOTAL_LOSE_LINE = f DEVICE_LOG_TOTAL_LOSE_LINE + (if ok then 0 else 1) ∧
    g DEVICE_LOG_TOTAL_WRITE_LINE = f DEVICE_LOG_TOTAL_WRITE_LINE + 1)

theorem dispatchOut_below {E : FileEnv} {ch : Int} {os : Nat → Os} {log : DevLog} {c i : Int} :
    ∀ {ds : List Device} {k : Nat} {o o' : OutSt}, dispatchOut E ch os log c i k ds o = some o' →
    ∀ j, j < k → o'.dev j = o.dev j := by
  intro ds
  induction ds with
  | nil =>
    intro k o o' e j _
    simp only [dispatchOut, Option.some.injEq] at e
    rw [e]
  | cons d ds ih =>
    intro k o o' e j hj
    simp only [dispatchOut, Option.bind_eq_bind, Option.bind_eq_some_iff] at e
    obtain ⟨r, hr, e⟩ := e
    cases r with
    | true =>
      simp only [if_true, Option.bind_eq_some_iff] at e
      obtain ⟨o1, h1, e⟩ := e
      rw [ih e j (by omega), enter_other h1 (by omega)]
    | false =>
      simp only [Bool.false_eq_true, if_false] at e
      exact ih e j (by omega)

theorem dispatchOut_udp {E : FileEnv} {ch : Int} {os : Nat → Os} {h : Head} {text : List Char}
    (hp : 0 ≤ h.priority ∧ h.priority ≤ 6) : ∀ {ds : List Device} {k : Nat} {o o' : OutSt},
    dispatchOut E ch os (devLog h text) h.category h.identify k ds o = some o' →
    ∀ (j : Nat) (d : Device), ds[j]? = some d → d.outType = .udp →
    (DeviceTakes d h.priority h.category h.identify →
      UdpStep (decide (0 < (os (k + j)).sent)) (o.dev (k + j)).logs (o'.dev (k + j)).logs) ∧
    (¬ DeviceTakes d h.priority h.category h.identify → (o'.dev (k + j)).logs = (o.dev (k + j)).logs) := by
  intro ds
  induction ds with
  | nil => intro k o o' _ j d hj; exact absurd hj (by simp)
  | cons a ds ih =>
    intro k o o' e j d hj hd
    simp only [dispatchOut, Option.bind_eq_bind, Option.bind_eq_some_iff] at e
    obtain ⟨r, hr, e⟩ := e
    have hspec := dispatchTakes_spec hr
    match j with
    | 0 =>
      obtain rfl : a = d := by simpa using hj
      rw [Nat.add_zero]
      cases r with
      | true =>
        simp only [if_true, Option.bind_eq_some_iff] at e
        obtain ⟨o1, h1, e⟩ := e
        refine ⟨fun _ => ?_, fun hn => absurd (hspec.mp rfl) hn⟩
        rw [dispatchOut_below e k (by omega)]
        rcases udpDevice_cases (enter_udp hd h1) hp with ⟨_, _, h3, h4⟩ | ⟨_, _, h3, h4⟩
        · exact Or.inl ⟨h3, h4⟩
        · refine Or.inr ⟨?_, h4⟩
          simp only [decide_eq_true_eq]
          exact h3
      | false =>
        simp only [Bool.false_eq_true, if_false] at e
        refine ⟨fun hT => absurd (hspec.mpr hT) (by simp), fun _ => ?_⟩
        rw [dispatchOut_below e k (by omega)]
    | j + 1 =>
      have hj' : ds[j]? = some d := by simpa using hj
      rw [show k + (j + 1) = k + 1 + j by omega]
      cases r with
      | true =>
        simp only [if_true, Option.bind_eq_some_iff] at e
        obtain ⟨o1, h1, e⟩ := e
        have := ih e j d hj' hd
        rw [enter_other h1 (j := k + 1 + j) (by omega)] at this
        exact this
      | false =>
        simp only [Bool.false_eq_true, if_false] at e
        exact ih e j d hj' hd

theorem deliverAll_udp {S : Setup} {k : Nat} {d : Device} (hk : S.channel.devices[k]? = some d) (hd : d.outType = .udp) :
    ∀ {recs : List (Head × List Char)} {n : Nat} {o o' : OutSt},
    (∀ r ∈ recs, 0 ≤ r.1.priority ∧ r.1.priority ≤ 6) → deliverAll S (cells n recs) o = some o' →
    ∃ lost sent, UdpFate S.os k d n recs lost sent ∧
      (o'.dev k).logs DEVICE_LOG_TOTAL_LOSE_LINE = (o.dev k).logs DEVICE_LOG_TOTAL_LOSE_LINE + lost +
        (sent.filter fun x => !x.2).length ∧
      (o'.dev k).logs DEVICE_LOG_TOTAL_WRITE_LINE = (o.dev k).logs DEVICE_LOG_TOTAL_WRITE_LINE + sent.length := by
  intro recs
  induction recs with
  | nil =>
    intro n o o' _ h
    simp only [cells, deliverAll, Option.some.injEq] at h
    subst h
    exact ⟨0, [], .nil, by simp, by simp⟩
  | cons r recs ih =>
    obtain ⟨hd', line⟩ := r
    intro n o o' hp h
    simp only [cells, deliverAll, deliver, decode_cell, Option.bind_eq_bind, Option.bind_some,
      Option.bind_eq_some_iff] at h
    obtain ⟨o1, h1, h⟩ := h
    obtain ⟨f1, f2⟩ := dispatchOut_udp (hp (hd', line) (by simp)) h1 k d hk hd
    rw [Nat.zero_add] at f1 f2
    obtain ⟨lost, sent, i1, i2, i3⟩ := ih (fun r hr => hp r (by simp [hr])) h
    by_cases hT : DeviceTakes d hd'.priority hd'.category hd'.identify
    · rcases f1 hT with ⟨g1, g2⟩ | ⟨g1, g2⟩
      · refine ⟨lost + 1, sent, .lost hT i1, ?_, ?_⟩
        · rw [i2, g1]; push_cast; omega
        · rw [i3, g2]
      · refine ⟨lost, _, .sent hT i1, ?_, ?_⟩
        · rw [i2, g1, List.filter_cons]
          by_cases hb : 0 < (S.os n k).sent
          · simp [hb]
          · simp only [hb, decide_false, Bool.not_false, if_true, Bool.false_eq_true, if_false, List.length_cons]
            push_cast; omega
        · rw [i3, g2, List.length_cons]; push_cast; omega
    · refine ⟨lost, sent, .refused hT i1, ?_, ?_⟩
      · rw [i2, f2 hT]
      · rw [i3, f2 hT]

/-! ### Sequences -/

theorem udpFate_append {os : Nat → Nat → Os} {k : Nat} {d : Device} {n : Nat} {r q : List (Head × List Char)}
    {l m : Nat} {a b : List (List Char × Bool)} (h : UdpFate os k d n r l a) (h' : UdpFate os k d (n + r.length) q m b) :
    UdpFate os k d n (r ++ q) (l + m) (a ++ b) := by
  induction h with
  | nil => simpa using h'
  | refused h1 _ ih =>
    refine .refused h1 (ih ?_)
    rw [List.length_cons] at h'
    rwa [show ∀ x y : Nat, x + 1 + y = x + (y + 1) by omega]
  | @lost n h line rest l sent h1 _ ih =>
    rw [show l + 1 + m = l + m + 1 by omega]
    refine .lost h1 (ih ?_)
    rw [List.length_cons] at h'
    rwa [show ∀ x y : Nat, x + 1 + y = x + (y + 1) by omega]
  | sent h1 _ ih =>
    refine .sent h1 (ih ?_)
    rw [List.length_cons] at h'
    rwa [show ∀ x y : Nat, x + 1 + y = x + (y + 1) by omega]

/-- What the records from number `n` on have put out on screen and network. -/
structure Emitted (S : Setup) (n : Nat) (recs : List (Head × List Char)) (o o' : OutSt) : Prop where
  screen : o'.screen = o.screen ++ screenLines S.channel.devices recs
  net : ∃ x, o'.net = o.net ++ x ∧ x.Sublist (datagrams S.channel.devices recs) ∧
    ((∀ (j : Nat) (d : Device), S.channel.devices[j]? = some d → d.outType = .udp → (o.dev j).sock = true) →
      x = datagrams S.channel.devices recs)
  socks : ∀ j, (o.dev j).sock = true → (o'.dev j).sock = true
  udp : ∀ (k : Nat) (d : Device), S.channel.devices[k]? = some d → d.outType = .udp →
    (S.hook = false ∨ S.channel.virtualDeviceId ≠ k) → ∃ lost sent, UdpFate S.os k d n recs lost sent ∧
      (o'.dev k).logs DEVICE_LOG_TOTAL_LOSE_LINE = (o.dev k).logs DEVICE_LOG_TOTAL_LOSE_LINE + lost +
        (sent.filter fun x => !x.2).length ∧
      (o'.dev k).logs DEVICE_LOG_TOTAL_WRITE_LINE = (o.dev k).logs DEVICE_LOG_TOTAL_WRITE_LINE + sent.length

theorem Emitted.nil (S : Setup) (n : Nat) (o : OutSt) : Emitted S n [] o o :=
  ⟨by simp [screenLines], ⟨[], by simp, by simp, fun _ => by simp [datagrams]⟩, fun _ h => h,
    fun _ _ _ _ _ => ⟨0, [], .nil, by simp, by simp⟩⟩

theorem Emitted.hooked {S : Setup} {h : Head} {text : List Char} {s s1 : Sys} (hh : Hooked S h text s s1) (n : Nat) :
    Emitted S n [] s.out s1.out where
  screen := by rw [hh.screen]; simp [screenLines]
  net := ⟨[], by rw [hh.net]; simp, by simp, fun _ => by simp [datagrams]⟩
  socks := fun j hj => by rw [hh.sock]; exact hj
  udp := by
    intro k d _ _ hk
    have e : s1.out.dev k = s.out.dev k := by
      rcases hk with hk | hk
      · rw [hh.quiet (Or.inl hk)]
      · by_cases hneg : S.channel.virtualDeviceId < 0
        · rw [hh.quiet (Or.inr hneg)]
        · exact hh.others k (by omega)
    exact ⟨0, [], .nil, by rw [e]; simp, by rw [e]; simp⟩

theorem Emitted.deliverAll {S : Setup} {recs : List (Head × List Char)} {n : Nat} {o o' : OutSt}
    (hp : ∀ r ∈ recs, 0 ≤ r.1.priority ∧ r.1.priority ≤ 6) (h : FNLog.deliverAll S (cells n recs) o = some o') :
    Emitted S n recs o o' := by
  refine ⟨deliverAll_screen hp h, deliverAll_net hp h, ?_, fun k d hk hd _ => deliverAll_udp hk hd hp h⟩
  induction recs generalizing n o with
  | nil =>
    simp only [cells, FNLog.deliverAll, Option.some.injEq] at h
    subst h
    exact fun _ h => h
  | cons r recs ih =>
    obtain ⟨hd, line⟩ := r
    simp only [cells, FNLog.deliverAll, deliver, decode_cell, Option.bind_eq_bind, Option.bind_some,
      Option.bind_eq_some_iff] at h
    obtain ⟨o1, h1, h⟩ := h
    intro j hj
    exact ih (fun r hr => hp r (by simp [hr])) h j ((dispatchOut_net (hp (hd, line) (by simp)) h1).2 j hj)

theorem Emitted.trans {S : Setup} {r q : List (Head × List Char)} {n : Nat} {o o1 o2 : OutSt}
    (h : Emitted S n r o o1) (h' : Emitted S (n + r.length) q o1 o2) : Emitted S n (r ++ q) o o2 where
  screen := by rw [h'.screen, h.screen, List.append_assoc]; simp [screenLines]
  net := by
    obtain ⟨x, x1, x2, x3⟩ := h.net
    obtain ⟨y, y1, y2, y3⟩ := h'.net
    have e : datagrams S.channel.devices (r ++ q) = datagrams S.channel.devices r ++ datagrams S.channel.devices q := by
      simp [datagrams]
    rw [e]
    exact ⟨x ++ y, by rw [y1, x1, List.append_assoc], x2.append y2, fun hs => by
      rw [x3 hs, y3 fun j d hj hd => h.socks j (hs j d hj hd)]⟩
  socks := fun j hj => h'.socks j (h.socks j hj)
  udp := by
    intro k d hk hd hv
    obtain ⟨l, a, f, e1, e2⟩ := h.udp k d hk hd hv
    obtain ⟨m, b, f', e1', e2'⟩ := h'.udp k d hk hd hv
    refine ⟨l + m, a ++ b, udpFate_append f f', ?_, ?_⟩
    · rw [e1', e1, List.filter_append, List.length_append]; push_cast; omega
    · rw [e2', e2, List.length_append]; push_cast; omega

end FNLog
