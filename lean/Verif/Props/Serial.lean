import Verif.Proof.SerialEnd
import Verif.Props.Capstone
import Verif.Props.Reach

/-!
# C108: a sync channel, one log statement at a time

The README says of sync channels: "only support single thread".  Here is what holds if this advice is followed: at no time two
threads are inside of log statements (`Serial`); which threads make the statements does not matter.  Rotation and failing writes are
allowed.  C13, C73, C92 and C101 say what else can happen.
-/

namespace FNLog
open Spec Ring

/-- What the files hold after the records, and nothing is left in a buffer. -/
structure Spec.Recorded (S : Setup) (o : OutSt) (f : FCrew) (recs : List (Head × List Char)) : Prop where
  device : ∀ (j : Nat) (d : Device), S.channel.devices[j]? = some d → d.outType = .file →
    ∃ taken t, Runs S.fenv S.channel.id d (view o j) (handed S.os j d 0 recs) taken t ∧
      ∀ p, FilesOf S.fenv S.channel.id d p → bytesOf f.crew.out.fs p = bytesOf t.fs p
  foreign : ∀ p, Foreign S.fenv S.channel.id S.channel.devices p → f.crew.out.fs p = o.fs p

/-- No thread was inside of a log statement at the beginning. -/
theorem all_idle {S : Setup} {B : Stdio} {o : OutSt} {es rs : List Act} {f : FCrew} {s : Crew} (hA : S.cfg.async = false)
    (hrs : rs.Sublist es) (hs : acts S rs (crew S o) = some s) (h : FInv S B o f s)
    (hidle : ∀ e ∈ es, ∀ t, e.thread = some t → f.crew.ring.pc t = .idle) (t : Nat) : f.crew.ring.pc t = .idle := by
  by_cases hx : ∃ e ∈ es, e.thread = some t
  · obtain ⟨e, he, ht⟩ := hx
    exact hidle e he t ht
  · rw [h.rel.ring, acts_pc_other rs hs fun e he ht => hx ⟨e, hrs.subset he, ht⟩]
    show (Ring.init S.cfg).pc t = _
    simp [Ring.init, hA]

theorem serial_after {S : Setup} (hS : Ready S) (hA : S.cfg.async = false) (hap : FilesApart S.fenv S.channel.id S.channel.devices)
    {o : OutSt} (ho : Spec.Own S.fenv S.channel.id S.channel.devices o)
    (hex : ∀ (j : Nat) (d : Device) (p : List Char), S.channel.devices[j]? = some d → d.outType = .file →
      (o.dev j).handle = some p → o.fs p ≠ none)
    (B : Stdio) {es : List Act} (hG : Serial S B es (fCrew S o)) (he : ∀ e ∈ es, SoundAct S e) :
    FOnTime S B es (fCrew S o) ∧ ∃ (f : FCrew) (rs : List Act) (s : Crew), fActs S B es (fCrew S o) = some f ∧ rs.Sublist es ∧
      OnTime S rs (crew S o) ∧ acts S rs (crew S o) = some s ∧ FInv S B o f s ∧ ∃ t, SerAt S t s :=
  serial_acts hA hS hap (FInv.init B hS ho hex) ⟨0, SerAt.init hA o 0⟩ hG he

theorem FInvFrom.recorded {S : Setup} {B : Stdio} {o : OutSt} {f : FCrew} {s : Crew} (h6 : FInv S B o f s)
    {recs : List (Head × List Char)} (hf : FilesAfter S o s fun _ => recs) (hbuf : ∀ j, f.buf j = []) : Recorded S o f recs where
  device := by
    intro j d hj hd
    obtain ⟨taken, t, q1, _, _, q4⟩ := hf.device j d hj hd
    refine ⟨taken, t, q1, fun p hp => ?_⟩
    have hb := (h6.rel.files j d hj hd).files p hp
    have : pendingAt (f.file j) p = [] := by
      unfold pendingAt
      split
      · show (f.buf j).bytes = []
        rw [hbuf j]; rfl
      · rfl
    rw [this, option_map_append_nil] at hb
    refine Eq.trans hb.symm ?_
    show bytesOf s.out.fs p = bytesOf t.fs p
    unfold bytesOf
    rw [q4 p hp]
  foreign := fun p hp => (h6.rel.foreign p hp).trans (hf.foreign p hp)

/-- **C108**: one statement at a time on a sync channel.  No step is undefined, no closed stream is flushed, every compare-and-swap is
timely (which is an assumption elsewhere, `FOnTime`).  When no thread is inside of a log statement and the channel was not stopped,
the devices have processed the records of the admitted statements, all of them and in the order of the statements: the files
hold, byte for byte, what each file device writes for these records one after the other (C46-C51), with nothing left in a
buffer; other files are as they were; the screen shows them and they were sent, in this order, and the statistics count
them. -/
theorem C108_one_at_a_time {S : Setup} (hS : Ready S) (hA : S.cfg.async = false)
    (hap : FilesApart S.fenv S.channel.id S.channel.devices) {o : OutSt} (ho : Own S.fenv S.channel.id S.channel.devices o)
    (hex : ∀ (j : Nat) (d : Device) (p : List Char), S.channel.devices[j]? = some d → d.outType = .file →
      (o.dev j).handle = some p → o.fs p ≠ none)
    (B : Stdio) {es : List Act} (hG : Serial S B es (fCrew S o)) (he : ∀ e ∈ es, SoundAct S e) :
    FOnTime S B es (fCrew S o) ∧
    ∃ f, fActs S B es (fCrew S o) = some f ∧
      (∀ t j g, f.fl t = .call j g → (f.crew.out.dev j).handle ≠ none ∧ f.gen j = g) ∧
      ((∀ e ∈ es, e.noStop) → (∀ e ∈ es, ∀ t, e.thread = some t → f.crew.ring.pc t = .idle) →
        ∃ recs, Logged S (f.crew.made.map Prod.snd) recs ∧ Recorded S o f recs ∧ (∀ j, f.buf j = []) ∧
          (∃ fs, DevicesAfter S o { f.crew with out := { f.crew.out with fs := fs } } (fun _ => recs)) ∧
          f.crew.out.screen = o.screen ++ screenLines S.channel.devices recs ∧
          ∃ sent, f.crew.out.net = o.net ++ sent ∧ sent.Sublist (datagrams S.channel.devices recs) ∧
            ((∀ (j : Nat) (d : Device), S.channel.devices[j]? = some d → d.outType = .udp → (o.dev j).sock = true) →
              sent = datagrams S.channel.devices recs)) := by
  obtain ⟨h0, f, rs, s, h1, h2, h3, h4, h5, t, h6⟩ := serial_after hS hA hap ho hex B hG he
  refine ⟨h0, f, h1, h5.live, fun hn hi => ?_⟩
  have hidle := all_idle hA h2 h4 h5 hi
  obtain ⟨_, _, recs, r1, r2, r3, r4, r5⟩ := serial_end hA hS hap ho (fun e h => he e (h2.subset h)) h3
    (fun e h => hn e (h2.subset h)) h4 h6 (fun u => by rw [← h5.rel.ring]; exact hidle u)
  have hbuf : ∀ j, f.buf j = [] := fun j => lagOf_all fun t => h5.rest (Or.inl (hidle t)) j
  refine ⟨recs, by rw [h5.rel.made]; exact r1, h5.recorded r2 hbuf, hbuf, ?_, by rw [h5.rel.screen]; exact r4,
    by rw [h5.rel.net]; exact r5⟩
  have e : { f.crew with out := { f.crew.out with fs := s.out.fs } } = s := by
    have e1 := h5.rel.dev; have e2 := h5.rel.screen; have e3 := h5.rel.net
    have e4 := h5.rel.crew_eq
    rw [e4]
    generalize f.crew.out = a at e1 e2 e3
    obtain ⟨_, _, _, _⟩ := a
    simp only at e1 e2 e3
    subst e1 e2 e3
    rfl
  exact ⟨s.out.fs, by rw [e]; exact r3⟩

theorem serial_append {S : Setup} {B : Stdio} : ∀ {es es' : List Act} {f : FCrew}, Serial S B es f →
    (∀ f', fActs S B es f = some f' → Serial S B es' f') → Serial S B (es ++ es') f := by
  intro es
  induction es with
  | nil => intro es' f _ h; exact h f rfl
  | cons e es ih =>
    intro es' f h1 h2
    refine ⟨h1.1, fun f1 hf1 => ih (h1.2 f1 hf1) fun f' hf' => h2 f' ?_⟩
    show (fAct S B f e).bind _ = _
    rw [hf1]; exact hf'

theorem serial_split {S : Setup} {B : Stdio} : ∀ {es es' : List Act} {f f' : FCrew}, Serial S B (es ++ es') f →
    fActs S B es f = some f' → Serial S B es' f' := by
  intro es
  induction es with
  | nil => intro es' f f' h hf; obtain rfl := Option.some.inj hf; exact h
  | cons e es ih =>
    intro es' f f' h hf
    simp only [fActs, Option.bind_eq_bind, Option.bind_eq_some_iff] at hf
    obtain ⟨f1, h1, h2⟩ := hf
    exact ih (h.2 f1 h1) h2

/-- **C108**: a statement that begins when no other is in progress returns after finitely many steps of its thread, without waiting for
anybody; the logger still runs, and again no statement is in progress. -/
theorem C108_returns {S : Setup} (hS : Ready S) (hA : S.cfg.async = false)
    (hap : FilesApart S.fenv S.channel.id S.channel.devices) {o : OutSt} (ho : Own S.fenv S.channel.id S.channel.devices o)
    (hex : ∀ (j : Nat) (d : Device) (p : List Char), S.channel.devices[j]? = some d → d.outType = .file →
      (o.dev j).handle = some p → o.fs p ≠ none)
    (B : Stdio) {es : List Act} (hG : Serial S B es (fCrew S o)) (he : ∀ e ∈ es, SoundAct S e) (hn : ∀ e ∈ es, e.noStop)
    {f : FCrew} (hf : fActs S B es (fCrew S o) = some f)
    (hidle : ∀ e ∈ es, ∀ t, e.thread = some t → f.crew.ring.pc t = .idle) (hrun : f.crew.ring.lgRunning = true)
    (t : Nat) (a : Call) (ops : List StreamOp) (hs : Sound S a ops) :
    ∃ n0, ∀ n, n0 ≤ n → Serial S B (es ++ .log t a ops :: List.replicate n (.run t)) (fCrew S o) ∧
      ∃ f', fActs S B (es ++ .log t a ops :: List.replicate n (.run t)) (fCrew S o) = some f' ∧
        (∀ u, f'.crew.ring.pc u = .idle) ∧ f'.crew.ring.lgRunning = true ∧ f'.crew.made = f.crew.made ++ [(t, a, ops)] := by
  obtain ⟨_, f0, rs, s, h1, h2, h3, h4, h5, t0, h6⟩ := serial_after hS hA hap ho hex B hG he
  rw [hf] at h1
  obtain rfl := Option.some.inj h1
  have hidle := all_idle hA h2 h4 h5 hidle
  have hidle' : ∀ u, s.ring.pc u = .idle := fun u => by rw [← h5.rel.ring]; exact hidle u
  obtain ⟨hR, hst, _⟩ := serial_end hA hS hap ho (fun e h => he e (h2.subset h)) h3 (fun e h => hn e (h2.subset h)) h4 h6 hidle'
  rw [← h5.rel.ring] at hR hst
  -- the beginning
  obtain ⟨f1, g1, g2⟩ := h5.act hS hap (e := .log t a ops) (Or.inr fun _ _ u _ => hidle u) (show SoundAct S (.log t a ops) from hs)
    (fun u hu => by cases hu)
  obtain ⟨s1, g3⟩ : ∃ s1, FInv S B o f1 s1 := by
    rcases g2 with ⟨_, e, _⟩ | ⟨_, s1, _, g3⟩
    · cases e
    · exact ⟨s1, g3⟩
  have hact : ∃ body cache, formed S a ops (f.crew.caches t) = some (body, cache) ∧
      f1 = { f with crew := { f.crew with ring := holdFor S.cfg t f.crew.ring body, caches := upd f.crew.caches t cache, made := f.crew.made ++ [(t, a, ops)] } } := by
    have g1' := g1
    simp only [fAct, act, beginLog, hidle t, hrun, hst, and_self, if_true] at g1'
    cases hx : formed S a ops (f.crew.caches t) with
    | none => rw [hx] at g1'; exact absurd g1' (by simp)
    | some x =>
      rw [hx] at g1'
      exact ⟨x.1, x.2, rfl, (Option.some.inj g1').symm⟩
  obtain ⟨body, cache, _, e1⟩ := hact
  have hmade : f1.crew.made = f.crew.made ++ [(t, a, ops)] := by rw [e1]
  have hring : f1.crew.ring = holdFor S.cfg t f.crew.ring body := by rw [e1]
  -- the steps
  have key : ∃ n0, ∀ n, n0 ≤ n → Serial S B (List.replicate n (.run t)) f1 ∧
      ∃ f', fActs S B (List.replicate n (.run t)) f1 = some f' ∧ (∀ u, f'.crew.ring.pc u = .idle) ∧
        f'.crew.ring.lgRunning = f1.crew.ring.lgRunning ∧ f'.crew.made = f1.crew.made := by
    have hroom : f.crew.ring.H + 1 < f.crew.ring.R + S.cfg.L := by have := hS.slots; omega
    have hinv := h5.crew.ring
    rw [← h5.rel.ring] at hinv
    cases body with
    | none =>
      have e : f1.crew.ring = f.crew.ring := hring
      exact ⟨0, fun n _ => serial_idle hS hap n g3 fun u => by rw [e]; exact hidle u⟩
    | some b =>
      refine ⟨homeRank S t f1, fun n hn => serial_home hS hap hroom (t := t) (b := b) (fun u _ => hidle u) n g3 ?_ (Or.inl hn)⟩
      rw [hring]
      show Alone S.cfg _ t b (Ring.step S.cfg f.crew.ring (.call t b))
      have e : Ring.step S.cfg f.crew.ring (.call t b) =
          { f.crew.ring with calls := f.crew.ring.calls ++ [(t, b)] }.go t (.hChk 0 b) := by
        simp only [Ring.step, hidle t]
        rw [if_pos ⟨hrun, hst⟩]
      rw [e]
      refine ⟨hst, ?_, fun u hu => ?_, Or.inl ⟨?_, rfl, rfl, rfl⟩, ?_, ?_, rfl, rfl, rfl, ?_⟩
      · simp [St.go, Exact]
      · simp [St.go, hu]
      · simp [St.go, pending]
      · intro h; rw [hA] at h; cases h
      · simp [St.go, smooth]
      · intro h; rw [hA] at h; cases h
  obtain ⟨n0, key⟩ := key
  refine ⟨n0, fun n hn0 => ?_⟩
  obtain ⟨k1, f', k2, k3, k4, k5⟩ := key n hn0
  refine ⟨serial_append hG fun f2 hf2 => ?_, f', ?_, k3, ?_, by rw [k5, hmade]⟩
  · rw [hf] at hf2
    obtain rfl := Option.some.inj hf2
    refine ⟨fun _ _ u _ => hidle u, fun f3 hf3 => ?_⟩
    rw [g1] at hf3
    obtain rfl := Option.some.inj hf3
    exact k1
  · rw [fActs_append, hf]
    show (fAct S B f (.log t a ops)).bind _ = _
    rw [g1]; exact k2
  · rw [k4, hring]
    cases body with
    | none => exact hrun
    | some b =>
      show (Ring.step S.cfg f.crew.ring (.call t b)).lgRunning = true
      simp only [Ring.step, hidle t]
      rw [if_pos ⟨hrun, hst⟩]
      exact hrun

/-- **C108**: every sequence of statements, each by any thread, can be executed: after `started` each statement runs until it returns,
then the next one begins.  (With `C108_one_at_a_time`: all of them are in the files then, in this order.) -/
theorem C108_programs {S : Setup} (hS : Ready S) (hA : S.cfg.async = false)
    (hap : FilesApart S.fenv S.channel.id S.channel.devices) {o : OutSt} (ho : Own S.fenv S.channel.id S.channel.devices o)
    (hex : ∀ (j : Nat) (d : Device) (p : List Char), S.channel.devices[j]? = some d → d.outType = .file →
      (o.dev j).handle = some p → o.fs p ≠ none)
    (B : Stdio) (prog : List (Nat × Call × List StreamOp)) (hs : ∀ x ∈ prog, Sound S x.2.1 x.2.2) :
    ∃ es f, Serial S B es (fCrew S o) ∧ (∀ e ∈ es, SoundAct S e) ∧ (∀ e ∈ es, e.noStop) ∧
      fActs S B es (fCrew S o) = some f ∧ (∀ u, f.crew.ring.pc u = .idle) ∧ f.crew.ring.lgRunning = true ∧ f.crew.made = prog := by
  have key : ∀ (rest done : List (Nat × Call × List StreamOp)), (∀ x ∈ rest, Sound S x.2.1 x.2.2) →
      (∃ es f, Serial S B es (fCrew S o) ∧ (∀ e ∈ es, SoundAct S e) ∧ (∀ e ∈ es, e.noStop) ∧
        fActs S B es (fCrew S o) = some f ∧ (∀ u, f.crew.ring.pc u = .idle) ∧ f.crew.ring.lgRunning = true ∧
        f.crew.made = done) →
      ∃ es f, Serial S B es (fCrew S o) ∧ (∀ e ∈ es, SoundAct S e) ∧ (∀ e ∈ es, e.noStop) ∧
        fActs S B es (fCrew S o) = some f ∧ (∀ u, f.crew.ring.pc u = .idle) ∧ f.crew.ring.lgRunning = true ∧
        f.crew.made = done ++ rest := by
    intro rest
    induction rest with
    | nil => intro done _ h; simpa using h
    | cons x rest ih =>
      intro done hs ⟨es, f, h1, h2, h3, h4, h5, h6, h7⟩
      obtain ⟨t, a, ops⟩ := x
      obtain ⟨n0, hn0⟩ := C108_returns hS hA hap ho hex B h1 h2 h3 h4 (fun _ _ u _ => h5 u) h6 t a ops (hs _ (List.mem_cons_self ..))
      obtain ⟨g1, f', g2, g3, g4, g5⟩ := hn0 n0 (Nat.le_refl _)
      have := ih (done ++ [(t, a, ops)]) (fun x hx => hs x (List.mem_cons_of_mem _ hx))
        ⟨_, f', g1, ?_, ?_, g2, g3, g4, by rw [g5, h7]⟩
      · simpa using this
      · intro e he
        rcases List.mem_append.mp he with he | he
        · exact h2 e he
        rcases List.mem_cons.mp he with rfl | he
        · exact hs _ (List.mem_cons_self ..)
        · rw [(List.mem_replicate.mp he).2]; trivial
      · intro e he
        rcases List.mem_append.mp he with he | he
        · exact h3 e he
        rcases List.mem_cons.mp he with rfl | he
        · trivial
        · rw [(List.mem_replicate.mp he).2]; trivial
  have hi : ∀ u, (Ring.init S.cfg).pc u = .idle := fun u => by simp [Ring.init, hA]
  have hst : (Ring.init S.cfg).state = .running := by simp [Ring.init, hA]
  have h0 : fActs S B [.started] (fCrew S o) =
      some { fCrew S o with crew := { crew S o with ring := { Ring.init S.cfg with lgRunning := true } } } := by
    show some { fCrew S o with crew := { crew S o with ring := Ring.step S.cfg (Ring.init S.cfg) .started } } = _
    simp only [Ring.step]
    rw [if_pos hst]
  refine key prog [] hs ⟨[.started], _, ⟨fun t ht => absurd ht (by simp [Act.thread]), fun _ _ => trivial⟩, ?_, ?_, h0, hi, rfl, rfl⟩
  · intro e he; rw [List.mem_singleton.mp he]; trivial
  · intro e he; rw [List.mem_singleton.mp he]; trivial

/-- **C108**: a channel that is used by one thread only, as the README wants it, is used by one statement at a time. -/
theorem C108_one_thread {S : Setup} (hA : S.cfg.async = false) (B : Stdio) (o : OutSt) (t0 : Nat) {es : List Act}
    (he : ∀ e ∈ es, ∀ t, e.thread = some t → t = t0) : Serial S B es (fCrew S o) := by
  have key : ∀ (es : List Act) (f : FCrew), (∀ e ∈ es, ∀ t, e.thread = some t → t = t0) →
      (∀ u, u ≠ t0 → f.crew.ring.pc u = .idle) → Serial S B es f := by
    intro es
    induction es with
    | nil => intro f _ _; trivial
    | cons e es ih =>
      intro f he hi
      have hth := he e (List.mem_cons_self ..)
      refine ⟨fun t ht u hu => hi u (by rw [hth t ht] at hu; exact hu), fun f' hf' => ih f' (fun x hx => he x (List.mem_cons_of_mem _ hx)) ?_⟩
      intro u hu
      rw [fAct_pc_other hf' (fun h => hu (hth u h))]
      exact hi u hu
  refine key es _ he fun u _ => ?_
  show (Ring.init S.cfg).pc u = _
  simp [Ring.init, hA]

/-- **C108**: StopLogger, called when no statement is in progress (`closing`, `stop`, then whatever happens until it has closed the
files): the files hold the records of all statements, and are closed. -/
theorem C108_stopped {S : Setup} (hS : Ready S) (hA : S.cfg.async = false)
    (hap : FilesApart S.fenv S.channel.id S.channel.devices) {o : OutSt} (ho : Own S.fenv S.channel.id S.channel.devices o)
    (hex : ∀ (j : Nat) (d : Device) (p : List Char), S.channel.devices[j]? = some d → d.outType = .file →
      (o.dev j).handle = some p → o.fs p ≠ none)
    (B : Stdio) {es : List Act} (hG : Serial S B es (fCrew S o)) (he : ∀ e ∈ es, SoundAct S e) (hn : ∀ e ∈ es, e.noStop)
    {f : FCrew} (hf : fActs S B es (fCrew S o) = some f)
    (hidle : ∀ e ∈ es, ∀ t, e.thread = some t → f.crew.ring.pc t = .idle)
    (es' : List FEv) (hJ : ∀ j, .shut j ∈ es' → ∃ d, S.channel.devices[j]? = some d ∧ d.outType = .file) :
    ∃ (f' : FCrew) (recs : List (Head × List Char)),
      fEvents S B (.act .closing :: .act .stop :: es') f = some f' ∧ Logged S (f.crew.made.map Prod.snd) recs ∧
      (∀ (j : Nat) (d : Device), S.channel.devices[j]? = some d → d.outType = .file →
        ∃ taken t, Runs S.fenv S.channel.id d (view o j) (handed S.os j d 0 recs) taken t ∧
          ∀ p, FilesOf S.fenv S.channel.id d p → bytesOf f'.crew.out.fs p = bytesOf t.fs p) ∧
      ∀ j, .shut j ∈ es' → (f'.crew.out.dev j).handle = none := by
  obtain ⟨_, f0, rs, s, h1, h2, h3, h4, h5, t0, h6⟩ := serial_after hS hA hap ho hex B hG he
  rw [hf] at h1
  obtain rfl := Option.some.inj h1
  have hidle := all_idle hA h2 h4 h5 hidle
  obtain ⟨_, hst, recs, r1, r2, _⟩ := serial_end hA hS hap ho (fun e h => he e (h2.subset h)) h3 (fun e h => hn e (h2.subset h)) h4 h6
    (fun u => by rw [← h5.rel.ring]; exact hidle u)
  obtain ⟨f1, b1, b2⟩ := h5.act hS hap (e := .closing) (Or.inr fun _ h => by cases h) trivial (fun _ h => by cases h)
  rcases b2 with ⟨_, e, _⟩ | ⟨_, s1, b4, b5⟩
  · cases e
  obtain ⟨f2, c1, c2⟩ := b5.act hS hap (e := .stop) (Or.inr fun _ h => by cases h) trivial (fun _ h => by cases h)
  rcases c2 with ⟨_, e, _⟩ | ⟨_, s2, c4, c5⟩
  · cases e
  have e1 : f1.crew.ring = Ring.step S.cfg f.crew.ring .closing := by rw [← Option.some.inj b1]
  have e2 : f2.crew.ring = Ring.step S.cfg f1.crew.ring .stop := by rw [← Option.some.inj c1]
  have e3 : s2.out = s.out := by
    rw [← Option.some.inj c4, ← Option.some.inj b4]
  have hl : f2.crew.ring.lgRunning = false := by
    rw [e2, e1]
    simp only [Ring.step, hA, Bool.false_eq_true, if_false]
  have hst2 : f2.crew.ring.state ≠ .running := by
    rw [e2]
    simp only [Ring.step, hA, Bool.false_eq_true, if_false]
    nofun
  have hid2 : ∀ t, f2.crew.ring.pc t = .idle := fun t => by
    rw [e2, e1]
    simp only [Ring.step, hA, Bool.false_eq_true, if_false]
    exact hidle t
  obtain ⟨f', a1, _, a3, _, a5⟩ := c5.shut hl hst2 (Or.inr ⟨hA, hid2⟩) es' hJ
  refine ⟨f', recs, ?_, by rw [h5.rel.made]; exact r1, fun j d hj hd => ?_, a5⟩
  · show (fAct S B f .closing).bind (fun f => (fAct S B f .stop).bind (fEvents S B es')) = _
    rw [b1]
    show (fAct S B f1 .stop).bind _ = _
    rw [c1]; exact a1
  · obtain ⟨taken, t, q1, _, _, q4⟩ := r2.device j d hj hd
    refine ⟨taken, t, q1, fun p hp => ?_⟩
    rw [a3 j d p hj hd hp, e3]
    unfold bytesOf
    rw [q4 p hp]

/-- **C108**, executions that go on for ever, with any number of statements: what C106 assumes of compare-and-swaps holds; again and
again there is a time `m` when no statement is in progress, and then all statements begun so far have returned and are in the files,
in their order. -/
theorem C108_endless {S : Setup} (hS : Ready S) (hA : S.cfg.async = false)
    (hap : FilesApart S.fenv S.channel.id S.channel.devices) {o : OutSt} (ho : Own S.fenv S.channel.id S.channel.devices o)
    (hex : ∀ (j : Nat) (d : Device) (p : List Char), S.channel.devices[j]? = some d → d.outType = .file →
      (o.dev j).handle = some p → o.fs p ≠ none)
    (B : Stdio) {σ : Nat → Act} (hG : ∀ n, Serial S B (firstActs σ n) (fCrew S o)) (he : ∀ n, SoundAct S (σ n))
    (hn : ∀ n, (σ n).noStop)
    (hfair : ∀ t n f, FAt S B o σ n f → f.crew.ring.pc t ≠ .idle → ∃ m, n ≤ m ∧ σ m = .run t) :
    FEndless S B o σ ∧ ∀ n, ∃ (m : Nat) (f : FCrew) (recs : List (Head × List Char)), n ≤ m ∧ FAt S B o σ m f ∧
      (∀ t, f.crew.ring.pc t = .idle) ∧ Logged S (f.crew.made.map Prod.snd) recs ∧ Recorded S o f recs ∧ ∀ j, f.buf j = [] := by
  have hmem : ∀ n, ∀ e ∈ firstActs σ n, SoundAct S e := by
    intro n e h
    obtain ⟨i, _, rfl⟩ := List.mem_map.mp h
    exact he i
  have hend : FEndless S B o σ := ⟨he, fun n => (C108_one_at_a_time hS hA hap ho hex B (hG n) (hmem n)).1, hn, hfair⟩
  have h : Reach S B o σ := ⟨hS, hap, ho, hex, Or.inr hG, hend⟩
  refine ⟨hend, fun n => ?_⟩
  have hall : ∃ m, n ≤ m ∧ ∀ t, (fNow S B o σ m).crew.ring.pc t = .idle := by
    refine Classical.byContradiction fun hx => ?_
    obtain ⟨M, hM⟩ := C100_all_return S.cfg _ h.ringEndless (N := n) (fun m hm t b hc => by
      have hs : Serial S B [σ m] (fNow S B o σ m) := serial_split (by rw [← firstActs_succ]; exact hG (m + 1)) (h.here m)
      have hser := hs.1
      cases hev : σ m with
      | log u a ops =>
        rw [hev] at hser
        refine hx ⟨m, hm, fun v => ?_⟩
        by_cases hv : v = u
        · refine Classical.byContradiction fun hp => ?_
          unfold ringSched at hc
          rw [hev] at hc
          simp only [ringEv] at hc
          rw [if_neg (fun y => hp (by rw [hv]; exact y.1))] at hc
          exact idleEv_call hc
        · exact hser u rfl v hv
      | _ => exact ringEv_call (S := S) (f := fNow S B o σ m) (e := σ m) (by rw [hev]; nofun) t b hc)
    refine hx ⟨max n M, by omega, fun t => ?_⟩
    have := (hM (max n M) (by omega)).1 t
    rw [h.ring] at this
    simpa [hA] using this
  obtain ⟨m, hm, hidle⟩ := hall
  obtain ⟨_, f, h1, _, h3⟩ := C108_one_at_a_time hS hA hap ho hex B (hG m) (hmem m)
  have e : fNow S B o σ m = f := Option.some.inj ((h.here m).symm.trans h1)
  obtain ⟨recs, r1, r2, r3, _⟩ := h3 (fun e h => by obtain ⟨i, _, rfl⟩ := List.mem_map.mp h; exact hn i)
    (fun _ _ t _ => by rw [← e]; exact hidle t)
  exact ⟨m, f, recs, hm, h1, by rw [← e]; exact hidle, r1, r2, r3⟩

/-! ## C97 for sync channels -/

/-- **C97** for a sync channel that is used by one statement at a time: as `C97_text_to_files_partial`; there is nothing to
assume about compare-and-swaps, and the order of the records is that of the statements.

Missing: sync channels with overlapping statements (C92, C95, C101); configurations with a shared memory key. -/
theorem C97_sync_partial (e : LgEnv) (th : Nat → ThreadStart) (L : Layout) (g : Config) (h1 : L.chan < L.dev)
    (h2 : L.dev < L.set) (hg : Expressible g) (hk : g.shmKey ≤ 0) (hth : ∀ i : Nat, th i = .runs) :
    ∃ fuel0, ∀ fuel, fuel0 ≤ fuel → ∃ l s,
      parseAndStart { e with fuel := fuel } th (render L (configDoc g)) {} = .ret .ok l ∧ l.shm = some s ∧
      ∀ (i : Nat) (c : Channel), g.channels[i]? = some c → c.type = .sync →
      ∀ (S : Setup), OnChannel l s i S →
      (∀ d ∈ c.devices, d.outType = .file → ∀ ts, ∃ p, fullPath S.fenv.proc (S.fenv.tm ts) S.fenv.fuel d i = some p) →
      FilesApart S.fenv i c.devices →
      ∀ (o : OutSt), (∀ j, (o.dev j).handle = none) → ∀ (B : Stdio) (es : List Act),
      Serial S B es (fCrew S o) → (∀ e ∈ es, SoundAct S e) → (∀ e ∈ es, e.noStop) →
      ∃ f, fActs S B es (fCrew S o) = some f ∧
        ((∀ e ∈ es, ∀ t, e.thread = some t → f.crew.ring.pc t = .idle) →
          ∀ (es' : List FEv), (∀ j, .shut j ∈ es' → ∃ d, c.devices[j]? = some d ∧ d.outType = .file) →
          ∃ (f' : FCrew) (recs : List (Head × List Char)),
            fEvents S B (.act .closing :: .act .stop :: es') f = some f' ∧ Logged S (f.crew.made.map Prod.snd) recs ∧
            (∀ (j : Nat) (d : Device), c.devices[j]? = some d → d.outType = .file →
              ∃ taken t, Runs S.fenv i d (view o j) (handed S.os j d 0 recs) taken t ∧
                ∀ p, FilesOf S.fenv i d p → bytesOf f'.crew.out.fs p = bytesOf t.fs p) ∧
            ∀ j, .shut j ∈ es' → (f'.crew.out.dev j).handle = none) := by
  obtain ⟨fuel1, hall⟩ := C66_configured_runs e th L g h1 h2 hg hk hth
  refine ⟨fuel1, fun fuel hfuel => ?_⟩
  obtain ⟨l, s, hstart, hshm, hlst, hcount, _, _, hchans⟩ := hall fuel hfuel
  refine ⟨l, s, hstart, hshm, ?_⟩
  intro i c hc hsync S hS hnamed hap o ho B es hG he hn
  have hcx := hg.channels i c hc
  have hch : S.channel = { c with state := .running } := hS.channel.trans (hchans i c hc)
  have hid : S.channel.id = i := by rw [hch]; exact hcx.id
  have hdev : S.channel.devices = c.devices := by rw [hch]
  have hA : S.cfg.async = false := by
    cases hA : S.cfg.async with
    | false => rfl
    | true =>
      have := hS.async.mp hA
      rw [hch] at this
      exact absurd (hsync.symm.trans this) (by decide)
  have hready : Ready S := by
    refine ⟨hS.lib, hS.zone, by rw [hS.slots]; decide, hS.nl, by rw [hid]; omega, ?_,
      hS.hook, ?_⟩
    · rw [hS.lg]
      refine ⟨_, by show Option.map _ l.shm = _; rw [hshm]; rfl, ?_⟩
      have hlt := (List.getElem?_eq_some_iff.mp hc).1
      rw [hid, List.getElem?_map, List.getElem?_range (by rw [hcount]; omega)]
      show some (s.chans i).chan = _
      rw [hS.channel]
    · intro d hd hfile ts
      rw [hid]
      exact hnamed d (by rw [← hdev]; exact hd) hfile ts
  have hap' : FilesApart S.fenv S.channel.id S.channel.devices := by rw [hid, hdev]; exact hap
  have hown : Spec.Own S.fenv S.channel.id S.channel.devices o := fun j d p _ _ h => by rw [ho j] at h; cases h
  have hex : ∀ (j : Nat) (d : Device) (p : List Char), S.channel.devices[j]? = some d → d.outType = .file →
      (o.dev j).handle = some p → o.fs p ≠ none := fun j d p _ _ h => by rw [ho j] at h; cases h
  obtain ⟨_, f, hf, _⟩ := C108_one_at_a_time hready hA hap' hown hex B hG he
  refine ⟨f, hf, fun hidle es' hJ => ?_⟩
  obtain ⟨f', recs, r1, r2, r3, r4⟩ := C108_stopped hready hA hap' hown hex B hG he hn hf hidle es' (by rw [hdev]; exact hJ)
  refine ⟨f', recs, r1, r2, fun j d hj hd => ?_, r4⟩
  obtain ⟨taken, t, q1, q2⟩ := r3 j d (by rw [hdev]; exact hj) hd
  rw [hid] at q1 q2
  exact ⟨taken, t, q1, q2⟩

/-! ## A channel whose file is rotated -/

def rollProgram : List Act := [.started, demoLog 1 "one".toList] ++ demoRuns 1 120 ++ [demoLog 1 "two".toList] ++ demoRuns 1 120

/-- All hypotheses hold for one thread on the channel of `C92_closed_stream_counterexample`; the file was rotated. -/
example : Ready rollSetup ∧ rollSetup.cfg.async = false ∧ FilesApart rollSetup.fenv rollSetup.channel.id rollSetup.channel.devices ∧
    Serial rollSetup demoStdio rollProgram (fCrew rollSetup demoOut) ∧ (∀ e ∈ rollProgram, SoundAct rollSetup e) ∧
    (∀ e ∈ rollProgram, e.noStop) ∧
    (fActs rollSetup demoStdio rollProgram (fCrew rollSetup demoOut)).map
      (fun f => (f.crew.ring.pc 1, bytesOf f.crew.out.fs "a.log".toList, bytesOf f.crew.out.fs "a.log.1".toList)) =
    some (.idle, some "[20261116 11:33:20.417][ERROR][a.cpp:17](f) two\n".toList,
      some "[20261116 11:33:20.417][ERROR][a.cpp:17](f) one\n".toList) := by
  refine ⟨roll_ready, rfl, roll_apart, C108_one_thread rfl _ _ 1 ?_, ?_, ?_, by kernel_rfl⟩
  all_goals
    intro e he
    simp only [rollProgram, demoRuns, List.mem_append, List.mem_cons, List.not_mem_nil, or_false, List.mem_replicate] at he
    rcases he with (((rfl | rfl) | ⟨_, rfl⟩) | rfl) | ⟨_, rfl⟩
  all_goals first
    | trivial
    | exact rollCall_sound _ _
    | (intro t ht; cases ht; done)
    | (intro t ht; cases ht; rfl)

/-- One thread that logs for ever. -/
def rollForever (n : Nat) : Act := if n = 0 then .started else if n % 121 = 1 then demoLog 1 "one".toList else .run 1

/-- The hypotheses of `C108_endless`. -/
example : (∀ n, Serial rollSetup demoStdio (firstActs rollForever n) (fCrew rollSetup demoOut)) ∧
    (∀ n, SoundAct rollSetup (rollForever n)) ∧ (∀ n, (rollForever n).noStop) ∧
    (∀ t n f, FAt rollSetup demoStdio demoOut rollForever n f → f.crew.ring.pc t ≠ .idle → ∃ m, n ≤ m ∧ rollForever m = .run t) ∧
    ∀ n, ∃ m, n ≤ m ∧ rollForever m = demoLog 1 "one".toList := by
  have hth : ∀ n t, (rollForever n).thread = some t → t = 1 := by
    intro n t h
    unfold rollForever at h
    split at h
    · cases h
    · split at h <;> (cases h; rfl)
  have hmem : ∀ n, ∀ e ∈ firstActs rollForever n, ∀ t, e.thread = some t → t = 1 := by
    intro n e h t
    obtain ⟨i, _, rfl⟩ := List.mem_map.mp h
    exact hth i t
  refine ⟨fun n => C108_one_thread rfl _ _ 1 (hmem n), fun n => ?_, fun n => ?_, fun t n f hf hp => ?_, fun n => ?_⟩
  · unfold rollForever
    split
    · trivial
    · split
      · exact rollCall_sound _ _
      · trivial
  · unfold rollForever
    split
    · trivial
    · split <;> trivial
  · have ht : t = 1 := by
      refine Classical.byContradiction fun ht => hp ?_
      rw [fActs_pc_other hf fun e he h => ht (hmem n e he t h)]
      rfl
    refine ⟨121 * n + 2, by omega, ?_⟩
    unfold rollForever
    rw [if_neg (by omega), if_neg (by omega), ht]
  · refine ⟨121 * n + 1, by omega, ?_⟩
    unfold rollForever
    rw [if_neg (by omega), if_pos (by omega)]

end FNLog
