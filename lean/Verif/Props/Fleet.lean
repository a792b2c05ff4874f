import Verif.Proof.Fleet
import Verif.Props.Threads

/-!
# Property C86: the channels of a logger do not disturb each other

`fleetActs S es (fleet S o dev)` is the state of all channels after an arbitrary schedule of events of channels.
-/

namespace FNLog
open Spec Ring

theorem FleetInv.asAlone {S : Nat → Setup} {o : Nat → OutSt} {f : Fleet} {s : Nat → Crew} (h : FleetInv S o f s) (i : Nat) :
    AsAlone (S i) f i (s i) :=
  have t := h.twin i
  ⟨t.ring, funext fun k => (t.dev k).trans (DevSt.plus_zero _), t.pos, t.made, t.visits, t.files⟩

theorem sameEvents_mem {a b : List Act} (h : SameEvents a b) {e : Act} (he : e ∈ a) : e.isDates = true ∨ e ∈ b := by
  cases hd : e.isDates with
  | true => exact Or.inl rfl
  | false =>
    have : e ∈ a.filter fun e => !e.isDates := List.mem_filter.mpr ⟨he, by rw [hd]; rfl⟩
    rw [show a.filter _ = _ from h] at this
    exact Or.inr (List.mem_filter.mp this).1

theorem sameEvents_noStop {a b : List Act} (h : SameEvents a b) (hb : ∀ e ∈ b, e.noStop) : ∀ e ∈ a, e.noStop := by
  intro e he
  rcases sameEvents_mem h he with hd | hm
  · cases e <;> first | trivial | cases hd
  · exact hb e hm

theorem statementsOf_filter (t : Nat) : ∀ es : List Act, statementsOf t (es.filter fun e => !e.isDates) = statementsOf t es := by
  intro es
  induction es with
  | nil => rfl
  | cons e es ih =>
    rw [List.filter_cons]
    cases h : e.isDates with
    | true =>
      rw [if_neg (by simp)]
      cases e <;> first | exact ih | cases h
    | false =>
      rw [if_pos (by simp)]
      cases e <;> simp only [statementsOf, ih]

theorem sameEvents_statements {a b : List Act} (h : SameEvents a b) (t : Nat) : statementsOf t a = statementsOf t b := by
  rw [← statementsOf_filter t a, show a.filter _ = _ from h, statementsOf_filter]

theorem stepsOf_filter (t : Nat) : ∀ es : List Act, stepsOf t (es.filter fun e => !e.isDates) = stepsOf t es := by
  intro es
  induction es with
  | nil => rfl
  | cons e es ih =>
    rw [List.filter_cons]
    cases h : e.isDates with
    | true =>
      rw [if_neg (by simp)]
      cases e <;> first | exact ih | cases h
    | false =>
      rw [if_pos (by simp)]
      cases e <;> simp only [stepsOf, ih]

theorem sameEvents_steps {a b : List Act} (h : SameEvents a b) (t : Nat) : stepsOf t a = stepsOf t b := by
  rw [← stepsOf_filter t a, show a.filter _ = _ from h, stepsOf_filter]

/-- **C86**: threads log to the channels of a logger in any interleaving, also while channels are started and stopped.  No
step is undefined.  For every channel there is a schedule with the events of this channel only (and date caches changed
behind its back) after which the channel alone is in exactly the same state: ring, positions of the threads, records,
devices with statistics, and files.  Files of no channel do not change; screen and network show what the channels alone would
show, interleaved. -/
theorem C86_independent_partial {S : Nat → Setup} (hS : ∀ i, Ready (S i))
    (hap : ∀ i, FilesApart (S i).fenv (S i).channel.id (S i).channel.devices) (hacr : ChannelsApart S)
    {z : Zone} (hz : ∀ i, (S i).env.zone = z) {o : OutSt} {dev : Nat → Nat → DevSt}
    (ho : ∀ i, Own (S i).fenv (S i).channel.id (S i).channel.devices (startOf o dev i))
    {es : List (Nat × Act)} (he : ∀ e ∈ es, SoundAct (S e.1) e.2) (ht : FleetOnTime S es (fleet S o dev)) :
    ∃ (f : Fleet) (own : Nat → List Act) (s : Nat → Crew), fleetActs S es (fleet S o dev) = some f ∧
      (∀ i, SameEvents (own i) (ofChannel i es) ∧ (∀ e ∈ own i, SoundAct (S i) e) ∧
        OnTime (S i) (own i) (crew (S i) (startOf o dev i)) ∧
        acts (S i) (own i) (crew (S i) (startOf o dev i)) = some (s i) ∧ AsAlone (S i) f i (s i)) ∧
      Interleaved o.screen f.screen (fun i => (s i).out.screen) ∧ Interleaved o.net f.net (fun i => (s i).out.net) ∧
      (∀ p, (∀ i, Foreign (S i).fenv (S i).channel.id (S i).channel.devices p) → f.fs p = o.fs p) := by
  obtain ⟨f, s, own, lines, grams, h1, h2, h3, h4, h5, h6, h7, h8⟩ := fleet_run hS hap hacr hz (fleet_inv hS ho) he ht
  exact ⟨f, own, s, h1, fun i => ⟨(h3 i).1, (h3 i).2.1, (h3 i).2.2.1, (h3 i).2.2.2, h2.asAlone i⟩, ⟨lines, h4, h5⟩,
    ⟨grams, h6, h7⟩, h8⟩

/-- **C86** with C72: at every moment, the records in each channel are records of different statements on this channel, those
of a thread in program order; each device of the channel has seen some of them, each at most once, in order if the channel is
async; and files, statistics, handle and socket of each device are as if it had processed the records seen alone. -/
theorem C86_channel_partial {S : Nat → Setup} (hS : ∀ i, Ready (S i))
    (hap : ∀ i, FilesApart (S i).fenv (S i).channel.id (S i).channel.devices) (hacr : ChannelsApart S)
    {z : Zone} (hz : ∀ i, (S i).env.zone = z) {o : OutSt} {dev : Nat → Nat → DevSt}
    (ho : ∀ i, Own (S i).fenv (S i).channel.id (S i).channel.devices (startOf o dev i))
    {es : List (Nat × Act)} (he : ∀ e ∈ es, SoundAct (S e.1) e.2) (ht : FleetOnTime S es (fleet S o dev)) :
    ∃ f, fleetActs S es (fleet S o dev) = some f ∧ ∀ i, ∃ (recs : List (Nat × Head × List Char)) (seen : Nat → List (Head × List Char)),
      (f.part i).ring.acquired = recs.map (fun r => (r.1, cellOf r.2.1 r.2.2)) ∧
      (∀ t, ∃ prog logged, prog.Sublist (statementsOf t (ofChannel i es)) ∧ Logged (S i) prog logged ∧
        (linesOf t recs).Sublist logged) ∧
      (∀ j, j < (S i).channel.devices.length → EachAtMostOnce (recs.map Prod.snd) (seen j)) ∧
      ((S i).cfg.async = true → ∀ j, j < (S i).channel.devices.length → InOrderPrefix (recs.map Prod.snd) (seen j)) ∧
      (∀ (j : Nat) (d : Device), (S i).channel.devices[j]? = some d →
        ∃ u, alone (S i) j d 0 (seen j) (startOf o dev i) = some u ∧ u.dev j = (f.part i).dev j ∧
          (d.outType = .file → AgreeOn (FilesOf (S i).fenv (S i).channel.id d) u.fs f.fs)) := by
  obtain ⟨f, own, s, h1, h2, _⟩ := C86_independent_partial hS hap hacr hz ho he ht
  refine ⟨f, h1, fun i => ?_⟩
  obtain ⟨a1, a2, a3, a4, a5⟩ := h2 i
  obtain ⟨s', recs, seen, b1, b2, b3, b4, b5, _, b7⟩ := C72_threads_partial (hS i) (hap i) (ho i) a2 a3
  rw [a4] at b1
  obtain rfl := Option.some.inj b1
  refine ⟨recs, seen, by rw [a5.ring]; exact b2, ?_, b4, b5, ?_⟩
  · intro t
    rw [← sameEvents_statements a1 t]
    exact b3 t
  · intro j d hj
    obtain ⟨u, c1, c2, c3⟩ := b7.device j d hj
    refine ⟨u, c1, by rw [a5.dev]; exact c2, fun hf p hp => ?_⟩
    rw [c3 hf p hp]
    exact (a5.files d (List.mem_of_getElem? hj) hf p hp).symm

/-- Every device of channel `i` is as if it had processed these records, and nothing else had happened. -/
def DevicesShow (S : Setup) (start : OutSt) (f : Fleet) (i : Nat) (seen : Nat → List (Head × List Char)) : Prop :=
  ∀ (j : Nat) (d : Device), S.channel.devices[j]? = some d →
    ∃ u, alone S j d 0 (seen j) start = some u ∧ u.dev j = (f.part i).dev j ∧
      (d.outType = .file → AgreeOn (FilesOf S.fenv S.channel.id d) u.fs f.fs)

theorem DevicesAfter.show {S : Setup} {o : OutSt} {s : Crew} {seen : Nat → List (Head × List Char)}
    (h : DevicesAfter S o s seen) {f : Fleet} {i : Nat} (ha : AsAlone S f i s) : DevicesShow S o f i seen := by
  intro j d hj
  obtain ⟨u, c1, c2, c3⟩ := h.device j d hj
  refine ⟨u, c1, by rw [ha.dev]; exact c2, fun hf p hp => ?_⟩
  rw [c3 hf p hp]
  exact (ha.files d (List.mem_of_getElem? hj) hf p hp).symm

/-- **C86** with C73: a sync channel that was never stopped has, when all its statements have returned, processed the record
of every admitted statement exactly once at every device, whatever the other channels do. -/
theorem C86_sync_complete_partial {S : Nat → Setup} (hS : ∀ i, Ready (S i))
    (hap : ∀ i, FilesApart (S i).fenv (S i).channel.id (S i).channel.devices) (hacr : ChannelsApart S)
    {z : Zone} (hz : ∀ i, (S i).env.zone = z) {o : OutSt} {dev : Nat → Nat → DevSt}
    (ho : ∀ i, Own (S i).fenv (S i).channel.id (S i).channel.devices (startOf o dev i))
    {es : List (Nat × Act)} (he : ∀ e ∈ es, SoundAct (S e.1) e.2) (ht : FleetOnTime S es (fleet S o dev))
    {f : Fleet} (hf : fleetActs S es (fleet S o dev) = some f) {i : Nat} (hA : (S i).cfg.async = false)
    (hn : ∀ e ∈ ofChannel i es, e.noStop) (hidle : ∀ t, (f.part i).ring.pc t = .idle) :
    ∃ recs seen, (∀ t, Logged (S i) (linesOf t (f.part i).made) (linesOf t recs)) ∧
      (∀ j, j < (S i).channel.devices.length → EachExactlyOnce (recs.map Prod.snd) (seen j)) ∧
      DevicesShow (S i) (startOf o dev i) f i seen := by
  obtain ⟨f', own, s, h1, h2, _⟩ := C86_independent_partial hS hap hacr hz ho he ht
  rw [hf] at h1
  obtain rfl := Option.some.inj h1
  obtain ⟨a1, a2, a3, a4, a5⟩ := h2 i
  obtain ⟨recs, seen, b1, b2, _, b4, _⟩ := C73_sync_complete_partial (hS i) hA (hap i) (ho i) a2 a3
    (sameEvents_noStop a1 hn) a4 (fun t => by rw [← a5.ring]; exact hidle t)
  exact ⟨recs, seen, fun t => by rw [a5.made]; exact b1 t, b2, b4.show a5⟩

theorem fleetActs_append (S : Nat → Setup) : ∀ (es es' : List (Nat × Act)) (f : Fleet),
    fleetActs S (es ++ es') f = (fleetActs S es f).bind (fleetActs S es') := by
  intro es
  induction es with
  | nil => intro es' f; rfl
  | cons e es ih =>
    intro es' f
    simp only [List.cons_append, fleetActs, Option.bind_eq_bind]
    cases fleetAct S f e with
    | none => rfl
    | some f' => simp only [Option.bind_some, ih]

theorem fleetOnTime_append {S : Nat → Setup} : ∀ {es es' : List (Nat × Act)} {f : Fleet}, FleetOnTime S (es ++ es') f →
    FleetOnTime S es f ∧ ∀ f', fleetActs S es f = some f' → FleetOnTime S es' f' := by
  intro es
  induction es with
  | nil => intro es' f h; exact ⟨trivial, fun f' hf => by obtain rfl := Option.some.inj hf; exact h⟩
  | cons e es ih =>
    intro es' f h
    refine ⟨⟨h.1, fun f1 h1 => (ih (h.2 f1 h1)).1⟩, fun f' hf => ?_⟩
    simp only [fleetActs, Option.bind_eq_bind, Option.bind_eq_some_iff] at hf
    obtain ⟨f1, h1, h2⟩ := hf
    exact (ih (h.2 f1 h1)).2 f' h2

/-- **C86** with C72: an async channel is stopped after its statements have returned.  When its thread has ended (which it
does after a bounded number of steps), every device of the channel has processed the records of all admitted statements, in
one order, whatever the other channels do. -/
theorem C86_async_complete_partial {S : Nat → Setup} (hS : ∀ i, Ready (S i))
    (hap : ∀ i, FilesApart (S i).fenv (S i).channel.id (S i).channel.devices) (hacr : ChannelsApart S)
    {z : Zone} (hz : ∀ i, (S i).env.zone = z) {o : OutSt} {dev : Nat → Nat → DevSt}
    (ho : ∀ i, Own (S i).fenv (S i).channel.id (S i).channel.devices (startOf o dev i))
    {es es' : List (Nat × Act)} {i : Nat} (he : ∀ e ∈ es ++ (i, .stop) :: es', SoundAct (S e.1) e.2)
    (ht : FleetOnTime S (es ++ (i, .stop) :: es') (fleet S o dev))
    {f f' : Fleet} (hf : fleetActs S es (fleet S o dev) = some f)
    (hf' : fleetActs S (es ++ (i, .stop) :: es') (fleet S o dev) = some f') (hA : (S i).cfg.async = true)
    (hn : ∀ e ∈ ofChannel i es, e.noStop) (hrun : (f.part i).ring.state = .running)
    (hidle : ∀ t, t ≠ worker → (f.part i).ring.pc t = .idle) :
    ((S i).channel.devices.length + 1) * (30 * (S i).cfg.L + 18) ≤ stepsOf worker (ofChannel i es') →
    (f'.part i).ring.pc worker = .done ∧
    ∃ recs, (∀ t, Logged (S i) (linesOf t (f.part i).made) (linesOf t recs)) ∧
      DevicesShow (S i) (startOf o dev i) f' i fun _ => recs.map Prod.snd := by
  intro hsteps
  obtain ⟨ht1, ht2⟩ := fleetOnTime_append ht
  obtain ⟨f1, s1, own1, _, _, a1, a2, a3, _⟩ := fleet_run hS hap hacr hz (fleet_inv hS ho)
    (fun e h => he e (by simp [h])) ht1
  rw [hf] at a1
  obtain rfl := Option.some.inj a1
  have ht3 := ht2 f hf
  obtain ⟨f2, s2, x, y, b1, b2, b3, b4, _⟩ := fleet_step hS hap hacr hz a2 (he (i, .stop) (by simp)) ht3.1
  obtain ⟨f3, s3, own3, _, _, c1, c2, c3, _⟩ := fleet_run hS hap hacr hz b2
    (fun e h => he e (by simp [h])) (ht3.2 f2 b1)
  have e3 : fleetActs S (es ++ (i, .stop) :: es') (fleet S o dev) = some f3 := by
    rw [fleetActs_append, hf]
    simp only [Option.bind_some, fleetActs, Option.bind_eq_bind, b1, c1]
  rw [hf'] at e3
  obtain rfl := Option.some.inj e3
  obtain ⟨p1, p2, p3, p4⟩ := a3 i
  obtain ⟨q1, q2, q3, q4⟩ := c3 i
  have hall : acts (S i) (own1 i ++ .stop :: own3 i) (crew (S i) (startOf o dev i)) = some (s3 i) := by
    rw [acts_append, p4]
    simp only [Option.bind_some, acts, Option.bind_eq_bind, b3, q4]
  have hon : OnTime (S i) (own1 i ++ .stop :: own3 i) (crew (S i) (startOf o dev i)) := by
    refine onTime_join p3 p4 ⟨b4.1, fun s' hs' => ?_⟩
    rw [b3] at hs'
    obtain rfl := Option.some.inj hs'
    exact q3
  have hsound : ∀ e ∈ own1 i ++ .stop :: own3 i, SoundAct (S i) e := by
    intro e h
    rcases List.mem_append.mp h with h | h
    · exact p2 e h
    · rcases List.mem_cons.mp h with rfl | h
      · trivial
      · exact q2 e h
  have w1 := a2.asAlone i
  have w3 := c2.asAlone i
  rw [w1.ring] at hrun
  have hidle' : ∀ t, t ≠ worker → (s1 i).ring.pc t = .idle := fun t h => by rw [← w1.ring]; exact hidle t h
  have hdone := C72_worker_finishes (hS i) hA (hap i) (ho i) hsound hon (sameEvents_noStop p1 hn) p4 hrun hidle' hall
    (by rw [sameEvents_steps q1]; exact hsteps)
  refine ⟨by rw [w3.ring]; exact hdone, ?_⟩
  obtain ⟨recs, r1, _, r3, _⟩ := C72_async_complete_partial (hS i) hA (hap i) (ho i) hsound hon (sameEvents_noStop p1 hn) p4
    hrun hidle' hall hdone
  exact ⟨recs, fun t => by rw [w1.made]; exact r1 t, r3.show w3⟩

/-! Two threads on a sync and an async channel. -/

def demoSecond : Channel :=
  { id := 1, type := .async, state := .running, devices := [demoFile 0 'c' 1, { id := 1, outType := .screen, cfg := { able := 1 } }] }

def demoSecondSetup : Setup := { demoSetup with
  channel := demoSecond
  lg := ⟨.running, some [demoChannel, demoSecond]⟩
  cfg := { L := 4, async := true, nl := .byte '\n' } }

def demoEmpty : Channel := { demoChannel with devices := [] }

/-- Two channels (`MAX_CHANNEL_SIZE`); there is nothing at the other numbers. -/
def demoFleet : Nat → Setup
  | 0 => { demoSetup with lg := ⟨.running, some [demoChannel, demoSecond]⟩ }
  | 1 => demoSecondSetup
  | _ => { demoSetup with channel := demoEmpty, lg := ⟨.running, some [demoEmpty]⟩ }

def demoLog1 (t : Nat) (text : List Char) : Act := .log t { demoCall 4 with channelId := 1 } [.put (.str text)]

def onChannel (i : Nat) (es : List Act) : List (Nat × Act) := es.map fun e => (i, e)

def demoFleetRace : List (Nat × Act) :=
  onChannel 1 (demoRuns 0 5) ++ [(0, .started), (1, .started), (0, demoLog 1 "one".toList)] ++ onChannel 0 (demoRuns 1 72) ++
    [(1, demoLog1 2 "two".toList)] ++ onChannel 1 (demoRuns 2 60) ++ onChannel 0 (demoRuns 1 50) ++
    [(1, demoLog1 1 "three".toList)] ++ onChannel 1 (demoRuns 1 120) ++ onChannel 1 (demoRuns 2 60)

/-- `FleetOnTime`, decided. -/
def fleetOnTimeB (S : Nat → Setup) : List (Nat × Act) → Fleet → Bool
  | [], _ => true
  | (i, .run t) :: es, f => decide (timelyAt (S i).cfg (f.part i).ring t) &&
    match fleetAct S f (i, .run t) with | some f' => fleetOnTimeB S es f' | none => true
  | e :: es, f => match fleetAct S f e with | some f' => fleetOnTimeB S es f' | none => true

theorem fleetOnTime_of {S : Nat → Setup} : ∀ {es : List (Nat × Act)} {f : Fleet}, fleetOnTimeB S es f = true →
    FleetOnTime S es f := by
  intro es
  induction es with
  | nil => intro _ _; trivial
  | cons e es ih =>
    obtain ⟨i, e⟩ := e
    intro f h
    cases e with
    | run t =>
      simp only [fleetOnTimeB, Bool.and_eq_true, decide_eq_true_eq] at h
      refine ⟨fun u hu => ?_, fun f' hf => ih ?_⟩
      · cases hu; exact h.1
      · rw [hf] at h; exact h.2
    | log _ _ _ | started | closing | stop | dates _ _ =>
      refine ⟨by nofun, fun f' hf => ih ?_⟩
      simp only [fleetOnTimeB, hf] at h
      exact h

theorem demoFleet_cases (i : Nat) : i = 0 ∨ i = 1 ∨ ∃ k, i = k + 2 := by
  match i with
  | 0 => exact Or.inl rfl
  | 1 => exact Or.inr (Or.inl rfl)
  | k + 2 => exact Or.inr (Or.inr ⟨k, rfl⟩)

theorem demoFleet_files {i : Nat} {d : Device} {p : List Char} (hd : d ∈ (demoFleet i).channel.devices)
    (hf : d.outType = .file) (h : FilesOf (demoFleet i).fenv (demoFleet i).channel.id d p) :
    (i = 0 ∧ d = demoFile 0 'a' 1 ∧ p.head? = some 'a') ∨ (i = 0 ∧ d = demoFile 1 'b' 4 ∧ p.head? = some 'b') ∨
    (i = 1 ∧ d = demoFile 0 'c' 1 ∧ p.head? = some 'c') := by
  rcases demoFleet_cases i with rfl | rfl | ⟨k, rfl⟩
  · simp only [demoFleet, demoSetup, demoChannel, List.mem_cons, List.not_mem_nil, or_false] at hd
    rcases hd with rfl | rfl
    · exact Or.inl ⟨rfl, rfl, demo_files (Or.inl rfl) h⟩
    · exact Or.inr (Or.inl ⟨rfl, rfl, demo_files (Or.inr rfl) h⟩)
  · simp only [demoFleet, demoSecondSetup, demoSecond, List.mem_cons, List.not_mem_nil, or_false] at hd
    rcases hd with rfl | rfl
    · refine Or.inr (Or.inr ⟨rfl, rfl, ?_⟩)
      obtain ⟨ts, F, j, hF, rfl⟩ := h
      have : fullPath demoSetup.fenv.proc (demoSetup.fenv.tm ts) demoSetup.fenv.fuel (demoFile 0 'c' 1) 1 =
        some ('c' :: ".log".toList) := rfl
      obtain rfl := Option.some.inj (this.symm.trans hF)
      unfold backup
      split <;> rfl
    · cases hf
  · simp only [demoFleet, demoEmpty, List.not_mem_nil] at hd

theorem demoFleet_ok : (∀ i, Ready (demoFleet i)) ∧
    (∀ i, FilesApart (demoFleet i).fenv (demoFleet i).channel.id (demoFleet i).channel.devices) ∧ ChannelsApart demoFleet ∧
    (∀ i, (demoFleet i).env.zone = demoSetup.env.zone) := by
  refine ⟨fun i => ?_, fun i => ?_, ?_, fun i => ?_⟩
  · rcases demoFleet_cases i with rfl | rfl | ⟨k, rfl⟩
    · exact { demo_ready with channel := ⟨_, rfl, rfl⟩ }
    · refine ⟨demo_ready.lib, demo_ready.zone, by decide, rfl, by decide,
        ⟨_, rfl, rfl⟩, fun h => absurd h (by decide), ?_⟩
      intro d hd hf ts
      simp only [demoFleet, demoSecondSetup, demoSecond, List.mem_cons, List.not_mem_nil, or_false] at hd
      rcases hd with rfl | rfl
      · exact ⟨'c' :: ".log".toList, rfl⟩
      · cases hf
    · exact ⟨demo_ready.lib, demo_ready.zone, demo_ready.slots, rfl, demo_ready.id,
        ⟨_, rfl, rfl⟩, demo_ready.hook, fun d hd => absurd hd (by simp [demoFleet, demoEmpty])⟩
  · intro j k a b hjk ha hb haf hbf p ⟨h1, h2⟩
    have g1 := demoFleet_files (List.mem_of_getElem? ha) haf h1
    have g2 := demoFleet_files (List.mem_of_getElem? hb) hbf h2
    have key : a = b := by
      rcases g1 with ⟨_, e, h⟩ | ⟨_, e, h⟩ | ⟨_, e, h⟩ <;> rcases g2 with ⟨_, e', h'⟩ | ⟨_, e', h'⟩ | ⟨_, e', h'⟩ <;>
        first
          | exact e.trans e'.symm
          | exact absurd (h.symm.trans h') (by decide)
    subst key
    have hid : ∀ (n : Nat) (x : Device), (demoFleet i).channel.devices[n]? = some x → x.id = n := by
      intro n x hx
      rcases demoFleet_cases i with rfl | rfl | ⟨m, rfl⟩
      · match n with
        | 0 | 1 => obtain rfl := Option.some.inj hx; rfl
        | n + 2 => exact absurd hx (by simp [demoFleet, demoSetup, demoChannel])
      · match n with
        | 0 | 1 => obtain rfl := Option.some.inj hx; rfl
        | n + 2 => exact absurd hx (by simp [demoFleet, demoSecondSetup, demoSecond])
      · exact absurd hx (by simp [demoFleet, demoEmpty])
    have := (hid j a ha).symm.trans (hid k a hb)
    exact hjk (by omega)
  · intro i j a b hij ha hb haf hbf p ⟨h1, h2⟩
    rcases demoFleet_files ha haf h1 with ⟨e, _, h⟩ | ⟨e, _, h⟩ | ⟨e, _, h⟩ <;>
      rcases demoFleet_files hb hbf h2 with ⟨e', _, h'⟩ | ⟨e', _, h'⟩ | ⟨e', _, h'⟩ <;>
      first
        | exact hij (e.trans e'.symm)
        | exact absurd (h.symm.trans h') (by decide)
  · rcases demoFleet_cases i with rfl | rfl | ⟨k, rfl⟩ <;> rfl

theorem demoLog1_sound (t : Nat) (text : List Char) : SoundAct demoSecondSetup (demoLog1 t text) := by
  have hd : ∀ d ∈ demoSecond.devices, ∀ c i, DevDefined d c i := by
    intro d hd c i
    simp only [demoSecond, List.mem_cons, List.not_mem_nil, or_false] at hd
    rcases hd with rfl | rfl <;>
      exact ⟨by decide, by decide, by decide, by decide, Or.inl (by decide), Or.inl (by decide)⟩
  refine ⟨rfl, ⟨⟨by decide, by decide, by decide, by decide, Or.inl (by decide), Or.inl (by decide)⟩, fun d h => hd d h _ _⟩,
    fun d h => hd d h _ _, "a.cpp".toList, ?_⟩
  have h := demo_fits 4 (by decide) [.put (.str text)] (by
    intro v hv
    simp only [written, List.mem_cons, List.not_mem_nil, or_false] at hv
    rcases hv with rfl; simp [Val.All, Val.Fine])
  exact { h with }

/-- All hypotheses of the theorems above hold for a schedule in which thread 1 logs to both channels, the file of each
channel shows its own errors, and the second channel is drained after its stop. -/
example : (∀ e ∈ demoFleetRace ++ (1, .stop) :: onChannel 1 (demoRuns 0 414), SoundAct (demoFleet e.1) e.2) ∧
    FleetOnTime demoFleet (demoFleetRace ++ (1, .stop) :: onChannel 1 (demoRuns 0 414)) (fleet demoFleet demoOut fun _ _ => {}) ∧
    (∀ e ∈ ofChannel 1 demoFleetRace, e.noStop) ∧
    (fleetActs demoFleet demoFleetRace (fleet demoFleet demoOut fun _ _ => {})).map
      (fun f => ((f.part 1).ring.state, (f.part 1).ring.pc 1, (f.part 1).ring.pc 2, (f.part 0).ring.pc 1, f.screen)) =
      some (.running, .idle, .idle, .idle, []) ∧
    (fleetActs demoFleet (demoFleetRace ++ (1, .stop) :: onChannel 1 (demoRuns 0 414))
      (fleet demoFleet demoOut fun _ _ => {})).map
      (fun f => ((f.part 1).ring.pc 0, f.fs "a.log".toList, f.fs "c.log".toList, f.screen.length)) =
    some (.done, some ["[20261116 11:33:20.417][ERROR][a.cpp:17](f) one\n".toList],
      some ["[20261116 11:33:20.417][ERROR][a.cpp:17](f) two\n".toList,
      "[20261116 11:33:20.417][ERROR][a.cpp:17](f) three\n".toList], 2) := by
  refine ⟨?_, fleetOnTime_of (by kernel_rfl), ?_, by kernel_rfl, by kernel_rfl⟩
  · intro e he
    simp only [demoFleetRace, onChannel, demoRuns, List.map_replicate, List.mem_append, List.mem_cons, List.not_mem_nil,
      or_false, List.mem_replicate] at he
    rcases he with ((((((((⟨_, rfl⟩ | rfl | rfl | rfl) | ⟨_, rfl⟩) | rfl) | ⟨_, rfl⟩) | ⟨_, rfl⟩) | rfl) | ⟨_, rfl⟩) |
      ⟨_, rfl⟩) | rfl | ⟨_, rfl⟩
    all_goals first
      | trivial
      | exact demoLog1_sound _ _
      | exact demoCall_sound (demoFleet 0) rfl rfl rfl rfl rfl _ _
  · intro e he
    obtain ⟨x, hx, rfl⟩ := List.mem_map.mp he
    have hx := (List.mem_filter.mp hx).1
    simp only [demoFleetRace, onChannel, demoRuns, List.map_replicate, List.mem_append, List.mem_cons, List.not_mem_nil,
      or_false, List.mem_replicate] at hx
    rcases hx with ((((((((⟨_, rfl⟩ | rfl | rfl | rfl) | ⟨_, rfl⟩) | rfl) | ⟨_, rfl⟩) | ⟨_, rfl⟩) | rfl) | ⟨_, rfl⟩) |
      ⟨_, rfl⟩) <;> trivial

end FNLog
