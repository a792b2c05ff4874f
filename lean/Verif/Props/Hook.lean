import Verif.Proof.HookFirst
import Verif.Props.Threads

/-!
# Property C87: any number of threads and a hook

`postActs S es (post S o)` is the state after the schedule `es` with a hook, `acts S es (crew S o)` without.  `OnTime` as in
C72.
-/

namespace FNLog
open Spec Ring

/-- The hook has changed nothing but the statistics of its device. -/
structure SameButHook (S : Setup) (s c : Crew) : Prop where
  ring : c.ring = s.ring
  made : c.made = s.made
  visits : c.visits = s.visits
  caches : c.caches = s.caches
  screen : c.out.screen = s.out.screen
  net : c.out.net = s.out.net
  files : c.out.fs = s.out.fs
  devices : ∀ k, ¬ HookDevice S k → c.out.dev k = s.out.dev k
  hooked : ∀ k, HookDevice S k → c.out.dev k = { s.out.dev k with logs := (c.out.dev k).logs }

theorem PostInv.ring {b : Bool} {S : Setup} {o : OutSt} {p : Post} {s : Crew} (h : PostInv b S o p s) :
    p.crew.ring = s.ring ∧ p.crew.made = s.made := by
  obtain ⟨x, tw, _⟩ := h.twin
  exact ⟨tw.ring, tw.made⟩

theorem PostInv.same {b : Bool} {S : Setup} {o : OutSt} {p : Post} {s : Crew} (h : PostInv b S o p s) :
    SameButHook S s p.crew := by
  obtain ⟨x, tw, ex⟩ := h.twin
  refine ⟨tw.ring, tw.made, tw.visits, tw.caches, h.screen, h.net, ?_, fun k hk => ?_, fun k hk => ?_⟩
  · funext q
    by_cases hq : Foreign S.fenv S.channel.id S.channel.devices q
    · rw [h.foreign q hq, h.crew.foreign q hq]
    · unfold Foreign at hq
      simp only [Classical.not_forall, Classical.not_not] at hq
      obtain ⟨d, hd, hf, hq⟩ := hq
      exact tw.files d hd hf q hq
  · rw [tw.dev k, ex.other k hk, DevSt.plus_zero]
  · rw [tw.dev k]
    rfl

theorem PostInv.counted {b : Bool} {S : Setup} {o : OutSt} {p : Post} {s : Crew} (h : PostInv b S o p s) {k : Nat}
    (hk : HookDevice S k) : HookCounted (s.out.dev k).logs (p.crew.out.dev k).logs (p.hooked.map Prod.snd) := by
  obtain ⟨x, tw, ex⟩ := h.twin
  rw [tw.dev k]
  have hc := ex.count k hk
  refine ⟨?_, ?_, fun q hq => ?_, fun i h1 h2 h3 => ?_⟩
  · have := hc.lines
    simp only [DevSt.plus, plus]
    omega
  · have := hc.bytes
    simp only [DevSt.plus, plus]
    omega
  · have := hc.priorities q hq
    simp only [DevSt.plus, plus]
    omega
  · have := hc.rest i h1 h2 h3
    simp only [DevSt.plus, plus]
    omega

/-- The records in the channel and the calls of the hook belong to the same statements. -/
theorem PostInv.program {b : Bool} {S : Setup} {o : OutSt} {p : Post} {s : Crew} (h : PostInv b S o p s)
    {recs : List (Nat × Head × List Char)} (hr : s.ring.acquired = recs.map fun r => (r.1, cellOf r.2.1 r.2.2)) (t : Nat) :
    ∃ logged calls, LoggedHook S (linesOf t s.made) logged calls ∧ (linesOf t recs).Sublist logged ∧
      (linesOf t p.hooked).Sublist calls ∧
      (linesOf t s.ring.acquired = (linesOf t s.ring.calls).map (withEnd S.cfg.nl) → linesOf t recs = logged) ∧
      (b = true → early (s.ring.pc t) = false → linesOf t p.hooked = calls) := by
  obtain ⟨said, calls, g1, g2, g3⟩ := h.heard
  have e1 : linesOf t s.ring.acquired = (linesOf t recs).map fun r => cellOf r.1 r.2 := by
    rw [hr]
    exact linesOf_map t (fun r : Head × List Char => cellOf r.1 r.2) recs
  have e2 : (linesOf t s.ring.calls).map (withEnd S.cfg.nl) = (linesOf t said).map fun r => cellOf r.1 r.2 := by
    have a := congrArg (linesOf t) g2
    rw [linesOf_map t (fun r : Head × List Char => cellOf r.1 r.2) said] at a
    rw [← a]
    exact (linesOf_map t (fun e : List Piece => e ++ [S.cfg.nl]) s.ring.calls).symm
  have ht := g3 t
  unfold Told at ht
  refine ⟨linesOf t said, linesOf t calls, heard_logged g1 t, ?_, ?_, ?_, ?_⟩
  · apply cell_sublist
    rw [← e1, ← e2]
    exact (List.sublist_append_left _ _).trans (h.crew.prog t)
  · split at ht
    · obtain ⟨_, _, l, _, _, t3, t4⟩ := ht
      rw [t3]
      exact t4.1.trans (List.sublist_append_left _ _)
    · exact ht.1
  · intro he
    rw [e1, e2] at he
    exact map_cell_inj he
  · intro hb he
    rw [he, if_neg (by simp)] at ht
    exact ht.2 hb

/-- **C87**: after any schedule, defined behaviour; the hook has changed nothing but the statistics of its device, which count
its calls; each thread has called it in program order, at most once for each of its admitted statements, and only with
records that the device accepts, with their text (cut to fit a terminating zero). -/
theorem C87_hook_partial {S : Setup} (hS : Ready S) (hap : FilesApart S.fenv S.channel.id S.channel.devices)
    {o : OutSt} (ho : Own S.fenv S.channel.id S.channel.devices o) {es : List Act} (he : ∀ e ∈ es, SoundAct S e)
    (ht : OnTime S es (crew S o)) :
    ∃ p s recs, postActs S es (post S o) = some p ∧ acts S es (crew S o) = some s ∧ SameButHook S s p.crew ∧
      s.ring.acquired = recs.map (fun r => (r.1, cellOf r.2.1 r.2.2)) ∧
      (∀ t, ∃ logged calls, LoggedHook S (linesOf t s.made) logged calls ∧ (linesOf t recs).Sublist logged ∧
        (linesOf t p.hooked).Sublist calls) ∧
      ∀ k, HookDevice S k → HookCounted (s.out.dev k).logs (p.crew.out.dev k).logs (p.hooked.map Prod.snd) := by
  obtain ⟨p, s, h1, h2, h3⟩ := post_ok (b := false) hS hap (postInv_start hS ho) he ht (by nofun)
  obtain ⟨recs, hr, _⟩ := h3.crew.records
  refine ⟨p, s, recs, h1, h2, h3.same, hr, fun t => ?_, fun k hk => h3.counted hk⟩
  obtain ⟨logged, calls, g1, g2, g3, _⟩ := h3.program hr t
  exact ⟨logged, calls, g1, g2, g3⟩

/-- **C87**: if the channel was never stopped, and no thread is inside a statement, the hook has been called for every admitted
statement whose record its device accepts, by its own thread, once and in program order; and the channel has exactly the
records of the same statements. -/
theorem C87_complete_partial {S : Setup} (hS : Ready S) (hap : FilesApart S.fenv S.channel.id S.channel.devices)
    {o : OutSt} (ho : Own S.fenv S.channel.id S.channel.devices o) {es : List Act} (he : ∀ e ∈ es, SoundAct S e)
    (ht : OnTime S es (crew S o)) (hn : ∀ e ∈ es, e.noStop) {p : Post} (hp : postActs S es (post S o) = some p)
    (hidle : ∀ t, p.crew.ring.pc t = .idle ∨ (S.cfg.async = true ∧ t = worker)) :
    ∃ recs, p.crew.ring.acquired = recs.map (fun r => (r.1, cellOf r.2.1 r.2.2)) ∧
      ∀ t, LoggedHook S (linesOf t p.crew.made) (linesOf t recs) (linesOf t p.hooked) := by
  have hL : 0 < S.cfg.L := Nat.lt_of_lt_of_le (by decide) hS.slots
  obtain ⟨p', s, h1, h2, h3⟩ := post_ok (b := true) hS hap (postInv_start hS ho) he ht fun _ => hn
  rw [hp] at h1
  obtain rfl := Option.some.inj h1
  obtain ⟨s', rs, a1, a2, a3, a4, a5, _⟩ := acts_after hS hap ho he ht
  rw [h2] at a1
  obtain rfl := Option.some.inj a1
  obtain ⟨recs, hr, _⟩ := h3.crew.records
  rw [h3.ring.1, h3.ring.2]
  rw [h3.ring.1] at hidle
  refine ⟨recs, hr, fun t => ?_⟩
  obtain ⟨logged, calls, g1, _, _, g4, g5⟩ := h3.program hr t
  have hpub := (C10_all_published S.cfg hL rs a4 (a5 hn) (fun u => by rw [← a3]; exact hidle u)).2 t
  rw [← a3] at hpub
  rw [g4 hpub, g5 rfl (by
    rcases hidle t with h | ⟨h, rfl⟩
    · rw [h]; rfl
    · have := (ord_after hL h a4).pcw
      rw [← a3] at this
      cases hp : s.ring.pc worker <;> rw [hp] at this <;> simp [OrdPC] at this <;> rfl)]
  exact g1

/-- **C87**: after any schedule, every record that some device has been given and that the device of the hook accepts has
been given to the hook (since this holds after every event, the hook came first). -/
theorem C87_hook_first_partial {S : Setup} (hS : Ready S) (hap : FilesApart S.fenv S.channel.id S.channel.devices)
    {o : OutSt} (ho : Own S.fenv S.channel.id S.channel.devices o) {es : List Act} (he : ∀ e ∈ es, SoundAct S e)
    (ht : OnTime S es (crew S o)) {p : Post} (hp : postActs S es (post S o) = some p) {v : Visit} (hv : v ∈ p.crew.visits)
    (hk : HookTakes S v.head) :
    ∃ t text, v.text = lineOf S.env.N text ∧ (t, v.head, hookText S.env.N text) ∈ p.hooked := by
  obtain ⟨p', s, h1, _, h3, h4⟩ := post_asked (b := false) hS hap (postInv_start hS ho) (asked_start S o) he ht (by nofun)
  rw [hp] at h1
  obtain rfl := Option.some.inj h1
  rw [h3.same.visits] at hv
  exact h4.seen h3.crew hv hk

/-! A virtual device beside the two files of C64, two threads, and a hook that takes warnings. -/

def demoHookChannel : Channel := { demoChannel with
  devices := demoChannel.devices ++ [{ id := 2, outType := .virtual, cfg := { able := 1, priority := 3 } }]
  virtualDeviceId := 2 }

def demoHookSetup : Setup := { demoSetup with
  channel := demoHookChannel
  lg := ⟨.running, some [demoHookChannel]⟩
  hook := true }

/-- The first thread is halfway through its statement when the second makes a whole one. -/
def demoHookRace : List Act :=
  [.started, demoLog 1 "one".toList] ++ demoRuns 1 40 ++ [.log 2 (demoCall 2) [.put (.str "low".toList)]] ++ demoRuns 2 140 ++
    demoRuns 1 150 ++ [demoLog 2 "two".toList] ++ demoRuns 2 140

theorem demoHook_devices {i : Nat} {d : Device} (h : demoHookSetup.channel.devices[i]? = some d) :
    (d.outType = .virtual) ∨ demoSetup.channel.devices[i]? = some d := by
  match i with
  | 0 => exact Or.inr h
  | 1 => exact Or.inr h
  | 2 => obtain rfl := Option.some.inj h; exact Or.inl rfl
  | i + 3 => exact absurd h (by simp [demoHookSetup, demoHookChannel, demoChannel])

theorem demoHook_ready : Ready demoHookSetup where
  lib := demo_ready.lib
  zone := demo_ready.zone
  slots := demo_ready.slots
  nl := demo_ready.nl
  id := demo_ready.id
  channel := ⟨_, rfl, rfl⟩
  hook := fun _ => by decide
  named := by
    intro d hd hf
    obtain ⟨i, hi⟩ := List.getElem?_of_mem hd
    rcases demoHook_devices hi with h | h
    · rw [h] at hf; cases hf
    · exact demo_ready.named d (List.mem_of_getElem? h) hf

theorem demoHook_apart : FilesApart demoHookSetup.fenv demoHookSetup.channel.id demoHookSetup.channel.devices := by
  intro i j a b hij ha hb hfa hfb
  rcases demoHook_devices ha with h | h
  · rw [h] at hfa; cases hfa
  rcases demoHook_devices hb with h' | h'
  · rw [h'] at hfb; cases hfb
  exact demo_apart i j a b hij h h' hfa hfb

theorem demoHook_sound (t : Nat) (p : Int) (hp : p = 0 ∨ p = 2 ∨ p = 4) (text : List Char) :
    SoundAct demoHookSetup (.log t (demoCall p) [.put (.str text)]) := by
  have hd : ∀ c i, ∀ d ∈ demoHookChannel.devices, DevDefined d c i := by
    intro c i d hd
    simp only [demoHookChannel, demoChannel, List.mem_cons, List.mem_append, List.not_mem_nil, or_false] at hd
    rcases hd with (rfl | rfl) | rfl <;>
      exact ⟨by decide, by decide, by decide, by decide, Or.inl (by decide), Or.inl (by decide)⟩
  have hc : ∀ c i, ChanDefined demoHookChannel c i := fun c i =>
    ⟨⟨by decide, by decide, by decide, by decide, Or.inl (by decide), Or.inl (by decide)⟩, hd c i⟩
  refine ⟨rfl, hc _ _, hd _ _, "a.cpp".toList, demo_fits p hp _ ?_⟩
  intro v hv
  simp only [written, List.mem_cons, List.not_mem_nil, or_false] at hv
  subst hv
  trivial

/-- The hypotheses of the theorems hold, and the hook has been called for the two errors, not for the record of priority 2. -/
example : Ready demoHookSetup ∧ FilesApart demoHookSetup.fenv demoHookSetup.channel.id demoHookSetup.channel.devices ∧
    Own demoHookSetup.fenv demoHookSetup.channel.id demoHookSetup.channel.devices demoOut ∧
    (∀ e ∈ demoHookRace, SoundAct demoHookSetup e) ∧ (∀ e ∈ demoHookRace, e.noStop) ∧
    OnTime demoHookSetup demoHookRace (crew demoHookSetup demoOut) ∧
    (postActs demoHookSetup demoHookRace (post demoHookSetup demoOut)).map
      (fun p => (p.crew.ring.pc 1, p.crew.ring.pc 2, p.hooked.map (fun c => (c.1, c.2.1.priority)), p.crew.visits.length,
        (p.crew.out.dev 2).logs DEVICE_LOG_TOTAL_WRITE_LINE)) =
      some (.idle, .idle, [(1, 4), (2, 4)], 9, 2) ∧
    ∀ p, postActs demoHookSetup demoHookRace (post demoHookSetup demoOut) = some p →
      ∀ t, p.crew.ring.pc t = .idle ∨ (demoHookSetup.cfg.async = true ∧ t = worker) := by
  have hok : ∀ e ∈ demoHookRace, SoundAct demoHookSetup e := by
    intro e he
    simp only [demoHookRace, demoRuns, List.mem_append, List.mem_cons, List.not_mem_nil, or_false, List.mem_replicate] at he
    rcases he with ((((((rfl | rfl) | ⟨_, rfl⟩) | rfl) | ⟨_, rfl⟩) | ⟨_, rfl⟩) | rfl) | ⟨_, rfl⟩
    all_goals first
      | trivial
      | exact demoHook_sound _ 4 (by decide) _
      | exact demoHook_sound _ 2 (by decide) _
  have hno : ∀ e ∈ demoHookRace, e.noStop := by
    intro e he
    simp only [demoHookRace, demoRuns, List.mem_append, List.mem_cons, List.not_mem_nil, or_false, List.mem_replicate] at he
    rcases he with ((((((rfl | rfl) | ⟨_, rfl⟩) | rfl) | ⟨_, rfl⟩) | ⟨_, rfl⟩) | rfl) | ⟨_, rfl⟩ <;> trivial
  have hown : Own demoHookSetup.fenv demoHookSetup.channel.id demoHookSetup.channel.devices demoOut :=
    fun _ _ _ _ _ h => absurd h (by simp [demoOut])
  have htime : OnTime demoHookSetup demoHookRace (crew demoHookSetup demoOut) := onTime_of (by kernel_rfl)
  refine ⟨demoHook_ready, demoHook_apart, hown, hok, hno, htime, by kernel_rfl, fun p hp t => Or.inl ?_⟩
  obtain ⟨p', s, _, h1, h2, h3, _⟩ := C87_hook_partial demoHook_ready demoHook_apart hown hok htime
  rw [hp] at h1
  obtain rfl := Option.some.inj h1
  have h12 : (postActs demoHookSetup demoHookRace (post demoHookSetup demoOut)).map
      (fun p => (p.crew.ring.pc 1, p.crew.ring.pc 2)) = some (.idle, .idle) := by kernel_rfl
  rw [hp] at h12
  obtain ⟨g1, g2⟩ := Prod.mk.inj (Option.some.inj h12)
  by_cases e1 : t = 1
  · subst e1; exact g1
  by_cases e2 : t = 2
  · subst e2; exact g2
  have ho : demoHookRace.all (Act.other t) = true := by
    rw [List.all_eq_true]
    intro e he
    simp only [demoHookRace, demoRuns, List.mem_append, List.mem_cons, List.not_mem_nil, or_false, List.mem_replicate] at he
    rcases he with ((((((rfl | rfl) | ⟨_, rfl⟩) | rfl) | ⟨_, rfl⟩) | ⟨_, rfl⟩) | rfl) | ⟨_, rfl⟩ <;>
      simp [Act.other, demoLog] <;> omega
  rw [h3.ring, acts_other ho h2]
  rfl

end FNLog
