import Verif.Proof.WeakThreads
import Verif.Props.Threads

/-!
# Property C90: any number of threads logging to one channel, under the C++ memory model

`wActs S es (wCrew S o)` is the state after an arbitrary schedule `es`, in which each load of an index or mark may return any
value that is not older than what the thread knows, and each test of `channel_state_` or `logger_state_` may give any answer.
`WOnTime` is the only restriction on schedules: no compare-and-swap succeeds although the index went round the ring since the
thread loaded it (see C12).
-/

namespace FNLog
open Spec Ring

/-- **C90**: any number of threads execute log statements on one channel, in any interleaving and with any values that the
C++ memory model allows for their loads.  No step is undefined, and at every moment:
* no two conflicting accesses to a record (by a log statement, or by the dispatch to one of the devices) are unordered;
* every record in the channel is the record of a different log statement, complete and unmixed, and those of a thread are in
  its program order;
* each device has seen some of these records, each at most once; on an async channel it has seen the first of them, in order
  and without a gap, so that all devices agree on the order;
* the open file, statistics and files of each file device are as if it had processed the records seen alone, and no other
  file has changed;
* state, statistics and datagrams of every other device are also as if it had processed the records seen alone. -/
theorem C90_threads_partial {S : Setup} (hS : Ready S) (hap : FilesApart S.fenv S.channel.id S.channel.devices)
    {o : OutSt} (ho : Own S.fenv S.channel.id S.channel.devices o) {es : List WAct} (he : ∀ e ∈ es, SoundWAct S e)
    (ht : WOnTime S es (wCrew S o)) :
    ∃ x recs seen, wActs S es (wCrew S o) = some x ∧ x.weak.race = false ∧ x.weak.unordered = false ∧
      x.weak.s.acquired = recs.map (fun r => (r.1, cellOf r.2.1 r.2.2)) ∧
      (∀ t, ∃ prog logged, prog.Sublist (wStatementsOf t es) ∧ Logged S prog logged ∧ (linesOf t recs).Sublist logged) ∧
      (∀ j, j < S.channel.devices.length → EachAtMostOnce (recs.map Prod.snd) (seen j)) ∧
      (S.cfg.async = true → ∀ j, j < S.channel.devices.length → InOrderPrefix (recs.map Prod.snd) (seen j)) ∧
      FilesAfter S o x.crew seen ∧ DevicesAfter S o x.crew seen := by
  obtain ⟨x, h1, h2⟩ := wActs_ok hS hap (wCrew_inv hS ho) he ht
  obtain ⟨recs, hr, _⟩ := h2.crew.records
  refine ⟨x, recs, fun j => (visitsOf j x.visits).map Visit.record, h1, h2.weak.clean.1, h2.weak.clean.2, hr, ?_, ?_, ?_,
    h2.crew.filesAfter, h2.crew.devicesAfter⟩
  · intro t
    obtain ⟨logged, g1, g2, _⟩ := h2.crew.program hr t
    obtain ⟨y, g3, g4⟩ := wMade_acts t h1
    refine ⟨linesOf t x.made, logged, ?_, g1, g2⟩
    rw [g3]
    exact g4
  · intro j _
    exact atMostOnce_of_positions _ _ _ (h2.crew.visitND j) (h2.crew.positions hr j)
  · intro hA j hj
    obtain ⟨hord, hturn⟩ := h2.ord hA
    obtain ⟨m, hm⟩ := hturn.numbers h2.crew.base hord.ord hj
    have hp := h2.crew.positions hr j
    rw [hm] at hp
    refine ⟨(recs.map Prod.snd).drop m, ?_⟩
    show (visitsOf j x.crew.visits).map Visit.record ++ _ = _
    rw [(prefix_of_range hp).1, List.take_append_drop]

/-- **C90**: whenever all indices have met and nobody is dispatching, every record has been seen by every device, exactly
once; on an async channel in the order of the channel. -/
theorem C90_complete_partial {S : Setup} (hS : Ready S) (hap : FilesApart S.fenv S.channel.id S.channel.devices)
    {o : OutSt} (ho : Own S.fenv S.channel.id S.channel.devices o) {es : List WAct} (he : ∀ e ∈ es, SoundWAct S e)
    (ht : WOnTime S es (wCrew S o)) {x : WCrew} (hx : wActs S es (wCrew S o) = some x)
    (hall : x.weak.s.P = x.weak.s.H) (hout : ∀ t k, x.weak.s.pc t ≠ .cDisp k) :
    ∃ (recs : List (Nat × Head × List Char)) (seen : Nat → List (Head × List Char)),
      x.weak.s.acquired = recs.map (fun r => (r.1, cellOf r.2.1 r.2.2)) ∧
      (∀ t, ∃ prog logged, prog.Sublist (wStatementsOf t es) ∧ Logged S prog logged ∧ (linesOf t recs).Sublist logged) ∧
      (∀ j, j < S.channel.devices.length → EachExactlyOnce (recs.map Prod.snd) (seen j)) ∧
      (S.cfg.async = true → ∀ j, j < S.channel.devices.length → seen j = recs.map Prod.snd) ∧
      FilesAfter S o x.crew seen ∧ DevicesAfter S o x.crew seen := by
  obtain ⟨x', h1, h2⟩ := wActs_ok hS hap (wCrew_inv hS ho) he ht
  rw [hx] at h1
  obtain rfl := Option.some.inj h1
  obtain ⟨recs, hr, _⟩ := h2.crew.records
  have hlen : recs.length = x.weak.s.H := by
    rw [← h2.weak.inv.len, show x.weak.s.acquired = _ from hr, List.length_map]
  have hmem : ∀ j, j < S.channel.devices.length → ∀ k, k ∈ (visitsOf j x.visits).map Visit.number ↔ k < recs.length := by
    intro j hj k
    have hv := h2.crew.visitMem j hj k
    rw [h2.crew.ring.outMem, h2.crew.base] at hv
    refine hv.trans ?_
    show _ ∧ k < x.weak.s.P ∧ _ ∨ _ ↔ _
    rw [hall, hlen]
    constructor
    · rintro (h | ⟨t, h, _⟩)
      · exact h.2.1
      · exact absurd h (hout t k)
    · intro h
      exact Or.inl ⟨Nat.zero_le _, h, fun t => hout t k⟩
  have hperm : ∀ j, j < S.channel.devices.length →
      ((visitsOf j x.visits).map Visit.number).Perm (List.range recs.length) := by
    intro j hj
    refine (List.perm_ext_iff_of_nodup (h2.crew.visitND j) List.nodup_range).mpr fun k => ?_
    show k ∈ (visitsOf j x.visits).map Visit.number ↔ _
    rw [hmem j hj, List.mem_range]
  refine ⟨recs, fun j => (visitsOf j x.visits).map Visit.record, hr, ?_, ?_, ?_, h2.crew.filesAfter, h2.crew.devicesAfter⟩
  · intro t
    obtain ⟨logged, g1, g2, _⟩ := h2.crew.program hr t
    obtain ⟨y, g3, g4⟩ := wMade_acts t hx
    refine ⟨linesOf t x.made, logged, ?_, g1, g2⟩
    rw [g3]
    exact g4
  · intro j hj
    obtain ⟨rest, hrest⟩ := atMostOnce_of_positions _ _ _ (h2.crew.visitND j) (h2.crew.positions hr j)
    have e1 := hrest.length_eq
    have e2 := (hperm j hj).length_eq
    simp only [List.length_append, List.length_map, List.length_range, WCrew.crew] at e1 e2
    have : rest = [] := List.eq_nil_of_length_eq_zero (by omega)
    rw [this, List.append_nil] at hrest
    exact hrest
  · intro hA j hj
    obtain ⟨hord, hturn⟩ := h2.ord hA
    obtain ⟨m, hm⟩ := hturn.numbers h2.crew.base hord.ord hj
    have hp := h2.crew.positions hr j
    have e2 := (hperm j hj).length_eq
    rw [show (visitsOf j x.visits).map Visit.number = _ from hm] at e2
    rw [hm] at hp
    simp only [List.length_range] at e2
    show (visitsOf j x.crew.visits).map Visit.record = _
    rw [(prefix_of_range hp).1, e2, List.take_of_length_le (by rw [List.length_map]; exact Nat.le_refl _)]

/-! The two threads of C72 on the async channel; the thread of the channel first loads outdated values of `write_idx_` and
finds nothing, then the newest ones. -/

def demoWeakLog (t : Nat) (text : List Char) : WAct := .log t (demoCall 4) [.put (.str text)] true

def demoWeakRuns (t k n : Nat) : List WAct := List.replicate k (.run t n true)

def demoWeakRace : List WAct :=
  [demoWeakLog 1 "one".toList] ++ demoWeakRuns 1 40 1000 ++ [demoWeakLog 2 "two".toList] ++ demoWeakRuns 2 110 1000 ++
    demoWeakRuns 1 80 1000 ++ demoWeakRuns 0 20 0

def demoWeakRest : List WAct := demoWeakRuns 0 60 1000

example : (∀ e ∈ demoWeakRace ++ demoWeakRest, SoundWAct demoAsyncSetup e) ∧
    WOnTime demoAsyncSetup (demoWeakRace ++ demoWeakRest) (wCrew demoAsyncSetup demoOut) ∧
    (wActs demoAsyncSetup demoWeakRace (wCrew demoAsyncSetup demoOut)).map
      (fun x => (x.weak.s.W, x.weak.s.P, x.visits.length)) = some (2, 0, 0) ∧
    (wActs demoAsyncSetup (demoWeakRace ++ demoWeakRest) (wCrew demoAsyncSetup demoOut)).map
      (fun x => (x.weak.s.H, x.weak.s.P, x.weak.s.pc 0)) = some (2, 2, .cLoad) ∧
    (wActs demoAsyncSetup (demoWeakRace ++ demoWeakRest) (wCrew demoAsyncSetup demoOut)).map
      (fun x => (x.out.fs "a.log".toList, x.out.fs "b.log".toList)) =
    some (some ["[20261116 11:33:20.417][ERROR][a.cpp:17](f) one\n".toList,
      "[20261116 11:33:20.417][ERROR][a.cpp:17](f) two\n".toList],
      some ["[20261116 11:33:20.417][ERROR][a.cpp:17](f) one\n".toList,
      "[20261116 11:33:20.417][ERROR][a.cpp:17](f) two\n".toList]) := by
  refine ⟨?_, wOnTime_of (by kernel_rfl), by kernel_rfl, by kernel_rfl, by kernel_rfl⟩
  intro e he
  simp only [demoWeakRace, demoWeakRest, demoWeakRuns, List.mem_append, List.mem_cons, List.not_mem_nil, or_false,
    List.mem_replicate] at he
  rcases he with (((((rfl | ⟨_, rfl⟩) | rfl) | ⟨_, rfl⟩) | ⟨_, rfl⟩) | ⟨_, rfl⟩) | ⟨_, rfl⟩
  all_goals first
    | trivial
    | exact demoCall_sound demoAsyncSetup rfl rfl rfl rfl rfl 0 _

end FNLog
