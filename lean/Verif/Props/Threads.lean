import Verif.Proof.ThreadsEnd
import Verif.Props.Statement

/-!
# Properties C72 and C73: any number of threads logging to one channel

`acts S es (crew S o)` is the state after an arbitrary schedule `es` of log statements, steps of threads, start and stop.
`OnTime` is the only restriction on schedules: no compare-and-swap succeeds although the index went round the ring since the
thread loaded it (see C12).
-/

namespace FNLog
open Spec Ring

/-- The schedule of the ring that belongs to a schedule. -/
theorem acts_after {S : Setup} (hS : Ready S) (hap : FilesApart S.fenv S.channel.id S.channel.devices) {o : OutSt}
    (ho : Own S.fenv S.channel.id S.channel.devices o) {es : List Act} (he : ∀ e ∈ es, SoundAct S e)
    (ht : OnTime S es (crew S o)) : ∃ s rs, acts S es (crew S o) = some s ∧ CrewInv S o s ∧ s.ring = after S.cfg rs ∧
      Timely S.cfg (Ring.init S.cfg) rs ∧ ((∀ e ∈ es, e.noStop) → ∀ x ∈ rs, x.noStop) ∧
      (S.cfg.async = true → InTurn S s) := by
  have hi := crew_inv hS ho
  obtain ⟨s, rs, h1, h2, h3, h4, h5, _⟩ := acts_ok hS hap hi he ht
  exact ⟨s, rs, h1, h2, h3, h4, h5, fun hA => inTurn_acts hA hS hap hi (by simp [InTurn, crew, current, Ring.init, worker, hA]) he ht h1⟩

/-- What has happened at the file devices and to all other files. -/
structure FilesAfter (S : Setup) (o : OutSt) (s : Crew) (seen : Nat → List (Head × List Char)) : Prop where
  device : ∀ (j : Nat) (d : Device), S.channel.devices[j]? = some d → d.outType = .file →
    ∃ taken t, Runs S.fenv S.channel.id d (view o j) (handed S.os j d 0 (seen j)) taken t ∧
      t.handle = (s.out.dev j).handle ∧ t.logs = (s.out.dev j).logs ∧
      AgreeOn (FilesOf S.fenv S.channel.id d) t.fs s.out.fs
  foreign : ∀ p, Foreign S.fenv S.channel.id S.channel.devices p → s.out.fs p = o.fs p

theorem CrewFrom.filesAfter {S : Setup} {o : OutSt} {s : Crew} (h : CrewInv S o s) :
    FilesAfter S o s fun j => (visitsOf j s.visits).map Visit.record where
  device := by
    intro j d hj hd
    obtain ⟨tk, t, h1, h2⟩ := h.files j d hj hd
    exact ⟨tk, t, h1, h2.handle, h2.logs, h2.fs⟩
  foreign := h.foreign

theorem FilesAfter.congr {S : Setup} {o : OutSt} {s : Crew} {f g : Nat → List (Head × List Char)} (h : FilesAfter S o s f)
    (hfg : ∀ j, j < S.channel.devices.length → f j = g j) : FilesAfter S o s g where
  device := by
    intro j d hj hd
    rw [← hfg j (List.getElem?_eq_some_iff.mp hj).1]
    exact h.device j d hj hd
  foreign := h.foreign

/-- What has happened at the devices of every type, and on the network. -/
structure DevicesAfter (S : Setup) (o : OutSt) (s : Crew) (seen : Nat → List (Head × List Char)) : Prop where
  /-- each device is as if it had processed the records seen alone -/
  device : ∀ (j : Nat) (d : Device), S.channel.devices[j]? = some d →
    ∃ u, alone S j d 0 (seen j) o = some u ∧ u.dev j = s.out.dev j ∧
      (d.outType = .file → AgreeOn (FilesOf S.fenv S.channel.id d) u.fs s.out.fs)
  /-- every datagram was sent by a UDP device, and those of a device are its lines in the order seen, except those lost for
  want of a socket; the statistics count both -/
  net : ∃ grams : List (Nat × Datagram), s.out.net = o.net ++ grams.map Prod.snd ∧
    (∀ g ∈ grams, ∃ d, S.channel.devices[g.1]? = some d ∧ d.outType = .udp) ∧
    ∀ (j : Nat) (d : Device), S.channel.devices[j]? = some d → d.outType = .udp →
      ∃ lost sent, UdpFate S.os j d 0 (seen j) lost sent ∧
        (grams.filter fun g => g.1 == j).map Prod.snd = sent.map (fun x => datagram d x.1) ∧
        (s.out.dev j).logs DEVICE_LOG_TOTAL_LOSE_LINE = (o.dev j).logs DEVICE_LOG_TOTAL_LOSE_LINE + lost +
          (sent.filter fun x => !x.2).length ∧
        (s.out.dev j).logs DEVICE_LOG_TOTAL_WRITE_LINE = (o.dev j).logs DEVICE_LOG_TOTAL_WRITE_LINE + sent.length ∧
        ((o.dev j).sock = true → lost = 0)
  /-- screen and empty devices count lines and bytes -/
  counts : ∀ (j : Nat) (d : Device), S.channel.devices[j]? = some d → d.outType = .screen ∨ d.outType = .empty →
    (s.out.dev j).logs DEVICE_LOG_TOTAL_WRITE_LINE =
      (o.dev j).logs DEVICE_LOG_TOTAL_WRITE_LINE + (linesFor d (seen j)).length ∧
    (s.out.dev j).logs DEVICE_LOG_TOTAL_WRITE_BYTE =
      (o.dev j).logs DEVICE_LOG_TOTAL_WRITE_BYTE + (linesFor d (seen j)).flatten.length

/-- The devices are defined for every record seen. -/
theorem CrewFrom.dispatchable {S : Setup} {o : OutSt} {s : Crew} (h : CrewInv S o s) {v : Visit} (hv : v ∈ s.visits) :
    Dispatchable S v.head := by
  have hval := h.visitVal v hv
  cases e : s.ring.acquired[v.number]? with
  | none => rw [e] at hval; exact absurd hval (by simp)
  | some y =>
    rw [e] at hval
    obtain ⟨hd, line, hx, hy⟩ := h.decoded (t := y.1) (x := y.2) e
    have h1 : cellOf v.head v.text = cellOf hd line := (Option.some.inj hval).symm.trans hx
    have h2 := congrArg decode h1
    rw [decode_cell, decode_cell] at h2
    rw [show v.head = hd from congrArg Prod.fst (Option.some.inj h2)]
    exact hy

theorem CrewFrom.devicesAfter {S : Setup} {o : OutSt} {s : Crew} (h : CrewInv S o s) :
    DevicesAfter S o s fun j => (visitsOf j s.visits).map Visit.record := by
  obtain ⟨grams, hg⟩ := h.gave
  have hp : ∀ j, ∀ r ∈ (visitsOf j s.visits).map Visit.record, 0 ≤ r.1.priority ∧ r.1.priority ≤ 6 := by
    intro j r hr
    obtain ⟨v, hv, rfl⟩ := List.mem_map.mp hr
    exact (h.dispatchable (List.mem_filter.mp hv).1).1
  refine ⟨?_, ⟨grams, hg.net, hg.mem, ?_⟩, ?_⟩
  · intro j d hj
    obtain ⟨u, h1, h2, h3, _⟩ := hg.alone j d hj
    exact ⟨u, h1, h2, h3⟩
  · intro j d hj hd
    obtain ⟨u, h1, h2, _, h4⟩ := hg.alone j d hj
    obtain ⟨lost, sent, e1, e2, e3, e4, e5⟩ := alone_udp hd (hp j) h1
    rw [h2] at e3 e4
    exact ⟨lost, sent, e1, List.append_cancel_left (h4.symm.trans e2), e3, e4, e5⟩
  · intro j d hj hd
    obtain ⟨u, h1, h2, _⟩ := hg.alone j d hj
    rw [← h2]
    exact alone_counts hd (hp j) h1

theorem DevicesAfter.congr {S : Setup} {o : OutSt} {s : Crew} {f g : Nat → List (Head × List Char)}
    (h : DevicesAfter S o s f) (hfg : ∀ j, j < S.channel.devices.length → f j = g j) : DevicesAfter S o s g := by
  have key : ∀ (j : Nat) (d : Device), S.channel.devices[j]? = some d → f j = g j :=
    fun j d hj => hfg j (List.getElem?_eq_some_iff.mp hj).1
  obtain ⟨grams, n1, n2, n3⟩ := h.net
  refine ⟨?_, ⟨grams, n1, n2, ?_⟩, ?_⟩
  · intro j d hj; rw [← key j d hj]; exact h.device j d hj
  · intro j d hj; rw [← key j d hj]; exact n3 j d hj
  · intro j d hj; rw [← key j d hj]; exact h.counts j d hj

/-! ## C72 -/

/-- **C72**: any number of threads execute log statements on one channel, in any interleaving, also while it is started and
stopped.  No step is undefined, and at every moment:
* every record in the channel is the record of a different log statement, complete and unmixed, and those of a thread are in
  its program order;
* each device has seen some of these records, each at most once; on an async channel it has seen the first of them, in order
  and without a gap, so that all devices agree on the order;
* the open file, statistics and files of each file device are as if it had processed the records seen alone, and no other
  file has changed;
* state, statistics and datagrams of every other device are also as if it had processed the records seen alone. -/
theorem C72_threads_partial {S : Setup} (hS : Ready S) (hap : FilesApart S.fenv S.channel.id S.channel.devices)
    {o : OutSt} (ho : Own S.fenv S.channel.id S.channel.devices o) {es : List Act} (he : ∀ e ∈ es, SoundAct S e)
    (ht : OnTime S es (crew S o)) :
    ∃ s recs seen, acts S es (crew S o) = some s ∧
      s.ring.acquired = recs.map (fun r => (r.1, cellOf r.2.1 r.2.2)) ∧
      (∀ t, ∃ prog logged, prog.Sublist (statementsOf t es) ∧ Logged S prog logged ∧ (linesOf t recs).Sublist logged) ∧
      (∀ j, j < S.channel.devices.length → EachAtMostOnce (recs.map Prod.snd) (seen j)) ∧
      (S.cfg.async = true → ∀ j, j < S.channel.devices.length → InOrderPrefix (recs.map Prod.snd) (seen j)) ∧
      FilesAfter S o s seen ∧ DevicesAfter S o s seen := by
  obtain ⟨s, rs, h1, h2, h3, h4, _, h6⟩ := acts_after hS hap ho he ht
  obtain ⟨recs, hr, _⟩ := h2.records
  refine ⟨s, recs, fun j => (visitsOf j s.visits).map Visit.record, h1, hr, ?_, ?_, ?_, h2.filesAfter, h2.devicesAfter⟩
  · intro t
    obtain ⟨logged, g1, g2, _⟩ := h2.program hr t
    obtain ⟨x, g3, g4⟩ := made_acts t h1
    refine ⟨linesOf t s.made, logged, ?_, g1, g2⟩
    rw [g3]
    exact g4
  · intro j _
    exact atMostOnce_of_positions _ _ _ (h2.visitND j) (h2.positions hr j)
  · intro hA j hj
    have hord : Ord S.cfg s.ring := by
      rw [h3]
      exact ord_after (Nat.lt_of_lt_of_le (by decide) hS.slots) hA h4
    obtain ⟨m, hm⟩ := (h6 hA).numbers h2.base hord hj
    have hp := h2.positions hr j
    rw [hm] at hp
    refine ⟨(recs.map Prod.snd).drop m, ?_⟩
    show (visitsOf j s.visits).map Visit.record ++ _ = _
    rw [(prefix_of_range hp).1, List.take_append_drop]

/-- **C72**: after the threads have finished their statements on an async channel that is then stopped, and its thread has
ended: the records of all admitted statements, in one order that agrees with the program order of each thread, have been
seen by every device, the screen shows them, and they have been sent (if the sockets were open; otherwise some of them).
(What other threads do after the stop does not matter.) -/
theorem C72_async_complete_partial {S : Setup} (hS : Ready S) (hA : S.cfg.async = true)
    (hap : FilesApart S.fenv S.channel.id S.channel.devices)
    {o : OutSt} (ho : Own S.fenv S.channel.id S.channel.devices o) {es es' : List Act}
    (he : ∀ e ∈ es ++ .stop :: es', SoundAct S e) (ht : OnTime S (es ++ .stop :: es') (crew S o))
    (hn : ∀ e ∈ es, e.noStop) {s s' : Crew} (hs : acts S es (crew S o) = some s) (hrun : s.ring.state = .running)
    (hidle : ∀ t, t ≠ worker → s.ring.pc t = .idle) (hs' : acts S (es ++ .stop :: es') (crew S o) = some s')
    (hdone : s'.ring.pc worker = .done) :
    ∃ recs, (∀ t, Logged S (linesOf t s.made) (linesOf t recs)) ∧
      FilesAfter S o s' (fun _ => recs.map Prod.snd) ∧
      DevicesAfter S o s' (fun _ => recs.map Prod.snd) ∧
      s'.out.screen = o.screen ++ screenLines S.channel.devices (recs.map Prod.snd) ∧
      ∃ sent, s'.out.net = o.net ++ sent ∧ sent.Sublist (datagrams S.channel.devices (recs.map Prod.snd)) ∧
        ((∀ (j : Nat) (d : Device), S.channel.devices[j]? = some d → d.outType = .udp → (o.dev j).sock = true) →
          sent = datagrams S.channel.devices (recs.map Prod.snd)) := by
  have hL : 0 < S.cfg.L := Nat.lt_of_lt_of_le (by decide) hS.slots
  obtain ⟨ht1, ht2⟩ := onTime_append ht
  obtain ⟨s0, rs, a1, a2, a3, a4, a5, _⟩ := acts_after hS hap ho (fun e h => he e (by simp [h])) ht1
  rw [hs] at a1
  obtain rfl := Option.some.inj a1
  have hno := a5 hn
  -- the whole schedule
  obtain ⟨s1, _, b1, b2, _, _, _, b6⟩ := acts_after hS hap ho he ht
  rw [hs'] at b1
  obtain rfl := Option.some.inj b1
  -- the ring after the stop
  have hring : ∃ rs', s'.ring = after S.cfg (rs ++ .stop :: rs') ∧ Timely S.cfg (Ring.init S.cfg) (rs ++ .stop :: rs') := by
    have hstop := ht2 s hs
    obtain ⟨s2, r2, c1, c2, c3, c4, _, c5, _⟩ := act_ok hS hap a2 (e := .stop) trivial hstop.1
    have hr2 := c5 rfl
    obtain ⟨s3, r3, d1, _, d3, d4, _⟩ := acts_ok hS hap c2 (fun e h => he e (by simp [h])) (hstop.2 s2 c1)
    have e : acts S (es ++ .stop :: es') (crew S o) = some s3 := by
      rw [acts_append, hs]
      simp only [Option.bind_some, acts, Option.bind_eq_bind, c1, d1]
    rw [hs'] at e
    obtain rfl := Option.some.inj e
    subst hr2
    refine ⟨r3, ?_, ?_⟩
    · rw [d3, c3, a3]
      unfold after
      rw [run_append]
      rfl
    · rw [timely_append]
      refine ⟨a4, trivial, ?_⟩
      rw [c3, a3] at d4
      exact d4
  obtain ⟨rs', e1, e2⟩ := hring
  rw [a3] at hrun hidle
  have hall := C11_stop_drains S.cfg hL hA rs rs' a4 hno hrun hidle (by rw [← e1]; exact hdone)
  rw [← e1, ← a3] at hall
  obtain ⟨recs, hr, _⟩ := a2.records
  obtain ⟨recs', hr', _⟩ := b2.records
  -- the same records
  have hord : Ord S.cfg s'.ring := by rw [e1]; exact ord_after hL hA e2
  have hout := hord.out
  rw [b2.base, Nat.sub_zero] at hout
  have hsame : recs' = recs := by
    have hd := Drain.enter hA (inv_after hL a4) (ord_after hL hA a4) (ns_after hL a4 hno).1 (ns_after hL a4 hno).2 hrun hidle
    obtain ⟨_, _, _, _, g5, _⟩ := Drain.run hA (es := rs') ((inv_after hL a4).step (e := .stop) trivial)
      ((ord_after hL hA a4).step hA (inv_after hL a4) .stop) hd
    have hacq : s'.ring.acquired = s.ring.acquired := by
      rw [e1, a3, after, run_append]
      refine g5.trans ?_
      unfold step; simp only [hA, if_true]; split <;> rfl
    rw [hr, hr'] at hacq
    have key : ∀ l : List (Nat × Head × List Char), (l.map fun r => (r.1, cellOf r.2.1 r.2.2)).filterMap
        (fun x => (decode x.2).map fun y => (x.1, y)) = l := by
      intro l
      induction l with
      | nil => rfl
      | cons x l ih =>
        rw [List.map_cons, List.filterMap_cons]
        simp only [decode_cell, Option.map_some, ih]
    rw [← key recs, ← key recs', hacq]
  subst hsame
  have hlen : outN s'.ring = recs'.length := by
    have h1 := congrArg List.length hall
    have h2 := congrArg List.length hout
    rw [List.length_map, List.length_map] at h1
    rw [List.length_map, List.length_range'] at h2
    rw [← h2, h1, hr, List.length_map]
  have hturn := b6 hA
  have hcur : current s' = [] := by unfold current; rw [hdone]
  have hpairs : s'.visits.map (fun v => (v.device, v.number)) = (List.range recs'.length).flatMap
      fun k => (List.range S.channel.devices.length).map fun j => (j, k) := by
    rw [hturn, hcur, List.append_nil, hout, hlen, ← List.range_eq_range']
  have hseen : ∀ j, j < S.channel.devices.length → (visitsOf j s'.visits).map Visit.record = recs'.map Prod.snd := by
    intro j hj
    have hp := b2.positions hr' j
    have hm : (visitsOf j s'.visits).map Visit.number = List.range recs'.length := by
      rw [numbers_pairs, hpairs, filter_turn _ _ hj]
    rw [hm] at hp
    have := (prefix_of_range hp).1
    rw [this, List.take_of_length_le (by rw [List.length_map]; exact Nat.le_refl _)]
  refine ⟨recs', ?_, ?_, b2.devicesAfter.congr hseen, ?_, ?_⟩
  · intro t
    obtain ⟨logged, g1, _, g3⟩ := a2.program hr t
    have hpub := (C10_all_published S.cfg hL rs a4 hno (fun u => by
      by_cases hu : u = worker
      · exact Or.inr ⟨hA, hu⟩
      · exact Or.inl (hidle u hu))).2 t
    rw [← a3] at hpub
    rw [g3 hpub]
    exact g1
  · exact b2.filesAfter.congr hseen
  · rw [b2.screenPairs hr', hpairs]
    congr 1
    have := screen_all S.channel.devices (recs'.map Prod.snd)
    rw [List.length_map] at this
    exact this
  · obtain ⟨grams, hg⟩ := b2.gave
    have e : s'.visits.flatMap (gramOf S) = datagrams S.channel.devices (recs'.map Prod.snd) := by
      have := gram_all S.channel.devices (recs'.map Prod.snd)
      rw [List.length_map] at this
      rw [← this, ← hpairs]
      exact b2.emitPairs hr' .udp fun d r => datagram d r.2
    exact ⟨_, hg.net, by rw [← e]; exact hg.sub, fun hs => by rw [← e]; exact hg.all hs⟩

/-- **C72**: and the thread of the channel does end, after a number of its own steps that depends only on the sizes of the
ring and of the device table, whatever the other threads do. -/
theorem C72_worker_finishes {S : Setup} (hS : Ready S) (hA : S.cfg.async = true)
    (hap : FilesApart S.fenv S.channel.id S.channel.devices)
    {o : OutSt} (ho : Own S.fenv S.channel.id S.channel.devices o) {es es' : List Act}
    (he : ∀ e ∈ es ++ .stop :: es', SoundAct S e) (ht : OnTime S (es ++ .stop :: es') (crew S o))
    (hn : ∀ e ∈ es, e.noStop) {s s' : Crew} (hs : acts S es (crew S o) = some s) (hrun : s.ring.state = .running)
    (hidle : ∀ t, t ≠ worker → s.ring.pc t = .idle) (hs' : acts S (es ++ .stop :: es') (crew S o) = some s')
    (hsteps : (S.channel.devices.length + 1) * (30 * S.cfg.L + 18) ≤ stepsOf worker es') :
    s'.ring.pc worker = .done := by
  have hL : 0 < S.cfg.L := Nat.lt_of_lt_of_le (by decide) hS.slots
  obtain ⟨ht1, ht2⟩ := onTime_append ht
  obtain ⟨s0, rs, a1, a2, a3, a4, a5, _⟩ := acts_after hS hap ho (fun e h => he e (by simp [h])) ht1
  rw [hs] at a1
  obtain rfl := Option.some.inj a1
  have hstop := ht2 s hs
  obtain ⟨s2, r2, c1, c2, c3, c4, _, c5, _⟩ := act_ok hS hap a2 (e := .stop) trivial hstop.1
  have hr2 := c5 rfl
  obtain ⟨s3, r3, d1, d2, d3, d4, _, d6⟩ := acts_ok hS hap c2 (fun e h => he e (by simp [h])) (hstop.2 s2 c1)
  have e : acts S (es ++ .stop :: es') (crew S o) = some s3 := by
    rw [acts_append, hs]
    simp only [Option.bind_some, acts, Option.bind_eq_bind, c1, d1]
  rw [hs'] at e
  obtain rfl := Option.some.inj e
  subst hr2
  have hring : s'.ring = after S.cfg (rs ++ .stop :: r3) := by
    rw [d3, c3, a3]
    unfold after
    rw [run_append]
    rfl
  rw [a3] at hrun hidle
  rw [hring]
  refine C11_worker_finishes S.cfg hL hA rs r3 a4 (a5 hn) hrun hidle ?_
  have hpos := d2.posLe worker
  have h1 : (S.channel.devices.length + 1) * (30 * S.cfg.L + 18) <
      (S.channel.devices.length + 1) * (workerSteps r3 + 1) + 1 := by
    rw [Nat.mul_add _ (workerSteps r3) 1]
    omega
  have h2 : 30 * S.cfg.L + 18 ≤ workerSteps r3 + 1 :=
    Nat.le_of_mul_le_mul_left (Nat.le_of_lt_succ h1) (Nat.succ_pos _)
  omega

/-! ## C73 -/

/-- **C73**: on a sync channel that was never stopped, when all statements have returned: the records of all admitted
statements have been seen by every device, each exactly once; the screen shows each once for every screen device that
takes it, and (with open sockets) each has been sent once by every UDP device that takes it. -/
theorem C73_sync_complete_partial {S : Setup} (hS : Ready S) (hA : S.cfg.async = false)
    (hap : FilesApart S.fenv S.channel.id S.channel.devices)
    {o : OutSt} (ho : Own S.fenv S.channel.id S.channel.devices o) {es : List Act} (he : ∀ e ∈ es, SoundAct S e)
    (ht : OnTime S es (crew S o)) (hn : ∀ e ∈ es, e.noStop) {s : Crew} (hs : acts S es (crew S o) = some s)
    (hidle : ∀ t, s.ring.pc t = .idle) :
    ∃ recs seen, (∀ t, Logged S (linesOf t s.made) (linesOf t recs)) ∧
      (∀ j, j < S.channel.devices.length → EachExactlyOnce (recs.map Prod.snd) (seen j)) ∧
      FilesAfter S o s seen ∧ DevicesAfter S o s seen ∧
      (∃ shown, s.out.screen = o.screen ++ shown ∧ shown.Perm (screenLines S.channel.devices (recs.map Prod.snd))) ∧
      ((∀ (j : Nat) (d : Device), S.channel.devices[j]? = some d → d.outType = .udp → (o.dev j).sock = true) →
        ∃ sent, s.out.net = o.net ++ sent ∧ sent.Perm (datagrams S.channel.devices (recs.map Prod.snd))) := by
  have hL : 0 < S.cfg.L := Nat.lt_of_lt_of_le (by decide) hS.slots
  obtain ⟨s0, rs, a1, a2, a3, a4, a5, _⟩ := acts_after hS hap ho he ht
  rw [hs] at a1
  obtain rfl := Option.some.inj a1
  have hno := a5 hn
  obtain ⟨recs, hr, _⟩ := a2.records
  have hidle' : ∀ t, (after S.cfg rs).pc t = .idle := by rw [← a3]; exact hidle
  obtain ⟨g1, g2⟩ := ns_after hL a4 hno
  obtain ⟨_, hP, _⟩ := all_processed hA (inv_after hL a4) g1 g2 hidle'
  rw [← a3] at hP
  have hlen : recs.length = s.ring.H := by rw [← a2.ring.len, hr, List.length_map]
  have hmem : ∀ j, j < S.channel.devices.length → ∀ k, k ∈ (visitsOf j s.visits).map Visit.number ↔ k < recs.length := by
    intro j hj k
    rw [a2.visitMem j hj k, a2.ring.outMem, a2.base, hP, hlen]
    constructor
    · rintro (h | ⟨t, h, _⟩)
      · exact h.2.1
      · rw [hidle t] at h; cases h
    · intro h
      exact Or.inl ⟨Nat.zero_le _, h, fun t => by rw [hidle t]; nofun⟩
  have hperm : ∀ j, j < S.channel.devices.length →
      ((visitsOf j s.visits).map Visit.number).Perm (List.range recs.length) := by
    intro j hj
    rw [List.perm_ext_iff_of_nodup (a2.visitND j) List.nodup_range]
    intro k
    rw [hmem j hj, List.mem_range]
  have hpairs : (s.visits.map fun v => (v.device, v.number)).Perm
      ((List.range recs.length).flatMap fun k => (List.range S.channel.devices.length).map fun j => (j, k)) := by
    rw [List.perm_ext_iff_of_nodup]
    · rintro ⟨j, k⟩
      rw [List.mem_flatMap]
      constructor
      · intro h
        obtain ⟨v, hv, e⟩ := List.mem_map.mp h
        obtain ⟨rfl, rfl⟩ := Prod.mk.inj e
        have hj := a2.visitDev v hv
        have : v.number ∈ (visitsOf v.device s.visits).map Visit.number :=
          List.mem_map.mpr ⟨v, List.mem_filter.mpr ⟨hv, by simp⟩, rfl⟩
        rw [hmem _ hj] at this
        exact ⟨v.number, List.mem_range.mpr this, List.mem_map.mpr ⟨v.device, List.mem_range.mpr hj, rfl⟩⟩
      · rintro ⟨i, hi, hx⟩
        obtain ⟨j', hj', e⟩ := List.mem_map.mp hx
        obtain ⟨rfl, rfl⟩ := Prod.mk.inj e
        rw [List.mem_range] at hi hj'
        have := (hmem j' hj' i).mpr hi
        obtain ⟨v, hv, rfl⟩ := List.mem_map.mp this
        obtain ⟨hv1, hv2⟩ := List.mem_filter.mp hv
        exact List.mem_map.mpr ⟨v, hv1, by simp only [beq_iff_eq] at hv2; rw [hv2]⟩
    · exact pairs_nodup a2.visitND
    · exact turns_nodup _ _
  refine ⟨recs, fun j => (visitsOf j s.visits).map Visit.record, ?_, ?_, a2.filesAfter, a2.devicesAfter, ?_, ?_⟩
  · intro t
    obtain ⟨logged, e1, _, e3⟩ := a2.program hr t
    have hpub := (C10_all_published S.cfg hL rs a4 hno (fun u => Or.inl (hidle' u))).2 t
    rw [← a3] at hpub
    rw [e3 hpub]
    exact e1
  · intro j hj
    obtain ⟨rest, hrest⟩ := atMostOnce_of_positions _ _ _ (a2.visitND j) (a2.positions hr j)
    have h1 := hrest.length_eq
    have h2 := (hperm j hj).length_eq
    simp only [List.length_append, List.length_map, List.length_range] at h1 h2
    have : rest = [] := List.eq_nil_of_length_eq_zero (by omega)
    rw [this, List.append_nil] at hrest
    exact hrest
  · refine ⟨_, a2.screenPairs hr, ?_⟩
    have hsc := screen_all S.channel.devices (recs.map Prod.snd)
    rw [List.length_map] at hsc
    rw [← hsc]
    exact List.Perm.flatMap_right _ hpairs
  · intro hs
    obtain ⟨grams, hg⟩ := a2.gave
    refine ⟨_, hg.net, ?_⟩
    rw [hg.all hs]
    have hsc := gram_all S.channel.devices (recs.map Prod.snd)
    rw [List.length_map] at hsc
    rw [← hsc, show s.visits.flatMap (gramOf S) = _ from a2.emitPairs hr .udp fun d r => datagram d r.2]
    exact List.Perm.flatMap_right _ hpairs

/-! Two threads on the sync channel of C64; the second overtakes the first between the two devices. -/

def demoOut : OutSt := ⟨fun _ => none, fun _ => {}, [], []⟩

def demoLog (t : Nat) (text : List Char) : Act := .log t (demoCall 4) [.put (.str text)]

def demoRuns (t n : Nat) : List Act := List.replicate n (.run t)

def demoRace : List Act :=
  [.started, demoLog 1 "one".toList] ++ demoRuns 1 72 ++ [demoLog 2 "two".toList] ++ demoRuns 2 120 ++ demoRuns 1 50

theorem demoCall_sound (S : Setup) (h1 : S.env = demoSetup.env) (h2 : S.names = demoSetup.names)
    (h3 : S.channel.id = demoChannel.id) (h4 : S.channel.cfg = demoChannel.cfg)
    (h5 : S.channel.devices = demoChannel.devices) (t : Nat) (text : List Char) : SoundAct S (demoLog t text) := by
  have hc : ∀ c i, ChanDefined S.channel c i := by
    intro c i
    have : ChanDefined demoChannel c i :=
      ⟨⟨by decide, by decide, by decide, by decide, Or.inl (by decide), Or.inl (by decide)⟩, demo_defined c i⟩
    unfold ChanDefined at this ⊢
    rw [h4, h5]
    exact this
  refine ⟨h3.symm, hc _ _, by rw [h5]; exact demo_defined _ _, "a.cpp".toList, ?_⟩
  rw [h1, h2]
  refine demo_fits 4 (by decide) _ ?_
  intro v hv
  simp only [written, List.mem_cons, List.not_mem_nil, or_false] at hv
  rcases hv with rfl; simp [Val.All, Val.Fine]

theorem demoRace_ok : (∀ e ∈ demoRace, SoundAct demoSetup e) ∧ (∀ e ∈ demoRace, e.noStop) ∧
    OnTime demoSetup demoRace (crew demoSetup demoOut) := by
  refine ⟨?_, ?_, onTime_of (by kernel_rfl)⟩
  · intro e he
    simp only [demoRace, demoRuns, List.mem_append, List.mem_cons, List.not_mem_nil, or_false, List.mem_replicate] at he
    rcases he with ((((rfl | rfl) | ⟨_, rfl⟩) | rfl) | ⟨_, rfl⟩) | ⟨_, rfl⟩
    all_goals first
      | trivial
      | exact demoCall_sound demoSetup rfl rfl rfl rfl rfl _ _
  · intro e he
    simp only [demoRace, demoRuns, List.mem_append, List.mem_cons, List.not_mem_nil, or_false, List.mem_replicate] at he
    rcases he with ((((rfl | rfl) | ⟨_, rfl⟩) | rfl) | ⟨_, rfl⟩) | ⟨_, rfl⟩ <;> trivial

theorem demoRace_idle {s : Crew} (hs : acts demoSetup demoRace (crew demoSetup demoOut) = some s) (t : Nat) :
    s.ring.pc t = .idle := by
  have h12 : (acts demoSetup demoRace (crew demoSetup demoOut)).map (fun s => (s.ring.pc 1, s.ring.pc 2)) =
      some (.idle, .idle) := by kernel_rfl
  rw [hs] at h12
  obtain ⟨h1, h2⟩ := Prod.mk.inj (Option.some.inj h12)
  by_cases e1 : t = 1
  · subst e1; exact h1
  by_cases e2 : t = 2
  · subst e2; exact h2
  have ho : demoRace.all (Act.other t) = true := by
    rw [List.all_eq_true]
    intro e he
    simp only [demoRace, demoRuns, List.mem_append, List.mem_cons, List.not_mem_nil, or_false, List.mem_replicate] at he
    rcases he with ((((rfl | rfl) | ⟨_, rfl⟩) | rfl) | ⟨_, rfl⟩) | ⟨_, rfl⟩ <;>
      simp [Act.other, demoLog] <;> omega
  rw [acts_other ho hs]
  rfl

/-- **C73** fails for the order: all hypotheses of `C73_sync_complete_partial` hold, and the two files show the two errors
in different orders. -/
theorem C73_order_counterexample : ∃ (S : Setup) (o : OutSt) (es : List Act) (s : Crew), Ready S ∧ S.cfg.async = false ∧
    FilesApart S.fenv S.channel.id S.channel.devices ∧ Own S.fenv S.channel.id S.channel.devices o ∧
    (∀ e ∈ es, SoundAct S e) ∧ OnTime S es (crew S o) ∧ (∀ e ∈ es, e.noStop) ∧ acts S es (crew S o) = some s ∧
    (∀ t, s.ring.pc t = .idle) ∧
    s.out.fs "a.log".toList = some ["[20261116 11:33:20.417][ERROR][a.cpp:17](f) one\n".toList,
      "[20261116 11:33:20.417][ERROR][a.cpp:17](f) two\n".toList] ∧
    s.out.fs "b.log".toList = some ["[20261116 11:33:20.417][ERROR][a.cpp:17](f) two\n".toList,
      "[20261116 11:33:20.417][ERROR][a.cpp:17](f) one\n".toList] := by
  have hev : (acts demoSetup demoRace (crew demoSetup demoOut)).map
      (fun s => (s.out.fs "a.log".toList, s.out.fs "b.log".toList)) =
    some (some ["[20261116 11:33:20.417][ERROR][a.cpp:17](f) one\n".toList,
      "[20261116 11:33:20.417][ERROR][a.cpp:17](f) two\n".toList],
      some ["[20261116 11:33:20.417][ERROR][a.cpp:17](f) two\n".toList,
      "[20261116 11:33:20.417][ERROR][a.cpp:17](f) one\n".toList]) := by kernel_rfl
  obtain ⟨h1, h2, h3⟩ := demoRace_ok
  cases hs : acts demoSetup demoRace (crew demoSetup demoOut) with
  | none => rw [hs] at hev; exact absurd hev (by simp)
  | some s =>
    rw [hs] at hev
    obtain ⟨e1, e2⟩ := Prod.mk.inj (Option.some.inj hev)
    exact ⟨demoSetup, demoOut, demoRace, s, demo_ready, rfl, demo_apart, fun _ _ _ _ _ h => absurd h (by simp [demoOut]),
      h1, h3, h2, hs, demoRace_idle hs, e1, e2⟩

/-! The same threads on an async channel. -/

def demoAsyncSetup : Setup := { demoSetup with
  channel := { demoChannel with type := .async }
  lg := ⟨.running, some [{ demoChannel with type := .async }]⟩
  cfg := { L := 4, async := true, nl := .byte '\n' } }

def demoAsyncRace : List Act :=
  demoRuns 0 5 ++ [.started, demoLog 1 "one".toList] ++ demoRuns 1 72 ++ [demoLog 2 "two".toList] ++ demoRuns 2 120 ++
    demoRuns 1 50

/-- All hypotheses of `C72_threads_partial`, `C72_async_complete_partial` and `C72_worker_finishes` hold, and the files show
the errors in the same order. -/
example : Ready demoAsyncSetup ∧ FilesApart demoAsyncSetup.fenv demoAsyncSetup.channel.id demoAsyncSetup.channel.devices ∧
    (∀ e ∈ demoAsyncRace ++ .stop :: demoRuns 0 414, SoundAct demoAsyncSetup e) ∧ (∀ e ∈ demoAsyncRace, e.noStop) ∧
    OnTime demoAsyncSetup (demoAsyncRace ++ .stop :: demoRuns 0 414) (crew demoAsyncSetup demoOut) ∧
    (acts demoAsyncSetup demoAsyncRace (crew demoAsyncSetup demoOut)).map
      (fun s => (s.ring.state, s.ring.pc 1, s.ring.pc 2, s.visits.length)) = some (.running, .idle, .idle, 0) ∧
    stepsOf worker (demoRuns 0 414) = (2 + 1) * (30 * 4 + 18) ∧
    (acts demoAsyncSetup (demoAsyncRace ++ .stop :: demoRuns 0 414) (crew demoAsyncSetup demoOut)).map
      (fun s => (s.ring.pc 0, s.out.fs "a.log".toList, s.out.fs "b.log".toList)) =
    some (.done, some ["[20261116 11:33:20.417][ERROR][a.cpp:17](f) one\n".toList,
      "[20261116 11:33:20.417][ERROR][a.cpp:17](f) two\n".toList],
      some ["[20261116 11:33:20.417][ERROR][a.cpp:17](f) one\n".toList,
      "[20261116 11:33:20.417][ERROR][a.cpp:17](f) two\n".toList]) := by
  refine ⟨?_, demo_apart, ?_, ?_, onTime_of (by kernel_rfl), by kernel_rfl, by kernel_rfl, by kernel_rfl⟩
  · exact ⟨demo_ready.lib, demo_ready.zone, by decide, rfl, by decide,
      ⟨_, rfl, rfl⟩, fun h => absurd h (by decide), demo_ready.named⟩
  · intro e he
    simp only [demoAsyncRace, demoRuns, List.mem_append, List.mem_cons, List.not_mem_nil, or_false, List.mem_replicate] at he
    rcases he with (((((⟨_, rfl⟩ | rfl | rfl) | ⟨_, rfl⟩) | rfl) | ⟨_, rfl⟩) | ⟨_, rfl⟩) | rfl | ⟨_, rfl⟩
    all_goals first
      | trivial
      | exact demoCall_sound demoAsyncSetup rfl rfl rfl rfl rfl _ _
  · intro e he
    simp only [demoAsyncRace, demoRuns, List.mem_append, List.mem_cons, List.not_mem_nil, or_false, List.mem_replicate] at he
    rcases he with ((((⟨_, rfl⟩ | rfl | rfl) | ⟨_, rfl⟩) | rfl) | ⟨_, rfl⟩) | ⟨_, rfl⟩ <;> trivial

end FNLog
