import Verif.Proof.Reach
import Verif.Proof.ReachRobin
import Verif.Props.Flush
import Verif.Props.Live

/-!
# Property C106: what is logged gets to the files

C91 says what the files lack at a given moment, C100 that the records of the queue are processed in the end.  Here both
together, for the whole channel with its devices and stream buffers: log statements are made for ever, every thread makes a
further step at some time (`FEndless`), and nobody stops the channel.  Then every record reaches the operating system without
any help (no stop, no exit, no further log statement).
-/

namespace FNLog
open Spec Ring

/-- All that the devices have been given has left the process: the state `s` is that of a channel without buffers (C72) whose
devices have seen `seen`, and the operating system has the same bytes. -/
def OnDisk (S : Setup) (o : OutSt) (f : FCrew) (seen : Nat → List (Head × List Char)) : Prop :=
  ∃ s : Crew, f.crew = { s with out := { s.out with fs := f.crew.out.fs } } ∧
    (∀ p, Foreign S.fenv S.channel.id S.channel.devices p → f.crew.out.fs p = s.out.fs p) ∧
    (∀ (j : Nat) (d : Device) (p : List Char), S.channel.devices[j]? = some d → d.outType = .file →
      FilesOf S.fenv S.channel.id d p → bytesOf f.crew.out.fs p = bytesOf s.out.fs p) ∧
    FilesAfter S o s seen ∧ DevicesAfter S o s seen

theorem FInvFrom.onDisk {S : Setup} {B : Stdio} {o : OutSt} {f : FCrew} {s : Crew} (h : FInv S B o f s) (hb : ∀ j, f.buf j = [])
    {seen : Nat → List (Head × List Char)} (h1 : FilesAfter S o s seen) (h2 : DevicesAfter S o s seen) : OnDisk S o f seen := by
  refine ⟨s, ?_, h.rel.foreign, ?_, h1, h2⟩
  · have e : f.crew.out = { s.out with fs := f.crew.out.fs } := by
      have e1 := h.rel.dev; have e2 := h.rel.screen; have e3 := h.rel.net
      generalize f.crew.out = a at e1 e2 e3
      obtain ⟨_, _, _, _⟩ := a
      simp only at e1 e2 e3
      subst e1 e2 e3
      rfl
    rw [← e]
    exact h.rel.crew_eq
  · intro j d p hj hd hp
    have hr := h.rel.files j d hj hd
    have hx := hr.files p hp
    have : pendingAt (f.file j) p = [] := by
      unfold pendingAt
      split
      · show (f.buf j).bytes = []
        rw [hb]; rfl
      · rfl
    rw [this, option_map_append_nil] at hx
    exact hx.symm

/-- On an async channel: the devices have seen the records up to `proc_idx_` when the thread is between two records. -/
theorem Reach.seen {S : Setup} {B : Stdio} {o : OutSt} {σ : Nat → Act} (h : Reach S B o σ) (hA : S.cfg.async = true) {n : Nat}
    (hc : ∀ k, (fNow S B o σ n).crew.ring.pc worker ≠ .cDisp k) (hb : ∀ j, (fNow S B o σ n).buf j = []) :
    ∃ recs, (fNow S B o σ n).crew.ring.acquired = recs.map (fun r => (r.1, cellOf r.2.1 r.2.2)) ∧
      (∀ t, ∃ prog logged, prog.Sublist (statementsOf t (firstActs σ n)) ∧ Logged S prog logged ∧
        (linesOf t recs).Sublist logged ∧
        (linesOf t (fNow S B o σ n).crew.ring.acquired = (linesOf t (fNow S B o σ n).crew.ring.calls).map (withEnd S.cfg.nl) →
          prog = linesOf t (fNow S B o σ n).crew.made ∧ linesOf t recs = logged)) ∧
      (fNow S B o σ n).crew.ring.P ≤ recs.length ∧
      OnDisk S o (fNow S B o σ n) (fun _ => (recs.map Prod.snd).take (fNow S B o σ n).crew.ring.P) := by
  obtain ⟨rs, s, _, a2, a3, a4, a5, a6⟩ := h.reached n
  have hsound : ∀ e ∈ rs, SoundAct S e := by
    intro e he
    obtain ⟨i, _, rfl⟩ := List.mem_map.mp (a2.subset he)
    exact h.endless.sound i
  obtain ⟨s0, es, b1, b2, b3, b4, _, b6⟩ := acts_after h.ready h.apart h.own hsound a4
  rw [a5] at b1
  obtain rfl := Option.some.inj b1
  obtain ⟨recs, hr, _⟩ := b2.records
  have hring : (fNow S B o σ n).crew.ring = s.ring := a6.rel.ring
  have hmade : (fNow S B o σ n).crew.made = s.made := a6.rel.made
  rw [hring] at hc ⊢
  have hord : Ord S.cfg s.ring := by rw [← hring]; exact h.ord hA n
  have hout := hord.out
  have houtN : outN s.ring = s.ring.P := by
    unfold outN
    split
    · rename_i k hk; exact absurd hk (hc k)
    · rfl
  rw [b2.base, Nat.sub_zero, houtN] at hout
  have hcur : current s = [] := by
    unfold current
    split
    · rename_i k hk; exact absurd hk (hc k)
    · rfl
  have hpairs : s.visits.map (fun v => (v.device, v.number)) = (List.range s.ring.P).flatMap
      fun k => (List.range S.channel.devices.length).map fun j => (j, k) := by
    rw [b6 hA, hcur, List.append_nil, hout, ← List.range_eq_range']
  have hseen : ∀ j, j < S.channel.devices.length →
      (visitsOf j s.visits).map Visit.record = (recs.map Prod.snd).take s.ring.P := by
    intro j hj
    have hp := b2.positions hr j
    have hm : (visitsOf j s.visits).map Visit.number = List.range s.ring.P := by
      rw [numbers_pairs, hpairs, filter_turn _ _ hj]
    rw [hm] at hp
    exact (prefix_of_range hp).1
  refine ⟨recs, hr, ?_, ?_, a6.onDisk hb (b2.filesAfter.congr hseen) (b2.devicesAfter.congr hseen)⟩
  · intro t
    obtain ⟨logged, g1, g2, g3⟩ := b2.program hr t
    obtain ⟨x, g4, g5⟩ := made_acts t a5
    refine ⟨linesOf t s.made, logged, ?_, g1, g2, fun hx => ⟨by rw [hmade], g3 hx⟩⟩
    rw [g4, ← a3]
    exact g5
  · have h1 := b2.ring.lePW
    have h2 := b2.ring.leWH
    have h3 := b2.ring.len
    rw [hr, List.length_map] at h3
    omega

/-- **C106**: on an async channel, whatever the threads do (they may go on logging for ever): whatever has got a slot by some
time `n` is in the files at some later time `m`.  At `m` nothing is buffered; the devices have seen the first `K` records of
all, in order, and the operating system has exactly their output.  The thread of the channel gets there by itself. -/
theorem C106_reaches_partial {S : Setup} (hS : Ready S) (hA : S.cfg.async = true)
    (hap : FilesApart S.fenv S.channel.id S.channel.devices)
    {o : OutSt} (ho : Own S.fenv S.channel.id S.channel.devices o)
    (hex : ∀ (j : Nat) (d : Device) (p : List Char), S.channel.devices[j]? = some d → d.outType = .file →
      (o.dev j).handle = some p → o.fs p ≠ none)
    {B : Stdio} {σ : Nat → Act} (he : FEndless S B o σ) (n : Nat) :
    ∃ (f : FCrew) (m : Nat) (f' : FCrew) (recs : List (Nat × Head × List Char)) (K : Nat),
      FAt S B o σ n f ∧ n ≤ m ∧ FAt S B o σ m f' ∧
      f.crew.ring.acquired <+: f'.crew.ring.acquired ∧
      f'.crew.ring.acquired = recs.map (fun r => (r.1, cellOf r.2.1 r.2.2)) ∧
      (∀ t, ∃ prog logged, prog.Sublist (statementsOf t (firstActs σ m)) ∧ Logged S prog logged ∧
        (linesOf t recs).Sublist logged) ∧
      f.crew.ring.acquired.length ≤ K ∧ K ≤ recs.length ∧ (∀ j, f'.buf j = []) ∧
      OnDisk S o f' (fun _ => (recs.map Prod.snd).take K) := by
  have h : Reach S B o σ := ⟨hS, hap, ho, hex, Or.inl (Or.inl hA), he⟩
  obtain ⟨M, hM⟩ := C100_room S.cfg _ h.ringEndless n
  obtain ⟨m, hm, hf⟩ := h.flushed hA (max n M)
  have hroom := hM m (by omega)
  have hacq := acquired_at S.cfg (ringSched S B o σ) (show n ≤ m by omega)
  rw [h.ring, h.ring] at hroom hacq
  obtain ⟨recs, h1, h2, h3, h4⟩ := h.seen hA (h.between hf) (h.empty hA hf)
  refine ⟨_, m, _, recs, _, h.here n, by omega, h.here m, hacq, h1, ?_, ?_, h3, h.empty hA hf, h4⟩
  · intro t
    obtain ⟨prog, logged, g1, g2, g3, _⟩ := h2 t
    exact ⟨prog, logged, g1, g2, g3⟩
  · have := (h.ringInv m).leRP
    omega

theorem bufs_stay {S : Setup} {B : Stdio} {f f' : FCrew} {e : Act} (h : fAct S B f e = some f')
    (hc : ∀ t k, e = .run t → f.crew.ring.pc t ≠ .cDisp k) (hb : ∀ j, f.buf j = []) (j : Nat) : f'.buf j = [] := by
  by_cases hr : ∃ t, e = .run t
  · obtain ⟨t, rfl⟩ := hr
    have h' : fRunThread S B t f = some f' := h
    rcases fRun_cases h' with ⟨h0, _⟩ | ⟨_, ⟨k, d, h1, _⟩, _⟩ | ⟨_, _, _, h1, _⟩
    · unfold fRunThread at h'
      split at h'
      · obtain rfl := Option.some.inj h'
        unfold flushLook
        split
        · exact hb j
        · split <;> exact hb j
      · rename_i i g _
        unfold flushCall at h'
        split at h'
        · cases h'
        · obtain rfl := Option.some.inj h'
          show upd f.buf i (f.file i).flush.buf j = []
          by_cases hj : j = i
          · subst hj
            rw [upd_same]
            unfold BufSt.flush
            split
            · exact hb j
            · rfl
          · rw [upd_ne _ _ hj]
            exact hb j
      · rename_i hoff
        exact absurd hoff h0
    · exact absurd h1 (hc t k rfl)
    · rw [h1]; exact hb j
  · rw [(fAct_else (fun t ht => hr ⟨t, ht⟩) h).2.1]
    exact hb j

/-- **C106**: when only finitely many statements are made (on an async channel, on a sync channel whose files are never
closed while it runs, or with one statement at a time), then from some time on: all of them have returned, each device has seen exactly the records of all
admitted statements, those of a thread in its order, and the operating system has all of their output. -/
theorem C106_settled_partial {S : Setup} (hS : Ready S) (hap : FilesApart S.fenv S.channel.id S.channel.devices)
    {o : OutSt} (ho : Own S.fenv S.channel.id S.channel.devices o)
    (hex : ∀ (j : Nat) (d : Device) (p : List Char), S.channel.devices[j]? = some d → d.outType = .file →
      (o.dev j).handle = some p → o.fs p ≠ none)
    {B : Stdio} {σ : Nat → Act}
    (hG : (S.cfg.async = true ∨ Steady S) ∨ ∀ n, Serial S B (firstActs σ n) (fCrew S o))
    (he : FEndless S B o σ) {N : Nat} (hN : ∀ n, N ≤ n → ∀ t a ops, σ n ≠ .log t a ops) :
    Eventually fun n => ∃ (f : FCrew) (recs : List (Nat × Head × List Char)) (seen : Nat → List (Head × List Char)),
      FAt S B o σ n f ∧
      (∀ t, f.crew.ring.pc t = .idle ∨ (S.cfg.async = true ∧ t = worker)) ∧
      (∀ t, Logged S (linesOf t f.crew.made) (linesOf t recs)) ∧
      (∀ j, j < S.channel.devices.length → EachExactlyOnce (recs.map Prod.snd) (seen j)) ∧
      (S.cfg.async = true → ∀ j, seen j = recs.map Prod.snd) ∧
      (∀ j, f.buf j = []) ∧ OnDisk S o f seen := by
  have h : Reach S B o σ := ⟨hS, hap, ho, hex, hG, he⟩
  obtain ⟨M, hM⟩ := C100_all_return S.cfg _ h.ringEndless (N := N) (fun n hn t b =>
    ringEv_call (S := S) (f := fNow S B o σ n) (e := σ n) (fun t a ops => hN n hn t a ops) t b)
  cases hA : S.cfg.async with
  | true =>
    have hquiet : ∀ n, M ≤ n → ∀ t k, (fNow S B o σ n).crew.ring.pc t ≠ .cDisp k := by
      intro n hn t k hk
      have hR := (hM n hn).2.2.2
      rw [h.ring] at hR
      have hw : t = worker := (h.ringInv n).consTid hA t (by rw [hk]; rfl)
      subst hw
      have ho := (h.ord hA n).pcw
      rw [hk] at ho
      have h1 := ho.1
      have h2 := (h.ringInv n).lePW
      have h3 := (h.ringInv n).leWH
      omega
    obtain ⟨m, hm, hf⟩ := h.flushed hA M
    have hempty : ∀ d, ∀ j, (fNow S B o σ (m + d)).buf j = [] := by
      intro d
      induction d with
      | zero => exact h.empty hA hf
      | succ d ih =>
        intro j
        exact bufs_stay (h.next (m + d)) (fun t k _ => hquiet (m + d) (by omega) t k) ih j
    refine ⟨m, fun n hn => ?_⟩
    obtain ⟨d, rfl⟩ := Nat.le.dest hn
    obtain ⟨g1, g2, _, g4⟩ := hM (m + d) (by omega)
    rw [h.ring] at g1 g2 g4
    obtain ⟨recs, h1, h2, _, h4⟩ := h.seen hA (hquiet (m + d) (by omega) worker) (hempty d)
    have hlen : (fNow S B o σ (m + d)).crew.ring.P = recs.length := by
      have e1 := (h.ringInv (m + d)).len
      rw [h1, List.length_map] at e1
      have e2 := (h.ringInv (m + d)).leRP
      have e3 := (h.ringInv (m + d)).lePW
      have e4 := (h.ringInv (m + d)).leWH
      omega
    have htake : (recs.map Prod.snd).take (fNow S B o σ (m + d)).crew.ring.P = recs.map Prod.snd :=
      List.take_of_length_le (by rw [hlen, List.length_map]; exact Nat.le_refl _)
    rw [htake] at h4
    refine ⟨_, recs, fun _ => recs.map Prod.snd, h.here (m + d), fun t => by simpa [hA] using g1 t, ?_,
      fun _ _ => List.Perm.refl _, fun _ _ => rfl, hempty d, h4⟩
    intro t
    obtain ⟨prog, logged, _, g5, _, g6⟩ := h2 t
    obtain ⟨rfl, e⟩ := g6 (g2 t)
    rw [e]
    exact g5
  | false =>
    refine ⟨M, fun n hn => ?_⟩
    obtain ⟨g1, _⟩ := hM n hn
    rw [h.ring] at g1
    have hidle : ∀ t, (fNow S B o σ n).crew.ring.pc t = .idle := fun t => by simpa [hA] using g1 t
    obtain ⟨rs, s, _, a2, _, a4, a5, a6⟩ := h.reached n
    have hsound : ∀ e ∈ rs, SoundAct S e := by
      intro e he'
      obtain ⟨i, _, rfl⟩ := List.mem_map.mp (a2.subset he')
      exact he.sound i
    have hno : ∀ e ∈ rs, e.noStop := by
      intro e he'
      obtain ⟨i, _, rfl⟩ := List.mem_map.mp (a2.subset he')
      exact he.noStop i
    have hring : (fNow S B o σ n).crew.ring = s.ring := a6.rel.ring
    have hb : ∀ j, (fNow S B o σ n).buf j = [] := fun j =>
      lagOf_all fun t => a6.rest (Or.inl (hidle t)) j
    obtain ⟨recs, seen, b1, b2, b3, b4, _⟩ := C73_sync_complete_partial hS hA hap ho hsound a4 hno a5
      (fun t => by rw [← hring]; exact hidle t)
    refine ⟨_, recs, seen, h.here n, fun t => Or.inl (hidle t), ?_, b2, nofun, hb, a6.onDisk hb b3 b4⟩
    intro t
    rw [a6.rel.made]
    exact b1 t

/-! Two threads log an error each, then all threads take turns for ever. -/

def reachPre : List Act := demoRuns 0 5 ++ [.started, demoLog 1 "one".toList, demoLog 2 "two".toList]

theorem reachPre_mem {e : Act} (he : e ∈ reachPre) :
    e = .run 0 ∨ e = .started ∨ e = demoLog 1 "one".toList ∨ e = demoLog 2 "two".toList := by
  simp only [reachPre, demoRuns, List.mem_append, List.mem_cons, List.not_mem_nil, or_false, List.mem_replicate] at he
  rcases he with ⟨_, rfl⟩ | rfl | rfl | rfl
  · exact Or.inl rfl
  · exact Or.inr (Or.inl rfl)
  · exact Or.inr (Or.inr (Or.inl rfl))
  · exact Or.inr (Or.inr (Or.inr rfl))

theorem reach_endless {S : Setup} (hS : Ready S) (hG : S.cfg.async = true ∨ Steady S) (h1 : S.env = demoSetup.env)
    (h2 : S.names = demoSetup.names) (h3 : S.channel.id = demoChannel.id) (h4 : S.channel.cfg = demoChannel.cfg)
    (h5 : S.channel.devices = demoChannel.devices) (hap : FilesApart S.fenv S.channel.id S.channel.devices)
    (hL : 2 < S.cfg.L) : FEndless S demoStdio demoOut (robinActs 3 reachPre) := by
  refine robin_endless hS hG hap (fun _ _ _ _ _ h => absurd h (by simp [demoOut]))
    (fun _ _ _ _ _ h => absurd h (by simp [demoOut])) (by omega) ?_ ?_ ?_ hL
  · intro e he
    rcases reachPre_mem he with rfl | rfl | rfl | rfl
    · trivial
    · trivial
    · exact demoCall_sound S h1 h2 h3 h4 h5 _ _
    · exact demoCall_sound S h1 h2 h3 h4 h5 _ _
  · intro e he
    rcases reachPre_mem he with rfl | rfl | rfl | rfl <;> trivial
  · intro e he
    rcases reachPre_mem he with rfl | rfl | rfl | rfl
    · trivial
    · trivial
    · show 1 < 3; omega
    · show 2 < 3; omega

theorem reach_quiet (n : Nat) (hn : 8 ≤ n) (t : Nat) (a : Call) (ops : List StreamOp) : robinActs 3 reachPre n ≠ .log t a ops := by
  unfold robinActs
  rw [List.getElem?_eq_none (show reachPre.length ≤ n from hn)]
  nofun

theorem demoAsync_ready : Ready demoAsyncSetup :=
  ⟨demo_ready.lib, demo_ready.zone, by decide, rfl, by decide,
    ⟨_, rfl, rfl⟩, fun h => absurd h (by decide), demo_ready.named⟩

/-- All hypotheses of `C106_reaches_partial` and `C106_settled_partial` hold on an async channel.  After 300 events both records
are processed and nothing is in the files, after 400 both lines are. -/
example : Ready demoAsyncSetup ∧ demoAsyncSetup.cfg.async = true ∧
    FilesApart demoAsyncSetup.fenv demoAsyncSetup.channel.id demoAsyncSetup.channel.devices ∧
    FEndless demoAsyncSetup demoStdio demoOut (robinActs 3 reachPre) ∧
    (∀ n, 8 ≤ n → ∀ t a ops, robinActs 3 reachPre n ≠ .log t a ops) ∧
    (fActs demoAsyncSetup demoStdio (firstActs (robinActs 3 reachPre) 300) (fCrew demoAsyncSetup demoOut)).map
      (fun f => (f.crew.ring.R, bytesOf f.crew.out.fs "a.log".toList)) = some (2, some []) ∧
    (fActs demoAsyncSetup demoStdio (firstActs (robinActs 3 reachPre) 400) (fCrew demoAsyncSetup demoOut)).map
      (fun f => (f.crew.ring.R, bytesOf f.crew.out.fs "a.log".toList)) = some (2,
      some ("[20261116 11:33:20.417][ERROR][a.cpp:17](f) two\n[20261116 11:33:20.417][ERROR][a.cpp:17](f) one\n".toList)) :=
  ⟨demoAsync_ready, rfl, demo_apart, reach_endless demoAsync_ready (Or.inl rfl) rfl rfl rfl rfl rfl demo_apart (by decide),
    reach_quiet, by kernel_rfl, by kernel_rfl⟩

/-- And on a sync channel. -/
example : Ready demoSetup ∧ Steady demoSetup ∧ FilesApart demoSetup.fenv demoSetup.channel.id demoSetup.channel.devices ∧
    FEndless demoSetup demoStdio demoOut (robinActs 3 reachPre) ∧
    (∀ n, 8 ≤ n → ∀ t a ops, robinActs 3 reachPre n ≠ .log t a ops) :=
  ⟨demo_ready, demo_steady, demo_apart, reach_endless demo_ready (Or.inr demo_steady) rfl rfl rfl rfl rfl demo_apart (by decide),
    reach_quiet⟩

end FNLog
