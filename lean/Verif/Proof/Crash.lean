import Verif.Spec.Crash
import Verif.Proof.FlushRun
import Verif.Proof.ThreadsEnd
import Verif.Proof.RecoverLife
import Verif.Proof.Sessions

/-! # A new process continues with the queue of one that died -/

namespace FNLog.Ring
open FNLog

variable {α : Type}

/-- What a slot holds is the beginning of a line that used it. -/
def Printed (c : Cfg α) (s : St α) : Prop :=
  ∀ i, s.cell i = [] ∨ ∃ k e, k % c.L = i ∧ s.acquired[k]? = some e ∧ s.cell i <+: e.2

theorem Printed.keep {c : Cfg α} {s s' : St α} (h : Printed c s) (h1 : s'.cell = s.cell)
    (h2 : ∃ x, s'.acquired = s.acquired ++ x) : Printed c s' := by
  intro i
  rw [h1]
  rcases h i with e | ⟨k, e, h3, h4, h5⟩
  · exact Or.inl e
  · obtain ⟨x, hx⟩ := h2
    refine Or.inr ⟨k, e, h3, ?_, h5⟩
    rw [hx, List.getElem?_append_left (List.getElem?_eq_some_iff.mp h4).1]
    exact h4

theorem Printed.put {c : Cfg α} {s s' : St α} (h : Printed c s) {k : Nat} {y : List α} {e : Nat × List α}
    (h1 : s'.cell = upd s.cell (k % c.L) y) (h2 : s'.acquired = s.acquired) (h3 : s.acquired[k]? = some e)
    (h4 : y <+: e.2) : Printed c s' := by
  intro i
  rw [h1, h2]
  by_cases hi : i = k % c.L
  · subst hi
    rw [upd_same]
    exact Or.inr ⟨k, e, rfl, h3, h4⟩
  · rw [upd_ne _ _ hi]
    exact h i

theorem Printed.stepT {c : Cfg α} {s : St α} (h : Printed c s) (hi : Inv c s) (t : Nat) : Printed c (stepT c s t) := by
  have hti := hi.ti t
  unfold Ring.stepT
  split <;> rename_i hpc <;> rw [hpc] at hti
  case h_10 k b => exact h.put (k := k) rfl rfl hti.2 ⟨_, List.nil_append _⟩
  case h_12 k x rest =>
    refine h.put (k := k) rfl rfl hti.2 ⟨rest ++ [c.nl], ?_⟩
    simp
  case h_14 k => exact h.put (k := k) rfl rfl hti.2 (List.prefix_refl _)
  all_goals repeat' split
  all_goals first
    | exact h
    | exact h.keep rfl ⟨[], (List.append_nil _).symm⟩
    | exact h.keep rfl ⟨_, rfl⟩

theorem Printed.step {c : Cfg α} {s : St α} (h : Printed c s) (hi : Inv c s) (e : Ev α) : Printed c (step c s e) := by
  cases e with
  | run t => exact h.stepT hi t
  | call t b =>
    unfold Ring.step; simp only
    (repeat' split) <;> first | exact h | exact h.keep rfl ⟨[], (List.append_nil _).symm⟩
  | started | closing | stop =>
    unfold Ring.step; simp only
    (repeat' split) <;> first | exact h | exact h.keep rfl ⟨[], (List.append_nil _).symm⟩

/-- All along a schedule. -/
theorem printed_run {c : Cfg α} (hA : c.async = true) : ∀ {es : List (Ev α)} {s : St α}, Inv c s → Ord c s → Printed c s →
    Timely c s es → Inv c (run c s es) ∧ Ord c (run c s es) ∧ Printed c (run c s es) := by
  intro es
  induction es with
  | nil => intro s h1 h2 h3 _; exact ⟨h1, h2, h3⟩
  | cons e es ih => intro s h1 h2 h3 ht; exact ih (h1.step ht.1) (h2.step hA h1 e) (h3.step h1 e) ht.2

theorem recCells_other (L : Nat) (f : List α → List α) : ∀ (n k : Nat) (m : Nat → List α) (i : Nat),
    (∀ j, k ≤ j → j < k + n → j % L ≠ i) → recCells L f n k m i = m i := by
  intro n
  induction n with
  | zero => intro k m i _; rfl
  | succ n ih =>
    intro k m i h
    simp only [recCells]
    rw [ih (k + 1) _ i fun j h1 h2 => h j (by omega) (by omega)]
    exact upd_ne _ _ (Ne.symm (h k (Nat.le_refl _) (by omega)))

theorem Printed.recover {c : Cfg α} {s : St α} (f : List α → List α) (hi : Inv c s) (h : Printed c s) :
    Printed c (Ring.recover c f s) := by
  have h1 := hi.leRP; have h2 := hi.lePW; have h3 := hi.leWH; have h4 := hi.cap; have h5 := hi.len
  intro i
  show recCells c.L f (s.H - s.W) s.W s.cell i = [] ∨ _
  by_cases hx : ∃ j, s.W ≤ j ∧ j < s.H ∧ j % c.L = i
  · obtain ⟨j, j1, j2, rfl⟩ := hx
    have e := recCells_in c.L f (s.H - s.W) s.W s.cell j (by omega) j1 (by omega)
    have hj : j < s.acquired.length := by omega
    refine Or.inr ⟨j, ((s.acquired[j]'hj).1, f (s.cell (j % c.L))), rfl, ?_, ?_⟩
    · rw [recover_acquired, List.getElem?_eq_getElem hj, Option.map_some, if_neg (by omega)]
    · show recCells c.L f (s.H - s.W) s.W s.cell (j % c.L) <+: _
      rw [e]
      exact List.prefix_refl _
  · have e : recCells c.L f (s.H - s.W) s.W s.cell i = s.cell i :=
      recCells_other _ _ _ _ _ _ fun j j1 j2 j3 => hx ⟨j, j1, by omega, j3⟩
    rw [e]
    rcases h i with h0 | ⟨k, y, k1, k2, k3⟩
    · exact Or.inl h0
    · have hk : k < s.acquired.length := (List.getElem?_eq_some_iff.mp k2).1
      have hkW : k < s.W := Classical.byContradiction fun hn => hx ⟨k, by omega, by omega, k1⟩
      refine Or.inr ⟨k, y, k1, ?_, ?_⟩
      · rw [recover_acquired, k2, Option.map_some, if_pos hkW]
      · show recCells c.L f (s.H - s.W) s.W s.cell i <+: _
        rw [e]
        exact k3

/-- The history `calls` is of no concern to the queue. -/
theorem Inv.calls {c : Cfg α} {s : St α} (h : Inv c s) (x : List (Nat × List α)) : Inv c { s with calls := x } :=
  ⟨h.leRP, h.lePW, h.leWH, h.cap, h.len, h.baseR, h.oldOk, h.mPW, h.mFree, h.mRP, h.mWH, h.sealedW, h.sealedH,
    fun t => by
      have := h.ti t
      show TI c _ t (s.pc t)
      cases hp : s.pc t <;> rw [hp] at this <;> exact this,
    h.uniqC, h.consTid, h.outND, h.outMem, h.outVal, h.lostR⟩

theorem Ord.calls {c : Cfg α} {s : St α} (h : Ord c s) (x : List (Nat × List α)) : Ord c { s with calls := x } where
  pcw := by
    have := h.pcw
    show OrdPC c _ (s.pc Ring.worker)
    cases hp : s.pc Ring.worker <;> rw [hp] at this <;> exact this
  out := h.out

theorem NS.calls {c : Cfg α} {s : St α} (h : NS c s) (x : List (Nat × List α)) : NS c { s with calls := x } :=
  ⟨h.st, h.act, fun t => by
    have := h.wk t
    show wkOk _ (s.pc t)
    cases hp : s.pc t <;> rw [hp] at this <;> exact this, h.lost, h.sync⟩

theorem ProgEq.ord {c : Cfg α} {s : St α} (h : ProgEq c s) : ProgOrd c s := by
  intro t
  rw [h t]
  exact List.Sublist.refl _

theorem progEq_run {c : Cfg α} : ∀ {es : List (Ev α)} {s : St α}, Inv c s → NS c s → ProgEq c s → Timely c s es →
    (∀ e ∈ es, e.noStop) → ProgEq c (run c s es) := by
  intro es
  induction es with
  | nil => intro s _ _ h _ _; exact h
  | cons e es ih =>
    intro s hi hn' h ht hn
    exact ih (hi.step ht.1) (hn'.step hi e (hn e (by simp))) (h.step hn' e) ht.2 fun e' he' => hn e' (by simp [he'])

end FNLog.Ring

namespace FNLog
open Spec Ring

/-! ## The records found in the queue -/

theorem rescue_cell (N : Nat) (stale : Head) (x : List Piece) :
    rescue N stale x = cellOf (cutShort N stale x).1 (cutShort N stale x).2 := by
  have e : N - coreDesc.length - 2 = N - 20 := by rw [coreDesc_length]; omega
  unfold rescue cutShort recoveredLine cellOf
  rw [e]
  cases decode x <;> rfl

theorem rescue_ends (N : Nat) (stale : Head) (x : List Piece) : ∃ y, rescue N stale x = y ++ [.byte '\n'] :=
  ⟨_, by simp only [rescue, List.map_append, List.map_cons, List.map_nil]; rw [← List.cons_append]⟩

/-- The beginning of a line is a record whose text is cut. -/
theorem decode_prefix {x : List Piece} {h : Head} {line : List Char} (hp : x <+: cellOf h line) (hx : x ≠ []) :
    ∃ l, decode x = some (h, l) := by
  obtain ⟨n, rfl⟩ : ∃ n, x = (cellOf h line).take n := ⟨x.length, (List.prefix_iff_eq_take.mp hp)⟩
  cases n with
  | zero => exact absurd rfl hx
  | succ n =>
    have e : (cellOf h line).take (n + 1) = cellOf h (line.take n) := by simp [cellOf, List.map_take]
    rw [e]
    exact ⟨_, decode_cell _ _⟩

theorem cutShort_dispatchable {S : Setup} {N : Nat} {stale : Head} (hu : Usable S stale) {x : List Piece}
    (hx : x = [] ∨ ∃ h line, x <+: cellOf h line ∧ Dispatchable S h) : Dispatchable S (cutShort N stale x).1 := by
  have old : Dispatchable S { stale with priority := 6 } := ⟨⟨(by decide : (0 : Int) ≤ 6), (by decide : (6 : Int) ≤ 6)⟩, hu⟩
  rcases hx with rfl | ⟨h, line, h1, h2⟩
  · exact old
  · by_cases e : x = []
    · rw [e]; exact old
    · obtain ⟨l, hl⟩ := decode_prefix h1 e
      unfold cutShort
      rw [hl]
      exact ⟨⟨(by decide : (0 : Int) ≤ 6), (by decide : (6 : Int) ≤ 6)⟩, h2.2⟩

/-- Lines and records. -/
theorem records_of {S : Setup} : ∀ {l : List (Nat × List Piece)}, (∀ x ∈ l, ∃ hd line, x.2 = cellOf hd line ∧ Dispatchable S hd) →
    ∃ recs : List (Nat × Head × List Char), l = recs.map (fun r => (r.1, cellOf r.2.1 r.2.2)) ∧
      ∀ r ∈ recs, Dispatchable S r.2.1 := by
  intro l
  induction l with
  | nil => intro _; exact ⟨[], rfl, by simp⟩
  | cons x l ih =>
    intro hx
    obtain ⟨recs, h1, h2⟩ := ih fun y hy => hx y (by simp [hy])
    obtain ⟨hd, line, h3, h4⟩ := hx x (by simp)
    refine ⟨(x.1, hd, line) :: recs, ?_, ?_⟩
    · rw [List.map_cons, ← h1, ← h3]
    · intro r hr
      rcases List.mem_cons.mp hr with rfl | hr
      · exact h4
      · exact h2 r hr

theorem records_inj {a b : List (Nat × Head × List Char)}
    (h : a.map (fun r => (r.1, cellOf r.2.1 r.2.2)) = b.map fun r => (r.1, cellOf r.2.1 r.2.2)) : a = b := by
  have key : ∀ l : List (Nat × Head × List Char), (l.map (fun r => (r.1, cellOf r.2.1 r.2.2))).filterMap
      (fun e => (decode e.2).map fun r => (e.1, r)) = l := by
    intro l
    induction l with
    | nil => rfl
    | cons x l ih => rw [List.map_cons, List.filterMap_cons, decode_cell, ih]; rfl
  rw [← key a, ← key b, h]

/-- The slots between two indices, when they are the records acquired. -/
theorem slots_records {recs : List (Head × List Char)} {cell : Nat → List Piece} {L : Nat} : ∀ {n k : Nat},
    (∀ i, k ≤ i → i < k + n → (recs[i]?).map (fun r => cellOf r.1 r.2) = some (cell (i % L))) →
    (List.range' k n).filterMap (fun i => decode (cell (i % L))) = (recs.drop k).take n := by
  intro n
  induction n with
  | zero => intro k _; simp
  | succ n ih =>
    intro k h
    have h0 := h k (Nat.le_refl _) (by omega)
    cases e : recs[k]? with
    | none => rw [e] at h0; cases h0
    | some r =>
      rw [e] at h0
      have hc : cell (k % L) = cellOf r.1 r.2 := (Option.some.inj h0).symm
      obtain ⟨hk, hr⟩ := List.getElem?_eq_some_iff.mp e
      rw [List.range'_succ, List.filterMap_cons, hc, decode_cell, ih fun i h1 h2 => h i (by omega) (by omega),
        List.drop_eq_getElem_cons hk, hr, List.take_succ_cons]

theorem queued_eq {S : Setup} {f : FCrew} (hi : Inv S.cfg f.crew.ring) {recs : List (Nat × Head × List Char)}
    (hr : f.crew.ring.acquired = recs.map fun r => (r.1, cellOf r.2.1 r.2.2)) :
    queued S f = ((recs.map Prod.snd).drop f.crew.ring.R).take (f.crew.ring.W - f.crew.ring.R) := by
  apply slots_records
  intro i h1 h2
  have := hi.sealedW i h1 (by omega)
  rw [hr] at this
  rw [← this]
  simp only [List.getElem?_map, Option.map_map]
  rfl

/-! ## The state a process begins in -/

/-- The state of a process at its beginning: `prior` are all records so far. -/
structure Fit (S : Setup) (g : FCrew) (prior : List (Nat × Head × List Char)) : Prop where
  inv : ∀ x : Spell, FInvFrom (x.on S) x.stdio g.crew.out g.crew.ring.R prior g g.crew
  ord : Ord S.cfg g.crew.ring
  turn : InTurn S g.crew
  printed : Printed S.cfg g.crew.ring
  ns : NS S.cfg g.crew.ring
  prog : ProgEq S.cfg g.crew.ring
  acquired : g.crew.ring.acquired = prior.map fun r => (r.1, cellOf r.2.1 r.2.2)
  full : g.crew.ring.W = g.crew.ring.H
  made : g.crew.made = []
  handle : ∀ (j : Nat) (d : Device), S.channel.devices[j]? = some d → d.outType = .file → (g.crew.out.dev j).handle = none

theorem ready_on {S : Setup} (hS : Ready S) (x : Spell) : Ready (x.on S) :=
  ⟨hS.lib, hS.zone, hS.slots, hS.nl, hS.id, hS.channel, hS.hook, hS.named⟩

theorem Fit.fresh {S : Setup} (hS : Ready S) (hA : S.cfg.async = true) {o : OutSt}
    (ho : ∀ (j : Nat) (d : Device), S.channel.devices[j]? = some d → d.outType = .file → (o.dev j).handle = none) :
    Fit S (fCrew S o) [] where
  inv x := FInv.init x.stdio (ready_on hS x) (fun j d p h1 h2 h3 => absurd ((ho j d h1 h2).symm.trans h3) nofun)
    fun j d p h1 h2 h3 => absurd ((ho j d h1 h2).symm.trans h3) nofun
  ord := Ord.init S.cfg hA
  turn := by
    show ([] : List (Nat × Nat)) = _
    rw [current_nil rfl]
    rfl
  printed := fun _ => Or.inl rfl
  ns := NS.init S.cfg
  prog := ProgEq.init S.cfg
  acquired := rfl
  full := rfl
  made := rfl
  handle := ho

/-- What is known of the state in which a process dies. -/
structure Mortal (S : Setup) (f : FCrew) : Prop where
  ring : Inv S.cfg f.crew.ring
  ord : Ord S.cfg f.crew.ring
  printed : Printed S.cfg f.crew.ring
  records : ∃ recs : List (Nat × Head × List Char), f.crew.ring.acquired = recs.map (fun r => (r.1, cellOf r.2.1 r.2.2)) ∧
    ∀ r ∈ recs, Dispatchable S r.2.1
  ends : ∀ e ∈ f.crew.ring.acquired, ∃ y, e.2 = y ++ [S.cfg.nl]

theorem CrewFrom.ends {S : Setup} {o : OutSt} {b : Nat} {prior : List (Nat × Head × List Char)} {s : Crew}
    (h : CrewFrom S o b prior s) : ∀ e ∈ s.ring.acquired, ∃ y, e.2 = y ++ [S.cfg.nl] := by
  intro e he
  have hm : e.2 ∈ ofThread e.1 s.ring.acquired := by
    unfold ofThread
    exact List.mem_map.mpr ⟨e, List.mem_filter.mpr ⟨he, by simp⟩, rfl⟩
  have := (h.prog e.1).subset (List.mem_append_left _ hm)
  obtain ⟨y, _, hy⟩ := List.mem_map.mp this
  exact ⟨y, hy.symm⟩

theorem Mortal.found {S : Setup} (hS : Ready S) {f : FCrew} (h : Mortal S f) {stale : Head} (hu : Usable S stale) :
    ∀ e ∈ (reborn S stale f.crew.ring).acquired, (∃ hd line, e.2 = cellOf hd line ∧ Dispatchable S hd) ∧
      ∃ y, e.2 = y ++ [S.cfg.nl] := by
  obtain ⟨recs, hr, hd⟩ := h.records
  have old : ∀ x ∈ f.crew.ring.acquired, ∃ hd line, x.2 = cellOf hd line ∧ Dispatchable S hd := by
    intro x hx
    rw [hr] at hx
    obtain ⟨r, h1, rfl⟩ := List.mem_map.mp hx
    exact ⟨_, _, rfl, hd r h1⟩
  intro e he
  obtain ⟨k, hk⟩ := List.getElem?_of_mem he
  have hk : (Ring.recover S.cfg (rescue S.env.N stale) f.crew.ring).acquired[k]? = some e := hk
  rw [recover_acquired] at hk
  obtain ⟨x, hx, rfl⟩ := Option.map_eq_some_iff.mp hk
  have hx := List.mem_of_getElem? hx
  split
  · exact ⟨old x hx, h.ends x hx⟩
  · refine ⟨⟨_, _, rescue_cell .., cutShort_dispatchable hu ?_⟩, ?_⟩
    · rcases h.printed (k % S.cfg.L) with e0 | ⟨k', y, _, h2, h3⟩
      · exact Or.inl e0
      · obtain ⟨hd', line, e1, e2⟩ := old y (List.mem_of_getElem? h2)
        exact Or.inr ⟨hd', line, e1 ▸ h3, e2⟩
    · rw [hS.nl]
      exact rescue_ends ..

/-- A new process begins. -/
theorem Fit.crash {S : Setup} (hS : Ready S) (hA : S.cfg.async = true) {f : FCrew} (h : Mortal S f) {stale : Head}
    (hu : Usable S stale) : ∃ prior, Fit S (fCrash S stale f) prior := by
  obtain ⟨prior, hp, hdis⟩ := records_of (S := S) fun x hx => (h.found hS hu x hx).1
  have hends := fun x hx => (h.found hS hu x hx).2
  have hcalls : (reborn S stale f.crew.ring).calls.map (fun e => (e.1, e.2 ++ [S.cfg.nl])) =
      (reborn S stale f.crew.ring).acquired := by
    show ((reborn S stale f.crew.ring).acquired.map fun e => (e.1, e.2.dropLast)).map _ = _
    rw [List.map_map]
    conv => rhs; rw [← List.map_id (reborn S stale f.crew.ring).acquired]
    apply List.map_congr_left
    intro x hx
    obtain ⟨y, hy⟩ := hends x hx
    show (x.1, x.2.dropLast ++ [S.cfg.nl]) = x
    rw [hy, List.dropLast_concat, ← hy]
  have hpc : ∀ t, (reborn S stale f.crew.ring).pc t = .cLoad ∨ (reborn S stale f.crew.ring).pc t = .idle := by
    intro t
    show (if S.cfg.async = true ∧ t = Ring.worker then _ else _) = _ ∨ (if S.cfg.async = true ∧ t = Ring.worker then _ else _) = _
    split
    · exact Or.inl rfl
    · exact Or.inr rfl
  have heq : ProgEq S.cfg (reborn S stale f.crew.ring) := by
    intro t
    have e1 : pending ((reborn S stale f.crew.ring).pc t) = none := by rcases hpc t with e | e <;> rw [e] <;> rfl
    have e2 : ∀ l : List (Nat × List Piece), ofThread t (l.map fun e => (e.1, e.2 ++ [S.cfg.nl])) =
        (ofThread t l).map (· ++ [S.cfg.nl]) := by
      intro l
      unfold ofThread
      rw [List.filter_map, List.map_map, List.map_map]
      rfl
    rw [e1, ← e2, hcalls]
    simp only [Option.toList_none, List.map_nil, List.append_nil]
  refine ⟨prior, ?_, ?_, ?_, ?_, (NS.recover (rescue S.env.N stale) f.crew.ring).calls _, heq, hp, rfl, rfl, fun _ _ _ _ => rfl⟩
  · intro x
    refine ⟨⟨?_, ?_, rfl, fun _ => Or.inl rfl, ⟨[], .nil, ?_, ?_⟩, fun _ _ => rfl, fun _ => Nat.zero_le _, nofun, ?_, ?_, nofun, ?_,
      ?_, fun _ _ => rfl, ?_, ⟨[], Gave.start _ _⟩⟩, ?_, ?_, nofun, nofun⟩
    · exact (h.ring.recover (rescue S.env.N stale) (Or.inl hA)).calls _
    · exact heq.ord
    · rw [List.append_nil]; exact hdis
    · rw [List.append_nil, ← hp]; exact hcalls
    · intro j _ k
      refine ⟨fun hx => absurd hx (by simp [fCrash, visitsOf]), ?_⟩
      rintro (hx | ⟨t, _, hx⟩)
      · exact absurd hx (by simp [fCrash, reborn, Ring.recover])
      · exact absurd hx (Nat.not_lt_zero _)
    · intro j; simp [fCrash, visitsOf]
    · exact fun j d p _ _ hx => absurd hx nofun
    · intro j d hj hf
      exact ⟨[], _, by simpa [fCrash, visitsOf, handed] using Runs.nil (view (fCrash S stale f).crew.out j),
        ⟨rfl, rfl, fun _ _ => rfl, fun p hp => absurd hp nofun⟩⟩
    · simp [fCrash]
    · refine ⟨rfl, rfl, rfl, rfl, rfl, rfl, rfl, rfl, ?_, fun _ _ => rfl, fun _ _ => rfl⟩
      intro j d hj hd
      refine ⟨rfl, rfl, fun p hx => absurd hx nofun, fun _ => rfl, fun p _ => ?_⟩
      have : pendingAt ((fCrash S stale f).file j) p = [] := by unfold pendingAt; split <;> rfl
      rw [this, option_map_append_nil]
      rfl
    · exact ⟨fun _ hx => absurd rfl hx, fun _ hx => absurd rfl hx, fun _ => Nat.zero_le _, fun _ _ => Nat.zero_le _⟩
  · exact (Ord.recover (rescue S.env.N stale) f.crew.ring hA).calls _
  · show ([] : List (Nat × Nat)) = _
    rw [current_nil rfl]
    rfl
  · intro i
    exact Printed.recover (rescue S.env.N stale) h.ring h.printed i

/-! ## A process -/

/-- On an async channel the other threads have nothing in the buffers. -/
theorem FInvFrom.others {S : Setup} {B : Stdio} {o : OutSt} {b : Nat} {prior : List (Nat × Head × List Char)} {f : FCrew} {s : Crew}
    (h : FInvFrom S B o b prior f s) (hA : S.cfg.async = true) {t : Nat} (ht : t ≠ Ring.worker) (j : Nat) : lagOf (f.buf j) t = 0 := by
  have hc : isCons (f.crew.ring.pc t) = false := by
    rw [h.rel.ring]
    cases e : isCons (s.ring.pc t) with
    | false => rfl
    | true => exact absurd (h.crew.ring.consTid hA t e) ht
  have hl := h.tidy.lag t j
  have hoff : f.fl t = .off := Classical.byContradiction fun hx => by
    rcases (h.tidy.look t hx).1 with e | e <;> rw [e] at hc <;> cases hc
  have hcount : f.count t = 0 := Classical.byContradiction fun hx => by
    have := h.tidy.cnt t hx
    revert this hc
    cases f.crew.ring.pc t <;> simp [isCons, inRound]
  have : owing (f.crew.pos t) j (f.crew.ring.pc t) = 0 := by
    revert hc
    cases f.crew.ring.pc t <;> simp [isCons, owing]
  rw [hoff, hcount] at hl
  simp only [allowed, this] at hl
  omega

theorem lagOf_only {l : Chunks} {u : Nat} (h : ∀ t, t ≠ u → lagOf l t = 0) : l.length = lagOf l u := by
  have hm : ∀ c ∈ l, c.1 = u := by
    intro c hc
    apply Classical.byContradiction
    intro hn
    have := h c.1 hn
    unfold lagOf at this
    have hx : c.1 ∈ (l.map Prod.fst).filter (· == c.1) := List.mem_filter.mpr ⟨List.mem_map.mpr ⟨c, hc, rfl⟩, by simp⟩
    rw [List.length_eq_zero_iff.mp this] at hx
    cases hx
  unfold lagOf
  rw [List.filter_eq_self.mpr, List.length_map]
  intro a ha
  obtain ⟨c, hc, rfl⟩ := List.mem_map.mp ha
  simp [hm c hc]

theorem line_ends {h : Head} {line : List Char} {y : List Piece} (e : cellOf h line = y ++ [.byte '\n']) :
    ∃ z, line = z ++ ['\n'] := by
  rcases List.eq_nil_or_concat line with rfl | ⟨z, c, rfl⟩
  · have := congrArg List.getLast? e
    simp [cellOf] at this
  · rw [List.concat_eq_append] at e ⊢
    have h1 : cellOf h (z ++ [c]) = cellOf h z ++ [.byte c] := by simp [cellOf]
    rw [h1] at e
    obtain ⟨_, h2⟩ := List.append_inj' e rfl
    simp only [List.cons.injEq, Piece.byte.injEq, and_true] at h2
    exact ⟨z, by rw [h2]⟩

theorem fActs_on {S : Setup} {B : Stdio} {es : List Act} {f f1 f2 : FCrew} (h1 : fActs S B es f = some f1)
    (h2 : fActs S B es f = some f2) : f1 = f2 := Option.some.inj (h1.symm.trans h2)

/-- The records between positions `b` and `b + m`. -/
theorem part_of_range {β : Type} {lines out : List β} {b m : Nat}
    (h : out.map some = (List.range' b m).map fun k => lines[k]?) : out = (lines.drop b).take m ∧ m ≤ (lines.drop b).length := by
  apply prefix_of_range
  rw [h, List.range'_eq_map_range, List.map_map]
  apply List.map_congr_left
  intro k _
  simp [List.getElem?_drop]

theorem Fit.run {S : Setup} (hS : Ready S) (hA : S.cfg.async = true) (hap : FilesApart S.fenv S.channel.id S.channel.devices)
    {g : FCrew} {prior : List (Nat × Head × List Char)} (h : Fit S g prior) {x : Spell} (hx : Sane S x g) :
    ∃ f new, fActs (x.on S) x.stdio x.acts g = some f ∧ Mortal S f ∧ Process S x g f new := by
  have hS' := ready_on hS x
  obtain ⟨f, rs, s, a1, a2, _, a4, a5, a6⟩ := (h.inv x).acts hS' hap (Or.inl (Or.inl hA)) hx.sound hx.timely
  have hsound : ∀ e ∈ rs, SoundAct (x.on S) e := fun e he => hx.sound e (a2.subset he)
  obtain ⟨s', es, b1, _, b3, b4, b5, _⟩ := acts_ok hS' hap (h.inv x).crew hsound a4
  obtain rfl : s' = s := Option.some.inj (b1.symm.trans a5)
  have b3 : s'.ring = Ring.run S.cfg g.crew.ring es := b3
  have b4 : Timely S.cfg g.crew.ring es := b4
  have turn : InTurn (x.on S) s' := inTurn_acts (S := x.on S) hA hS' hap (h.inv x).crew h.turn hsound a4 a5
  have hc := a6.crew
  obtain ⟨i1, i2, i3⟩ := printed_run (c := S.cfg) hA (h.inv x).crew.ring h.ord h.printed b4
  have hring : f.crew.ring = s'.ring := a6.rel.ring
  obtain ⟨recs, r1, r2⟩ := hc.records
  have hRec : f.crew.ring.acquired = recs.map fun r => (r.1, cellOf r.2.1 r.2.2) := by rw [hring]; exact r1
  have e3 : f.crew.ring = Ring.run S.cfg g.crew.ring es := hring.trans b3
  have mortal : Mortal S f := by
    refine ⟨?_, ?_, ?_, ⟨recs, hRec, r2⟩, ?_⟩
    · rw [e3]; exact i1
    · rw [e3]; exact i2
    · rw [e3]; exact i3
    · rw [hring]; exact hc.ends
  -- the new records
  obtain ⟨cells, hcells⟩ := acquired_mono S.cfg es g.crew.ring
  obtain ⟨new, rfl⟩ : ∃ new, recs = prior ++ new := by
    refine ⟨recs.drop prior.length, ?_⟩
    have e : recs.take prior.length = prior := by
      apply records_inj
      rw [List.map_take, ← hRec, e3, hcells, h.acquired, List.take_append_of_le_length (by simp), List.take_of_length_le (by simp)]
    conv => lhs; rw [← List.take_append_drop prior.length recs, e]
  refine ⟨f, new, a1, mortal, ?_⟩
  have hi := mortal.ring
  have hgi : Inv S.cfg g.crew.ring := (h.inv x).crew.ring
  have hgH : prior.length = g.crew.ring.H := by rw [← hgi.len, h.acquired, List.length_map]
  have hfH : prior.length + new.length = f.crew.ring.H := by rw [← hi.len, hRec, List.length_map, List.length_append]
  have hgR : g.crew.ring.R ≤ prior.length := by
    have := hgi.leRP; have := hgi.lePW; have := hgi.leWH
    show g.crew.ring.R ≤ _
    rw [hgH]; exact Nat.le_trans (Nat.le_trans hgi.leRP hgi.lePW) hgi.leWH
  have hq : queued S g = (prior.map Prod.snd).drop g.crew.ring.R := by
    rw [queued_eq hgi h.acquired, List.take_of_length_le]
    rw [List.length_drop, List.length_map, hgH, h.full]
    exact Nat.le_refl _
  have hline : ∀ r ∈ prior ++ new, ∃ y, r.2.2 = y ++ ['\n'] := by
    intro r hr
    have hm : (r.1, cellOf r.2.1 r.2.2) ∈ f.crew.ring.acquired := by
      rw [hRec]
      exact List.mem_map.mpr ⟨r, hr, rfl⟩
    obtain ⟨y, hy⟩ := mortal.ends _ hm
    rw [hS.nl] at hy
    exact line_ends hy
  refine ⟨?_, ?_, ?_, ?_, ?_, ?_⟩
  · intro t
    obtain ⟨logged, l1, l2, l3⟩ := hc.programFrom r1 t
    refine ⟨logged, ?_, ?_, ?_⟩
    · rw [a6.rel.made]
      exact logged_on (os := x.os) l1
    · rw [linesOf_append] at l2
      exact (List.append_sublist_append_left _).mp l2
    · intro hn hidle
      have hpe := progEq_run hgi h.ns h.prog b4 (b5 fun e he => hn e (a2.subset he)) t
      have hpc : (Ring.run S.cfg g.crew.ring es).pc t = .idle := by rw [← e3]; exact hidle
      rw [hpc] at hpe
      rw [← b3] at hpe
      have hpe : ofThread t s'.ring.acquired ++ [] = _ := hpe
      rw [List.append_nil] at hpe
      have := l3 hpe
      rw [linesOf_append] at this
      exact List.append_cancel_left this
  · intro j d hj hd
    have hjl : j < S.channel.devices.length := (List.getElem?_eq_some_iff.mp hj).1
    have hord : Ord S.cfg s'.ring := by rw [← hring]; exact mortal.ord
    have hbase : s'.ring.base = g.crew.ring.R := hc.base
    have hRP := hi.leRP
    have hPW := hi.lePW
    have hWH := hi.leWH
    have hbR : s'.ring.base ≤ f.crew.ring.R := by rw [hring]; exact hc.ring.baseR
    have hout : f.crew.ring.R ≤ outN f.crew.ring ∧ outN f.crew.ring ≤ f.crew.ring.P ∧
        ((∃ k, f.crew.ring.pc Ring.worker = .cDisp k) → outN f.crew.ring = f.crew.ring.R ∧ f.crew.ring.P = f.crew.ring.R + 1) := by
      have hp := mortal.ord.pcw
      unfold outN
      split
      · rename_i k hk
        rw [hk] at hp
        obtain ⟨p1, p2⟩ := hp
        exact ⟨by omega, by omega, fun _ => ⟨by omega, p1⟩⟩
      · rename_i hk
        exact ⟨hRP, Nat.le_refl _, fun ⟨k, hk'⟩ => absurd hk' (hk k)⟩
    have hPR := mortal.ord.le
    rw [hring] at hout hPR hRP hPW hWH hbR
    obtain ⟨m, m1, m2, m3, m4⟩ := turn.numbersFrom hord (Nat.le_trans hbR hout.1) (j := j) hjl
    have hn : s'.ring.R ≤ s'.ring.base + m ∧ s'.ring.base + m ≤ s'.ring.P := by
      by_cases hd : ∃ k, s'.ring.pc Ring.worker = .cDisp k
      · obtain ⟨o1, o2⟩ := hout.2.2 hd
        omega
      · have := m4 fun k hk => hd ⟨k, hk⟩
        omega
    have hpos := hc.positions r1 j
    rw [m1, hbase] at hpos
    obtain ⟨hgiven, hm⟩ := part_of_range hpos
    have hall : ((prior ++ new).map Prod.snd).drop g.crew.ring.R = queued S g ++ new.map Prod.snd := by
      rw [List.map_append, List.drop_append_of_le_length (by simpa using hgR), hq]
    rw [hbase] at hn
    have hqf := queued_eq hi hRec
    have hlen : ((prior ++ new).map Prod.snd).length = s'.ring.H := by
      rw [List.length_map, List.length_append, hfH, hring]
    obtain ⟨taken, t', t1, t2⟩ := hc.files j d hj hd
    refine ⟨(((prior ++ new).map Prod.snd).drop g.crew.ring.R).take m, ((prior ++ new).map Prod.snd).drop (g.crew.ring.R + m),
      taken, t', ?_, ?_, ?_, ?_, ?_⟩
    · rw [← hall, ← List.drop_drop, List.take_append_drop]
    · refine ⟨g.crew.ring.R + m - s'.ring.R, by omega, ((prior ++ new).map Prod.snd).drop s'.ring.W, ?_, ?_, ?_, ?_⟩
      · rw [hqf, hring]
        generalize (prior ++ new).map Prod.snd = l
        rw [List.drop_take, List.drop_drop, show s'.ring.R + (g.crew.ring.R + m - s'.ring.R) = g.crew.ring.R + m by omega]
        conv => lhs; rw [← List.take_append_drop (s'.ring.W - s'.ring.R - (g.crew.ring.R + m - s'.ring.R)) (l.drop (g.crew.ring.R + m))]
        rw [List.drop_drop]
        congr 2
        omega
      · rw [List.length_drop, hlen, hring]
      · rw [hqf, hring, List.length_take, List.length_drop, hlen]
        omega
      · rw [hqf, hring]
        generalize (prior ++ new).map Prod.snd = l
        rw [List.take_take, Nat.min_eq_left (by omega)]
        refine ⟨(l.drop g.crew.ring.R).take (s'.ring.R - g.crew.ring.R), ?_⟩
        have e : l.drop s'.ring.R = (l.drop g.crew.ring.R).drop (s'.ring.R - g.crew.ring.R) := by
          rw [List.drop_drop]; congr 1; omega
        rw [e, ← List.take_add]
        congr 1
        omega
    · rw [← hgiven]; exact t1
    · have := t2.logs
      rw [this]
      show (f.crew.out.dev j).logs = (s'.out.dev j).logs
      rw [a6.rel.dev]
    · intro p hp
      have e := (a6.rel.files j d hj hd).files p hp
      have e2 : bytesOf t'.fs p = bytesOf (view s'.out j).fs p := by
        unfold bytesOf
        rw [t2.fs p hp]
      rw [e2, e]
      rfl
  · intro p hp
    rw [a6.rel.foreign p hp]
    exact hc.foreign p hp
  · intro r hr
    rw [hq] at hr
    rcases List.mem_append.mp hr with hr | hr
    · obtain ⟨r', h1, rfl⟩ := List.mem_map.mp (List.mem_of_mem_drop hr)
      exact hline r' (List.mem_append_left _ h1)
    · obtain ⟨r', h1, rfl⟩ := List.mem_map.mp hr
      exact hline r' (List.mem_append_right _ h1)
  · intro j
    rw [lagOf_only fun t ht => a6.others hA ht j]
    exact a6.few _ j
  · intro hrest j
    apply List.length_eq_zero_iff.mp
    rw [lagOf_only fun t ht => a6.others hA ht j]
    exact a6.rest hrest j

/-! ## Crashes -/

theorem filterMap_cong {β γ : Type} {f g : β → Option γ} : ∀ {l : List β}, (∀ x ∈ l, f x = g x) → l.filterMap f = l.filterMap g := by
  intro l
  induction l with
  | nil => intro _; rfl
  | cons x l ih =>
    intro h
    rw [List.filterMap_cons, List.filterMap_cons, h x (by simp), ih fun y hy => h y (by simp [hy])]

/-- What the new process finds. -/
theorem found_queue {S : Setup} {f : FCrew} (hi : Inv S.cfg f.crew.ring) (stale : Head) :
    queued S (fCrash S stale f) = queued S f ++ mended S stale f := by
  have h1 := hi.leRP
  have h2 := hi.lePW
  have h3 := hi.leWH
  have h4 := hi.cap
  have e : List.range' f.crew.ring.R (f.crew.ring.H - f.crew.ring.R) =
      List.range' f.crew.ring.R (f.crew.ring.W - f.crew.ring.R) ++ List.range' f.crew.ring.W (f.crew.ring.H - f.crew.ring.W) := by
    have := List.range'_append_1 (s := f.crew.ring.R) (m := f.crew.ring.W - f.crew.ring.R) (n := f.crew.ring.H - f.crew.ring.W)
    rw [show f.crew.ring.R + (f.crew.ring.W - f.crew.ring.R) = f.crew.ring.W by omega,
      show f.crew.ring.W - f.crew.ring.R + (f.crew.ring.H - f.crew.ring.W) = f.crew.ring.H - f.crew.ring.R by omega] at this
    exact this.symm
  show (List.range' f.crew.ring.R (f.crew.ring.H - f.crew.ring.R)).filterMap (fun k => decode (recCells S.cfg.L
    (rescue S.env.N stale) (f.crew.ring.H - f.crew.ring.W) f.crew.ring.W f.crew.ring.cell (k % S.cfg.L))) = _
  rw [e, List.filterMap_append]
  congr 1
  · apply filterMap_cong
    intro k hk
    obtain ⟨i, hi1, rfl⟩ := List.mem_range'.mp hk
    rw [recCells_below _ _ (by omega) (by omega)]
  · unfold mended
    rw [← List.filterMap_eq_map]
    apply filterMap_cong
    intro k hk
    obtain ⟨i, hi1, rfl⟩ := List.mem_range'.mp hk
    rw [recCells_in _ _ _ _ _ _ (by omega) (by omega) (by omega), rescue_cell, decode_cell]
    rfl

/-- Every process, after any number of crashes. -/
theorem lived {S : Setup} (hS : Ready S) (hA : S.cfg.async = true) (hap : FilesApart S.fenv S.channel.id S.channel.devices)
    {g f : FCrew} {x : Spell} (h : Lived S g x f) :
    ∃ prior new, Fit S g prior ∧ fActs (x.on S) x.stdio x.acts g = some f ∧ Mortal S f ∧ Process S x g f new := by
  induction h with
  | fresh hc hs hr =>
    have hf := Fit.fresh hS hA hc
    obtain ⟨f', new, h1, h2, h3⟩ := hf.run hS hA hap hs
    obtain rfl := Option.some.inj (h1.symm.trans hr)
    exact ⟨_, new, hf, h1, h2, h3⟩
  | again _ hu hs hr ih =>
    obtain ⟨_, _, _, _, hm, _⟩ := ih
    obtain ⟨prior, hf⟩ := Fit.crash hS hA hm hu
    obtain ⟨f', new, h1, h2, h3⟩ := hf.run hS hA hap hs
    obtain rfl := Option.some.inj (h1.symm.trans hr)
    exact ⟨_, new, hf, h1, h2, h3⟩

end FNLog
