import Verif.Proof.Threads
import Verif.Props.Ring

/-! # What the devices have seen -/

namespace FNLog
open Spec Ring

variable {b : Nat} {prior : List (Nat × Head × List Char)}

/-- The records in order of acquisition. -/
theorem CrewFrom.records {S : Setup} {o : OutSt} {s : Crew} (h : CrewFrom S o b prior s) :
    ∃ recs : List (Nat × Head × List Char), s.ring.acquired = recs.map (fun r => (r.1, cellOf r.2.1 r.2.2)) ∧
      ∀ r ∈ recs, Dispatchable S r.2.1 := by
  have key : ∀ l : List (Nat × List Piece), (∀ x ∈ l, ∃ hd line, x.2 = cellOf hd line ∧ Dispatchable S hd) →
      ∃ recs : List (Nat × Head × List Char), l = recs.map (fun r => (r.1, cellOf r.2.1 r.2.2)) ∧
        ∀ r ∈ recs, Dispatchable S r.2.1 := by
    intro l
    induction l with
    | nil => intro _; exact ⟨[], rfl, by simp⟩
    | cons x l ih =>
      intro hx
      obtain ⟨recs, h1, h2⟩ := ih fun y hy => hx y (by simp [hy])
      obtain ⟨hd, line, h3, h4⟩ := hx x (by simp)
      refine ⟨(x.1, hd, line) :: recs, ?_, ?_⟩
      · rw [List.map_cons, ← h1, ← h3]
      · intro r hr
        rcases List.mem_cons.mp hr with rfl | hr
        · exact h4
        · exact h2 r hr
  refine key _ fun x hx => ?_
  obtain ⟨k, hk⟩ := List.getElem?_of_mem hx
  exact h.decoded (t := x.1) (k := k) (x := x.2) hk

/-- Lists of records from lists of lines. -/
theorem map_cell_inj {a b : List (Head × List Char)} (h : a.map (fun r => cellOf r.1 r.2) = b.map fun r => cellOf r.1 r.2) :
    a = b := by
  have key : ∀ l : List (Head × List Char), (l.map (fun r => cellOf r.1 r.2)).filterMap decode = l := by
    intro l
    induction l with
    | nil => rfl
    | cons x l ih => rw [List.map_cons, List.filterMap_cons, decode_cell, ih]
  rw [← key a, ← key b, h]

theorem cell_sublist {a b : List (Head × List Char)}
    (h : (a.map (fun r => cellOf r.1 r.2)).Sublist (b.map fun r => cellOf r.1 r.2)) : a.Sublist b := by
  obtain ⟨c, hc, e⟩ := List.sublist_map_iff.mp h
  rw [map_cell_inj e]
  exact hc

theorem linesOf_map {β γ : Type} (t : Nat) (f : β → γ) (l : List (Nat × β)) :
    linesOf t (l.map fun r => (r.1, f r.2)) = (linesOf t l).map f := by
  induction l with
  | nil => rfl
  | cons x l ih =>
    unfold linesOf at ih ⊢
    rw [List.map_cons, List.filter_cons, List.filter_cons]
    by_cases hx : x.1 = t
    · simp only [hx, beq_self_eq_true, if_true, List.map_cons, ih]
    · simp only [beq_iff_eq, hx, if_false, ih]

/-- The records of a thread in the channel are those found at the start and then records of its statements, in program order. -/
theorem CrewFrom.programFrom {S : Setup} {o : OutSt} {s : Crew} (h : CrewFrom S o b prior s)
    {recs : List (Nat × Head × List Char)}
    (hr : s.ring.acquired = recs.map fun r => (r.1, cellOf r.2.1 r.2.2)) (t : Nat) :
    ∃ logged, Logged S (linesOf t s.made) logged ∧ (linesOf t recs).Sublist (linesOf t prior ++ logged) ∧
      (linesOf t s.ring.acquired = (linesOf t s.ring.calls).map (withEnd S.cfg.nl) →
        linesOf t recs = linesOf t prior ++ logged) := by
  obtain ⟨said, g1, _, g3⟩ := h.spoken
  have e1 : linesOf t s.ring.acquired = (linesOf t recs).map fun r => cellOf r.1 r.2 := by
    rw [hr]
    exact linesOf_map t (fun r : Head × List Char => cellOf r.1 r.2) recs
  have e2 : (linesOf t s.ring.calls).map (withEnd S.cfg.nl) =
      (linesOf t prior ++ linesOf t said).map fun r => cellOf r.1 r.2 := by
    have a := congrArg (linesOf t) g3
    rw [linesOf_map t (fun r : Head × List Char => cellOf r.1 r.2) (prior ++ said), linesOf_append] at a
    rw [← a]
    exact (linesOf_map t (fun e : List Piece => e ++ [S.cfg.nl]) s.ring.calls).symm
  refine ⟨linesOf t said, said_logged g1 t, ?_, ?_⟩
  · apply cell_sublist
    rw [← e1, ← e2]
    exact (List.sublist_append_left _ _).trans (h.prog t)
  · intro he
    rw [e1, e2] at he
    exact map_cell_inj he

/-- The records of a thread in the channel are records of its statements, in program order. -/
theorem CrewFrom.program {S : Setup} {o : OutSt} {s : Crew} (h : CrewInv S o s) {recs : List (Nat × Head × List Char)}
    (hr : s.ring.acquired = recs.map fun r => (r.1, cellOf r.2.1 r.2.2)) (t : Nat) :
    ∃ logged, Logged S (linesOf t s.made) logged ∧ (linesOf t recs).Sublist logged ∧
      (linesOf t s.ring.acquired = (linesOf t s.ring.calls).map (withEnd S.cfg.nl) → linesOf t recs = logged) :=
  h.programFrom hr t

/-- What a device has seen, by the numbers of the records. -/
theorem CrewFrom.seen {S : Setup} {o : OutSt} {s : Crew} (h : CrewFrom S o b prior s) {recs : List (Nat × Head × List Char)}
    (hr : s.ring.acquired = recs.map fun r => (r.1, cellOf r.2.1 r.2.2)) {v : Visit} (hv : v ∈ s.visits) :
    (recs.map Prod.snd)[v.number]? = some v.record := by
  have := h.visitVal v hv
  rw [hr, List.getElem?_map] at this
  rw [List.getElem?_map]
  cases e : recs[v.number]? with
  | none => rw [e] at this; exact absurd this (by simp)
  | some r =>
    rw [e] at this
    simp only [Option.map_some, Option.some.injEq] at this
    have h2 := congrArg decode this
    rw [decode_cell, decode_cell] at h2
    rw [Option.map_some]
    exact h2

theorem CrewFrom.positions {S : Setup} {o : OutSt} {s : Crew} (h : CrewFrom S o b prior s) {recs : List (Nat × Head × List Char)}
    (hr : s.ring.acquired = recs.map fun r => (r.1, cellOf r.2.1 r.2.2)) (j : Nat) :
    ((visitsOf j s.visits).map Visit.record).map some =
      ((visitsOf j s.visits).map Visit.number).map fun k => (recs.map Prod.snd)[k]? := by
  rw [List.map_map, List.map_map]
  apply List.map_congr_left
  intro v hv
  exact (h.seen hr (List.mem_filter.mp hv).1).symm

/-! ## In order -/

theorem filter_current (n j k : Nat) :
    (((List.range n).map fun i => (i, k)).filter fun x => x.1 == j).map Prod.snd = if j < n then [k] else [] := by
  induction n with
  | zero => simp
  | succ D ih =>
    rw [List.range_succ, List.map_append, List.filter_append, List.map_append, ih]
    simp only [List.map_cons, List.map_nil, List.filter_cons, List.filter_nil, beq_iff_eq]
    by_cases e : D = j
    · subst e; simp
    · rw [if_neg e]
      by_cases e' : j < D
      · rw [if_pos e', if_pos (Nat.lt_succ_of_lt e')]; rfl
      · rw [if_neg e', if_neg (by omega)]; rfl

theorem filter_turn (D : Nat) (j : Nat) (hj : j < D) (l : List Nat) :
    ((l.flatMap fun k => (List.range D).map fun i => (i, k)).filter fun x => x.1 == j).map Prod.snd = l := by
  induction l with
  | nil => rfl
  | cons k l ih =>
    rw [List.flatMap_cons, List.filter_append, List.map_append, ih, filter_current, if_pos hj]
    rfl

theorem numbers_pairs (j : Nat) (l : List Visit) : (visitsOf j l).map Visit.number =
    ((l.map fun v => (v.device, v.number)).filter fun x => x.1 == j).map Prod.snd := by
  induction l with
  | nil => rfl
  | cons v l ih =>
    unfold visitsOf at ih ⊢
    rw [List.map_cons, List.filter_cons, List.filter_cons]
    by_cases e : v.device = j
    · simp only [e, beq_self_eq_true, if_true, List.map_cons, ih]
    · simp only [beq_iff_eq, e, if_false, ih]

theorem InTurn.numbersFrom {S : Setup} {s : Crew} (h : InTurn S s) (ho : Ord S.cfg s.ring) (hle : s.ring.base ≤ outN s.ring)
    {j : Nat} (hj : j < S.channel.devices.length) :
    ∃ m, (visitsOf j s.visits).map Visit.number = List.range' s.ring.base m ∧ s.ring.base + m ≤ outN s.ring + 1 ∧
      outN s.ring ≤ s.ring.base + m ∧ ((∀ k, s.ring.pc worker ≠ .cDisp k) → s.ring.base + m = outN s.ring) := by
  have hout := ho.out
  rw [numbers_pairs, h, List.filter_append, List.map_append, filter_turn _ _ hj, hout]
  unfold current
  split
  · rename_i k hpc
    rw [filter_current]
    have hp := ho.pcw
    rw [hpc] at hp
    obtain ⟨h1, h2⟩ := hp
    have h3 : outN s.ring = k := by
      unfold outN
      rw [hpc]
      simp only
      omega
    rw [h3] at hle ⊢
    split
    · refine ⟨k - s.ring.base + 1, ?_, by omega, by omega, fun hn => absurd hpc (hn k)⟩
      rw [← List.range'_append_1 (s := s.ring.base) (m := k - s.ring.base) (n := 1)]
      congr 1
      rw [show s.ring.base + (k - s.ring.base) = k by omega]
      rfl
    · exact ⟨k - s.ring.base, by rw [List.append_nil], by omega, by omega, fun hn => absurd hpc (hn k)⟩
  · exact ⟨outN s.ring - s.ring.base, by simp, by omega, by omega, fun _ => by omega⟩

theorem InTurn.numbers {S : Setup} {s : Crew} (h : InTurn S s) (hb : s.ring.base = 0) (ho : Ord S.cfg s.ring) {j : Nat}
    (hj : j < S.channel.devices.length) : ∃ m, (visitsOf j s.visits).map Visit.number = List.range m := by
  have hout := ho.out
  rw [hb, Nat.sub_zero] at hout
  rw [numbers_pairs, h, List.filter_append, List.map_append, filter_turn _ _ hj, hout]
  unfold current
  split
  · rename_i k hpc
    rw [filter_current]
    have hp := ho.pcw
    rw [hpc] at hp
    obtain ⟨h1, h2⟩ := hp
    have h3 : outN s.ring = k := by
      unfold outN
      rw [hpc]
      simp only
      omega
    rw [h3]
    split
    · exact ⟨k + 1, by rw [List.range_succ, List.range_eq_range']⟩
    · exact ⟨k, by rw [List.append_nil, List.range_eq_range']⟩
  · exact ⟨outN s.ring, by rw [List.range_eq_range']; simp⟩

theorem prefix_of_range {β : Type} {lines out : List β} {m : Nat}
    (h : out.map some = (List.range m).map fun k => lines[k]?) : out = lines.take m ∧ m ≤ lines.length := by
  have hlen : out.length = m := by
    have := congrArg List.length h
    simpa using this
  have hall : ∀ k, k < m → lines[k]? = out[k]? := by
    intro k hk
    have := congrArg (fun l => l[k]?) h
    simp only [List.getElem?_map, List.getElem?_range hk, Option.map_some] at this
    have h2 : k < out.length := by omega
    rw [List.getElem?_eq_getElem h2] at this ⊢
    simpa using this.symm
  have hle : m ≤ lines.length := by
    apply Classical.byContradiction
    intro hc
    have h1 := hall lines.length (by omega)
    rw [List.getElem?_eq_none (Nat.le_refl _)] at h1
    have := List.getElem?_eq_none_iff.mp h1.symm
    omega
  refine ⟨?_, hle⟩
  apply List.ext_getElem?
  intro i
  rw [List.getElem?_take]
  split
  · rename_i hi; exact (hall i hi).symm
  · exact List.getElem?_eq_none (by omega)

/-! ## The screen -/

open Classical in
/-- What record `x` puts out by device `d` if this is of type `ty`. -/
noncomputable def emitAt {β : Type} (ty : OutType) (f : Device → Head × List Char → β) (d : Option Device)
    (x : Option (Head × List Char)) : List β :=
  match d, x with
  | some d, some x => if d.outType = ty ∧ DeviceTakes d x.1.priority x.1.category x.1.identify then [f d x] else []
  | _, _ => []

theorem emitOf_at {β : Type} (ty : OutType) (f : Device → Head × List Char → β) (S : Setup) (v : Visit) :
    emitOf ty f S v = emitAt ty f S.channel.devices[v.device]? (some v.record) := by
  unfold emitOf emitAt
  cases S.channel.devices[v.device]? <;> rfl

theorem CrewFrom.emitPairs {S : Setup} {o : OutSt} {s : Crew} (h : CrewFrom S o b prior s) {recs : List (Nat × Head × List Char)}
    (hr : s.ring.acquired = recs.map fun r => (r.1, cellOf r.2.1 r.2.2)) {β : Type} (ty : OutType)
    (f : Device → Head × List Char → β) :
    s.visits.flatMap (emitOf ty f S) = (s.visits.map fun v => (v.device, v.number)).flatMap
      fun x => emitAt ty f S.channel.devices[x.1]? (recs.map Prod.snd)[x.2]? := by
  have : ∀ l : List Visit, (∀ v ∈ l, v ∈ s.visits) → l.flatMap (emitOf ty f S) =
      (l.map fun v => (v.device, v.number)).flatMap
        fun x => emitAt ty f S.channel.devices[x.1]? (recs.map Prod.snd)[x.2]? := by
    intro l
    induction l with
    | nil => intro _; rfl
    | cons v l ih =>
      intro hl
      rw [List.map_cons, List.flatMap_cons, List.flatMap_cons, ih fun w hw => hl w (by simp [hw]), emitOf_at,
        h.seen hr (hl v (by simp))]
  exact this _ fun _ h => h

theorem CrewFrom.screenPairs {S : Setup} {o : OutSt} {s : Crew} (h : CrewFrom S o b prior s) {recs : List (Nat × Head × List Char)}
    (hr : s.ring.acquired = recs.map fun r => (r.1, cellOf r.2.1 r.2.2)) :
    s.out.screen = o.screen ++ (s.visits.map fun v => (v.device, v.number)).flatMap
      fun x => emitAt .screen (fun _ r => shown r.1.priority r.2) S.channel.devices[x.1]? (recs.map Prod.snd)[x.2]? := by
  rw [h.screen]
  congr 1
  exact h.emitPairs hr .screen fun _ r => shown r.1.priority r.2

theorem flatMap_range {β γ : Type} (l : List β) (f : Option β → List γ) :
    (List.range l.length).flatMap (fun j => f l[j]?) = l.flatMap fun x => f (some x) := by
  have e : (List.range l.length).map (fun j => l[j]?) = l.map some := by
    apply List.ext_getElem?
    intro i
    rw [List.getElem?_map, List.getElem?_map]
    by_cases hi : i < l.length
    · rw [List.getElem?_range hi]
      simp [hi]
    · rw [List.getElem?_eq_none (by simpa using hi), List.getElem?_eq_none (by omega)]
      rfl
  have := congrArg (List.flatMap f) e
  rw [List.flatMap_map, List.flatMap_map] at this
  exact this

theorem emit_device {β : Type} (ty : OutType) (f : Device → Head × List Char → β) (devices : List Device)
    (x : Head × List Char) :
    devices.flatMap (fun d => emitAt ty f (some d) (some x)) = (takers ty devices x.1).map fun d => f d x := by
  induction devices with
  | nil => rfl
  | cons d devices ih =>
    rw [List.flatMap_cons, ih]
    unfold takers emitAt
    by_cases hd : d.outType = ty ∧ DeviceTakes d x.1.priority x.1.category x.1.identify
    · rw [List.filter_cons_of_pos (by simpa using hd)]
      simp only [if_pos hd]
      rfl
    · rw [List.filter_cons_of_neg (by simpa using hd)]
      simp only [if_neg hd]
      rfl

/-- All devices reached for all records, in order. -/
theorem emit_all {β : Type} (ty : OutType) (f : Device → Head × List Char → β) (devices : List Device)
    (recs : List (Head × List Char)) :
    ((List.range recs.length).flatMap fun k => (List.range devices.length).map fun j => (j, k)).flatMap
      (fun x => emitAt ty f devices[x.1]? recs[x.2]?) = recs.flatMap fun x => (takers ty devices x.1).map fun d => f d x := by
  rw [List.flatMap_assoc]
  have e : ∀ k : Nat, ((List.range devices.length).map fun j => (j, k)).flatMap (fun x => emitAt ty f devices[x.1]? recs[x.2]?) =
      devices.flatMap fun d => emitAt ty f (some d) recs[k]? := by
    intro k
    rw [List.flatMap_map]
    exact flatMap_range devices fun d => emitAt ty f d recs[k]?
  rw [show (fun k => ((List.range devices.length).map fun j => (j, k)).flatMap
      (fun x => emitAt ty f devices[x.1]? recs[x.2]?)) = fun (k : Nat) => devices.flatMap fun d => emitAt ty f (some d) recs[k]? from
    funext e]
  rw [flatMap_range recs fun x => devices.flatMap fun d => emitAt ty f (some d) x]
  congr 1
  funext x
  exact emit_device ty f devices x

theorem screen_all (devices : List Device) (recs : List (Head × List Char)) :
    ((List.range recs.length).flatMap fun k => (List.range devices.length).map fun j => (j, k)).flatMap
      (fun x => emitAt .screen (fun _ r => shown r.1.priority r.2) devices[x.1]? recs[x.2]?) = screenLines devices recs :=
  emit_all .screen (fun _ r => shown r.1.priority r.2) devices recs

theorem gram_all (devices : List Device) (recs : List (Head × List Char)) :
    ((List.range recs.length).flatMap fun k => (List.range devices.length).map fun j => (j, k)).flatMap
      (fun x => emitAt .udp (fun d r => datagram d r.2) devices[x.1]? recs[x.2]?) = datagrams devices recs :=
  emit_all .udp (fun d r => datagram d r.2) devices recs

/-! ## Nothing twice -/

theorem pairs_nodup {l : List Visit} (h : ∀ j, ((visitsOf j l).map Visit.number).Nodup) :
    (l.map fun v => (v.device, v.number)).Nodup := by
  induction l with
  | nil => exact List.nodup_nil
  | cons v l ih =>
    rw [List.map_cons, List.nodup_cons]
    constructor
    · intro hm
      obtain ⟨w, hw, e⟩ := List.mem_map.mp hm
      obtain ⟨e1, e2⟩ := Prod.mk.inj e
      have := h v.device
      unfold visitsOf at this
      rw [List.filter_cons_of_pos (by simp), List.map_cons, List.nodup_cons] at this
      exact this.1 (List.mem_map.mpr ⟨w, List.mem_filter.mpr ⟨hw, by simp [e1]⟩, e2⟩)
    · refine ih fun j => ?_
      have := h j
      unfold visitsOf at this
      rw [List.filter_cons] at this
      split at this
      · exact (List.nodup_cons.mp this).2
      · exact this

theorem turns_nodup (n D : Nat) :
    ((List.range n).flatMap fun k => (List.range D).map fun j => (j, k)).Nodup := by
  induction n with
  | zero => exact List.nodup_nil
  | succ n ih =>
    rw [List.range_succ, List.flatMap_append, List.nodup_append]
    refine ⟨ih, ?_, ?_⟩
    · simp only [List.flatMap_cons, List.flatMap_nil, List.append_nil]
      exact List.Pairwise.map _ (fun a b h e => h (Prod.mk.inj e).1) (List.nodup_range (n := D))
    · intro a ha b hb e
      subst e
      obtain ⟨k, hk, h1⟩ := List.mem_flatMap.mp ha
      obtain ⟨j, _, rfl⟩ := List.mem_map.mp h1
      simp only [List.flatMap_cons, List.flatMap_nil, List.append_nil] at hb
      obtain ⟨j', _, e⟩ := List.mem_map.mp hb
      have := (Prod.mk.inj e).2
      rw [List.mem_range] at hk
      omega

/-! ## History -/

theorem dispatchNext_keeps {S : Setup} {u k : Nat} {d : Device} {s s' : Crew} (h : dispatchNext S u k d s = some s') :
    s'.ring = s.ring ∧ s'.made = s.made := by
  unfold dispatchNext at h
  simp only [Option.bind_eq_bind] at h
  cases h1 : decode (s.ring.cell (k % S.cfg.L)) with
  | none => rw [h1] at h; exact absurd h (by simp)
  | some x =>
    rw [h1] at h
    simp only [Option.bind_some] at h
    cases h2 : dispatchTakes d x.1.priority x.1.category x.1.identify with
    | none => rw [h2] at h; exact absurd h (by simp)
    | some y =>
      rw [h2] at h
      simp only [Option.bind_some] at h
      cases h3 : enterIf S y (visitsOf (s.pos u) s.visits).length (s.pos u) d x.1 x.2 s.out with
      | none => rw [h3] at h; exact absurd h (by simp)
      | some z =>
        rw [h3] at h
        obtain rfl := Option.some.inj h
        exact ⟨rfl, rfl⟩

theorem made_act {S : Setup} {s s' : Crew} {e : Act} (h : act S s e = some s') (t : Nat) :
    ∃ x, linesOf t s'.made = linesOf t s.made ++ x ∧ x.Sublist (statementsOf t [e]) := by
  have same : s'.made = s.made → ∃ x, linesOf t s'.made = linesOf t s.made ++ x ∧ x.Sublist (statementsOf t [e]) :=
    fun e => ⟨[], by rw [e, List.append_nil], List.nil_sublist _⟩
  cases e with
  | started | closing | stop | dates => obtain rfl := Option.some.inj h; exact same rfl
  | run u =>
    simp only [act, runThread] at h
    split at h
    · split at h
      · exact same (dispatchNext_keeps h).2
      · obtain rfl := Option.some.inj h; exact same rfl
    · obtain rfl := Option.some.inj h; exact same rfl
  | log u a ops =>
    simp only [act, beginLog] at h
    split at h
    · split at h
      · cases hf : formed S a ops (s.caches u) with
        | none => rw [hf] at h; exact absurd h (by simp)
        | some x =>
          rw [hf] at h
          simp only [Option.bind_eq_bind, Option.bind_some] at h
          obtain rfl := Option.some.inj h
          refine ⟨linesOf t [(u, a, ops)], linesOf_append t _ _, ?_⟩
          rw [linesOf_one]
          exact List.Sublist.refl _
      · obtain rfl := Option.some.inj h; exact same rfl
    · obtain rfl := Option.some.inj h; exact same rfl

theorem statementsOf_cons (t : Nat) (e : Act) (es : List Act) :
    statementsOf t (e :: es) = statementsOf t [e] ++ statementsOf t es := by
  cases e <;> simp only [statementsOf, List.nil_append]
  split <;> rfl

/-- The statements made are statements of the schedule, in program order. -/
theorem made_acts {S : Setup} (t : Nat) : ∀ {es : List Act} {s s' : Crew}, acts S es s = some s' →
    ∃ x, linesOf t s'.made = linesOf t s.made ++ x ∧ x.Sublist (statementsOf t es) := by
  intro es
  induction es with
  | nil => intro s s' h; obtain rfl := Option.some.inj h; exact ⟨[], by rw [List.append_nil], List.nil_sublist _⟩
  | cons e es ih =>
    intro s s' h
    simp only [acts, Option.bind_eq_bind] at h
    cases h1 : act S s e with
    | none => rw [h1] at h; exact absurd h (by simp)
    | some s1 =>
      rw [h1] at h
      obtain ⟨x, hx1, hx2⟩ := made_act h1 t
      obtain ⟨y, hy1, hy2⟩ := ih h
      refine ⟨x ++ y, by rw [hy1, hx1, List.append_assoc], ?_⟩
      rw [statementsOf_cons]
      exact hx2.append hy2

theorem acts_append {S : Setup} : ∀ {es es' : List Act} {s : Crew},
    acts S (es ++ es') s = (acts S es s).bind (acts S es') := by
  intro es
  induction es with
  | nil => intro es' s; rfl
  | cons e es ih =>
    intro es' s
    simp only [List.cons_append, acts, Option.bind_eq_bind]
    cases act S s e with
    | none => rfl
    | some s1 => exact ih

theorem onTime_append {S : Setup} : ∀ {es es' : List Act} {s : Crew},
    OnTime S (es ++ es') s → OnTime S es s ∧ ∀ s', acts S es s = some s' → OnTime S es' s' := by
  intro es
  induction es with
  | nil => intro es' s h; exact ⟨trivial, fun s' hs => by obtain rfl := Option.some.inj hs; exact h⟩
  | cons e es ih =>
    intro es' s h
    refine ⟨⟨h.1, fun s' hs => (ih (h.2 s' hs)).1⟩, fun s' hs => ?_⟩
    simp only [acts, Option.bind_eq_bind] at hs
    cases h1 : act S s e with
    | none => rw [h1] at hs; exact absurd hs (by simp)
    | some s1 =>
      rw [h1] at hs
      exact (ih (h.2 s1 h1)).2 s' hs

/-! ## Examples -/

/-- `OnTime`, decided. -/
def onTimeB (S : Setup) : List Act → Crew → Bool
  | [], _ => true
  | .run t :: es, s =>
    decide (timelyAt S.cfg s.ring t) && (match act S s (.run t) with | some s' => onTimeB S es s' | none => true)
  | e :: es, s => match act S s e with | some s' => onTimeB S es s' | none => true

theorem onTime_of {S : Setup} : ∀ {es : List Act} {s : Crew}, onTimeB S es s = true → OnTime S es s := by
  intro es
  induction es with
  | nil => intro s _; trivial
  | cons e es ih =>
    intro s h
    have key : ∀ {e : Act}, (match act S s e with | some s' => onTimeB S es s' | none => true) = true →
        ∀ s', act S s e = some s' → OnTime S es s' := by
      intro e h s' hs
      rw [hs] at h
      exact ih h
    cases e with
    | run t =>
      simp only [onTimeB, Bool.and_eq_true, decide_eq_true_eq] at h
      exact ⟨fun u hu => by injection hu with hu; subst hu; exact h.1, key h.2⟩
    | log t a ops => exact ⟨by nofun, key (by simpa only [onTimeB] using h)⟩
    | started => exact ⟨by nofun, key (by simpa only [onTimeB] using h)⟩
    | closing => exact ⟨by nofun, key (by simpa only [onTimeB] using h)⟩
    | stop => exact ⟨by nofun, key (by simpa only [onTimeB] using h)⟩
    | dates t c => exact ⟨by nofun, key (by simpa only [onTimeB] using h)⟩

/-- An event of another thread or of none. -/
def Act.other (t : Nat) : Act → Bool
  | .log u _ _ => u != t
  | .run u => u != t
  | _ => true

theorem act_other {S : Setup} {s s' : Crew} {e : Act} {t : Nat} (ho : e.other t = true) (h : act S s e = some s') :
    s'.ring.pc t = s.ring.pc t := by
  cases e with
  | run u =>
    have hu : t ≠ u := by
      simp only [Act.other, bne_iff_ne, ne_eq] at ho
      exact fun e => ho e.symm
    simp only [act, runThread] at h
    split at h
    · split at h
      · rw [(dispatchNext_keeps h).1]
      · obtain rfl := Option.some.inj h; exact stepT_pc_other _ _ hu
    · obtain rfl := Option.some.inj h; exact stepT_pc_other _ _ hu
  | log u a ops =>
    have hu : t ≠ u := by
      simp only [Act.other, bne_iff_ne, ne_eq] at ho
      exact fun e => ho e.symm
    simp only [act, beginLog] at h
    split at h
    · rename_i hpc
      split at h
      · cases hf : formed S a ops (s.caches u) with
        | none => rw [hf] at h; exact absurd h (by simp)
        | some x =>
          rw [hf] at h
          simp only [Option.bind_eq_bind, Option.bind_some] at h
          obtain rfl := Option.some.inj h
          show (holdFor S.cfg u s.ring x.1).pc t = _
          cases x.1 with
          | none => rfl
          | some b =>
            simp only [holdFor, Ring.step, hpc]
            split
            all_goals first
              | rfl
              | exact upd_ne _ _ hu
      · obtain rfl := Option.some.inj h; rfl
    · obtain rfl := Option.some.inj h; rfl
  | started | closing | stop =>
    obtain rfl := Option.some.inj h
    simp only [Ring.step]
    repeat' split
    all_goals rfl
  | dates => obtain rfl := Option.some.inj h; rfl

/-- A thread that does nothing stays where it is. -/
theorem acts_other {S : Setup} {t : Nat} : ∀ {es : List Act} {s s' : Crew}, es.all (Act.other t) = true →
    acts S es s = some s' → s'.ring.pc t = s.ring.pc t := by
  intro es
  induction es with
  | nil => intro s s' _ h; obtain rfl := Option.some.inj h; rfl
  | cons e es ih =>
    intro s s' ho h
    rw [List.all_cons, Bool.and_eq_true] at ho
    simp only [acts, Option.bind_eq_bind] at h
    cases h1 : act S s e with
    | none => rw [h1] at h; exact absurd h (by simp)
    | some s1 =>
      rw [h1] at h
      rw [ih ho.2 h, act_other ho.1 h1]

end FNLog
