import Verif.Spec.Threads
import Verif.Proof.Alone

/-! # Any number of threads on one channel -/

namespace FNLog
open Spec Ring

/-! ## Records of several threads -/

/-- The records of the statements made by several threads. -/
inductive Said (S : Setup) : List (Nat × Call × List StreamOp) → List (Nat × Head × List Char) → Prop
  | nil : Said S [] []
  | refused {made : List (Nat × Call × List StreamOp)} {recs : List (Nat × Head × List Char)} {t : Nat} {a : Call}
    {ops : List StreamOp} : Said S made recs → ¬ Admitted S.lg a.channelId a.priority a.category a.identify →
    Said S (made ++ [(t, a, ops)]) recs
  | admitted {made : List (Nat × Call × List StreamOp)} {recs : List (Nat × Head × List Char)} {t : Nat} {a : Call}
    {ops : List StreamOp} {file text : List Char} : Said S made recs →
    Admitted S.lg a.channelId a.priority a.category a.identify → FileField a.file file →
    RecordText S.env S.names a ops file text →
    Said S (made ++ [(t, a, ops)]) (recs ++ [(t, headOf S.env S.names a ops file, lineOf S.env.N text)])

theorem logged_append {S : Setup} {p q : List (Call × List StreamOp)} {r u : List (Head × List Char)}
    (h : Logged S p r) (h' : Logged S q u) : Logged S (p ++ q) (r ++ u) := by
  induction h with
  | nil => exact h'
  | refused h1 _ ih => exact .refused h1 ih
  | admitted h1 h2 h3 _ ih => exact .admitted h1 h2 h3 ih

theorem linesOf_append {β : Type} (t : Nat) (l l' : List (Nat × β)) : linesOf t (l ++ l') = linesOf t l ++ linesOf t l' := by
  simp [linesOf]

theorem linesOf_one {β : Type} (t u : Nat) (x : β) : linesOf t [(u, x)] = if u = t then [x] else [] := by
  unfold linesOf
  by_cases h : u = t
  · simp [h]
  · simp [h]

theorem said_logged {S : Setup} {made : List (Nat × Call × List StreamOp)} {recs : List (Nat × Head × List Char)}
    (h : Said S made recs) (t : Nat) : Logged S (linesOf t made) (linesOf t recs) := by
  induction h with
  | nil => exact .nil
  | @refused made recs u a ops _ h1 ih =>
    rw [linesOf_append, linesOf_one]
    split
    · have := logged_append ih (Logged.refused (ops := ops) h1 .nil)
      simpa using this
    · simpa using ih
  | @admitted made recs u a ops file text _ h1 h2 h3 ih =>
    rw [linesOf_append, linesOf_append, linesOf_one, linesOf_one]
    split
    · exact logged_append ih (Logged.admitted h1 h2 h3 .nil)
    · simpa using ih

/-! ## The record of a statement -/

theorem formed_ok {S : Setup} (hS : Ready S) {a : Call} {ops : List StreamOp} (ha : Sound S a ops) {cache : DateCache}
    (hc : CacheFrom S.env.zone cache) :
    (¬ Admitted S.lg a.channelId a.priority a.category a.identify ∧ formed S a ops cache = some (none, cache)) ∨
    (Admitted S.lg a.channelId a.priority a.category a.identify ∧
      ∃ file text cache', FileField a.file file ∧ RecordText S.env S.names a ops file text ∧
        CacheFrom S.env.zone cache' ∧
        (0 ≤ a.priority ∧ a.priority ≤ 6) ∧
        ∃ body, formed S a ops cache = some (some body, cache') ∧
          body ++ [S.cfg.nl] = cellOf (headOf S.env S.names a ops file) (lineOf S.env.N text)) := by
  obtain ⟨channels, hshm, hch⟩ := hS.channel
  have hdef : ∃ r, blockInput S.lg a.channelId a.priority a.category a.identify = some r := by
    refine C01_block_input_defined S.lg a.channelId a.priority a.category a.identify ?_
    intro chans h1 ch _ h2
    rw [ha.channel] at h2
    rw [hshm] at h1
    obtain rfl := Option.some.inj h1
    rw [hch] at h2
    obtain rfl := Option.some.inj h2
    exact ha.admission
  obtain ⟨r, hr⟩ := hdef
  have hiff := admitted_iff hr
  cases r with
  | true =>
    refine Or.inl ⟨fun h => absurd (hiff.mpr h) (by simp), ?_⟩
    unfold formed construct
    rw [hr]
    simp only [Option.bind_eq_bind, Option.bind_some, if_true]
    rw [operateAll_none]
    rfl
  | false =>
    refine Or.inr ⟨hiff.mp rfl, ?_⟩
    obtain ⟨file, hf⟩ := ha.fits
    obtain ⟨t, rec, c, e1, e2, e3, e4, e5, e6⟩ := record_fits hS hf hc
    have hnames := hf.names
    obtain ⟨r', f1, f2, f3, f4, _⟩ := seal_line (N := S.env.N) (by omega) rec e3
    have hcut : r'.content.take (r'.len - 1) = (rec.content.take rec.len).take (S.env.N - 2) := by
      have h1 : r'.content.take (r'.len - 1) = (r'.content.take r'.len).take (r'.len - 1) := by
        rw [List.take_take, Nat.min_eq_left (by omega)]
      have h2 : (rec.content.take (min rec.len (S.env.N - 2))).length = r'.len - 1 := by
        rw [List.length_take, e3]; omega
      rw [h1, f4, ← h2, List.take_left, List.take_take, Nat.min_comm]
    refine ⟨file, _, c, hf.short, e6, e5, hf.args.priority,
      pieces (headOf S.env S.names a ops file) (r'.content.take (r'.len - 1)), ?_, ?_⟩
    · unfold formed construct
      rw [hr]
      simp only [Option.bind_eq_bind, Option.bind_some, Bool.false_eq_true, if_false]
      rw [e1]
      simp only [Option.bind_some]
      rw [e2]
      simp only [Option.bind_some, sealed, f1, Option.map_some]
    · rw [hcut, hS.nl]
      simp [pieces, cellOf, lineOf]

/-! ## Runs of a device -/

theorem runs_append {E : FileEnv} {ch : Int} {d : Device} {x y z : FileSt} {l1 l2 k1 k2 : List FileLog}
    (h1 : Runs E ch d x l1 k1 y) (h2 : Runs E ch d y l2 k2 z) : Runs E ch d x (l1 ++ l2) (k1 ++ k2) z := by
  induction h1 with
  | nil => exact h2
  | taken g1 g2 _ ih => exact .taken g1 g2 (ih h2)
  | dropped g1 g2 _ ih => exact .dropped g1 g2 (ih h2)

theorem handed_append (os : Nat → Nat → Os) (k : Nat) (d : Device) (r q : List (Head × List Char)) : ∀ n,
    handed os k d n (r ++ q) = handed os k d n r ++ handed os k d (n + r.length) q := by
  induction r with
  | nil => intro n; rfl
  | cons x r ih =>
    obtain ⟨h, l⟩ := x
    intro n
    simp only [List.cons_append, handed, ih, List.length_cons]
    rw [show n + 1 + r.length = n + (r.length + 1) by omega]
    split <;> rfl

/-! ## The ring under the threads -/

theorem stepT_out (c : Cfg Piece) (s : St Piece) (t : Nat) (h : ∀ k, s.pc t ≠ .cDisp k) : (stepT c s t).out = s.out := by
  unfold Ring.stepT
  split <;> rename_i hpc
  all_goals first
    | exact absurd hpc (h _)
    | (repeat' split) <;> rfl

theorem stepT_calls (c : Cfg Piece) (s : St Piece) (t : Nat) : (stepT c s t).calls = s.calls := by
  unfold Ring.stepT
  split <;> (repeat' split) <;> rfl

theorem stepT_acquired (c : Cfg Piece) (s : St Piece) (t : Nat) : ∃ x, (stepT c s t).acquired = s.acquired ++ x := by
  unfold Ring.stepT
  split <;> (repeat' split)
  all_goals first
    | exact ⟨[], (List.append_nil _).symm⟩
    | exact ⟨_, rfl⟩

theorem stepT_base (c : Cfg Piece) (s : St Piece) (t : Nat) : (stepT c s t).base = s.base := base_run c [.run t] s

/-! ## The invariant -/

/-- A visit as a record. -/
def Visit.record (v : Visit) : Head × List Char := (v.head, v.text)

/-- The devices are defined for a record. -/
def Dispatchable (S : Setup) (h : Head) : Prop :=
  (0 ≤ h.priority ∧ h.priority ≤ 6) ∧ ∀ d ∈ S.channel.devices, DevDefined d h.category h.identify

/-- The calls of the ring are the records found at the start (`prior`) and then the records of the statements made. -/
def Spoken (S : Setup) (prior : List (Nat × Head × List Char)) (made : List (Nat × Call × List StreamOp))
    (calls : List (Nat × List Piece)) : Prop :=
  ∃ recs, Said S made recs ∧ (∀ r ∈ prior ++ recs, Dispatchable S r.2.1) ∧
    calls.map (fun e => (e.1, e.2 ++ [S.cfg.nl])) = (prior ++ recs).map fun r => (r.1, cellOf r.2.1 r.2.2)

open Classical in
/-- What a visit puts out by a device of type `ty`. -/
noncomputable def emitOf {β : Type} (ty : OutType) (f : Device → Head × List Char → β) (S : Setup) (v : Visit) : List β :=
  match S.channel.devices[v.device]? with
  | some d => if d.outType = ty ∧ DeviceTakes d v.head.priority v.head.category v.head.identify then
      [f d v.record] else []
  | none => []

/-- What a visit shows on the screen. -/
noncomputable def screenOf (S : Setup) (v : Visit) : List (List Char) :=
  emitOf .screen (fun _ r => shown r.1.priority r.2) S v

/-- The datagram of a visit. -/
noncomputable def gramOf (S : Setup) (v : Visit) : List Datagram := emitOf .udp (fun d r => datagram d r.2) S v

theorem visitsOf_append (j : Nat) (v w : List Visit) : visitsOf j (v ++ w) = visitsOf j v ++ visitsOf j w := by
  simp [visitsOf]

theorem visitsOf_one (j : Nat) (v : Visit) : visitsOf j [v] = if v.device = j then [v] else [] := by
  unfold visitsOf
  by_cases h : v.device = j <;> simp [h]

/-! ### Every device as if alone -/

/-- Every device is as if it had processed its visits alone; `grams` are the datagrams sent, with the device. -/
structure Gave (S : Setup) (o : OutSt) (visits : List Visit) (out : OutSt) (grams : List (Nat × Datagram)) : Prop where
  net : out.net = o.net ++ grams.map Prod.snd
  socks : ∀ j, (o.dev j).sock = true → (out.dev j).sock = true
  sub : (grams.map Prod.snd).Sublist (visits.flatMap (gramOf S))
  all : (∀ (j : Nat) (d : Device), S.channel.devices[j]? = some d → d.outType = .udp → (o.dev j).sock = true) →
    grams.map Prod.snd = visits.flatMap (gramOf S)
  mem : ∀ g ∈ grams, ∃ d, S.channel.devices[g.1]? = some d ∧ d.outType = .udp
  alone : ∀ (j : Nat) (d : Device), S.channel.devices[j]? = some d →
    ∃ u, Spec.alone S j d 0 ((visitsOf j visits).map Visit.record) o = some u ∧ u.dev j = out.dev j ∧
      (d.outType = .file → AgreeOn (FilesOf S.fenv S.channel.id d) u.fs out.fs) ∧
      u.net = o.net ++ (grams.filter fun g => g.1 == j).map Prod.snd

theorem Gave.start (S : Setup) (o : OutSt) : Gave S o [] o [] where
  net := (List.append_nil _).symm
  socks := fun _ h => h
  sub := List.Sublist.refl _
  all := fun _ => rfl
  mem := by simp
  alone := fun _ _ _ => ⟨o, rfl, rfl, fun _ _ _ => rfl, (List.append_nil _).symm⟩

theorem filter_mark {β : Type} (j k : Nat) (l : List β) :
    ((l.map fun x => (k, x)).filter fun g => g.1 == j).map Prod.snd = if k = j then l else [] := by
  by_cases e : k = j
  · rw [if_pos e, List.filter_eq_self.mpr (by
      intro a ha
      obtain ⟨x, _, rfl⟩ := List.mem_map.mp ha
      simp [e]), List.map_map]
    exact List.map_id _
  · rw [if_neg e, List.filter_eq_nil_iff.mpr (by
      intro a ha
      obtain ⟨x, _, rfl⟩ := List.mem_map.mp ha
      simp [e])]
    rfl

/-- A device is reached by a record that it does not take. -/
theorem Gave.pass {S : Setup} {o out : OutSt} {visits : List Visit} {grams : List (Nat × Datagram)}
    (h : Gave S o visits out grams) {v : Visit} {d : Device} (hd : S.channel.devices[v.device]? = some d)
    (hT : ¬ DeviceTakes d v.head.priority v.head.category v.head.identify) : Gave S o (visits ++ [v]) out grams := by
  have e : (visits ++ [v]).flatMap (gramOf S) = visits.flatMap (gramOf S) := by
    rw [List.flatMap_append]
    simp only [List.flatMap_cons, List.flatMap_nil, List.append_nil, gramOf, emitOf, hd]
    rw [if_neg fun x => hT x.2, List.append_nil]
  refine ⟨h.net, h.socks, by rw [e]; exact h.sub, by rw [e]; exact h.all, h.mem, ?_⟩
  intro j a hj
  obtain ⟨u, h1, h2⟩ := h.alone j a hj
  refine ⟨u, ?_, h2⟩
  rw [visitsOf_append, visitsOf_one, List.map_append, alone_append, h1]
  by_cases ej : v.device = j
  · rw [if_pos ej]
    rw [← ej, hd] at hj
    obtain rfl := Option.some.inj hj
    simp only [Option.bind_some, List.map_cons, List.map_nil, Visit.record, Spec.alone]
    rw [if_neg hT]
  · rw [if_neg ej]
    rfl

/-- A device is reached by a record that it takes. -/
theorem Gave.enter {S : Setup} (hap : FilesApart S.fenv S.channel.id S.channel.devices) {o out out' : OutSt}
    {visits : List Visit} {grams : List (Nat × Datagram)} (h : Gave S o visits out grams)
    (hown : Own S.fenv S.channel.id S.channel.devices out) {v : Visit} {d : Device}
    (hd : S.channel.devices[v.device]? = some d) (hp : 0 ≤ v.head.priority ∧ v.head.priority ≤ 6)
    (hT : DeviceTakes d v.head.priority v.head.category v.head.identify)
    (he : enterProcDevice S.fenv S.channel.id v.device d (S.os (visitsOf v.device visits).length v.device)
      (devLog v.head v.text) out = some out') :
    ∃ grams', Gave S o (visits ++ [v]) out' grams' := by
  obtain ⟨u, h1, h2, h3, h4⟩ := h.alone v.device d hd
  obtain ⟨u', x, y, c1, c2, c3, c4, c5, c6, c7, c8⟩ := enter_congr h2
    (fun hf => ⟨fun p hp => (h3 hf p hp).symm, fun p hp => hown v.device d p hd hf hp⟩) he
  have hoff : ∀ p, ¬ (d.outType = .file ∧ FilesOf S.fenv S.channel.id d p) → out'.fs p = out.fs p := by
    obtain ⟨w, _, _, e1, _, _, _, _, _, _, e8⟩ := enter_congr (u := out) rfl
      (fun hf => ⟨fun _ _ => rfl, fun p hp => hown v.device d p hd hf hp⟩) he
    rw [he] at e1
    obtain rfl := Option.some.inj e1
    exact e8
  obtain ⟨⟨z, z1, z2, z3⟩, z4⟩ := enter_net (log := devLog v.head v.text) hp he
  obtain rfl : y = z := List.append_cancel_left (c5.symm.trans z1)
  have e : (visits ++ [v]).flatMap (gramOf S) = visits.flatMap (gramOf S) ++
      if d.outType = .udp then [datagram d v.text] else [] := by
    rw [List.flatMap_append]
    simp only [List.flatMap_cons, List.flatMap_nil, List.append_nil, gramOf, emitOf, hd, Visit.record]
    congr 1
    by_cases hu : d.outType = .udp
    · rw [if_pos hu, if_pos (c := d.outType = OutType.udp ∧ _) ⟨hu, hT⟩]
    · rw [if_neg hu, if_neg (c := d.outType = OutType.udp ∧ _) fun x => hu x.1]
  have em : (grams ++ y.map fun g => (v.device, g)).map Prod.snd = grams.map Prod.snd ++ y := by
    rw [List.map_append, List.map_map]
    congr 1
    exact List.map_id _
  refine ⟨grams ++ y.map fun g => (v.device, g), ?_, ?_, ?_, ?_, ?_, ?_⟩
  · rw [em, c5, h.net, List.append_assoc]
  · exact fun j hj => z4 j (h.socks j hj)
  · rw [em, e]
    exact h.sub.append z2
  · intro hs
    rw [em, e, h.all hs, z3 fun hu => h.socks _ (hs _ _ hd hu)]
    rfl
  · intro g hg
    rcases List.mem_append.mp hg with hg | hg
    · exact h.mem g hg
    · obtain ⟨w, hw, rfl⟩ := List.mem_map.mp hg
      refine ⟨d, hd, ?_⟩
      apply Classical.byContradiction
      intro hu
      rw [if_neg hu, List.sublist_nil] at z2
      rw [z2] at hw
      exact absurd hw (by simp)
  · intro j a hj
    rw [visitsOf_append, visitsOf_one, List.map_append, alone_append, List.filter_append, List.map_append, filter_mark]
    by_cases ej : v.device = j
    · subst ej
      rw [hd] at hj
      obtain rfl := Option.some.inj hj
      rw [if_pos rfl, if_pos rfl, h1]
      refine ⟨u', ?_, c2, fun hf p hp => (c7 hf p hp).symm, by rw [c6, h4, List.append_assoc]⟩
      simp only [Option.bind_some, List.map_cons, List.map_nil, Visit.record, Spec.alone, List.length_map, Nat.zero_add]
      rw [if_pos hT, c1]
      rfl
    · obtain ⟨w, w1, w2, w3, w4⟩ := h.alone j a hj
      rw [if_neg ej, if_neg ej, w1, List.append_nil]
      refine ⟨w, rfl, by rw [w2, enter_other he (Ne.symm ej)], fun hf p hp => ?_, w4⟩
      rw [w3 hf p hp, hoff p fun x => hap j v.device a d (Ne.symm ej) hj hd hf x.1 p ⟨hp, x.2⟩]

/-- The invariant of a session that starts with the devices in state `o`; of the records `prior` found in the ring, those below the
position `b` have been handed over as processed. -/
structure CrewFrom (S : Setup) (o : OutSt) (b : Nat) (prior : List (Nat × Head × List Char)) (s : Crew) : Prop where
  ring : Inv S.cfg s.ring
  prog : ProgOrd S.cfg s.ring
  base : s.ring.base = b
  caches : ∀ t, CacheFrom S.env.zone (s.caches t)
  spoken : Spoken S prior s.made s.ring.calls
  posZero : ∀ t, (∀ k, s.ring.pc t ≠ .cDisp k) → s.pos t = 0
  posLe : ∀ t, s.pos t ≤ S.channel.devices.length
  visitDev : ∀ v ∈ s.visits, v.device < S.channel.devices.length
  visitMem : ∀ j, j < S.channel.devices.length → ∀ k, k ∈ (visitsOf j s.visits).map Visit.number ↔
    k ∈ s.ring.out.map Prod.fst ∨ ∃ t, s.ring.pc t = .cDisp k ∧ j < s.pos t
  visitND : ∀ j, ((visitsOf j s.visits).map Visit.number).Nodup
  visitVal : ∀ v ∈ s.visits, s.ring.acquired[v.number]?.map Prod.snd = some (cellOf v.head v.text)
  own : Spec.Own S.fenv S.channel.id S.channel.devices s.out
  files : ∀ (j : Nat) (d : Device), S.channel.devices[j]? = some d → d.outType = .file →
    ∃ taken t', Runs S.fenv S.channel.id d (view o j) (handed S.os j d 0 ((visitsOf j s.visits).map Visit.record)) taken t' ∧
      SameAs (FilesOf S.fenv S.channel.id d) t' (view s.out j)
  foreign : ∀ p, Foreign S.fenv S.channel.id S.channel.devices p → s.out.fs p = o.fs p
  screen : s.out.screen = o.screen ++ s.visits.flatMap (screenOf S)
  gave : ∃ grams, Gave S o s.visits s.out grams

/-- The invariant of a session on a fresh ring. -/
abbrev CrewInv (S : Setup) (o : OutSt) (s : Crew) : Prop := CrewFrom S o 0 [] s

variable {b : Nat} {prior : List (Nat × Head × List Char)}

/-- A change of the ring outside of DispatchLog. -/
theorem CrewFrom.keep {S : Setup} {o : OutSt} {s : Crew} (h : CrewFrom S o b prior s) {r : St Piece} {ca : Nat → DateCache}
    {made : List (Nat × Call × List StreamOp)} (h1 : Inv S.cfg r) (h2 : ProgOrd S.cfg r) (h3 : r.base = s.ring.base)
    (h4 : ∀ t, CacheFrom S.env.zone (ca t)) (h5 : Spoken S prior made r.calls) (h6 : r.out = s.ring.out)
    (h7 : ∃ x, r.acquired = s.ring.acquired ++ x)
    (h8 : ∀ t k, s.ring.pc t = .cDisp k → r.pc t = .cDisp k)
    (h9 : ∀ t k, r.pc t = .cDisp k → s.ring.pc t = .cDisp k ∨ s.pos t = 0) :
    CrewFrom S o b prior { s with ring := r, caches := ca, made := made } where
  ring := h1
  prog := h2
  base := h3.trans h.base
  caches := h4
  spoken := h5
  posZero := fun t ht => h.posZero t fun k hk => ht k (h8 t k hk)
  posLe := h.posLe
  visitDev := h.visitDev
  visitMem := by
    intro j hj k
    rw [h.visitMem j hj k]
    show _ ↔ k ∈ r.out.map Prod.fst ∨ ∃ t, r.pc t = .cDisp k ∧ j < s.pos t
    rw [h6]
    refine or_congr Iff.rfl ⟨fun ⟨t, a, b⟩ => ⟨t, h8 t k a, b⟩, fun ⟨t, a, b⟩ => ?_⟩
    rcases h9 t k a with e | e
    · exact ⟨t, e, b⟩
    · omega
  visitND := h.visitND
  visitVal := by
    intro v hv
    obtain ⟨x, hx⟩ := h7
    have := h.visitVal v hv
    show r.acquired[v.number]?.map Prod.snd = _
    rw [hx]
    cases e : s.ring.acquired[v.number]? with
    | none => rw [e] at this; exact absurd this (by simp)
    | some y =>
      rw [e] at this
      have hlt : v.number < s.ring.acquired.length := (List.getElem?_eq_some_iff.mp e).1
      rw [List.getElem?_append_left hlt, e]
      exact this
  own := h.own
  files := h.files
  foreign := h.foreign
  screen := h.screen
  gave := h.gave

/-- Every line in the channel is a record. -/
theorem CrewFrom.decoded {S : Setup} {o : OutSt} {s : Crew} (h : CrewFrom S o b prior s) {t k : Nat} {x : List Piece}
    (hk : s.ring.acquired[k]? = some (t, x)) : ∃ hd line, x = cellOf hd line ∧ Dispatchable S hd := by
  obtain ⟨recs, _, h2, h3⟩ := h.spoken
  have hm : x ∈ ofThread t s.ring.acquired := by
    unfold ofThread
    rw [List.mem_map]
    exact ⟨(t, x), List.mem_filter.mpr ⟨List.mem_of_getElem? hk, by simp⟩, rfl⟩
  have := (h.prog t).subset (List.mem_append_left _ hm)
  rw [List.mem_map] at this
  obtain ⟨b, hb, rfl⟩ := this
  unfold ofThread at hb
  rw [List.mem_map] at hb
  obtain ⟨e, he, rfl⟩ := hb
  have hc := (List.mem_filter.mp he).1
  have : (e.1, e.2 ++ [S.cfg.nl]) ∈ (prior ++ recs).map fun r => (r.1, cellOf r.2.1 r.2.2) := by
    rw [← h3]
    exact List.mem_map.mpr ⟨e, hc, rfl⟩
  obtain ⟨r, hr, e2⟩ := List.mem_map.mp this
  exact ⟨r.2.1, r.2.2, (Prod.mk.inj e2).2.symm, h2 r hr⟩

/-! ## A step -/

theorem CrewFrom.plain {S : Setup} {o : OutSt} {s : Crew} (h : CrewFrom S o b prior s) {t : Nat} (ht : timelyAt S.cfg s.ring t)
    (hp : ∀ k, s.ring.pc t ≠ .cDisp k) : CrewFrom S o b prior { s with ring := stepT S.cfg s.ring t } := by
  refine h.keep (h.ring.stepT ht) (h.prog.stepT t) (stepT_base _ _ _) h.caches ?_ (stepT_out _ _ _ hp)
    (stepT_acquired _ _ _) ?_ ?_
  · rw [stepT_calls]; exact h.spoken
  · intro u k hu
    have e : u ≠ t := by rintro rfl; exact hp k hu
    rw [stepT_pc_other _ _ e]
    exact hu
  · intro u k hu
    by_cases e : u = t
    · subst e; exact Or.inr (h.posZero u hp)
    · rw [stepT_pc_other _ _ e] at hu
      exact Or.inl hu

theorem CrewFrom.finish {S : Setup} {o : OutSt} {s : Crew} (h : CrewFrom S o b prior s) {t k : Nat}
    (hpc : s.ring.pc t = .cDisp k) (hpos : S.channel.devices.length ≤ s.pos t) :
    CrewFrom S o b prior { s with ring := stepT S.cfg s.ring t, pos := upd s.pos t 0 } := by
  have ht : timelyAt S.cfg s.ring t := by unfold timelyAt; rw [hpc]; trivial
  have hi := h.ring.stepT ht
  have e : stepT S.cfg s.ring t =
      { s.ring with out := s.ring.out ++ [(k, s.ring.cell (k % S.cfg.L))] }.go t (.cClear k) := by
    unfold Ring.stepT
    rw [hpc]
  have hpc' : ∀ u, (stepT S.cfg s.ring t).pc u = if u = t then .cClear k else s.ring.pc u := by
    intro u; rw [e]; rfl
  refine ⟨hi, h.prog.stepT t, (stepT_base _ _ _).trans h.base, h.caches, ?_, ?_, ?_, h.visitDev, ?_, h.visitND, ?_, h.own,
    h.files, h.foreign, h.screen, h.gave⟩
  · show Spoken S prior s.made (stepT S.cfg s.ring t).calls
    rw [stepT_calls]; exact h.spoken
  · intro u hu
    show upd s.pos t 0 u = 0
    by_cases eu : u = t
    · subst eu; exact upd_same _ _ _
    · rw [upd_ne _ _ eu]
      refine h.posZero u fun j hj => hu j ?_
      show (stepT S.cfg s.ring t).pc u = _
      rw [hpc', if_neg eu]
      exact hj
  · intro u
    show upd s.pos t 0 u ≤ _
    by_cases eu : u = t
    · subst eu; rw [upd_same]; omega
    · rw [upd_ne _ _ eu]; exact h.posLe u
  · intro j hj n
    rw [h.visitMem j hj n]
    show _ ↔ n ∈ (stepT S.cfg s.ring t).out.map Prod.fst ∨ ∃ u, (stepT S.cfg s.ring t).pc u = .cDisp n ∧ j < upd s.pos t 0 u
    rw [show (stepT S.cfg s.ring t).out = s.ring.out ++ [(k, s.ring.cell (k % S.cfg.L))] by rw [e]; rfl, List.map_append,
      List.mem_append]
    constructor
    · rintro (hn | ⟨u, hu, hlt⟩)
      · exact Or.inl (Or.inl hn)
      · by_cases eu : u = t
        · subst eu
          rw [hpc] at hu
          injection hu with hk
          exact Or.inl (Or.inr (by simp [hk]))
        · refine Or.inr ⟨u, by rw [hpc', if_neg eu]; exact hu, by rw [upd_ne _ _ eu]; exact hlt⟩
    · rintro ((hn | hn) | ⟨u, hu, hlt⟩)
      · exact Or.inl hn
      · simp only [List.map_cons, List.map_nil, List.mem_singleton] at hn
        subst hn
        exact Or.inr ⟨t, hpc, by omega⟩
      · by_cases eu : u = t
        · subst eu
          rw [upd_same] at hlt
          omega
        · rw [hpc', if_neg eu] at hu
          rw [upd_ne _ _ eu] at hlt
          exact Or.inr ⟨u, hu, hlt⟩
  · intro v hv
    have := h.visitVal v hv
    show (stepT S.cfg s.ring t).acquired[v.number]?.map Prod.snd = _
    rw [e]
    exact this

theorem CrewFrom.visit {S : Setup} (hS : Ready S) (hap : FilesApart S.fenv S.channel.id S.channel.devices) {o : OutSt}
    {s : Crew} (h : CrewFrom S o b prior s) {t k : Nat} (hpc : s.ring.pc t = .cDisp k) {d : Device}
    (hd : S.channel.devices[s.pos t]? = some d) : ∃ s', dispatchNext S t k d s = some s' ∧ CrewFrom S o b prior s' ∧
      s'.ring = s.ring ∧ s'.pos = upd s.pos t (s.pos t + 1) ∧
      ∃ hd line, s'.visits = s.visits ++ [⟨s.pos t, k, hd, line⟩] ∧
        s.ring.acquired[k]?.map Prod.snd = some (cellOf hd line) := by
  have hti := h.ring.ti t
  rw [hpc] at hti
  obtain ⟨hR, hP, _⟩ := hti
  have hval := h.ring.sealedW k hR (by have := h.ring.lePW; omega)
  obtain ⟨hdr, line, hcell, hok⟩ : ∃ hdr line, s.ring.cell (k % S.cfg.L) = cellOf hdr line ∧ Dispatchable S hdr := by
    cases e : s.ring.acquired[k]? with
    | none => rw [e] at hval; exact absurd hval (by simp)
    | some y =>
      obtain ⟨u, x⟩ := y
      rw [e] at hval
      obtain ⟨a, b, hx, hy⟩ := h.decoded e
      exact ⟨a, b, by rw [← Option.some.inj hval]; exact hx, hy⟩
  rw [hcell] at hval
  have hmem : d ∈ S.channel.devices := List.mem_of_getElem? hd
  have hlt : s.pos t < S.channel.devices.length := (List.getElem?_eq_some_iff.mp hd).1
  obtain ⟨r, hr⟩ := dispatchTakes_defined (p := hdr.priority) (hok.2 d hmem)
  have hspec := dispatchTakes_spec hr
  have hin : ∃ o1, enterIf S r (visitsOf (s.pos t) s.visits).length (s.pos t) d hdr line s.out = some o1 := by
    unfold enterIf
    cases r with
    | false => exact ⟨_, rfl⟩
    | true => exact enter_total hok.1 fun hf => hS.named d hmem hf _
  obtain ⟨o1, ho1⟩ := hin
  have hnew : k ∉ (visitsOf (s.pos t) s.visits).map Visit.number := by
    rw [h.visitMem _ hlt]
    rintro (hn | ⟨u, hu, hl⟩)
    · exact ((h.ring.outMem k).mp hn).2.2 t hpc
    · have : u = t := h.ring.uniqC u t k (by rw [hu]; rfl) (by rw [hpc]; rfl)
      subst this
      omega
  -- what the device does to the state
  have hself : (d.outType = .file → ∀ t', SameAs (FilesOf S.fenv S.channel.id d) t' (view s.out (s.pos t)) →
        ∃ taken t'', Runs S.fenv S.channel.id d t'
          (handed S.os (s.pos t) d (visitsOf (s.pos t) s.visits).length [(hdr, line)]) taken t'' ∧
          SameAs (FilesOf S.fenv S.channel.id d) t'' (view o1 (s.pos t))) ∧
      (∀ j a t', j ≠ s.pos t → S.channel.devices[j]? = some a → a.outType = .file →
        SameAs (FilesOf S.fenv S.channel.id a) t' (view s.out j) → SameAs (FilesOf S.fenv S.channel.id a) t' (view o1 j)) ∧
      Spec.Own S.fenv S.channel.id S.channel.devices o1 ∧
      (∀ p, Foreign S.fenv S.channel.id S.channel.devices p → o1.fs p = s.out.fs p) ∧
      o1.screen = s.out.screen ++ screenOf S ⟨s.pos t, k, hdr, line⟩ ∧
      ∃ grams, Gave S o (s.visits ++ [⟨s.pos t, k, hdr, line⟩]) o1 grams := by
    obtain ⟨grams, hg⟩ := h.gave
    unfold enterIf at ho1
    cases r with
    | false =>
      rw [if_neg (by decide)] at ho1
      obtain rfl := Option.some.inj ho1
      have hT : ¬ DeviceTakes d hdr.priority hdr.category hdr.identify := fun x => absurd (hspec.mpr x) (by simp)
      refine ⟨fun _ t' hs => ?_, fun _ _ _ _ _ _ hs => hs, h.own, fun _ _ => rfl, ?_,
        ⟨grams, hg.pass (v := ⟨s.pos t, k, hdr, line⟩) hd hT⟩⟩
      · simp only [handed]
        rw [if_neg hT]
        exact ⟨_, _, .nil t', hs⟩
      · simp only [screenOf, emitOf, hd]
        rw [if_neg fun x => hT x.2, List.append_nil]
    | true =>
      rw [if_pos rfl] at ho1
      have hT : DeviceTakes d hdr.priority hdr.category hdr.identify := hspec.mp rfl
      obtain ⟨e1, e2, e3, e4⟩ := enter_tracks hap hd h.own ho1
      refine ⟨fun hf t' hs => ?_, e2, e1, e4, ?_, hg.enter hap h.own (v := ⟨s.pos t, k, hdr, line⟩) hd hok.1 hT ho1⟩
      · obtain ⟨t'', g1, g2⟩ := e3 hf t' hs
        simp only [handed]
        rw [if_pos hT]
        obtain ⟨tk, hrun⟩ := taken_or S.fenv S.channel.id d g1 (.nil t'')
        exact ⟨tk, t'', hrun, g2⟩
      · rw [enter_screen hok.1 ho1]
        simp only [screenOf, emitOf, hd]
        by_cases hs : d.outType = .screen
        · rw [if_pos hs, if_pos (c := d.outType = OutType.screen ∧ _) ⟨hs, hT⟩]
          rfl
        · rw [if_neg hs, if_neg (c := d.outType = OutType.screen ∧ _) fun x => hs x.1]
  obtain ⟨f1, f2, f3, f4, f5, f6⟩ := hself
  refine ⟨{ s with out := o1, pos := upd s.pos t (s.pos t + 1), visits := s.visits ++ [⟨s.pos t, k, hdr, line⟩] },
    ?_, ?_, rfl, rfl, hdr, line, rfl, hval⟩
  · unfold dispatchNext
    rw [hcell, decode_cell]
    simp only [Option.bind_eq_bind, Option.bind_some]
    rw [hr]
    simp only [Option.bind_some]
    rw [ho1]
    rfl
  · refine ⟨h.ring, h.prog, h.base, h.caches, h.spoken, ?_, ?_, ?_, ?_, ?_, ?_, f3, ?_, ?_, ?_, f6⟩
    · intro u hu
      have eu : u ≠ t := by rintro rfl; exact hu k hpc
      show upd s.pos t (s.pos t + 1) u = 0
      rw [upd_ne _ _ eu]
      exact h.posZero u hu
    · intro u
      show upd s.pos t (s.pos t + 1) u ≤ _
      by_cases eu : u = t
      · subst eu; rw [upd_same]; omega
      · rw [upd_ne _ _ eu]; exact h.posLe u
    · intro v hv
      rcases List.mem_append.mp hv with hv | hv
      · exact h.visitDev v hv
      · rw [List.mem_singleton] at hv
        subst hv
        exact hlt
    · intro j hj n
      show n ∈ (visitsOf j (s.visits ++ [⟨s.pos t, k, hdr, line⟩])).map Visit.number ↔
        n ∈ s.ring.out.map Prod.fst ∨ ∃ u, s.ring.pc u = .cDisp n ∧ j < upd s.pos t (s.pos t + 1) u
      rw [visitsOf_append, visitsOf_one, List.map_append, List.mem_append, h.visitMem j hj n]
      constructor
      · rintro ((hn | ⟨u, hu, hl⟩) | hn)
        · exact Or.inl hn
        · refine Or.inr ⟨u, hu, ?_⟩
          by_cases eu : u = t
          · subst eu; rw [upd_same]; omega
          · rw [upd_ne _ _ eu]; exact hl
        · dsimp only at hn
          split at hn
          · rename_i hj'
            simp only [List.map_cons, List.map_nil, List.mem_singleton] at hn
            subst hn
            exact Or.inr ⟨t, hpc, by rw [upd_same]; omega⟩
          · exact absurd hn (by simp)
      · rintro (hn | ⟨u, hu, hl⟩)
        · exact Or.inl (Or.inl hn)
        · by_cases eu : u = t
          · subst eu
            rw [upd_same] at hl
            by_cases hj' : s.pos u = j
            · right
              rw [if_pos hj']
              rw [hpc] at hu
              injection hu with hk
              simp [hk]
            · exact Or.inl (Or.inr ⟨u, hu, by omega⟩)
          · rw [upd_ne _ _ eu] at hl
            exact Or.inl (Or.inr ⟨u, hu, hl⟩)
    · intro j
      show ((visitsOf j (s.visits ++ [⟨s.pos t, k, hdr, line⟩])).map Visit.number).Nodup
      rw [visitsOf_append, visitsOf_one, List.map_append]
      by_cases hj : s.pos t = j
      · rw [if_pos hj]
        rw [hj] at hnew
        rw [List.nodup_append]
        refine ⟨h.visitND j, by simp, ?_⟩
        intro a ha b hb
        simp only [List.map_cons, List.map_nil, List.mem_singleton] at hb
        subst hb
        rintro rfl
        exact hnew ha
      · rw [if_neg hj]
        simpa using h.visitND j
    · intro v hv
      rcases List.mem_append.mp hv with hv | hv
      · exact h.visitVal v hv
      · rw [List.mem_singleton] at hv
        subst hv
        exact hval
    · intro j a hj ha
      obtain ⟨tk, t', g1, g2⟩ := h.files j a hj ha
      show ∃ taken t', Runs S.fenv S.channel.id a (view o j) (handed S.os j a 0
        ((visitsOf j (s.visits ++ [⟨s.pos t, k, hdr, line⟩])).map Visit.record)) taken t' ∧ _
      rw [visitsOf_append, visitsOf_one, List.map_append, handed_append]
      by_cases e : s.pos t = j
      · subst e
        rw [hd] at hj
        obtain rfl := Option.some.inj hj
        obtain ⟨tk2, t2, g3, g4⟩ := f1 ha t' g2
        rw [if_pos rfl, Nat.zero_add, List.length_map]
        exact ⟨_, t2, runs_append g1 g3, g4⟩
      · rw [if_neg e]
        refine ⟨tk, t', ?_, f2 j a t' (Ne.symm e) hj ha g2⟩
        simpa [handed] using g1
    · intro p hp
      exact (f4 p hp).trans (h.foreign p hp)
    · show o1.screen = o.screen ++ (s.visits ++ [Visit.mk (s.pos t) k hdr line]).flatMap (screenOf S)
      rw [f5, h.screen, List.flatMap_append]
      simp

/-! ## Events -/

theorem step_quiet (c : Cfg Piece) (s : St Piece) (e : Ev Piece) (h : ∀ t, e ≠ .run t) :
    (Ring.step c s e).out = s.out ∧ (Ring.step c s e).acquired = s.acquired ∧ (Ring.step c s e).base = s.base ∧
    ∀ t k, (Ring.step c s e).pc t = .cDisp k ↔ s.pc t = .cDisp k := by
  cases e with
  | run t => exact absurd rfl (h t)
  | call t b =>
    simp only [Ring.step]
    split
    · rename_i hpc
      split
      · refine ⟨rfl, rfl, rfl, fun u k => ?_⟩
        show upd s.pc t _ u = _ ↔ _
        by_cases e : u = t
        · subst e
          rw [upd_same, hpc]
          simp
        · rw [upd_ne _ _ e]
      · exact ⟨rfl, rfl, rfl, fun _ _ => Iff.rfl⟩
    · exact ⟨rfl, rfl, rfl, fun _ _ => Iff.rfl⟩
  | started | closing | stop =>
    simp only [Ring.step]
    repeat' split
    all_goals simp

theorem step_calls (c : Cfg Piece) (s : St Piece) (e : Ev Piece) (h : ∀ t b, e ≠ .call t b) :
    (Ring.step c s e).calls = s.calls := by
  cases e with
  | run t => exact stepT_calls c s t
  | call t b => exact absurd rfl (h t b)
  | started | closing | stop =>
    simp only [Ring.step]
    repeat' split
    all_goals rfl

theorem step_call {c : Cfg Piece} {s : St Piece} {t : Nat} {b : List Piece} (h1 : s.pc t = .idle) (h2 : s.lgRunning = true)
    (h3 : s.state = .running) : (Ring.step c s (.call t b)).calls = s.calls ++ [(t, b)] := by
  simp only [Ring.step]
  simp only [h1]
  rw [if_pos (by simp [h2, h3])]
  rfl

/-- One event: defined, and one step of the ring or none. -/
theorem act_ok {S : Setup} (hS : Ready S) (hap : FilesApart S.fenv S.channel.id S.channel.devices) {o : OutSt} {s : Crew}
    (h : CrewFrom S o b prior s) {e : Act} (he : SoundAct S e) (ht : ∀ t, e = .run t → timelyAt S.cfg s.ring t) :
    ∃ s' es, act S s e = some s' ∧ CrewFrom S o b prior s' ∧ s'.ring = Ring.run S.cfg s.ring es ∧
      Ring.Timely S.cfg s.ring es ∧ (e.noStop → ∀ x ∈ es, x.noStop) ∧ (e = .stop → es = [.stop]) ∧
      stepsOf worker [e] + s.pos worker ≤ (S.channel.devices.length + 1) * workerSteps es + s'.pos worker := by
  have hev : ∀ x : Ev Piece, (∀ t, x ≠ .run t) → (∀ t b, x ≠ .call t b) →
      CrewFrom S o b prior { s with ring := Ring.step S.cfg s.ring x } := by
    intro x h1 h1'
    obtain ⟨h2, h3, h4, h5⟩ := step_quiet S.cfg s.ring x h1
    refine h.keep (h.ring.step (by cases x <;> first | trivial | exact absurd rfl (h1 _))) (h.prog.step x) h4
      h.caches ?_ h2 ⟨[], by rw [h3, List.append_nil]⟩ (fun t k hk => (h5 t k).mpr hk) fun t k hk => Or.inl ((h5 t k).mp hk)
    rw [step_calls _ _ _ h1']
    exact h.spoken
  have hcnt : ∀ (n : Nat) (l : List (Ev Piece)), 0 + n ≤ (S.channel.devices.length + 1) * workerSteps l + n := by
    intro n l; omega
  cases e with
  | started =>
    exact ⟨_, [.started], rfl, hev _ (by nofun) (by nofun), rfl, ⟨trivial, trivial⟩, fun _ x hx => by
      rw [List.mem_singleton.mp hx]; trivial, by nofun, hcnt _ _⟩
  | closing =>
    exact ⟨_, [.closing], rfl, hev _ (by nofun) (by nofun), rfl, ⟨trivial, trivial⟩, fun _ x hx => by
      rw [List.mem_singleton.mp hx]; trivial, by nofun, hcnt _ _⟩
  | stop =>
    exact ⟨_, [.stop], rfl, hev _ (by nofun) (by nofun), rfl, ⟨trivial, trivial⟩, fun hn => absurd hn (by simp [Act.noStop]),
      fun _ => rfl, hcnt _ _⟩
  | dates t c =>
    refine ⟨_, [], rfl, ?_, rfl, trivial, fun _ _ hx => absurd hx (by simp), by nofun, hcnt _ _⟩
    refine h.keep h.ring h.prog rfl (fun u => ?_) h.spoken rfl ⟨[], (List.append_nil _).symm⟩ (fun _ _ hk => hk)
      fun _ _ hk => Or.inl hk
    by_cases e : u = t
    · subst e; rw [upd_same]; exact he
    · rw [upd_ne _ _ e]; exact h.caches u
  | log t a ops =>
    simp only [act]
    unfold beginLog
    split
    · rename_i hpc
      by_cases hr : s.ring.lgRunning = true ∧ s.ring.state = .running
      · rw [if_pos hr]
        have hcache := h.caches t
        have hupd : ∀ {c : DateCache}, CacheFrom S.env.zone c → ∀ u, CacheFrom S.env.zone (upd s.caches t c u) := by
          intro c hc u
          by_cases e : u = t
          · subst e; rw [upd_same]; exact hc
          · rw [upd_ne _ _ e]; exact h.caches u
        obtain ⟨recs, g1, g2, g3⟩ := h.spoken
        rcases formed_ok hS he hcache with ⟨h1, h2⟩ | ⟨h1, file, text, c', h2, h3, h4, h5, body, h6, h7⟩
        · rw [h2]
          refine ⟨_, [], rfl, ?_, rfl, trivial, fun _ _ hx => absurd hx (by simp), by nofun, hcnt _ _⟩
          exact h.keep h.ring h.prog rfl (hupd hcache) ⟨recs, g1.refused h1, g2, g3⟩ rfl ⟨[], (List.append_nil _).symm⟩
            (fun _ _ hk => hk) fun _ _ hk => Or.inl hk
        · rw [h6]
          obtain ⟨q1, q2, q3, q4⟩ := step_quiet S.cfg s.ring (.call t body) (by nofun)
          refine ⟨_, [.call t body], rfl, ?_, rfl, ⟨trivial, trivial⟩, fun _ x hx => by
            rw [List.mem_singleton.mp hx]; trivial, by nofun, hcnt _ _⟩
          refine h.keep (h.ring.step (e := .call t body) trivial) (h.prog.step _) q3 (hupd h4) ?_ q1 ⟨[], by
            show (Ring.step S.cfg s.ring (.call t body)).acquired = _
            rw [q2, List.append_nil]⟩
            (fun u k hk => (q4 u k).mpr hk) fun u k hk => Or.inl ((q4 u k).mp hk)
          refine ⟨recs ++ [(t, headOf S.env S.names a ops file, lineOf S.env.N text)], g1.admitted h1 h2 h3, ?_, ?_⟩
          · intro r hr'
            rw [← List.append_assoc] at hr'
            rcases List.mem_append.mp hr' with hr' | hr'
            · exact g2 r hr'
            · rw [List.mem_singleton] at hr'
              subst hr'
              exact ⟨h5, he.dispatch⟩
          · show (Ring.step S.cfg s.ring (.call t body)).calls.map _ = _
            rw [step_call hpc hr.1 hr.2, ← List.append_assoc, List.map_append, List.map_append, g3]
            simp only [List.map_cons, List.map_nil, h7]
      · rw [if_neg hr]
        exact ⟨_, [], rfl, h, rfl, trivial, fun _ _ hx => absurd hx (by simp), by nofun, hcnt _ _⟩
    · exact ⟨_, [], rfl, h, rfl, trivial, fun _ _ hx => absurd hx (by simp), by nofun, hcnt _ _⟩
  | run t =>
    have htt := ht t rfl
    have hone : Ring.Timely S.cfg s.ring [.run t] := ⟨htt, trivial⟩
    have hns : ∀ x ∈ [Ev.run (α := Piece) t], x.noStop := fun x hx => by rw [List.mem_singleton.mp hx]; trivial
    simp only [act]
    unfold runThread
    split
    · rename_i k hpc
      split
      · rename_i d hd
        obtain ⟨s', e1, e2, e3, e4, _⟩ := h.visit hS hap hpc hd
        refine ⟨s', [], e1, e2, e3, trivial, fun _ _ hx => absurd hx (by simp), by nofun, ?_⟩
        rw [e4]
        simp only [stepsOf, workerSteps, List.map_nil, List.sum_nil, Nat.mul_zero, Nat.zero_add, Nat.add_zero]
        by_cases e : t = worker
        · subst e; rw [if_pos rfl, upd_same]; omega
        · rw [if_neg e, upd_ne _ _ (Ne.symm e)]; omega
      · rename_i hd
        refine ⟨_, [.run t], rfl, h.finish hpc (List.getElem?_eq_none_iff.mp hd), rfl, hone, fun _ => hns, by nofun, ?_⟩
        show _ ≤ _ + upd s.pos t 0 worker
        by_cases e : t = worker
        · subst e
          have := h.posLe worker
          rw [upd_same]
          simp only [stepsOf, workerSteps, List.map_cons, List.map_nil, List.sum_cons, List.sum_nil, Ev.isWorker, if_pos]
          omega
        · rw [upd_ne _ _ (Ne.symm e)]
          simp only [stepsOf, if_neg e]
          omega
    · rename_i hne
      refine ⟨_, [.run t], rfl, h.plain htt (fun k hk => hne k hk), rfl, hone, fun _ => hns, by nofun, ?_⟩
      by_cases e : t = worker
      · subst e
        simp only [stepsOf, workerSteps, List.map_cons, List.map_nil, List.sum_cons, List.sum_nil, Ev.isWorker, if_pos]
        omega
      · simp only [stepsOf, if_neg e]
        omega

theorem crew_inv {S : Setup} (hS : Ready S) {o : OutSt} (ho : Spec.Own S.fenv S.channel.id S.channel.devices o) :
    CrewInv S o (crew S o) where
  ring := Inv.init S.cfg (Nat.lt_of_lt_of_le (by decide) hS.slots)
  prog := ProgOrd.init S.cfg
  base := rfl
  caches := fun _ => Or.inl rfl
  spoken := ⟨[], .nil, by simp, rfl⟩
  posZero := fun _ _ => rfl
  posLe := fun _ => Nat.zero_le _
  visitDev := by simp [crew]
  visitMem := by
    intro j _ k
    simp only [crew, visitsOf, Ring.init, List.filter_nil, List.map_nil, List.not_mem_nil, false_or, false_iff]
    rintro ⟨t, _, h⟩
    omega
  visitND := by intro j; simp [crew, visitsOf]
  visitVal := by simp [crew]
  own := ho
  files := by
    intro j d hj hf
    exact ⟨[], _, by simpa [crew, visitsOf, handed] using Runs.nil (view o j), ⟨rfl, rfl, fun _ _ => rfl, fun p hp => ho j d p hj hf hp⟩⟩
  foreign := fun _ _ => rfl
  screen := by simp [crew]
  gave := ⟨[], Gave.start S o⟩

theorem stepsOf_cons (t : Nat) (e : Act) (es : List Act) : stepsOf t (e :: es) = stepsOf t [e] + stepsOf t es := by
  cases e <;> simp only [stepsOf] <;> omega

theorem workerSteps_append (a b : List (Ev Piece)) : workerSteps (a ++ b) = workerSteps a + workerSteps b := by
  simp [workerSteps]

/-- A schedule: defined, and a timely schedule of the ring. -/
theorem acts_ok {S : Setup} (hS : Ready S) (hap : FilesApart S.fenv S.channel.id S.channel.devices) {o : OutSt} :
    ∀ {es : List Act} {s : Crew}, CrewFrom S o b prior s → (∀ e ∈ es, SoundAct S e) → OnTime S es s →
    ∃ s' rs, acts S es s = some s' ∧ CrewFrom S o b prior s' ∧ s'.ring = Ring.run S.cfg s.ring rs ∧
      Ring.Timely S.cfg s.ring rs ∧ ((∀ e ∈ es, e.noStop) → ∀ x ∈ rs, x.noStop) ∧
      stepsOf worker es + s.pos worker ≤ (S.channel.devices.length + 1) * workerSteps rs + s'.pos worker := by
  intro es
  induction es with
  | nil =>
    intro s h _ _
    exact ⟨s, [], rfl, h, rfl, trivial, fun _ _ hx => absurd hx (by simp), by simp only [stepsOf]; omega⟩
  | cons e es ih =>
    intro s h he ht
    obtain ⟨s1, r1, a1, a2, a3, a4, a5, _, a6⟩ := act_ok hS hap h (he e (by simp)) ht.1
    obtain ⟨s2, r2, b1, b2, b3, b4, b5, b6⟩ := ih a2 (fun x hx => he x (by simp [hx])) (ht.2 s1 a1)
    refine ⟨s2, r1 ++ r2, ?_, b2, ?_, ?_, ?_, ?_⟩
    · simp only [acts, Option.bind_eq_bind, a1, Option.bind_some, b1]
    · rw [b3, a3, run_append]
    · rw [timely_append]
      exact ⟨a4, by rw [← a3]; exact b4⟩
    · intro hn x hx
      rcases List.mem_append.mp hx with hx | hx
      · exact a5 (hn e (by simp)) x hx
      · exact b5 (fun y hy => hn y (by simp [hy])) x hx
    · rw [stepsOf_cons, workerSteps_append, Nat.mul_add]
      omega

/-! ## The order on an async channel -/

/-- The devices reached for the current record. -/
def current (s : Crew) : List (Nat × Nat) :=
  match s.ring.pc worker with
  | .cDisp k => (List.range (s.pos worker)).map fun j => (j, k)
  | _ => []

/-- On an async channel the devices are reached record by record, in order. -/
def InTurn (S : Setup) (s : Crew) : Prop :=
  s.visits.map (fun v => (v.device, v.number)) =
    (s.ring.out.map Prod.fst).flatMap (fun k => (List.range S.channel.devices.length).map fun j => (j, k)) ++ current s

theorem current_nil {s : Crew} (h : s.pos worker = 0) : current s = [] := by
  unfold current
  split
  · rw [h]; rfl
  · rfl

theorem inTurn_act {S : Setup} (hA : S.cfg.async = true) (hS : Ready S)
    (hap : FilesApart S.fenv S.channel.id S.channel.devices) {o : OutSt} {s s' : Crew}
    (h : CrewFrom S o b prior s) (ho : InTurn S s) {e : Act} (hs : act S s e = some s') : InTurn S s' := by
  have hcur : ∀ {r : St Piece} {ca : Nat → DateCache} {made : List (Nat × Call × List StreamOp)},
      (∀ k, r.pc worker = .cDisp k ↔ s.ring.pc worker = .cDisp k) →
      current { s with ring := r, caches := ca, made := made } = current s := by
    intro r ca made hr
    by_cases hx : ∃ k, s.ring.pc worker = .cDisp k
    · obtain ⟨k, hk⟩ := hx
      simp only [current]
      rw [hk, (hr k).mpr hk]
    · have h1 : s.pos worker = 0 := h.posZero worker fun k hk => hx ⟨k, hk⟩
      rw [current_nil (s := s) h1, current_nil]
      exact h1
  have hkeep : ∀ {r : St Piece} {ca : Nat → DateCache} {made : List (Nat × Call × List StreamOp)}, r.out = s.ring.out →
      (∀ k, r.pc worker = .cDisp k ↔ s.ring.pc worker = .cDisp k) →
      InTurn S { s with ring := r, caches := ca, made := made } := by
    intro r ca made h1 h2
    unfold InTurn at ho ⊢
    rw [hcur h2]
    simp only [h1]
    exact ho
  cases e with
  | started =>
    obtain rfl := Option.some.inj hs
    obtain ⟨h2, _, _, h5⟩ := step_quiet S.cfg s.ring .started (by nofun)
    exact hkeep h2 (h5 worker)
  | closing =>
    obtain rfl := Option.some.inj hs
    obtain ⟨h2, _, _, h5⟩ := step_quiet S.cfg s.ring .closing (by nofun)
    exact hkeep h2 (h5 worker)
  | stop =>
    obtain rfl := Option.some.inj hs
    obtain ⟨h2, _, _, h5⟩ := step_quiet S.cfg s.ring .stop (by nofun)
    exact hkeep h2 (h5 worker)
  | dates t c =>
    obtain rfl := Option.some.inj hs
    exact hkeep rfl fun _ => Iff.rfl
  | log t a ops =>
    simp only [act, beginLog] at hs
    split at hs
    · split at hs
      · cases hf : formed S a ops (s.caches t) with
        | none => rw [hf] at hs; exact absurd hs (by simp)
        | some x =>
          rw [hf] at hs
          simp only [Option.bind_eq_bind, Option.bind_some] at hs
          obtain rfl := Option.some.inj hs
          cases hb : x.1 with
          | none => exact hkeep rfl fun _ => Iff.rfl
          | some b =>
            obtain ⟨h2, _, _, h5⟩ := step_quiet S.cfg s.ring (.call t b) (by nofun)
            exact hkeep h2 (h5 worker)
      · obtain rfl := Option.some.inj hs; exact ho
    · obtain rfl := Option.some.inj hs; exact ho
  | run t =>
    simp only [act, runThread] at hs
    split at hs
    · rename_i k hpc
      have hw : t = worker := h.ring.consTid hA t (by rw [hpc]; rfl)
      subst hw
      split at hs
      · rename_i d hd
        obtain ⟨s1, e1, _, e3, e4, hdr, line, e5, _⟩ := h.visit hS hap hpc hd
        rw [e1] at hs
        obtain rfl := Option.some.inj hs
        unfold InTurn at ho ⊢
        rw [e5, List.map_append, ho, e3]
        simp only [current, e3, hpc, e4, upd_same, List.range_succ, List.map_append, List.append_assoc, List.map_cons,
          List.map_nil]
      · rename_i hd
        obtain rfl := Option.some.inj hs
        have hlen : s.pos worker = S.channel.devices.length :=
          Nat.le_antisymm (h.posLe worker) (List.getElem?_eq_none_iff.mp hd)
        have e : Ring.stepT S.cfg s.ring worker =
            { s.ring with out := s.ring.out ++ [(k, s.ring.cell (k % S.cfg.L))] }.go worker (.cClear k) := by
          unfold Ring.stepT
          rw [hpc]
        unfold InTurn at ho ⊢
        rw [current_nil (show upd s.pos worker 0 worker = 0 from upd_same _ _ _), List.append_nil]
        simp only [ho, current, hpc, hlen, e, Ring.St.go, List.map_append, List.flatMap_append, List.map_cons, List.map_nil,
          List.flatMap_cons, List.flatMap_nil, List.append_nil]
    · rename_i hne
      obtain rfl := Option.some.inj hs
      have hp : ∀ k, s.ring.pc t ≠ .cDisp k := fun k hk => hne k hk
      unfold InTurn at ho ⊢
      have hc : current { s with ring := Ring.stepT S.cfg s.ring t } = current s := by
        by_cases e : worker = t
        · subst e
          have h1 : s.pos worker = 0 := h.posZero worker hp
          rw [current_nil (s := s) h1, current_nil]
          exact h1
        · simp only [current]
          rw [stepT_pc_other _ _ e]
      rw [hc]
      simp only [stepT_out _ _ _ hp]
      exact ho

theorem inTurn_acts {S : Setup} (hA : S.cfg.async = true) (hS : Ready S)
    (hap : FilesApart S.fenv S.channel.id S.channel.devices) {o : OutSt} :
    ∀ {es : List Act} {s s' : Crew}, CrewFrom S o b prior s → InTurn S s → (∀ e ∈ es, SoundAct S e) → OnTime S es s →
    acts S es s = some s' → InTurn S s' := by
  intro es
  induction es with
  | nil => intro s s' _ h _ _ hs; obtain rfl := Option.some.inj hs; exact h
  | cons e es ih =>
    intro s s' h ho he ht hs
    obtain ⟨s1, r1, a1, a2, _⟩ := act_ok hS hap h (he e (by simp)) ht.1
    simp only [acts, Option.bind_eq_bind, a1, Option.bind_some] at hs
    exact ih a2 (inTurn_act hA hS hap h ho a1) (fun x hx => he x (by simp [hx])) (ht.2 s1 a1) hs

end FNLog
