import Verif.Spec.Fleet
import Verif.Proof.Twin

/-! # Several channels of a logger -/

namespace FNLog
open Spec Ring

/-! ## The invariant -/

/-- Every channel is the twin of a channel alone, in its state `s i`. -/
structure FleetInv (S : Nat → Setup) (o : Nat → OutSt) (f : Fleet) (s : Nat → Crew) : Prop where
  crew : ∀ i, CrewInv (S i) (o i) (s i)
  twin : ∀ i, Twin (S i) (fun _ _ => 0) (s i) (f.crew i)

/-- The thread whose date cache an event may change. -/
def Act.dater : Act → Option Nat
  | .log t _ _ => some t
  | .dates t _ => some t
  | _ => none

theorem act_caches {S : Setup} {s s' : Crew} {e : Act} (h : act S s e = some s') :
    ∀ t, e.dater ≠ some t → s'.caches t = s.caches t := by
  intro t ht
  cases e with
  | started | closing | stop => obtain rfl := Option.some.inj h; rfl
  | dates u c =>
    obtain rfl := Option.some.inj h
    exact upd_ne _ _ fun e => ht (by rw [e]; rfl)
  | log u a ops =>
    simp only [act, beginLog] at h
    split at h
    · split at h
      · cases hf : formed S a ops (s.caches u) with
        | none => rw [hf] at h; exact absurd h (by simp)
        | some x =>
          rw [hf] at h
          simp only [Option.bind_eq_bind, Option.bind_some] at h
          obtain rfl := Option.some.inj h
          exact upd_ne _ _ fun e => ht (by rw [e]; rfl)
      · obtain rfl := Option.some.inj h; rfl
    · obtain rfl := Option.some.inj h; rfl
  | run u =>
    simp only [act, runThread] at h
    split at h
    · split at h
      · unfold dispatchNext at h
        simp only [Option.bind_eq_bind, Option.bind_eq_some_iff] at h
        obtain ⟨_, _, _, _, _, _, h⟩ := h
        obtain rfl := Option.some.inj h
        rfl
      · obtain rfl := Option.some.inj h; rfl
    · obtain rfl := Option.some.inj h; rfl

/-- What the other channels notice of an event. -/
def notice (f : Fleet) (e : Act) : List Act :=
  match e.dater with
  | some t => [.dates t (f.caches t)]
  | none => []

theorem acts_notice {S : Setup} {f : Fleet} {e : Act} {s : Crew} :
    ∃ s', acts S (notice f e) s = some s' ∧ s' = { s with caches := s'.caches } ∧
      (∀ t, s'.caches t = if e.dater = some t then f.caches t else s.caches t) := by
  unfold notice
  cases h : e.dater with
  | none => exact ⟨s, rfl, rfl, fun t => by simp⟩
  | some t =>
    refine ⟨_, rfl, rfl, fun u => ?_⟩
    show upd s.caches t (f.caches t) u = _
    by_cases e : u = t
    · subst e; rw [upd_same, if_pos rfl]
    · rw [upd_ne _ _ e, if_neg fun z => e (Option.some.inj z).symm]

theorem onTime_notice (S : Setup) (f : Fleet) (e : Act) (s : Crew) : OnTime S (notice f e) s := by
  unfold notice
  cases e.dater with
  | none => trivial
  | some t => exact ⟨by nofun, fun _ _ => trivial⟩

theorem notice_dates (f : Fleet) (e : Act) : ∀ a ∈ notice f e, a.isDates = true := by
  unfold notice
  cases e.dater with
  | none => simp
  | some t => simp [Act.isDates]

theorem sound_notice {S : Setup} {f : Fleet} {e : Act} (h : ∀ t, CacheFrom S.env.zone (f.caches t)) :
    ∀ a ∈ notice f e, SoundAct S a := by
  unfold notice
  cases e.dater with
  | none => simp
  | some t =>
    intro a ha
    rw [List.mem_singleton] at ha
    subst ha
    exact h t

theorem onTime_join {S : Setup} : ∀ {es es' : List Act} {s s' : Crew}, OnTime S es s → acts S es s = some s' →
    OnTime S es' s' → OnTime S (es ++ es') s := by
  intro es
  induction es with
  | nil => intro es' s s' _ h h'; obtain rfl := Option.some.inj h; exact h'
  | cons e es ih =>
    intro es' s s' h1 h2 h3
    refine ⟨h1.1, fun s1 hs1 => ?_⟩
    simp only [acts, Option.bind_eq_bind, hs1, Option.bind_some] at h2
    exact ih (h1.2 s1 hs1) h2 h3

/-- One event of channel `i`. -/
theorem fleet_step {S : Nat → Setup} (hS : ∀ i, Ready (S i))
    (hap : ∀ i, FilesApart (S i).fenv (S i).channel.id (S i).channel.devices) (hacr : ChannelsApart S)
    {z : Zone} (hz : ∀ i, (S i).env.zone = z) {o : Nat → OutSt} {f : Fleet} {s : Nat → Crew} (h : FleetInv S o f s)
    {i : Nat} {e : Act} (he : SoundAct (S i) e) (ht : ∀ t, e = .run t → timelyAt (S i).cfg (f.part i).ring t) :
    ∃ f' s' x y, fleetAct S f (i, e) = some f' ∧ FleetInv S o f' s' ∧
      act (S i) (s i) e = some (s' i) ∧ OnTime (S i) [e] (s i) ∧
      (∀ j, j ≠ i → acts (S j) (notice f' e) (s j) = some (s' j) ∧ (∀ a ∈ notice f' e, SoundAct (S j) a)) ∧
      f'.screen = f.screen ++ x ∧ (∀ j, (s' j).out.screen = (s j).out.screen ++ if i = j then x else []) ∧
      f'.net = f.net ++ y ∧ (∀ j, (s' j).out.net = (s j).out.net ++ if i = j then y else []) ∧
      (∀ p, (∀ j, Foreign (S j).fenv (S j).channel.id (S j).channel.devices p) → f'.fs p = f.fs p) := by
  have htw := h.twin i
  have hring : (f.part i).ring = (s i).ring := htw.ring
  have htt : ∀ t, e = .run t → timelyAt (S i).cfg (s i).ring t := fun t ht' => by rw [← hring]; exact ht t ht'
  obtain ⟨si, rs, a1, a2, _⟩ := act_ok (hS i) (hap i) (h.crew i) he htt
  obtain ⟨c', x, y, b1, b2, b3⟩ := htw.act (fun _ _ _ => rfl) (h.crew i) a1
  have hf' : fleetAct S f (i, e) = some (f.put i c') := by
    unfold fleetAct
    simp only [b1, Option.map_some]
  have hcz : ∀ t, CacheFrom z (c'.caches t) := fun t => by rw [b2.caches, ← hz i]; exact a2.caches t
  have hca : ∀ t, e.dater ≠ some t → c'.caches t = f.caches t := by
    intro t hne
    rw [b2.caches, act_caches a1 t hne, ← htw.caches]
    rfl
  have hn : ∀ j, ∃ s', acts (S j) (notice (f.put i c') e) (s j) = some s' ∧ s' = { s j with caches := s'.caches } ∧
      s'.caches = c'.caches := by
    intro j
    obtain ⟨s', e1, e2, e3⟩ := acts_notice (S := S j) (f := f.put i c') (e := e) (s := s j)
    refine ⟨s', e1, e2, ?_⟩
    funext t
    rw [e3 t]
    split
    · rfl
    · rename_i hne
      rw [hca t hne, ← (h.twin j).caches]
      rfl
  -- the other channels
  have hoth : ∀ j, j ≠ i → ∃ s', acts (S j) (notice (f.put i c') e) (s j) = some s' ∧ CrewInv (S j) (o j) s' ∧
      Twin (S j) (fun _ _ => 0) s' ((f.put i c').crew j) ∧ s'.out = (s j).out := by
    intro j hj
    obtain ⟨s', e1, e2, e3⟩ := hn j
    have hout : s'.out = (s j).out := by rw [e2]
    refine ⟨s', e1, ?_, ?_, hout⟩
    · rw [e2]
      have hc := h.crew j
      exact hc.keep hc.ring hc.prog rfl (fun t => by rw [e3, hz j]; exact hcz t) hc.spoken rfl
        ⟨[], (List.append_nil _).symm⟩ (fun _ _ hk => hk) fun _ _ hk => Or.inl hk
    · have hw := h.twin j
      have hp : (f.put i c').part j = f.part j := upd_ne _ _ hj
      refine ⟨?_, ?_, ?_, ?_, ?_, ?_, ?_⟩
      · show ((f.put i c').part j).ring = _
        rw [hp, e2]; exact hw.ring
      · intro k
        show ((f.put i c').part j).dev k = _
        rw [hp, hout]; exact hw.dev k
      · show ((f.put i c').part j).pos = _
        rw [hp, e2]; exact hw.pos
      · show ((f.put i c').part j).made = _
        rw [hp, e2]; exact hw.made
      · show ((f.put i c').part j).visits = _
        rw [hp, e2]; exact hw.visits
      · exact e3.symm
      · intro d hd hf p hp'
        rw [hout]
        show c'.out.fs p = _
        rw [b3.foreign p fun a ha haf hap' => hacr j i d a hj hd ha hf haf p ⟨hp', hap'⟩]
        exact hw.files d hd hf p hp'
  -- choose
  obtain ⟨s', hs', hsi⟩ : ∃ s' : Nat → Crew, (∀ j, j ≠ i → acts (S j) (notice (f.put i c') e) (s j) = some (s' j) ∧
      CrewInv (S j) (o j) (s' j) ∧ Twin (S j) (fun _ _ => 0) (s' j) ((f.put i c').crew j) ∧ (s' j).out = (s j).out) ∧ s' i = si := by
    refine ⟨fun j => if j = i then si else (acts (S j) (notice (f.put i c') e) (s j)).getD (s j), ?_, if_pos rfl⟩
    intro j hj
    obtain ⟨s', e1, e2⟩ := hoth j hj
    simp only [if_neg hj, e1, Option.getD_some, true_and]
    exact e2
  have hti : Twin (S i) (fun _ _ => 0) si ((f.put i c').crew i) := by
    have hp : (f.put i c').part i = ⟨c'.ring, c'.out.dev, c'.pos, c'.made, c'.visits⟩ := upd_same _ _ _
    refine ⟨?_, ?_, ?_, ?_, ?_, b2.caches, b2.files⟩
    · show ((f.put i c').part i).ring = _
      rw [hp]; exact b2.ring
    · intro k
      show ((f.put i c').part i).dev k = _
      rw [hp]; exact b2.dev k
    · show ((f.put i c').part i).pos = _
      rw [hp]; exact b2.pos
    · show ((f.put i c').part i).made = _
      rw [hp]; exact b2.made
    · show ((f.put i c').part i).visits = _
      rw [hp]; exact b2.visits
  refine ⟨f.put i c', s', x, y, hf', ⟨?_, ?_⟩, by rw [hsi]; exact a1, ⟨htt, fun _ _ => trivial⟩, ?_, b3.screen', ?_, b3.net', ?_, ?_⟩
  · intro j
    by_cases e : j = i
    · subst e; rw [hsi]; exact a2
    · exact (hs' j e).2.1
  · intro j
    by_cases e : j = i
    · subst e; rw [hsi]; exact hti
    · exact (hs' j e).2.2.1
  · intro j hj
    exact ⟨(hs' j hj).1, sound_notice fun t => by rw [hz j]; exact hcz t⟩
  · intro j
    by_cases e : i = j
    · subst e; rw [hsi, if_pos rfl]; exact b3.screen
    · rw [if_neg e, List.append_nil, (hs' j (Ne.symm e)).2.2.2]
  · intro j
    by_cases e : i = j
    · subst e; rw [hsi, if_pos rfl]; exact b3.net
    · rw [if_neg e, List.append_nil, (hs' j (Ne.symm e)).2.2.2]
  · intro p hp
    exact b3.foreign p (hp i)

theorem ofChannel_cons (j : Nat) (e : Nat × Act) (es : List (Nat × Act)) :
    ofChannel j (e :: es) = (if e.1 = j then [e.2] else []) ++ ofChannel j es := by
  unfold ofChannel
  rw [List.filter_cons]
  by_cases h : e.1 = j <;> simp [h]

/-- A schedule. -/
theorem fleet_run {S : Nat → Setup} (hS : ∀ i, Ready (S i))
    (hap : ∀ i, FilesApart (S i).fenv (S i).channel.id (S i).channel.devices) (hacr : ChannelsApart S)
    {z : Zone} (hz : ∀ i, (S i).env.zone = z) {o : Nat → OutSt} : ∀ {es : List (Nat × Act)} {f : Fleet} {s : Nat → Crew},
    FleetInv S o f s → (∀ e ∈ es, SoundAct (S e.1) e.2) → FleetOnTime S es f →
    ∃ (f' : Fleet) (s' : Nat → Crew) (as : Nat → List Act) (lines : List (Nat × List Char)) (grams : List (Nat × Datagram)),
      fleetActs S es f = some f' ∧ FleetInv S o f' s' ∧
      (∀ i, SameEvents (as i) (ofChannel i es) ∧ (∀ a ∈ as i, SoundAct (S i) a) ∧ OnTime (S i) (as i) (s i) ∧
        acts (S i) (as i) (s i) = some (s' i)) ∧
      f'.screen = f.screen ++ lines.map Prod.snd ∧
      (∀ i, (s' i).out.screen = (s i).out.screen ++ (lines.filter fun x : Nat × List Char => x.1 == i).map Prod.snd) ∧
      f'.net = f.net ++ grams.map Prod.snd ∧
      (∀ i, (s' i).out.net = (s i).out.net ++ (grams.filter fun x : Nat × Datagram => x.1 == i).map Prod.snd) ∧
      (∀ p, (∀ j, Foreign (S j).fenv (S j).channel.id (S j).channel.devices p) → f'.fs p = f.fs p) := by
  intro es
  induction es with
  | nil =>
    intro f s h _ _
    exact ⟨f, s, fun _ => [], [], [], rfl, h, fun i => ⟨rfl, by simp, trivial, rfl⟩, (List.append_nil _).symm,
      fun i => (List.append_nil _).symm, (List.append_nil _).symm, fun i => (List.append_nil _).symm, fun _ _ => rfl⟩
  | cons e es ih =>
    obtain ⟨i, e⟩ := e
    intro f s h he ht
    obtain ⟨f1, s1, x, y, a1, a2, a3, a4, a5, a6, a7, a8, a9, a10⟩ :=
      fleet_step hS hap hacr hz h (he (i, e) (by simp)) ht.1
    obtain ⟨f2, s2, as, lines, grams, b1, b2, b3, b4, b5, b6, b7, b8⟩ :=
      ih a2 (fun g hg => he g (by simp [hg])) (ht.2 f1 a1)
    have hmap : ∀ {β : Type} (x : List β) (l : List (Nat × β)),
        ((x.map fun w => (i, w)) ++ l).map Prod.snd = x ++ l.map Prod.snd := by
      intro β x l
      rw [List.map_append, List.map_map]
      congr 1
      exact List.map_id _
    refine ⟨f2, s2, fun j => (if i = j then [e] else notice f1 e) ++ as j, (x.map fun w => (i, w)) ++ lines,
      (y.map fun w => (i, w)) ++ grams, ?_, b2, ?_, ?_, ?_, ?_, ?_, ?_⟩
    · simp only [fleetActs, Option.bind_eq_bind, a1, Option.bind_some, b1]
    · intro j
      obtain ⟨c1, c2, c3, c4⟩ := b3 j
      by_cases hj : i = j
      · subst hj
        simp only [if_true]
        refine ⟨?_, ?_, onTime_join a4 (by simp only [acts, Option.bind_eq_bind, a3, Option.bind_some]) c3, ?_⟩
        · unfold SameEvents at c1 ⊢
          rw [ofChannel_cons, if_pos rfl, List.filter_append, List.filter_append, c1]
        · intro a ha
          rcases List.mem_append.mp ha with ha | ha
          · rw [List.mem_singleton] at ha
            subst ha
            exact he (i, a) (by simp)
          · exact c2 a ha
        · simp only [List.cons_append, List.nil_append, acts, Option.bind_eq_bind, a3, Option.bind_some, c4]
      · simp only [if_neg hj]
        obtain ⟨d1, d2⟩ := a5 j (Ne.symm hj)
        refine ⟨?_, ?_, onTime_join (onTime_notice _ _ _ _) d1 c3, ?_⟩
        · unfold SameEvents at c1 ⊢
          rw [ofChannel_cons, if_neg hj, List.nil_append, List.filter_append, c1,
            List.filter_eq_nil_iff.mpr fun a ha => by simp [notice_dates f1 e a ha], List.nil_append]
        · intro a ha
          rcases List.mem_append.mp ha with ha | ha
          · exact d2 a ha
          · exact c2 a ha
        · rw [acts_append, d1]
          exact c4
    · rw [b4, a6, hmap, List.append_assoc]
    · intro j
      rw [b5 j, a7 j, List.filter_append, List.map_append, filter_mark, List.append_assoc]
    · rw [b6, a8, hmap, List.append_assoc]
    · intro j
      rw [b7 j, a9 j, List.filter_append, List.map_append, filter_mark, List.append_assoc]
    · intro p hp
      rw [b8 p hp, a10 p hp]

theorem fleet_inv {S : Nat → Setup} (hS : ∀ i, Ready (S i)) {o : OutSt} {dev : Nat → Nat → DevSt}
    (ho : ∀ i, Spec.Own (S i).fenv (S i).channel.id (S i).channel.devices (startOf o dev i)) :
    FleetInv S (startOf o dev) (fleet S o dev) fun i => crew (S i) (startOf o dev i) where
  crew i := crew_inv (hS i) (ho i)
  twin _ := ⟨rfl, fun _ => (DevSt.plus_zero _).symm, rfl, rfl, rfl, rfl, fun _ _ _ _ _ => rfl⟩

end FNLog
