import Verif.Spec.Reach
import Verif.Spec.Live
import Verif.Proof.FlushRun
import Verif.Proof.Capstone
import Verif.Proof.Starve
import Verif.Proof.Live

/-! # Endless executions of a channel with buffered files -/

namespace FNLog
open Spec Ring

/-! ## What a step does to the bookkeeping of a thread -/

theorem enterBufIf_frame {S : Setup} {B : Stdio} {r : Bool} {t n j : Nat} {d : Device} {log : DevLog} {f f1 : FCrew}
    (h : enterBufIf S B r t n j d log f = some f1) :
    f1.crew.ring = f.crew.ring ∧ f1.crew.pos = f.crew.pos ∧ f1.count = f.count ∧ f1.fl = f.fl := by
  unfold enterBufIf at h
  split at h
  · unfold enterBuf at h
    split at h
    · obtain ⟨b, _, rfl⟩ := Option.map_eq_some_iff.mp h
      exact ⟨rfl, rfl, rfl, rfl⟩
    · obtain ⟨b, _, rfl⟩ := Option.map_eq_some_iff.mp h
      exact ⟨rfl, rfl, rfl, rfl⟩
  · obtain rfl := Option.some.inj h
    exact ⟨rfl, rfl, rfl, rfl⟩

/-- Where a flush loop goes on. -/
def flushGoes (len : Nat) (p q : FlushPc) : Prop :=
  match p with
  | .off => True
  | .look j => (len ≤ j ∧ q = .off) ∨ (j < len ∧ ((∃ g, q = .call j g) ∨ q = .look (j + 1)))
  | .call j _ => q = .look (j + 1)

/-- The three kinds of steps of a thread: in a flush loop; a visit of a device; a step of the ring. -/
theorem fRun_cases {S : Setup} {B : Stdio} {t : Nat} {f f' : FCrew} (h : fRunThread S B t f = some f') :
    (f.fl t ≠ .off ∧ f'.crew.ring = f.crew.ring ∧ f'.crew.pos = f.crew.pos ∧ f'.count = f.count ∧
      (∀ u, u ≠ t → f'.fl u = f.fl u) ∧ flushGoes S.channel.devices.length (f.fl t) (f'.fl t)) ∨
    (f.fl t = .off ∧ (∃ k d, f.crew.ring.pc t = .cDisp k ∧ S.channel.devices[f.crew.pos t]? = some d) ∧
      f'.crew.ring = f.crew.ring ∧ f'.crew.pos = upd f.crew.pos t (f.crew.pos t + 1) ∧ f'.count = f.count ∧ f'.fl = f.fl) ∨
    (f.fl t = .off ∧ (∀ k, f.crew.ring.pc t = .cDisp k → S.channel.devices[f.crew.pos t]? = none) ∧
      f'.crew.ring = stepT S.cfg f.crew.ring t ∧ f'.buf = f.buf ∧
      f'.count t = (flushAfter B (f.count t) (f.crew.ring.pc t) (f'.crew.ring.pc t)).1 ∧
      f'.fl t = (flushAfter B (f.count t) (f.crew.ring.pc t) (f'.crew.ring.pc t)).2 ∧
      ∀ u, u ≠ t → f'.crew.pos u = f.crew.pos u ∧ f'.count u = f.count u ∧ f'.fl u = f.fl u) := by
  unfold fRunThread at h
  split at h
  · rename_i j hj
    left
    obtain rfl := Option.some.inj h
    rw [hj]
    unfold flushLook
    cases hd : S.channel.devices[j]? with
    | none =>
      have : S.channel.devices.length ≤ j := List.getElem?_eq_none_iff.mp hd
      refine ⟨nofun, rfl, rfl, rfl, fun u hu => upd_ne _ _ hu, Or.inl ⟨this, upd_same _ _ _⟩⟩
    | some d =>
      have : j < S.channel.devices.length := (List.getElem?_eq_some_iff.mp hd).1
      dsimp only
      split
      · exact ⟨nofun, rfl, rfl, rfl, fun u hu => upd_ne _ _ hu, Or.inr ⟨this, Or.inl ⟨_, upd_same _ _ _⟩⟩⟩
      · exact ⟨nofun, rfl, rfl, rfl, fun u hu => upd_ne _ _ hu, Or.inr ⟨this, Or.inr (upd_same _ _ _)⟩⟩
  · rename_i j g hj
    left
    rw [hj]
    unfold flushCall at h
    split at h
    · cases h
    · obtain rfl := Option.some.inj h
      exact ⟨nofun, rfl, rfl, rfl, fun u hu => upd_ne _ _ hu, upd_same _ _ _⟩
  · rename_i hoff
    right
    have hmoved : (∀ k, f.crew.ring.pc t = .cDisp k → S.channel.devices[f.crew.pos t]? = none) →
        (runThread S t f.crew).map (f.moved B t) = some f' →
        f'.crew.ring = stepT S.cfg f.crew.ring t ∧ f'.buf = f.buf ∧
        f'.count t = (flushAfter B (f.count t) (f.crew.ring.pc t) (f'.crew.ring.pc t)).1 ∧
        f'.fl t = (flushAfter B (f.count t) (f.crew.ring.pc t) (f'.crew.ring.pc t)).2 ∧
        ∀ u, u ≠ t → f'.crew.pos u = f.crew.pos u ∧ f'.count u = f.count u ∧ f'.fl u = f.fl u := by
      intro hv hm
      obtain ⟨c, hc, rfl⟩ := Option.map_eq_some_iff.mp hm
      obtain ⟨m1, m2, _⟩ := runThread_move hc hv
      exact ⟨m1, rfl, upd_same _ _ _, upd_same _ _ _, fun u hu => ⟨m2 u hu, upd_ne _ _ hu, upd_ne _ _ hu⟩⟩
    unfold bufRunThread at h
    split at h
    · rename_i k hpc
      split at h
      · rename_i d hd
        left
        unfold bufDispatchNext at h
        simp only [Option.bind_eq_bind, Option.bind_eq_some_iff] at h
        obtain ⟨⟨hh, text⟩, _, r, _, f1, h3, h4⟩ := h
        obtain rfl := Option.some.inj h4
        obtain ⟨g1, g2, g3, g4⟩ := enterBufIf_frame h3
        refine ⟨hoff, ⟨k, d, hpc, hd⟩, g1, ?_, g3, g4⟩
        show upd f1.crew.pos t (f1.crew.pos t + 1) = _
        rw [g2]
      · rename_i hd
        exact Or.inr ⟨hoff, fun _ _ => hd, hmoved (fun _ _ => hd) h⟩
    · rename_i hne
      exact Or.inr ⟨hoff, fun k hk => absurd hk (hne k), hmoved (fun k hk => absurd hk (hne k)) h⟩

/-- Other events. -/
theorem fAct_else {S : Setup} {B : Stdio} {f f' : FCrew} {e : Act} (he : ∀ t, e ≠ .run t) (h : fAct S B f e = some f') :
    act S f.crew e = some f'.crew ∧ f'.buf = f.buf ∧ f'.count = f.count ∧ f'.fl = f.fl ∧ f'.crew.pos = f.crew.pos := by
  have key : (act S f.crew e).map (fun c => { f with crew := c }) = some f' := by
    cases e with
    | run t => exact absurd rfl (he t)
    | _ => exact h
  obtain ⟨c, hc, rfl⟩ := Option.map_eq_some_iff.mp key
  exact ⟨hc, rfl, rfl, rfl, (act_quiet hc he).1⟩

/-- The bookkeeping of the other threads. -/
theorem fAct_others {S : Setup} {B : Stdio} {f f' : FCrew} {e : Act} {t : Nat} (he : e ≠ .run t) (h : fAct S B f e = some f') :
    f'.crew.pos t = f.crew.pos t ∧ f'.count t = f.count t ∧ f'.fl t = f.fl t := by
  by_cases hr : ∃ u, e = .run u
  · obtain ⟨u, rfl⟩ := hr
    have hu : t ≠ u := fun x => he (by rw [x])
    rcases fRun_cases h with ⟨_, _, h2, h3, h4, _⟩ | ⟨_, _, _, h2, h3, h4⟩ | ⟨_, _, _, _, _, _, h2⟩
    · exact ⟨by rw [h2], by rw [h3], h4 t hu⟩
    · exact ⟨by rw [h2, upd_ne _ _ hu], by rw [h3], by rw [h4]⟩
    · exact h2 t hu
  · obtain ⟨_, _, h3, h4, h5⟩ := fAct_else (fun u hu => hr ⟨u, hu⟩) h
    exact ⟨by rw [h5], by rw [h3], by rw [h4]⟩

/-! ## The ring takes part in an endless execution of its own -/

open Classical in
/-- An event without effect. -/
noncomputable def idleEv (s : St Piece) : Ev Piece := if h : ∃ u, s.pc u = .idle then .run (choose h) else .started

theorem idleEv_step {c : Cfg Piece} {s : St Piece} (h : ∃ u, s.pc u = .idle) : Ring.step c s (idleEv s) = s := by
  unfold idleEv
  rw [dif_pos h]
  show Ring.stepT c s _ = s
  unfold Ring.stepT
  rw [Classical.choose_spec h]

theorem idleEv_run {s : St Piece} {t : Nat} (h : idleEv s = .run t) : s.pc t = .idle := by
  unfold idleEv at h
  split at h
  · rename_i hx
    cases h
    exact Classical.choose_spec hx
  · cases h

theorem idleEv_call {s : St Piece} {t : Nat} {b : List Piece} : idleEv s ≠ .call t b := by
  unfold idleEv
  split <;> nofun

theorem idleEv_noStop (s : St Piece) : (idleEv s).noStop := by
  unfold idleEv
  split <;> trivial

theorem idleEv_timely (c : Cfg Piece) (s : St Piece) : timelyEv c s (idleEv s) := by
  unfold idleEv
  split
  · rename_i hx
    show timelyAt c s _
    unfold timelyAt
    rw [Classical.choose_spec hx]
    trivial
  · trivial

open Classical in
/-- What an event is for the ring. -/
noncomputable def ringEv (S : Setup) (f : FCrew) : Act → Ev Piece
  | .run t =>
    if f.fl t = .off ∧ ∀ k, f.crew.ring.pc t = .cDisp k → S.channel.devices[f.crew.pos t]? = none then .run t
    else idleEv f.crew.ring
  | .log t a ops =>
    if f.crew.ring.pc t = .idle ∧ f.crew.ring.lgRunning = true ∧ f.crew.ring.state = .running then
      match formed S a ops (f.crew.caches t) with
      | some (some b, _) => .call t b
      | _ => idleEv f.crew.ring
    else idleEv f.crew.ring
  | .started => .started
  | .closing => .closing
  | .stop => .stop
  | .dates _ _ => idleEv f.crew.ring

theorem ringEv_step {S : Setup} {B : Stdio} {f f' : FCrew} {e : Act} (hi : ∃ u, f.crew.ring.pc u = .idle)
    (h : fAct S B f e = some f') : f'.crew.ring = Ring.step S.cfg f.crew.ring (ringEv S f e) := by
  by_cases hr : ∃ u, e = .run u
  · obtain ⟨t, rfl⟩ := hr
    rcases fRun_cases h with ⟨h0, h1, _⟩ | ⟨_, ⟨k, d, h1, h2⟩, h3, _⟩ | ⟨h0, h1, h2, _⟩
    · simp only [ringEv]
      rw [if_neg (fun x => h0 x.1), idleEv_step hi, h1]
    · simp only [ringEv]
      rw [if_neg (fun x => by rw [x.2 k h1] at h2; cases h2), idleEv_step hi, h3]
    · simp only [ringEv]
      rw [if_pos ⟨h0, h1⟩, h2]
      rfl
  · obtain ⟨h1, _⟩ := fAct_else (fun u hu => hr ⟨u, hu⟩) h
    generalize f'.crew = c' at h1
    cases e with
    | run t => exact absurd ⟨t, rfl⟩ hr
    | started | closing | stop => obtain rfl := Option.some.inj h1; rfl
    | dates t c =>
      obtain rfl := Option.some.inj h1
      simp only [ringEv]
      rw [idleEv_step hi]
    | log t a ops =>
      simp only [act, beginLog] at h1
      simp only [ringEv]
      split at h1
      · rename_i hpc
        split at h1
        · rename_i hrun
          rw [if_pos ⟨hpc, hrun⟩]
          simp only [Option.bind_eq_bind, Option.bind_eq_some_iff] at h1
          obtain ⟨⟨b, ca⟩, h2, h3⟩ := h1
          obtain rfl := Option.some.inj h3
          rw [h2]
          cases b with
          | none => dsimp only [holdFor]; rw [idleEv_step hi]
          | some b => rfl
        · rename_i hrun
          obtain rfl := Option.some.inj h1
          rw [if_neg (fun x => hrun x.2), idleEv_step hi]
      · rename_i hpc
        obtain rfl := Option.some.inj h1
        rw [if_neg (fun x => hpc x.1), idleEv_step hi]

theorem ringEv_noStop {S : Setup} {f : FCrew} {e : Act} (h : e.noStop) : (ringEv S f e).noStop := by
  cases e with
  | run t => simp only [ringEv]; split <;> first | trivial | exact idleEv_noStop _
  | log t a ops =>
    simp only [ringEv]
    split
    · split
      · trivial
      · exact idleEv_noStop _
    · exact idleEv_noStop _
  | dates t c => exact idleEv_noStop _
  | started | closing => trivial
  | stop => exact h

theorem ringEv_timely {S : Setup} {f : FCrew} {e : Act}
    (h : ∀ t, e = .run t → f.fl t = .off → timelyAt S.cfg f.crew.ring t) :
    timelyEv S.cfg f.crew.ring (ringEv S f e) := by
  cases e with
  | run t =>
    simp only [ringEv]
    split
    · rename_i hx; exact h t rfl hx.1
    · exact idleEv_timely _ _
  | log t a ops =>
    simp only [ringEv]
    split
    · split
      · trivial
      · exact idleEv_timely _ _
    · exact idleEv_timely _ _
  | dates t c => exact idleEv_timely _ _
  | started | closing | stop => trivial

theorem ringEv_call {S : Setup} {f : FCrew} {e : Act} (h : ∀ t a ops, e ≠ .log t a ops) (t : Nat) (b : List Piece) :
    ringEv S f e ≠ .call t b := by
  cases e with
  | log t a ops => exact absurd rfl (h t a ops)
  | run u =>
    simp only [ringEv]
    split
    · nofun
    · exact idleEv_call
  | dates u c => exact idleEv_call
  | started | closing | stop => nofun

theorem ringEv_run {S : Setup} {f : FCrew} {e : Act} {t : Nat} (hp : f.crew.ring.pc t ≠ .idle) (h : e ≠ .run t) :
    ringEv S f e ≠ .run t := by
  have hidle : idleEv f.crew.ring ≠ .run t := fun x => hp (idleEv_run x)
  cases e with
  | run u =>
    simp only [ringEv]
    split
    · intro x; cases x; exact h rfl
    · exact hidle
  | log u a ops =>
    simp only [ringEv]
    split
    · split
      · nofun
      · exact hidle
    · exact hidle
  | dates u c => exact hidle
  | started | closing | stop => nofun

/-! ## The execution -/

/-- The standing assumptions. -/
structure Reach (S : Setup) (B : Stdio) (o : OutSt) (σ : Nat → Act) : Prop where
  ready : Ready S
  apart : FilesApart S.fenv S.channel.id S.channel.devices
  own : Spec.Own S.fenv S.channel.id S.channel.devices o
  ex : ∀ (j : Nat) (d : Device) (p : List Char), S.channel.devices[j]? = some d → d.outType = .file →
    (o.dev j).handle = some p → o.fs p ≠ none
  guarded : Guarded S ∨ ∀ n, Serial S B (firstActs σ n) (fCrew S o)
  endless : FEndless S B o σ

/-- The state in front of event `n`. -/
def fNow (S : Setup) (B : Stdio) (o : OutSt) (σ : Nat → Act) (n : Nat) : FCrew :=
  (fActs S B (firstActs σ n) (fCrew S o)).getD (fCrew S o)

/-- The schedule of the ring. -/
noncomputable def ringSched (S : Setup) (B : Stdio) (o : OutSt) (σ : Nat → Act) (n : Nat) : Ev Piece :=
  ringEv S (fNow S B o σ n) (σ n)

theorem firstActs_succ (σ : Nat → Act) (n : Nat) : firstActs σ (n + 1) = firstActs σ n ++ [σ n] := by
  unfold firstActs
  rw [List.range_succ, List.map_append]
  rfl

theorem exists_above (l : List Nat) : ∃ b, ∀ x ∈ l, x < b := by
  induction l with
  | nil => exact ⟨0, by simp⟩
  | cons a l ih =>
    obtain ⟨b, hb⟩ := ih
    refine ⟨max (a + 1) b, fun x hx => ?_⟩
    rcases List.mem_cons.mp hx with rfl | hx
    · omega
    · have := hb x hx; omega

theorem exists_idle {c : Cfg Piece} {s : St Piece} (h : Known c s) : ∃ u, s.pc u = .idle := by
  obtain ⟨b, hb⟩ := exists_above (worker :: s.calls.map Prod.fst)
  refine ⟨b, Classical.byContradiction fun hx => ?_⟩
  rcases h b hx with h1 | ⟨_, h1⟩
  · exact absurd (hb b (List.mem_cons_of_mem _ h1)) (Nat.lt_irrefl _)
  · exact absurd (hb b (h1 ▸ List.mem_cons_self ..)) (Nat.lt_irrefl _)

/-- Steps of a thread until it makes one for the ring. -/
def stutter (len pos : Nat) : FlushPc → Nat
  | .off => len - pos
  | .look j => 2 * (len - j) + 1 + (len + 1)
  | .call j _ => 2 * (len - j) + (len + 1)

/-- Steps of the thread of an async channel until `flush_count` changes or its round ends. -/
def roundRank (len pos e : Nat) : PC Piece → Nat
  | .cSet => 1
  | .cEnd => 2
  | .cBytes _ => 1
  | .cStat _ => 2
  | .cClear _ => 3
  | .cDisp _ => 4 + (len - pos)
  | .cCas _ => len + 5
  | .cWrite _ => len + 6
  | .cLoad => len + 7
  | .rProc _ => if e = 0 then len + 8 else len + 12
  | .rLoad => if e = 0 then len + 9 else len + 13
  | .rCas _ => len + 10
  | .rMark _ => len + 11
  | _ => 0

/-- Steps of the thread of an async channel until its buffers are empty. -/
def flushRank (len queue count pos e : Nat) (p : PC Piece) : FlushPc → Nat
  | .off => 2 * len + 2 + (queue + 2 - count) * (len + 14) + roundRank len pos e p
  | .look j => 2 * (len - j) + 1
  | .call j _ => 2 * (len - j)

theorem roundRank_le (len pos e : Nat) (p : PC Piece) : roundRank len pos e p ≤ len + 13 := by
  cases p <;> simp only [roundRank] <;> (try split) <;> omega

/-- The thread of an async channel has nothing in the buffers. -/
def Flushed (S : Setup) (f : FCrew) : Prop :=
  (f.fl worker = .off ∧ f.crew.ring.pc worker = .cLoop) ∨ ∃ i, S.channel.devices.length ≤ i ∧ f.fl worker = .look i

/-- A step of the ring by the thread of an async channel. -/
theorem round_step {S : Setup} {B : Stdio} {s : St Piece} (hi : Inv S.cfg s) (ho : Ord S.cfg s)
    (hn : NS S.cfg s) {len count pos pos' : Nat} (hb : count ≤ B.queue + counted (s.pc worker))
    (hd : ∀ k, s.pc worker = .cDisp k → len ≤ pos) (hc : s.pc worker ≠ .cLoop) :
    let q := (stepT S.cfg s worker).pc worker
    let r := flushAfter B count (s.pc worker) q
    (r.2 = .off ∧ q = .cLoop) ∨
    flushRank len B.queue r.1 pos' ((stepT S.cfg s worker).P - (stepT S.cfg s worker).R) q r.2 <
      flushRank len B.queue count pos (s.P - s.R) (s.pc worker) .off := by
  have h1 := hi.leRP
  have h2 := hi.lePW
  have h3 := hi.leWH
  have h4 := hi.cap
  have hpcw := ho.pcw
  have hwk := hn.wk worker
  have hst := hn.st
  have hRP : s.R < s.P → s.R % S.cfg.L ≠ s.P % S.cfg.L := fun h5 h6 => by
    have := mod_inj h6 (by omega) (by omega); omega
  have hmul : count ≤ B.queue → (B.queue + 2 - count) * (len + 14) = (B.queue + 2 - (count + 1)) * (len + 14) + (len + 14) := by
    intro hx
    rw [← Nat.succ_mul]
    congr 1
    omega
  unfold Ring.stepT
  cases hpc : s.pc Ring.worker <;> rw [hpc] at hpcw hwk hb hd hc <;>
    simp only [OrdPC, wkOk] at hpcw hwk <;>
    (try contradiction) <;> (try dsimp only) <;> (repeat' split)
  all_goals
    (try simp only [go_pc, go_P, go_R, if_true, flushAfter])
  all_goals (try simp only [flushRank, roundRank, counted] at hb ⊢)
  all_goals first
    | (right; omega)
    | (right; have hm := hmul (by omega); split <;> omega)
    | (right; (repeat' split) <;> omega)
    | (right
       by_cases hq : count > B.queue
       · simp only [if_pos hq]; (repeat' split) <;> omega
       · simp only [if_neg hq]; (repeat' split) <;> omega)
    | (by_cases hq : count = 0
       · left; subst hq; exact ⟨rfl, trivial⟩
       · right; simp only [ne_eq, hq, not_false_eq_true, if_true]; omega)
    | (obtain ⟨e1, e2⟩ := hpcw; subst e1; exact absurd rfl (by assumption))
    | (rename_i hx
       right
       obtain ⟨e1, e2⟩ := hpcw
       subst e1
       have : s.P ≠ s.R := fun y => hx (by rw [y])
       rw [if_neg (by omega)]
       omega)

namespace Reach

variable {S : Setup} {B : Stdio} {o : OutSt} {σ : Nat → Act}

theorem reached (h : Reach S B o σ) (n : Nat) : ∃ (rs : List Act) (s : Crew), FAt S B o σ n (fNow S B o σ n) ∧
    rs.Sublist (firstActs σ n) ∧ (∀ t, statementsOf t rs = statementsOf t (firstActs σ n)) ∧ OnTime S rs (crew S o) ∧
    acts S rs (crew S o) = some s ∧ FInv S B o (fNow S B o σ n) s := by
  obtain ⟨f, rs, s, h1, h2, h3, h4, h5, h6⟩ := (FInv.init B h.ready h.own h.ex).acts h.ready h.apart (h.guarded.imp id (· n))
    (fun e he => by obtain ⟨i, _, rfl⟩ := List.mem_map.mp he; exact h.endless.sound i) (h.endless.onTime n)
  have e : fNow S B o σ n = f := by unfold fNow; rw [h1]; rfl
  rw [e]
  exact ⟨rs, s, h1, h2, h3, h4, h5, h6⟩

theorem here (h : Reach S B o σ) (n : Nat) : FAt S B o σ n (fNow S B o σ n) := by
  obtain ⟨_, _, h1, _⟩ := h.reached n
  exact h1

theorem next (h : Reach S B o σ) (n : Nat) : fAct S B (fNow S B o σ n) (σ n) = some (fNow S B o σ (n + 1)) := by
  have h1 : fActs S B (firstActs σ n) (fCrew S o) = some (fNow S B o σ n) := h.here n
  have h2 : fActs S B (firstActs σ (n + 1)) (fCrew S o) = some (fNow S B o σ (n + 1)) := h.here (n + 1)
  rw [firstActs_succ, fActs_append, h1] at h2
  simp only [Option.bind_some, fActs, Option.bind_eq_bind] at h2
  cases hx : fAct S B (fNow S B o σ n) (σ n) with
  | none => rw [hx] at h2; cases h2
  | some x => rw [hx] at h2; exact h2

theorem timelyNow (h : Reach S B o σ) (n t : Nat) (ht : σ n = .run t) (hoff : (fNow S B o σ n).fl t = .off) :
    timelyAt S.cfg (fNow S B o σ n).crew.ring t := by
  have h1 := h.endless.onTime (n + 1)
  rw [firstActs_succ] at h1
  exact ((fOnTime_append h1).2 _ (h.here n)).1 t ht hoff

theorem ring (h : Reach S B o σ) (n : Nat) :
    stateAt S.cfg (ringSched S B o σ) n = (fNow S B o σ n).crew.ring := by
  induction n with
  | zero => rfl
  | succ n ih =>
    have hk := known_at S.cfg (ringSched S B o σ) n
    rw [ih] at hk
    rw [stateAt_succ, ih]
    exact (ringEv_step (exists_idle hk) (h.next n)).symm

theorem inv (h : Reach S B o σ) (n : Nat) : ∃ s, FInv S B o (fNow S B o σ n) s := by
  obtain ⟨_, s, _, _, _, _, _, h1⟩ := h.reached n
  exact ⟨s, h1⟩

theorem posLe (h : Reach S B o σ) (n t : Nat) : (fNow S B o σ n).crew.pos t ≤ S.channel.devices.length := by
  obtain ⟨s, hs⟩ := h.inv n
  rw [hs.rel.pos]
  exact hs.crew.posLe t

/-- A thread inside a log statement makes a step of the ring at some time. -/
theorem ringFair (h : Reach S B o σ) : Fair S.cfg (ringSched S B o σ) := by
  intro t n hn
  refine Classical.byContradiction fun hno => ?_
  have hno' : ∀ m, n ≤ m → ringSched S B o σ m ≠ .run t := fun m hm hx => hno ⟨m, hm, hx⟩
  have hpc : ∀ m, n ≤ m → (stateAt S.cfg (ringSched S B o σ) m).pc t ≠ .idle := by
    intro m hm
    obtain ⟨d, rfl⟩ := Nat.le.dest hm
    clear hm
    induction d with
    | zero => exact hn
    | succ d ih =>
      rw [← Nat.add_assoc, stateAt_succ, step_pc_other (hno' _ (by omega)) ih]
      exact ih
  suffices hx : ∃ m, n ≤ m ∧ False by obtain ⟨m, _, hm⟩ := hx; exact hm
  refine fair_rank (σ := fun i => (match σ i with | .run u => Ev.run u | _ => .started : Ev Unit)) (t := t)
    (I := fun i => n ≤ i) (G := fun _ => False)
    (r := fun i => stutter S.channel.devices.length ((fNow S B o σ i).crew.pos t) ((fNow S B o σ i).fl t)) ?_ ?_ ?_ n
    (Nat.le_refl _)
  · intro i hi
    obtain ⟨m, hm, hs⟩ := h.endless.fair t i _ (h.here i) (by rw [← h.ring i]; exact hpc i hi)
    exact ⟨m, hm, by rw [hs]⟩
  · intro i hi he
    have he' : σ i ≠ .run t := fun x => he (by rw [x])
    obtain ⟨h1, _, h3⟩ := fAct_others he' (h.next i)
    right
    refine ⟨by omega, ?_⟩
    rw [h1, h3]
    exact Nat.le_refl _
  · intro i hi he
    have he' : σ i = .run t := by
      cases hx : σ i with
      | run u => rw [hx] at he; cases he; rfl
      | _ => rw [hx] at he; cases he
    right
    refine ⟨by omega, ?_⟩
    have hnext := h.next i
    rw [he'] at hnext
    have hle := h.posLe (i + 1) t
    rcases fRun_cases hnext with ⟨h0, _, h2, _, _, h5⟩ | ⟨h0, ⟨k, d, h1, h2⟩, _, h4, _, h6⟩ | ⟨h0, h1, _⟩
    · rw [h2] at hle ⊢
      obtain ⟨s, hs⟩ := h.inv i
      cases hfl : (fNow S B o σ i).fl t with
      | off => exact absurd hfl h0
      | look j =>
        rw [hfl] at h5
        rcases h5 with ⟨_, h5⟩ | ⟨h6, ⟨g, h5⟩ | h5⟩ <;> rw [h5] <;> simp only [stutter] <;> omega
      | call j g =>
        rw [hfl] at h5
        have h5' : (fNow S B o σ (i + 1)).fl t = .look (j + 1) := h5
        obtain ⟨d, hd, _⟩ := hs.dev t j g hfl
        have hj : j < S.channel.devices.length := (List.getElem?_eq_some_iff.mp hd).1
        rw [h5']
        simp only [stutter]
        omega
    · have hlt := (List.getElem?_eq_some_iff.mp h2).1
      rw [h6, h0, h4, upd_same]
      simp only [stutter]
      omega
    · refine absurd ?_ (hno' i hi)
      unfold ringSched
      rw [he']
      simp only [ringEv]
      rw [if_pos ⟨h0, h1⟩]

theorem ringEndless (h : Reach S B o σ) : Endless S.cfg (ringSched S B o σ) where
  big := h.ready.slots
  timely := timely_pointwise fun n => by
    rw [h.ring]
    exact ringEv_timely fun t ht hoff => h.timelyNow n t ht hoff
  noStop := fun n => ringEv_noStop (h.endless.noStop n)
  fair := h.ringFair


theorem ord (h : Reach S B o σ) (hA : S.cfg.async = true) (n : Nat) : Ord S.cfg (fNow S B o σ n).crew.ring := by
  rw [← h.ring]; exact h.ringEndless.ord hA n

theorem ringInv (h : Reach S B o σ) (n : Nat) : Inv S.cfg (fNow S B o σ n).crew.ring := by
  rw [← h.ring]; exact h.ringEndless.inv n

theorem ns (h : Reach S B o σ) (n : Nat) : NS S.cfg (fNow S B o σ n).crew.ring := by
  rw [← h.ring]; exact h.ringEndless.ns n

/-- The steps of the others do not change what the thread of an async channel has to do. -/
theorem others (h : Reach S B o σ) (hA : S.cfg.async = true) {n : Nat} (he : σ n ≠ .run worker) :
    (fNow S B o σ (n + 1)).crew.ring.pc worker = (fNow S B o σ n).crew.ring.pc worker ∧
    (fNow S B o σ (n + 1)).crew.ring.P = (fNow S B o σ n).crew.ring.P ∧
    (fNow S B o σ (n + 1)).crew.ring.R = (fNow S B o σ n).crew.ring.R := by
  have hw : (fNow S B o σ n).crew.ring.pc worker ≠ .idle := fun x => by
    have := (h.ord hA n).pcw
    rw [x] at this
    exact this
  have hne := ringEv_run (S := S) hw he
  have hi := h.ringInv n
  have hs : (fNow S B o σ (n + 1)).crew.ring = Ring.step S.cfg (fNow S B o σ n).crew.ring (ringEv S (fNow S B o σ n) (σ n)) := by
    have hk := known_at S.cfg (ringSched S B o σ) n
    rw [h.ring] at hk
    exact ringEv_step (exists_idle hk) (h.next n)
  refine ⟨by rw [hs]; exact step_pc_other hne hw, ?_⟩
  rw [hs]
  generalize ringEv S (fNow S B o σ n) (σ n) = e at hne
  generalize (fNow S B o σ n).crew.ring = s at hne hi
  cases e with
  | run t =>
    have ht : t ≠ worker := fun x => hne (by rw [x])
    have hf := frame_stepT hi (t := t) (by
      by_cases hc : isCons (s.pc t) = true
      · exact absurd (hi.consTid hA t hc) ht
      · simpa using hc)
    exact ⟨hf.P, hf.R⟩
  | call t b => simp only [Ring.step]; (repeat' split) <;> exact ⟨rfl, rfl⟩
  | started => simp only [Ring.step]; (repeat' split) <;> exact ⟨rfl, rfl⟩
  | closing => exact ⟨rfl, rfl⟩
  | stop => simp only [Ring.step]; (repeat' split) <;> exact ⟨rfl, rfl⟩

/-- The thread of an async channel empties the buffers again and again. -/
theorem flushed (h : Reach S B o σ) (hA : S.cfg.async = true) (n : Nat) : ∃ m, n ≤ m ∧ Flushed S (fNow S B o σ m) := by
  by_cases h0 : Flushed S (fNow S B o σ n)
  · exact ⟨n, Nat.le_refl _, h0⟩
  refine fair_rank (σ := fun i => (match σ i with | .run u => Ev.run u | _ => .started : Ev Unit)) (t := worker)
    (I := fun i => ¬ Flushed S (fNow S B o σ i)) (G := fun i => Flushed S (fNow S B o σ i))
    (r := fun i => flushRank S.channel.devices.length B.queue ((fNow S B o σ i).count worker) ((fNow S B o σ i).crew.pos worker)
      ((fNow S B o σ i).crew.ring.P - (fNow S B o σ i).crew.ring.R) ((fNow S B o σ i).crew.ring.pc worker)
      ((fNow S B o σ i).fl worker)) ?_ ?_ ?_ n h0
  · intro i _
    obtain ⟨m, hm, hs⟩ := h.endless.fair worker i _ (h.here i) (fun x => by
      have := (h.ord hA i).pcw
      rw [x] at this
      exact this)
    exact ⟨m, hm, by rw [hs]⟩
  · intro i hi he
    have he' : σ i ≠ .run worker := fun x => he (by rw [x])
    obtain ⟨h1, h2, h3⟩ := fAct_others he' (h.next i)
    obtain ⟨h4, h5, h6⟩ := h.others hA he'
    right
    refine ⟨?_, ?_⟩
    · unfold Flushed
      rw [h3, h4]
      exact hi
    · rw [h1, h2, h3, h4, h5, h6]
      exact Nat.le_refl _
  · intro i hi he
    have he' : σ i = .run worker := by
      cases hx : σ i with
      | run u => rw [hx] at he; cases he; rfl
      | _ => rw [hx] at he; cases he
    by_cases hg : Flushed S (fNow S B o σ (i + 1))
    · exact Or.inl hg
    right
    refine ⟨hg, ?_⟩
    have hnext := h.next i
    rw [he'] at hnext
    obtain ⟨s, hs⟩ := h.inv i
    rcases fRun_cases hnext with ⟨h0, _, _, _, _, h5⟩ | ⟨h0, ⟨k, d, h1, h2⟩, h3, h4, h5, h6⟩ | ⟨h0, h1, h2, _, h4, h5, _⟩
    · cases hfl : (fNow S B o σ i).fl worker with
      | off => exact absurd hfl h0
      | look j =>
        rw [hfl] at h5
        rcases h5 with ⟨h6, _⟩ | ⟨h6, ⟨g, h5⟩ | h5⟩
        · exact absurd (Or.inr ⟨j, h6, hfl⟩) hi
        · rw [h5]; simp only [flushRank]; omega
        · rw [h5]; simp only [flushRank]; omega
      | call j g =>
        rw [hfl] at h5
        have h5' : (fNow S B o σ (i + 1)).fl worker = .look (j + 1) := h5
        obtain ⟨d, hd, _⟩ := hs.dev worker j g hfl
        have hj : j < S.channel.devices.length := (List.getElem?_eq_some_iff.mp hd).1
        rw [h5']
        simp only [flushRank]
        omega
    · have hlt := (List.getElem?_eq_some_iff.mp h2).1
      rw [h3, h4, h5, h6, upd_same, h0, h1]
      simp only [flushRank, roundRank]
      omega
    · have hc : (fNow S B o σ i).crew.ring.pc worker ≠ .cLoop := fun x => hi (Or.inl ⟨h0, x⟩)
      have key := round_step (B := B) (h.ringInv i) (h.ord hA i) (h.ns i) (len := S.channel.devices.length)
        (pos := (fNow S B o σ i).crew.pos worker) (pos' := (fNow S B o σ (i + 1)).crew.pos worker)
        (hs.tidy.bound worker) (fun k hk => List.getElem?_eq_none_iff.mp (h1 k hk)) hc
      rw [← h2] at key
      simp only at key
      rw [← h4, ← h5] at key
      rw [h0]
      rcases key with key | key
      · exact absurd (Or.inl key) hg
      · exact key

/-- When the thread of an async channel has emptied the buffers, nothing is in them. -/
theorem empty (h : Reach S B o σ) (hA : S.cfg.async = true) {n : Nat} (hf : Flushed S (fNow S B o σ n)) (j : Nat) :
    (fNow S B o σ n).buf j = [] := by
  obtain ⟨s, hs⟩ := h.inv n
  by_cases hj : j < S.channel.devices.length
  · refine lagOf_all fun t => ?_
    have hl := hs.tidy.lag t j
    by_cases ht : t = worker
    · subst ht
      rcases hf with ⟨h1, h2⟩ | ⟨i, h1, h2⟩
      · have hc : (fNow S B o σ n).count worker = 0 := Classical.byContradiction fun hx => by
          have := hs.tidy.cnt worker hx
          rw [h2] at this
          cases this
        rw [h1, h2, hc] at hl
        simpa [allowed, owing] using hl
      · rw [h2] at hl
        simp only [allowed] at hl
        rw [if_neg (by omega)] at hl
        omega
    · have hcons : isCons ((fNow S B o σ n).crew.ring.pc t) = false := by
        cases hc : isCons ((fNow S B o σ n).crew.ring.pc t) with
        | true => exact absurd ((h.ringInv n).consTid hA t hc) ht
        | false => rfl
      have hoff : (fNow S B o σ n).fl t = .off := Classical.byContradiction fun hx => by
        rcases (hs.tidy.look t hx).1 with y | y <;> rw [y] at hcons <;> cases hcons
      have hc : (fNow S B o σ n).count t = 0 := Classical.byContradiction fun hx => by
        have := hs.tidy.cnt t hx
        cases hp : (fNow S B o σ n).crew.ring.pc t <;> rw [hp] at this hcons <;> simp [inRound, isCons] at this hcons
      rw [hoff, hc] at hl
      have ho : owing ((fNow S B o σ n).crew.pos t) j ((fNow S B o σ n).crew.ring.pc t) = 0 := by
        cases hp : (fNow S B o σ n).crew.ring.pc t <;> rw [hp] at hcons <;> simp [owing, isCons] at hcons ⊢
      simp only [allowed, ho] at hl
      omega
  · exact hs.rel.noBuf j fun d hd => absurd (List.getElem?_eq_some_iff.mp hd).1 hj

/-- The thread is then not dispatching. -/
theorem between (h : Reach S B o σ) {n : Nat} (hf : Flushed S (fNow S B o σ n)) (k : Nat) :
    (fNow S B o σ n).crew.ring.pc worker ≠ .cDisp k := by
  obtain ⟨s, hs⟩ := h.inv n
  rcases hf with ⟨_, h2⟩ | ⟨i, _, h2⟩
  · rw [h2]; nofun
  · rcases (hs.tidy.look worker (by rw [h2]; nofun)).1 with y | y <;> rw [y] <;> nofun

end Reach

end FNLog
