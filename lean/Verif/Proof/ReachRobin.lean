import Verif.Proof.Reach

/-! # An endless execution: some events, then the threads take turns -/

namespace FNLog
open Spec Ring

/-- The events `pre`, then the threads below `K` take turns for ever. -/
def robinActs (K : Nat) (pre : List Act) (n : Nat) : Act := (pre[n]?).getD (.run (n % K))

/-- The number of log statements. -/
def logsIn : List Act → Nat
  | [] => 0
  | .log _ _ _ :: es => logsIn es + 1
  | _ :: es => logsIn es

/-- The log statements are made by threads below `K`. -/
def logsBelow (K : Nat) : Act → Prop
  | .log t _ _ => t < K
  | _ => True

theorem act_calls {S : Setup} {B : Stdio} {f f' : FCrew} {e : Act} (hi : ∃ u, f.crew.ring.pc u = .idle)
    (h : fAct S B f e = some f') : f'.crew.ring.calls = f.crew.ring.calls ∨
      ∃ t a ops b, e = .log t a ops ∧ f'.crew.ring.calls = f.crew.ring.calls ++ [(t, b)] := by
  have hs := ringEv_step hi h
  have key : ∀ x : Ev Piece, (∀ t b, x ≠ .call t b) → (Ring.step S.cfg f.crew.ring x).calls = f.crew.ring.calls :=
    fun x hx => calls_const hx
  rw [hs]
  cases e with
  | log t a ops =>
    simp only [ringEv]
    split
    · rename_i hr
      split
      · rename_i b _ _
        refine Or.inr ⟨t, a, ops, b, rfl, ?_⟩
        simp only [Ring.step]
        rw [hr.1]
        simp only
        rw [if_pos hr.2]
        rfl
      · exact Or.inl (key _ fun _ _ => idleEv_call)
    · exact Or.inl (key _ fun _ _ => idleEv_call)
  | run t => exact Or.inl (key _ (ringEv_call (S := S) (f := f) (e := .run t) nofun))
  | dates t c => exact Or.inl (key _ (ringEv_call (S := S) (f := f) (e := .dates t c) nofun))
  | started => exact Or.inl (key _ (ringEv_call (S := S) (f := f) (e := .started) nofun))
  | closing => exact Or.inl (key _ (ringEv_call (S := S) (f := f) (e := .closing) nofun))
  | stop => exact Or.inl (key _ (ringEv_call (S := S) (f := f) (e := .stop) nofun))

theorem known_act {S : Setup} {B : Stdio} {f f' : FCrew} {e : Act} (hk : Known S.cfg f.crew.ring)
    (h : fAct S B f e = some f') : Known S.cfg f'.crew.ring := by
  rw [ringEv_step (exists_idle hk) h]
  exact hk.step _

/-- While fewer statements were made than there are slots, every compare-and-swap is timely. -/
theorem timely_few {c : Cfg Piece} {s : St Piece} (hi : Inv c s) (hH : s.H < c.L) (t : Nat) : timelyAt c s t := by
  have h1 := hi.leRP
  have h2 := hi.lePW
  have h3 := hi.leWH
  have hti := hi.ti t
  unfold timelyAt
  cases hp : s.pc t <;> rw [hp] at hti <;> simp only
  all_goals
    intro hx
    simp only [TI] at hti
    exact (mod_inj hx.symm (by omega) (by omega)).symm

theorem few_onTime {S : Setup} {B : Stdio} (hS : Ready S) (hG : Guarded S)
    (hap : FilesApart S.fenv S.channel.id S.channel.devices) {o : OutSt} : ∀ {es : List Act} {f : FCrew} {s : Crew},
    FInv S B o f s → Known S.cfg f.crew.ring → (∀ e ∈ es, SoundAct S e) → f.crew.ring.calls.length + logsIn es < S.cfg.L →
    FOnTime S B es f := by
  intro es
  induction es with
  | nil => intro _ _ _ _ _ _; trivial
  | cons e es ih =>
    intro f s h hk he hl
    have hH : f.crew.ring.H < S.cfg.L := by
      have hp := h.crew.prog
      have hlen := h.crew.ring.len
      rw [← h.rel.ring] at hp hlen
      have : f.crew.ring.acquired.length ≤ f.crew.ring.calls.length := by
        apply length_by_thread
        intro t
        have hx := (hp t).length_le
        simp only [List.length_append, List.length_map, ofThread] at hx
        omega
      omega
    have hT : ∀ t, e = .run t → f.fl t = .off → timelyAt S.cfg f.crew.ring t := fun t _ _ => by
      have hi := h.crew.ring
      rw [← h.rel.ring] at hi
      exact timely_few hi hH t
    refine ⟨hT, fun f' hf => ?_⟩
    obtain ⟨f1, g1, g2⟩ := h.act hS hap (Or.inl hG) (he e (List.mem_cons_self ..)) hT
    rw [hf] at g1
    obtain rfl := Option.some.inj g1
    have hF : ∃ s', FInv S B o f' s' := by
      rcases g2 with ⟨_, _, g2⟩ | ⟨_, s', _, g2⟩
      · exact ⟨s, g2⟩
      · exact ⟨s', g2⟩
    obtain ⟨s', hF⟩ := hF
    refine ih hF (known_act hk hf) (fun x hx => he x (List.mem_cons_of_mem _ hx)) ?_
    rcases act_calls (exists_idle hk) hf with hc | ⟨t, a, ops, b, rfl, hc⟩
    · rw [hc]
      cases e <;> simp only [logsIn] at hl <;> omega
    · rw [hc, List.length_append]
      simp only [logsIn, List.length_cons, List.length_nil] at hl ⊢
      omega

theorem logsIn_append (a b : List Act) : logsIn (a ++ b) = logsIn a + logsIn b := by
  induction a with
  | nil => simp [logsIn]
  | cons e a ih => cases e <;> simp only [List.cons_append, logsIn, ih] <;> omega

theorem logsIn_map {β : Type} (l : List β) (g : β → Act) (h : ∀ x ∈ l, ∃ t, g x = .run t) : logsIn (l.map g) = 0 := by
  induction l with
  | nil => rfl
  | cons x l ih =>
    obtain ⟨t, ht⟩ := h x (List.mem_cons_self ..)
    rw [List.map_cons, ht]
    exact ih fun y hy => h y (List.mem_cons_of_mem _ hy)

theorem robin_log {K : Nat} {pre : List Act} {n : Nat} (h : ∀ t, robinActs K pre n ≠ .run t) : robinActs K pre n ∈ pre := by
  unfold robinActs at h ⊢
  cases hx : pre[n]? with
  | none => rw [hx] at h; exact absurd rfl (h _)
  | some e => exact List.mem_of_getElem? hx

theorem robin_first (K : Nat) (pre : List Act) (n : Nat) :
    firstActs (robinActs K pre) n = pre.take n ++ (List.range (n - pre.length)).map fun i => .run ((pre.length + i) % K) := by
  unfold firstActs
  apply List.ext_getElem?
  intro i
  rw [List.getElem?_map]
  by_cases hi : i < n
  · rw [List.getElem?_range hi]
    show some (robinActs K pre i) = _
    unfold robinActs
    by_cases hp : i < pre.length
    · rw [List.getElem?_append_left (by rw [List.length_take]; omega), List.getElem?_take_of_lt hi,
        List.getElem?_eq_getElem hp]
      rfl
    · rw [List.getElem?_eq_none (by omega), List.getElem?_append_right (by rw [List.length_take]; omega), List.length_take,
        List.getElem?_map, List.getElem?_range (by omega)]
      simp only [Option.getD_none, Option.map_some]
      congr 2
      have : min n pre.length = pre.length := by omega
      rw [this]
      congr 1
      omega
  · rw [List.getElem?_eq_none (by rw [List.length_range]; omega), List.getElem?_eq_none]
    · rfl
    · rw [List.length_append, List.length_take, List.length_map, List.length_range]
      omega

theorem logsIn_take (l : List Act) (n : Nat) : logsIn (l.take n) ≤ logsIn l := by
  have h := logsIn_append (l.take n) (l.drop n)
  rw [List.take_append_drop] at h
  omega

theorem known_acts {S : Setup} {B : Stdio} {K : Nat} (hK : 0 < K) : ∀ {es : List Act} {f f' : FCrew}, Known S.cfg f.crew.ring →
    (∀ e ∈ es, logsBelow K e) → (∀ x ∈ f.crew.ring.calls, x.1 < K) → fActs S B es f = some f' →
    ∀ t, K ≤ t → f'.crew.ring.pc t = .idle := by
  intro es
  induction es with
  | nil =>
    intro f f' hk _ hc hf t ht
    obtain rfl := Option.some.inj hf
    refine Classical.byContradiction fun hx => ?_
    rcases hk t hx with h1 | ⟨_, h1⟩
    · obtain ⟨x, hxm, rfl⟩ := List.mem_map.mp h1
      have := hc x hxm
      omega
    · rw [h1] at ht
      unfold worker at ht
      omega
  | cons e es ih =>
    intro f f' hk hl hc hf
    simp only [fActs, Option.bind_eq_bind] at hf
    cases h1 : fAct S B f e with
    | none => rw [h1] at hf; cases hf
    | some f1 =>
      rw [h1] at hf
      refine ih (known_act hk h1) (fun x hx => hl x (List.mem_cons_of_mem _ hx)) ?_ hf
      rcases act_calls (exists_idle hk) h1 with hc' | ⟨t, a, ops, b, rfl, hc'⟩
      · rw [hc']; exact hc
      · rw [hc']
        intro x hx
        rcases List.mem_append.mp hx with hx | hx
        · exact hc x hx
        · rw [List.mem_singleton.mp hx]
          exact hl _ (List.mem_cons_self ..)

/-- Fewer statements than slots, then the threads take turns. -/
theorem robin_endless {S : Setup} {B : Stdio} (hS : Ready S) (hG : Guarded S)
    (hap : FilesApart S.fenv S.channel.id S.channel.devices) {o : OutSt}
    (ho : Spec.Own S.fenv S.channel.id S.channel.devices o)
    (hex : ∀ (j : Nat) (d : Device) (p : List Char), S.channel.devices[j]? = some d → d.outType = .file →
      (o.dev j).handle = some p → o.fs p ≠ none)
    {K : Nat} (hK : 0 < K) {pre : List Act} (hs : ∀ e ∈ pre, SoundAct S e) (hn : ∀ e ∈ pre, e.noStop)
    (hb : ∀ e ∈ pre, logsBelow K e) (hl : logsIn pre < S.cfg.L) : FEndless S B o (robinActs K pre) := by
  have hcase : ∀ {P : Act → Prop}, (∀ e ∈ pre, P e) → (∀ t, P (.run t)) → ∀ n, P (robinActs K pre n) := by
    intro P h1 h2 n
    by_cases hr : ∃ t, robinActs K pre n = .run t
    · obtain ⟨t, ht⟩ := hr
      rw [ht]
      exact h2 t
    · exact h1 _ (robin_log fun t ht => hr ⟨t, ht⟩)
  have hinit : Known S.cfg (fCrew S o).crew.ring := known_at S.cfg (fun _ => .started) 0
  refine ⟨hcase hs fun _ => trivial, fun n => ?_, hcase hn fun _ => trivial, ?_⟩
  · refine few_onTime hS hG hap (FInv.init B hS ho hex) hinit (fun e he => ?_) ?_
    · obtain ⟨i, _, rfl⟩ := List.mem_map.mp he
      exact hcase hs (fun _ => trivial) i
    · show 0 + _ < _
      rw [robin_first, logsIn_append, logsIn_map _ _ fun x _ => ⟨_, rfl⟩]
      have := logsIn_take pre n
      omega
  · intro t n f hf hpc
    have ht : t < K := by
      refine Nat.lt_of_not_le fun hx => hpc ?_
      refine known_acts (B := B) hK hinit ?_ (by intro x hx; cases hx) hf t hx
      intro e he
      obtain ⟨i, _, rfl⟩ := List.mem_map.mp he
      exact hcase hb (fun _ => trivial) i
    refine ⟨(n + pre.length) * K + t, ?_, ?_⟩
    · have := Nat.le_mul_of_pos_right (n + pre.length) hK
      omega
    · unfold robinActs
      rw [List.getElem?_eq_none]
      · show Act.run _ = _
        rw [Nat.mul_comm, Nat.mul_add_mod, Nat.mod_eq_of_lt ht]
      · have := Nat.le_mul_of_pos_right (n + pre.length) hK
        omega

end FNLog
