import Verif.Props.Ring
import Verif.Model.Statement

/-! # One thread on a running sync channel -/

namespace FNLog
open Ring

variable {α : Type}

/-- The sync channel is running, no thread is inside a log statement, and only thread `t` has ever logged. -/
def Live (c : Cfg α) (t : Nat) (s : St α) : Prop :=
  c.async = false ∧ ∃ es : List (Ev α), s = after c es ∧ SoloEvents t es ∧ (∀ e ∈ es, e.noStop) ∧ s.pc t = .idle ∧
    s.lgRunning = true

/-- What is known of such a channel. -/
structure Resting (c : Cfg α) (t : Nat) (s : St α) : Prop where
  idle : ∀ u, s.pc u = .idle
  state : s.state = .running
  empty : s.R = s.acquired.length
  out : s.out = s.acquired.mapIdx fun i e => (i, e.2)

theorem solo_quiet {c : Cfg α} (hL : 0 < c.L) (hA : c.async = false) {t0 : Nat} {es : List (Ev α)}
    (hs : SoloEvents t0 es) (hn : ∀ e ∈ es, e.noStop) (hidle : (after c es).pc t0 = .idle) :
    Timely c (init c) es ∧ Resting c t0 (after c es) := by
  have hi0 := Inv.init c hL
  have ht : Timely c (init c) es :=
    timely_of_solo hL hi0 (fun h => Ord.init c h) (Solo.init c t0) hs
  have hi := inv_after hL ht
  obtain ⟨h1, h2⟩ := ns_after hL ht hn
  have key : ∀ (es : List (Ev α)) (s : St α), Inv c s → Solo c t0 s → SyncOrd c t0 s → Timely c s es →
      SoloEvents t0 es → Solo c t0 (run c s es) ∧ SyncOrd c t0 (run c s es) := by
    intro es
    induction es with
    | nil => intro s _ h1 h2 _ _; exact ⟨h1, h2⟩
    | cons e es ih =>
      intro s hi h1 h2 ht hs
      have he := hs e (by simp)
      exact ih _ (hi.step ht.1) (h1.step hi (fun h => by rw [hA] at h; cases h) e he)
        (h2.step hA hi h1 e he) ht.2 (fun e' he' => hs e' (by simp [he']))
  obtain ⟨h3, h4⟩ := key es (init c) hi0 (Solo.init c t0) (SyncOrd.init c hA t0) ht hs
  have hall : ∀ t, (after c es).pc t = .idle := by
    intro t
    by_cases h : t = t0
    · subst h; exact hidle
    · exact h3.1 t h (fun h => by rw [hA] at h; cases h)
  obtain ⟨h5, h6, h7⟩ := all_processed hA hi h1 h2 hall
  have hb : (after c es).base = 0 := base_run c es (init c)
  have ho := h4.out
  rw [show (run c (init c) es).pc t0 = .idle from hidle] at ho
  simp only at ho
  rw [show (run c (init c) es).base = 0 from hb] at ho
  refine ⟨ht, hall, h1.sync hA, by rw [hi.len]; exact h5, ?_⟩
  have h9 : (run c (init c) es).P = (run c (init c) es).H := h6
  have ho' : (after c es).out.map Prod.fst = List.range' 0 (after c es).acquired.length := by
    rw [hi.len]
    show (run c (init c) es).out.map Prod.fst = List.range' 0 (run c (init c) es).H
    rw [ho, h9]
    rfl
  have hlen : (after c es).out.length = (after c es).acquired.length := by
    have := congrArg List.length ho'
    simpa using this
  apply List.ext_getElem?
  intro i
  rw [List.getElem?_mapIdx]
  by_cases hlt : i < (after c es).acquired.length
  · have hlt' : i < (after c es).out.length := by omega
    rw [List.getElem?_eq_getElem hlt', List.getElem?_eq_getElem hlt]
    simp only [Option.map_some, Option.some.injEq]
    have hf : ((after c es).out[i]).1 = i := by
      have h10 : ((after c es).out.map Prod.fst)[i]? = some i := by
        rw [ho', List.getElem?_range' hlt]; simp
      rw [List.getElem?_map, List.getElem?_eq_getElem hlt'] at h10
      simpa using h10
    have hv := hi.outVal _ (List.getElem_mem hlt')
    rw [hf, List.getElem?_eq_getElem hlt] at hv
    simp only [Option.map_some, Option.some.injEq] at hv
    exact Prod.ext hf hv.symm
  · rw [List.getElem?_eq_none (by omega), List.getElem?_eq_none (by omega)]
    rfl

theorem Live.quiet {c : Cfg α} (hL : 0 < c.L) {t : Nat} {s : St α} (h : Live c t s) :
    Resting c t s := by
  obtain ⟨hA, es, rfl, hs, hn, hi, _⟩ := h
  exact (solo_quiet hL hA hs hn hi).2

/-- The channel right after the start of the logger. -/
theorem live_start {c : Cfg α} (hA : c.async = false) (t : Nat) : Live c t (after c [.started]) := by
  have e : after c [.started] = { init c with lgRunning := true } := by
    show step c (init c) .started = _
    unfold step
    rw [if_pos (by simp [init, hA])]
  refine ⟨hA, [.started], rfl, ?_, ?_, ?_, ?_⟩
  · intro e he
    simp only [List.mem_singleton] at he
    subst he
    trivial
  · intro e he
    simp only [List.mem_singleton] at he
    subst he
    trivial
  · rw [e]
    simp [init, hA]
  · rw [e]

/-- A log statement of the thread returns with exactly its line output. -/
theorem live_log {c : Cfg α} (hL : 2 ≤ c.L) {t : Nat} {s : St α} (h : Live c t s)
    (b : List α) {n : Nat} (hn : 100 * c.L + 204 + b.length ≤ n) :
    Live c t (run c s (.call t b :: List.replicate n (.run t))) ∧
    (run c s (.call t b :: List.replicate n (.run t))).pc t = .idle ∧
    (run c s (.call t b :: List.replicate n (.run t))).out = s.out ++ [(s.out.length, b ++ [c.nl])] := by
  have hq := h.quiet (by omega)
  obtain ⟨hA, es, rfl, hs, hns, hi, hlg⟩ := h
  have ht := (solo_quiet (by omega) hA hs hns hi).1
  obtain ⟨h1, h2⟩ := C17_alone_completes c (by omega) es ht t b hq.state hlg hi (by have := hq.empty; omega) n hn
  have hs' : SoloEvents t (es ++ .call t b :: List.replicate n (.run t)) := by
    intro e he
    rcases List.mem_append.mp he with he | he
    · exact hs e he
    · rcases List.mem_cons.mp he with rfl | he
      · rfl
      · obtain rfl := (List.mem_replicate.mp he).2
        trivial
  have hn' : ∀ e ∈ es ++ .call t b :: List.replicate n (.run t), e.noStop := by
    intro e he
    rcases List.mem_append.mp he with he | he
    · exact hns e he
    · rcases List.mem_cons.mp he with rfl | he
      · trivial
      · obtain rfl := (List.mem_replicate.mp he).2
        trivial
  have hq' := (solo_quiet (by omega) hA hs' hn' h1).2
  have hlg' : (after c (es ++ .call t b :: List.replicate n (.run t))).lgRunning = true := by
    have hi' := inv_after (by omega) ht
    have hlen := hi'.len
    have hemp := hq.empty
    obtain ⟨_, _, h4, _⟩ := log_alone b hi' hq.state hlg hi (by omega) (n := n) (by
      have h1 := hi'.leRP
      have h2 := hi'.lePW
      have h3 := hi'.leWH
      have h4 := hi'.cap
      unfold aloneBound; omega)
    have := h4.lg
    rw [hlg] at this
    rw [after, run_append]
    exact this
  rw [← run_append]
  refine ⟨⟨hA, _, rfl, hs', hn', h1, hlg'⟩, h1, ?_⟩
  have h3 := hq'.out
  rw [h2, List.mapIdx_append] at h3
  show (after c (es ++ .call t b :: List.replicate n (.run t))).out = _
  rw [h3, ← hq.out]
  have hl : (after c es).out.length = (after c es).acquired.length := by rw [hq.out, List.length_mapIdx]
  rw [hl]
  simp [Spec.withEnd]

/-- `publish` on such a channel. -/
theorem live_publish {c : Cfg Piece} (hL : 2 ≤ c.L) {t : Nat} {s : St Piece} (h : Live c t s)
    (b : List Piece) : ∃ s', publish c t b s = some s' ∧ Live c t s' ∧ s'.out = s.out ++ [(s.out.length, b ++ [c.nl])] := by
  obtain ⟨h1, h2, h3⟩ := live_log hL h b (n := stepsFor c b) (Nat.le_refl _)
  refine ⟨_, ?_, h1, h3⟩
  unfold publish
  simp only
  rw [h2]

end FNLog
