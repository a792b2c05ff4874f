import Verif.Proof.ApiWorker
import Verif.Proof.ApiLive
import Verif.Spec.Late

/-! # Lemmas for C114: the life cycle while statements are in progress -/

namespace FNLog.Api
open FNLog.Ring (upd upd_same upd_ne)
open FNLog.Spec

/-! ## What holds whatever the statements do -/

/-- What a thread that has the lock knows about what was brought about. -/
def XHere (s : St) (t : Nat) : Pc → Prop
  | .stMark _ => 0 < s.size
  | .stUnlock _ true | .whUnlock true => s.done.getLast? = some (.started t)
  | .spUnlock true => s.done.getLast? = some (.stopped t)
  | .inUnlock _ true => s.done.getLast? = some (.loaded t)
  | _ => True

structure XInv (s : St) : Prop where
  w : WInv s
  here : ∀ t, XHere s t (s.pc t)
  term : s.terminate = false
  hist : Hist s

theorem XHere.frame {s s' : St} {t : Nat} {p : Pc} (h : XHere s t p) (h1 : s'.size = s.size) (h2 : s'.done = s.done) : XHere s' t p := by
  unfold XHere at h ⊢
  rw [h1, h2]
  exact h

theorem XHere.low {s : St} {t : Nat} {p : Pc} (h : p.depth = 0) : XHere s t p := by
  cases p <;> first | trivial | (cases h; done) | skip

theorem Hist.frame {s s' : St} (h : Hist s) (h1 : s'.size = s.size) (h2 : s'.done = s.done) (h3 : s'.state = s.state) : Hist s' := by
  unfold Hist at h ⊢
  rw [h1, h2, h3]
  exact h

theorem xHere_startRet {s : St} {t : Nat} {o ok : Bool} (h : ok = true → s.done.getLast? = some (.started t)) : XHere s t (startRet o ok) := by
  cases o <;> cases ok <;> first | trivial | exact h rfl

theorem xHere_initRet {s : St} {t : Nat} {o ok : Bool} : XHere s t (initRet o ok) := by
  cases o <;> cases ok <;> trivial

theorem XHere.run {s : St} {t : Nat} (h : WHere s (s.pc t)) (hx : XHere s t (s.pc t)) (ht : s.terminate = false) (hh : Hist s) (e : Env) :
    XHere (runT s t e) t ((runT s t e).pc t) ∧ (runT s t e).terminate = false ∧ Hist (runT s t e) := by
  have g : ∀ (s' : St) (p : Pc), XHere s' t p → s'.terminate = false → Hist s' →
      XHere (s'.goto t p) t ((s'.goto t p).pc t) ∧ (s'.goto t p).terminate = false ∧ Hist (s'.goto t p) := by
    intro s' p h1 h2 h3
    rw [goto_pc]
    exact ⟨h1.frame rfl rfl, h2, h3⟩
  have hl : ∀ p, XHere s t p → XHere (locked s t p) t ((locked s t p).pc t) ∧ (locked s t p).terminate = false ∧ Hist (locked s t p) := by
    intro p hp
    unfold locked
    split
    · exact g _ _ (hp.frame rfl rfl) ht hh
    · exact ⟨hx, ht, hh⟩
  unfold runT
  cases hp : s.pc t <;> rw [hp] at h hx <;> dsimp only
  case idle => rw [hp]; exact ⟨trivial, ht, hh⟩
  case hot x =>
    obtain ⟨a1, a2, a3, a4, a5, a6, a7, a8, _⟩ := hotStep_pc s (.api t) e x
    refine g _ _ ?_ (a8.trans ht) (hh.frame a5 a7 a4)
    split <;> trivial
  case stState o =>
    refine g _ _ ?_ ht hh
    split
    · trivial
    · exact xHere_startRet nofun
  case stShm o =>
    refine g _ _ ?_ ht hh
    split
    · trivial
    · exact xHere_startRet nofun
  case stLock o => exact hl _ trivial
  case stState2 o =>
    refine g _ _ ?_ ht hh
    split <;> trivial
  case stSize o =>
    refine g _ _ ?_ ht hh
    split
    · assumption
    · trivial
  case stMark o =>
    refine g _ _ trivial ht ?_
    obtain ⟨l, hs, hm⟩ := hh
    rw [h.1] at hm
    refine ⟨l, hs, ?_⟩
    cases l with
    | empty => exact absurd (hm.2 rfl) (Nat.ne_of_gt hx)
    | stopped => rfl
    | running => exact absurd rfl hm.1
  case stChan o i =>
    split
    · split
      · refine g _ _ trivial ?_ (hh.frame rfl rfl rfl)
        show (s.terminate || decide (s.worker i ≠ Worker.none)) = false
        rw [ht, h.2 i (Nat.le_refl _)]; rfl
      · exact g _ _ trivial ht (hh.frame rfl rfl rfl)
    · exact g _ _ trivial ht hh
  case stPoll o i n =>
    refine g _ _ ?_ ht hh
    split <;> trivial
  case stNull o i =>
    refine g _ _ ?_ ht hh
    split <;> trivial
  case stRun o i =>
    refine g _ _ ?_ ht hh
    split <;> trivial
  case stDone o =>
    refine g _ _ (List.getLast?_concat) ht ?_
    obtain ⟨l, hs, hm⟩ := hh
    have h : s.state = .initing := h
    rw [h] at hm
    have hm : l = .stopped := hm
    subst hm
    exact ⟨.running, hs.snoc (.start t), rfl⟩
  case stFail o =>
    refine g _ _ trivial ht ?_
    obtain ⟨l, hs, hm⟩ := hh
    rw [h.1] at hm
    have hm : l = .stopped := hm
    subst hm
    exact ⟨.stopped, hs, nofun, nofun⟩
  case stUnlock o ok =>
    refine g _ _ (xHere_startRet fun hok => ?_) ht (hh.frame rfl rfl rfl)
    subst hok
    exact hx
  case spSize =>
    refine g _ _ ?_ ht (hh.frame rfl rfl rfl)
    split <;> trivial
  case spState =>
    refine g _ _ ?_ ht hh
    split <;> trivial
  case spLock => exact hl _ trivial
  case spState2 =>
    refine g _ _ ?_ ht hh
    split <;> trivial
  case spMark =>
    refine g _ _ trivial ht ?_
    obtain ⟨l, hs, hm⟩ := hh
    have h : s.state = .running := h
    rw [h] at hm
    exact ⟨l, hs, hm⟩
  case spDone =>
    refine g _ _ (List.getLast?_concat) ht ?_
    obtain ⟨l, hs, hm⟩ := hh
    rw [h.1] at hm
    have hm : l = .running := hm
    subst hm
    exact ⟨.stopped, hs.snoc (.stop t), nofun, nofun⟩
  case spUnlock ok => exact g _ _ trivial ht (hh.frame rfl rfl rfl)
  case scChan u i =>
    split
    · split
      · refine g _ _ ?_ ht hh
        split <;> trivial
      · exact g _ _ trivial ht (hh.frame rfl rfl rfl)
    · refine g _ _ ?_ ht hh
      cases u <;> trivial
  case scState u i =>
    refine g _ _ ?_ ht hh
    split <;> trivial
  case scMark u i => exact g _ _ trivial ht (hh.frame rfl rfl rfl)
  case scJoin u i =>
    split
    · exact g _ _ trivial ht (hh.frame rfl rfl rfl)
    · rw [hp]; exact ⟨trivial, ht, hh⟩
  case scNull u i => exact g _ _ trivial ht (hh.frame rfl rfl rfl)
  case inState o x =>
    cases x with
    | none => exact g _ _ xHere_initRet ht hh
    | some x =>
      refine g _ _ ?_ ht hh
      split
      · trivial
      · exact xHere_initRet
  case inLock o x => exact hl _ trivial
  case inState2 o x =>
    refine g _ _ ?_ ht hh
    split <;> trivial
  case inLoad o x =>
    obtain ⟨l, hs, hm⟩ := hh
    rw [h.1] at hm
    split
    · by_cases hz : 0 < x.size
      · refine g _ _ ?_ ht ?_
        · rw [decide_eq_true hz]
          show List.getLast? (if 0 < x.size then _ else _) = _
          rw [if_pos hz]
          exact List.getLast?_concat
        · refine ⟨.stopped, ?_, ?_⟩
          · show Sessions _ (if 0 < x.size then _ else _) _
            rw [if_pos hz]
            cases l with
            | empty => exact hs.snoc (.load t)
            | stopped => exact hs.snoc (.reload t)
            | running => exact absurd rfl hm.1
          · show match s.state with
              | .running | .closing => Life.stopped = .running
              | .initing => Life.stopped = .stopped
              | .uninit => Life.stopped ≠ .running ∧ (Life.stopped = .empty → x.size = 0)
            rw [h.1]
            exact ⟨nofun, nofun⟩
      · refine g _ _ ?_ ht ?_
        · rw [decide_eq_false hz]; trivial
        · refine ⟨l, ?_, ?_⟩
          · show Sessions _ (if 0 < x.size then _ else _) _
            rw [if_neg hz]; exact hs
          · show match s.state with
              | .running | .closing => l = .running
              | .initing => l = .stopped
              | .uninit => l ≠ .running ∧ (l = .empty → x.size = 0)
            rw [h.1]
            exact ⟨hm.1, fun _ => by omega⟩
    · refine g _ _ trivial ht ⟨l, hs, ?_⟩
      show match s.state with
        | .running | .closing => l = .running
        | .initing => l = .stopped
        | .uninit => l ≠ .running ∧ (l = .empty → s.size = 0)
      rw [h.1]
      exact hm
  case inUnlock o ok => exact g _ _ xHere_initRet ht (hh.frame rfl rfl rfl)
  case whState p x =>
    refine g _ _ ?_ ht hh
    split <;> trivial
  case whLock p x =>
    refine hl _ ?_
    split <;> trivial
  case whState2 x =>
    refine g _ _ ?_ ht hh
    split <;> trivial
  case whUnlock ok => exact g _ _ trivial ht (hh.frame rfl rfl rfl)

theorem XInv.runT {s : St} (h : XInv s) (t : Nat) (e : Env) : XInv (runT s t e) := by
  have hw := h.w.runT t e
  by_cases hu : ∃ u, u ≠ t ∧ 0 < (s.pc u).depth
  · obtain ⟨u, hne, hu⟩ := hu
    obtain ⟨p, n, hd, he⟩ := quiet h.w.lock hne hu e
    rw [he] at hw ⊢
    refine ⟨hw, fun v => ?_, h.term, h.hist.frame rfl rfl rfl⟩
    dsimp only
    by_cases hv : v = t
    · subst hv
      rw [upd_same]
      exact XHere.low hd
    · rw [upd_ne _ _ hv]
      exact (h.here v).frame rfl rfl
  · have hz : ∀ u, u ≠ t → (s.pc u).depth = 0 := fun u hne => Nat.eq_zero_of_not_pos (fun k => hu ⟨u, hne, k⟩)
    have hk : WHere s (s.pc t) := by
      by_cases hd : 0 < (s.pc t).depth
      · exact h.w.here t hd
      · refine (wHere_out (by omega)).2 (h.w.outside (fun v => ?_))
        by_cases hv : v = t
        · subst hv; omega
        · exact hz v hv
    obtain ⟨k1, k2, k3⟩ := XHere.run hk (h.here t) h.term h.hist e
    refine ⟨hw, fun v => ?_, k2, k3⟩
    by_cases hv : v = t
    · subst hv; exact k1
    · rw [run_pc_other _ _ hv]
      exact XHere.low (hz v hv)

theorem XInv.workI {s : St} (h : XInv s) (i : Nat) (e : Env) : XInv (workI s i e) := by
  obtain ⟨f1, f2, f3, f4, f5, f6, f7⟩ := work_frame s i e
  refine ⟨h.w.workI i e, fun t => ?_, f6.trans h.term, h.hist.frame f2 f4 f1⟩
  rw [f5]
  exact (h.here t).frame f2 f4

theorem XInv.call {s : St} (h : XInv s) (t : Nat) (c : Call) : XInv (Api.step s (.call t c)) := by
  have hw := h.w.call t c
  simp only [Api.step] at hw ⊢
  split at hw
  · refine ⟨hw, fun v => ?_, h.term, h.hist.frame rfl rfl rfl⟩
    by_cases hv : v = t
    · subst hv
      rw [goto_pc]
      exact XHere.low (call_depth c)
    · rw [goto_pc_ne _ _ hv]
      exact (h.here v).frame rfl rfl
  · exact h

theorem XInv.init : XInv {} := ⟨WInv.init, fun _ => trivial, rfl, .empty, .nil _, nofun, fun _ => rfl⟩

theorem XInv.lstep {s : LSt} (h : XInv s.api) (e : LEv) : XInv (lstep s e).api := by
  cases e with
  | api e =>
    cases e with
    | call t c =>
      simp only [Api.lstep]
      split
      · exact h.call t c
      · exact h
    | work i e => exact h.workI i e
    | run t e => exact h.runT t e
  | say t i =>
    simp only [Api.lstep]
    split <;> exact h
  | go t e =>
    show XInv (logT s t e).api
    unfold logT
    cases s.log t <;> dsimp only
    case run i => exact ⟨h.w.frame rfl rfl rfl rfl rfl rfl, fun t => (h.here t).frame rfl rfl, h.term, h.hist.frame rfl rfl rfl⟩
    case tail i => exact h.call t .hot
    all_goals exact h
  | destroy t =>
    simp only [Api.lstep]
    split <;> exact h
  | dtor =>
    simp only [Api.lstep, dtorStep]
    split
    · exact h
    · exact h
    · split
      · exact h
      · exact h.call _ .stop
    · split <;> exact h
    · exact ⟨h.w.frame rfl rfl rfl rfl rfl rfl, fun t => (h.here t).frame rfl rfl, h.term, h.hist.frame rfl rfl rfl⟩

theorem xInv (es : List LEv) : XInv (lrun {} es).api := by
  have key : ∀ (es : List LEv) (s : LSt), XInv s.api → XInv (lrun s es).api := by
    intro es
    induction es with
    | nil => intro s h; exact h
    | cons e es ih => intro s h; exact ih _ (h.lstep e)
  exact key es {} XInv.init

end FNLog.Api
