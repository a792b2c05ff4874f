import Verif.Proof.RingInv

/-! # Every step preserves the invariant -/

namespace FNLog.Ring
open FNLog

variable {α : Type}

theorem getElem?_append_some {β : Type} {l : List β} {k : Nat} {x y : β} (h : l[k]? = some x) :
    (l ++ [y])[k]? = some x := by
  have := (List.getElem?_eq_some_iff.mp h).1
  rw [List.getElem?_append_left this]; exact h

/-- 461: a successful compare-and-swap on `hold_idx_`. -/
theorem Inv.hold {c : Cfg α} {s : St α} (h : Inv c s) {t i : Nat} {b : List α}
    (hpc : s.pc t = .hCas i s.H b) :
    Inv c ({ s with H := s.H + 1, acquired := s.acquired ++ [(t, b ++ [c.nl])] }.go t (.hInc s.H b)) := by
  have hti := h.ti t
  rw [hpc] at hti
  have hroom : s.H + 1 < s.R + c.L := hti.2 rfl
  have hleWH := h.leWH
  have hlePW := h.lePW
  have hleRP := h.leRP
  have hacq : (s.acquired ++ [(t, b ++ [c.nl])])[s.H]? = some (t, b ++ [c.nl]) := by
    rw [← h.len]; simp
  have hacqlt : ∀ k, k < s.H → (s.acquired ++ [(t, b ++ [c.nl])])[k]? = s.acquired[k]? := by
    intro k hk
    rw [List.getElem?_append_left (by rw [h.len]; exact hk)]
  have hfree := h.mFree s.H (Nat.le_refl _) h.cap
  constructor
  case leRP => exact h.leRP
  case lePW => exact h.lePW
  case leWH => simp; omega
  case cap => simpa using hroom
  case len => simp [h.len]
  case baseR => exact h.baseR
  case oldOk => exact h.oldOk
  case mPW => exact h.mPW
  case mFree => intro k h1 h2; exact h.mFree k (by simp at h1; omega) h2
  case mRP =>
    intro k h1 h2
    rcases h.mRP k h1 h2 with h3 | ⟨u, hu⟩
    · exact Or.inl h3
    · refine Or.inr ⟨u, ?_⟩
      have : u ≠ t := by rintro rfl; rw [hpc] at hu; simp [cown] at hu
      simpa [this] using hu
  case mWH =>
    intro k h1 h2
    simp at h1 h2
    by_cases hk : k = s.H
    · right; left; exact ⟨t, by simp [pown, hk]⟩
    · rcases h.mWH k h1 (by omega) with h3 | ⟨u, hu⟩ | h3
      · exact Or.inl h3
      · refine Or.inr (Or.inl ⟨u, ?_⟩)
        have : u ≠ t := by rintro rfl; rw [hpc] at hu; simp [pown] at hu
        simpa [this] using hu
      · exact Or.inr (Or.inr h3)
  case sealedW =>
    intro k h1 h2
    simp at h1 h2 ⊢
    rw [hacqlt k (by omega)]
    simpa using h.sealedW k h1 h2
  case sealedH =>
    intro k h1 h2 h3
    simp at h1 h2 h3 ⊢
    have hk : k ≠ s.H := by rintro rfl; rw [hfree] at h3; cases h3
    rw [hacqlt k (by omega)]
    simpa using h.sealedH k h1 (by omega) h3
  case ti =>
    intro u
    by_cases hu : u = t
    · subst hu
      simp [TI, Own, hacq]
      exact ⟨hleWH, hfree⟩
    · simp only [go_pc, hu, if_false]
      have := h.ti u
      cases hp : s.pc u <;> rw [hp] at this <;> simp [TI, Own] at this ⊢ <;>
        (try omega) <;>
        (try (obtain ⟨⟨h1, h2, h3⟩, h4⟩ := this; exact ⟨⟨h1, by omega, h3⟩, by rw [hacqlt _ h2]; exact h4⟩)) <;>
        (try (obtain ⟨h1, h2⟩ := this; exact ⟨h1, fun e => ⟨by have := h2 e; omega, (h2 e).2⟩⟩)) <;>
        (try exact this)
  case uniqC =>
    intro u v k h1 h2
    have hu : u ≠ t := by rintro rfl; simp [cown] at h1
    have hv : v ≠ t := by rintro rfl; simp [cown] at h2
    simp only [go_pc, hu, hv, if_false] at h1 h2
    exact h.uniqC u v k h1 h2
  case consTid =>
    intro hA u hu
    have hu' : u ≠ t := by rintro rfl; simp [isCons] at hu
    simp only [go_pc, hu', if_false] at hu
    exact h.consTid hA u hu
  case outND => exact h.outND
  case outMem =>
    intro k
    simp only [go_out, go_base, go_P]
    rw [h.outMem k]
    constructor
    · rintro ⟨h1, h2, h3⟩
      refine ⟨h1, h2, fun u => ?_⟩
      by_cases hu : u = t
      · simp [hu]
      · simpa [hu] using h3 u
    · rintro ⟨h1, h2, h3⟩
      refine ⟨h1, h2, fun u => ?_⟩
      by_cases hu : u = t
      · rw [hu, hpc]; simp
      · simpa [hu] using h3 u
  case outVal =>
    intro e he
    have hv := h.outVal e he
    have : e.1 < s.P := ((h.outMem e.1).mp (List.mem_map_of_mem he)).2.1
    simp only [go_acquired]
    rw [hacqlt _ (by omega)]; exact hv
  case lostR =>
    intro k hk
    obtain ⟨h1, h2, h3, h4⟩ := h.lostR k hk
    refine ⟨by simp; omega, h2, h3, fun u => ?_⟩
    by_cases hu : u = t
    · simp [hu, pown]; omega
    · simpa [hu] using h4 u

/-- A producer changes mark and content of its own slot (464, 288, stream writes, 495-499). -/
theorem Inv.prod {c : Cfg α} {s : St α} (h : Inv c s) {t k : Nat} {p : PC α} {m : Mark} {x : List α}
    (hown : pown (s.pc t) = some k) (hnc : isCons (s.pc t) = false) (hnp : isCons p = false)
    (hti : TI c ({ s with mark := upd s.mark (k % c.L) m, cell := upd s.cell (k % c.L) x }.go t p) t p)
    (hcase : (pown p = some k ∧ m ≠ .ready) ∨
      (p = .wLoad ∧ m = .ready ∧ s.acquired[k]?.map Prod.snd = some x)) :
    Inv c ({ s with mark := upd s.mark (k % c.L) m, cell := upd s.cell (k % c.L) x }.go t p) := by
  obtain ⟨hWk, hkH, hnr, y, hacq⟩ := pown_acq (h.ti t) hown
  have hleWH := h.leWH
  have hlePW := h.lePW
  have hleRP := h.leRP
  have hcap := h.cap
  have hne : ∀ j, s.R ≤ j → j < s.R + c.L → j ≠ k → j % c.L ≠ k % c.L := by
    intro j h1 h2 h3 h4
    exact h3 (slot_inj h4 h1 h2 (by omega) (by omega))
  have hcn : ∀ q : PC α, isCons q = false → cown q = none ∧ ∀ j, q ≠ .cDisp j := by
    intro q hq; cases q <;> simp_all [isCons, cown]
  have hpo : pown p = some k ∨ pown p = none := by
    rcases hcase with h1 | h1
    · exact Or.inl h1.1
    · rw [h1.1]; exact Or.inr rfl
  constructor
  case leRP => exact h.leRP
  case lePW => exact h.lePW
  case leWH => exact h.leWH
  case cap => exact h.cap
  case len => exact h.len
  case baseR => exact h.baseR
  case oldOk => exact h.oldOk
  case mPW =>
    intro j h1 h2 h3
    simp only [go_mark, go_P, go_W, go_old] at h1 h2 h3 ⊢
    rw [upd_ne _ _ (hne j (by omega) (by omega) (by omega))]
    exact h.mPW j h1 h2 h3
  case mFree =>
    intro j h1 h2
    simp only [go_mark, go_H, go_R] at h1 h2 ⊢
    rw [upd_ne _ _ (hne j (by omega) (by omega) (by omega))]
    exact h.mFree j h1 h2
  case mRP =>
    intro j h1 h2
    simp only [go_mark, go_P, go_R] at h1 h2 ⊢
    rw [upd_ne _ _ (hne j (by omega) (by omega) (by omega))]
    rcases h.mRP j h1 h2 with h3 | ⟨u, hu⟩
    · exact Or.inl h3
    · refine Or.inr ⟨u, ?_⟩
      have : u ≠ t := by rintro rfl; rw [(hcn _ hnc).1] at hu; cases hu
      simpa [this] using hu
  case mWH =>
    intro j h1 h2
    simp only [go_mark, go_W, go_H, go_lost] at h1 h2 ⊢
    by_cases hj : j = k
    · subst hj
      rw [upd_same]
      rcases hcase with ⟨h3, _⟩ | ⟨_, h3, _⟩
      · exact Or.inr (Or.inl ⟨t, by simpa using h3⟩)
      · exact Or.inl h3
    · rw [upd_ne _ _ (hne j (by omega) (by omega) hj)]
      rcases h.mWH j h1 h2 with h3 | ⟨u, hu⟩ | h3
      · exact Or.inl h3
      · refine Or.inr (Or.inl ⟨u, ?_⟩)
        have : u ≠ t := by rintro rfl; rw [hown] at hu; cases hu; exact hj rfl
        simpa [this] using hu
      · exact Or.inr (Or.inr h3)
  case sealedW =>
    intro j h1 h2
    simp only [go_cell, go_R, go_W, go_acquired] at h1 h2 ⊢
    rw [upd_ne _ _ (hne j (by omega) (by omega) (by omega))]
    exact h.sealedW j h1 h2
  case sealedH =>
    intro j h1 h2 h3
    simp only [go_cell, go_H, go_W, go_acquired, go_mark] at h1 h2 h3 ⊢
    by_cases hj : j = k
    · subst hj
      rw [upd_same] at h3 ⊢
      rcases hcase with ⟨_, h4⟩ | ⟨_, _, h4⟩
      · exact absurd h3 h4
      · exact h4
    · rw [upd_ne _ _ (hne j (by omega) (by omega) hj)] at h3 ⊢
      exact h.sealedH j h1 h2 h3
  case ti =>
    intro u
    by_cases hu : u = t
    · rw [hu]; simpa using hti
    · simp only [go_pc, hu, if_false]
      have hu' := h.ti u
      have hno : ∀ j, pown (s.pc u) = some j → j ≠ k := by
        rintro j h1 rfl; exact hu (pown_uniq h h1 hown)
      have hO : ∀ j m', pown (s.pc u) = some j → Own c s j m' →
          Own c ({ s with mark := upd s.mark (k % c.L) m, cell := upd s.cell (k % c.L) x }.go t p) j m' ∧
          upd s.cell (k % c.L) x (j % c.L) = s.cell (j % c.L) := by
        intro j m' h1 ⟨h2, h3, h4⟩
        have := hne j (by omega) (by omega) (hno j h1)
        refine ⟨⟨h2, h3, ?_⟩, upd_ne _ _ this⟩
        simp only [go_mark]; rw [upd_ne _ _ this]; exact h4
      cases hp : s.pc u <;> rw [hp] at hu' hO <;> simp only [TI] at hu' ⊢ <;> (try exact hu') <;>
        (try exact ⟨(hO _ _ rfl hu'.1).1, hu'.2⟩) <;>
        (try exact ⟨(hO _ _ rfl hu'.1).1, by simp only [go_cell, go_acquired]; rw [(hO _ _ rfl hu'.1).2]; exact hu'.2⟩) 
      case wCas tk =>
        refine ⟨hu'.1, fun e => ⟨(hu'.2 e).1, ?_⟩⟩
        simp only [go_mark]
        simp only [go_W] at e
        rw [upd_ne]
        · exact (hu'.2 e).2
        · intro h4
          have := (hu'.2 e).2
          rw [h4] at this; exact hnr this
      case cDisp j =>
        refine ⟨hu'.1, hu'.2.1, fun e => ?_⟩
        simp only [go_mark]
        rw [upd_ne _ _ (hne j (by omega) (by omega) (by omega))]
        exact hu'.2.2 e
      case cClear j =>
        refine ⟨hu'.1, hu'.2.1, fun e => ?_⟩
        simp only [go_mark]
        rw [upd_ne _ _ (hne j (by omega) (by omega) (by omega))]
        exact hu'.2.2 e
      case rCas tk =>
        refine ⟨hu'.1, fun e => ⟨(hu'.2 e).1, ?_⟩⟩
        simp only [go_mark]
        simp only [go_R] at e
        have := (hu'.2 e).1
        rw [upd_ne _ _ (hne tk (by omega) (by omega) (by omega))]
        exact (hu'.2 e).2
  case uniqC =>
    intro u v j h1 h2
    have hu : u ≠ t := by rintro rfl; simp [(hcn _ hnp).1] at h1
    have hv : v ≠ t := by rintro rfl; simp [(hcn _ hnp).1] at h2
    simp only [go_pc, hu, hv, if_false] at h1 h2
    exact h.uniqC u v j h1 h2
  case consTid =>
    intro hA u hu
    have hu' : u ≠ t := by rintro rfl; simp [hnp] at hu
    simp only [go_pc, hu', if_false] at hu
    exact h.consTid hA u hu
  case outND => exact h.outND
  case outMem =>
    intro j
    simp only [go_out, go_base, go_P]
    rw [h.outMem j]
    constructor
    · rintro ⟨h1, h2, h3⟩
      refine ⟨h1, h2, fun u => ?_⟩
      by_cases hu : u = t
      · simpa [hu] using (hcn _ hnp).2 j
      · simpa [hu] using h3 u
    · rintro ⟨h1, h2, h3⟩
      refine ⟨h1, h2, fun u => ?_⟩
      by_cases hu : u = t
      · rw [hu]; exact (hcn _ hnc).2 j
      · simpa [hu] using h3 u
  case outVal => exact h.outVal
  case lostR =>
    intro j hj
    obtain ⟨h1, h2, h3, h4⟩ := h.lostR j hj
    have hjk : j ≠ k := by rintro rfl; exact h4 t hown
    refine ⟨h1, h2, ?_, fun u => ?_⟩
    · simp only [go_mark]
      rw [upd_ne _ _ (hne j (by omega) (by omega) hjk)]; exact h3
    · by_cases hu : u = t
      · simp only [go_pc, hu, if_true]
        rcases hpo with h5 | h5 <;> rw [h5] <;> simp [Ne.symm hjk]
      · simpa [hu] using h4 u

/-- 489-491: PushChannel gives up because the channel is stopping. -/
theorem Inv.drop {c : Cfg α} {s : St α} (h : Inv c s) {t k : Nat} (hpc : s.pc t = .pChk k) :
    Inv c ({ s with lost := k :: s.lost }.go t .idle) := by
  have hti := h.ti t
  rw [hpc] at hti
  obtain ⟨⟨hWk, hkH, hmk⟩, hacq⟩ := hti
  constructor
  case leRP => exact h.leRP
  case lePW => exact h.lePW
  case leWH => exact h.leWH
  case cap => exact h.cap
  case len => exact h.len
  case baseR => exact h.baseR
  case oldOk => exact h.oldOk
  case mPW => exact h.mPW
  case mFree => exact h.mFree
  case mRP =>
    intro j h1 h2
    rcases h.mRP j h1 h2 with h3 | ⟨u, hu⟩
    · exact Or.inl h3
    · refine Or.inr ⟨u, ?_⟩
      have : u ≠ t := by rintro rfl; rw [hpc] at hu; simp [cown] at hu
      simpa [this] using hu
  case mWH =>
    intro j h1 h2
    rcases h.mWH j h1 h2 with h3 | ⟨u, hu⟩ | h3
    · exact Or.inl h3
    · by_cases hut : u = t
      · rw [hut, hpc] at hu
        simp [pown] at hu
        subst hu
        exact Or.inr (Or.inr ⟨hmk, by simp⟩)
      · exact Or.inr (Or.inl ⟨u, by simpa [hut] using hu⟩)
    · exact Or.inr (Or.inr ⟨h3.1, by simp [h3.2]⟩)
  case sealedW => exact h.sealedW
  case sealedH => exact h.sealedH
  case ti =>
    intro u
    by_cases hu : u = t
    · simp [hu, TI]
    · simp only [go_pc, hu, if_false]
      have := h.ti u
      exact TI.congr (s := s) rfl rfl rfl rfl rfl rfl rfl rfl this
  case uniqC =>
    intro u v j h1 h2
    have hu : u ≠ t := by rintro rfl; simp [cown] at h1
    have hv : v ≠ t := by rintro rfl; simp [cown] at h2
    simp only [go_pc, hu, hv, if_false] at h1 h2
    exact h.uniqC u v j h1 h2
  case consTid =>
    intro hA u hu
    have hu' : u ≠ t := by rintro rfl; simp [isCons] at hu
    simp only [go_pc, hu', if_false] at hu
    exact h.consTid hA u hu
  case outND => exact h.outND
  case outMem =>
    intro j
    simp only [go_out, go_base, go_P]
    rw [h.outMem j]
    constructor
    · rintro ⟨h1, h2, h3⟩
      refine ⟨h1, h2, fun u => ?_⟩
      by_cases hu : u = t
      · simp [hu]
      · simpa [hu] using h3 u
    · rintro ⟨h1, h2, h3⟩
      refine ⟨h1, h2, fun u => ?_⟩
      by_cases hu : u = t
      · rw [hu, hpc]; simp
      · simpa [hu] using h3 u
  case outVal => exact h.outVal
  case lostR =>
    intro j hj
    simp only [go_lost, List.mem_cons] at hj
    rcases hj with rfl | hj
    · refine ⟨hkH, hWk, hmk, fun u => ?_⟩
      by_cases hu : u = t
      · simp [hu, pown]
      · simp only [go_pc, hu, if_false]
        intro h5
        exact hu (pown_uniq h h5 (by rw [hpc]; rfl))
    · obtain ⟨h1, h2, h3, h4⟩ := h.lostR j hj
      refine ⟨h1, h2, h3, fun u => ?_⟩
      by_cases hu : u = t
      · simp [hu, pown]
      · simpa [hu] using h4 u

/-- 514: a successful compare-and-swap on `write_idx_`. -/
theorem Inv.write {c : Cfg α} {s : St α} (h : Inv c s) {t : Nat} (hpc : s.pc t = .wCas s.W) :
    Inv c ({ s with W := s.W + 1 }.go t .wInc) := by
  have hti := h.ti t
  rw [hpc] at hti
  obtain ⟨hWH, hmk⟩ := hti.2 rfl
  have hlePW := h.lePW
  have hleRP := h.leRP
  have hnotW : ∀ u k, pown (s.pc u) = some k → k ≠ s.W := by
    rintro u k h1 rfl
    exact (pown_acq (h.ti u) h1).2.2.1 hmk
  constructor
  case leRP => exact h.leRP
  case lePW => simp; omega
  case leWH => exact hWH
  case cap => exact h.cap
  case len => exact h.len
  case baseR => exact h.baseR
  case oldOk => exact h.oldOk
  case mPW =>
    intro j h1 h2 h3
    simp at h1 h2 h3 ⊢
    by_cases hj : j = s.W
    · rw [hj]; exact hmk
    · exact h.mPW j h1 (by omega) h3
  case mFree => exact h.mFree
  case mRP =>
    intro j h1 h2
    rcases h.mRP j h1 h2 with h3 | ⟨u, hu⟩
    · exact Or.inl h3
    · refine Or.inr ⟨u, ?_⟩
      have : u ≠ t := by rintro rfl; rw [hpc] at hu; simp [cown] at hu
      simpa [this] using hu
  case mWH =>
    intro j h1 h2
    simp at h1 h2
    rcases h.mWH j (by omega) h2 with h3 | ⟨u, hu⟩ | h3
    · exact Or.inl h3
    · refine Or.inr (Or.inl ⟨u, ?_⟩)
      have : u ≠ t := by rintro rfl; rw [hpc] at hu; simp [pown] at hu
      simpa [this] using hu
    · exact Or.inr (Or.inr h3)
  case sealedW =>
    intro j h1 h2
    simp at h1 h2 ⊢
    by_cases hj : j = s.W
    · rw [hj]; simpa using h.sealedH s.W (Nat.le_refl _) hWH hmk
    · simpa using h.sealedW j h1 (by omega)
  case sealedH =>
    intro j h1 h2 h3
    simp at h1 h2 h3 ⊢
    simpa using h.sealedH j (by omega) h2 h3
  case ti =>
    intro u
    by_cases hu : u = t
    · simp [hu, TI]
    · simp only [go_pc, hu, if_false]
      have hu' := h.ti u
      have hno := hnotW u
      cases hp : s.pc u <;> rw [hp] at hu' hno <;> simp [TI, Own, pown] at hu' hno ⊢ <;>
        (try exact hu') <;> (try omega) <;>
        (try (obtain ⟨⟨h1, h2, h3⟩, h4⟩ := hu'; exact ⟨⟨by omega, h2, h3⟩, h4⟩))
  case uniqC =>
    intro u v j h1 h2
    have hu : u ≠ t := by rintro rfl; simp [cown] at h1
    have hv : v ≠ t := by rintro rfl; simp [cown] at h2
    simp only [go_pc, hu, hv, if_false] at h1 h2
    exact h.uniqC u v j h1 h2
  case consTid =>
    intro hA u hu
    have hu' : u ≠ t := by rintro rfl; simp [isCons] at hu
    simp only [go_pc, hu', if_false] at hu
    exact h.consTid hA u hu
  case outND => exact h.outND
  case outMem =>
    intro j
    simp only [go_out, go_base, go_P]
    rw [h.outMem j]
    constructor
    · rintro ⟨h1, h2, h3⟩
      refine ⟨h1, h2, fun u => ?_⟩
      by_cases hu : u = t
      · simp [hu]
      · simpa [hu] using h3 u
    · rintro ⟨h1, h2, h3⟩
      refine ⟨h1, h2, fun u => ?_⟩
      by_cases hu : u = t
      · rw [hu, hpc]; simp
      · simpa [hu] using h3 u
  case outVal => exact h.outVal
  case lostR =>
    intro j hj
    obtain ⟨h1, h2, h3, h4⟩ := h.lostR j hj
    have hjW : j ≠ s.W := by rintro rfl; rw [hmk] at h3; cases h3
    refine ⟨h1, by simp; omega, h3, fun u => ?_⟩
    by_cases hu : u = t
    · simp [hu, pown]
    · simpa [hu] using h4 u

/-- 118: a successful compare-and-swap on `proc_idx_`. -/
theorem Inv.proc {c : Cfg α} {s : St α} (h : Inv c s) {t : Nat} (hpc : s.pc t = .cCas s.P) :
    Inv c ({ s with P := s.P + 1 }.go t (.cDisp s.P)) := by
  have hti := h.ti t
  rw [hpc] at hti
  have hPW : s.P < s.W := hti.2 rfl
  have hleRP := h.leRP
  constructor
  case leRP => simp; omega
  case lePW => exact hPW
  case leWH => exact h.leWH
  case cap => exact h.cap
  case len => exact h.len
  case baseR => exact h.baseR
  case oldOk => exact h.oldOk
  case mPW =>
    intro j h1 h2 h3
    simp at h1 h2 h3 ⊢
    exact h.mPW j (by omega) h2 h3
  case mFree => exact h.mFree
  case mRP =>
    intro j h1 h2
    simp only [go_P, go_R] at h1 h2
    by_cases hj : j = s.P
    · exact Or.inr ⟨t, by simp [cown, hj]⟩
    · rcases h.mRP j h1 (by omega) with h3 | ⟨u, hu⟩
      · exact Or.inl h3
      · refine Or.inr ⟨u, ?_⟩
        have : u ≠ t := by rintro rfl; rw [hpc] at hu; simp [cown] at hu
        simpa [this] using hu
  case mWH =>
    intro j h1 h2
    rcases h.mWH j h1 h2 with h3 | ⟨u, hu⟩ | h3
    · exact Or.inl h3
    · refine Or.inr (Or.inl ⟨u, ?_⟩)
      have : u ≠ t := by rintro rfl; rw [hpc] at hu; simp [pown] at hu
      simpa [this] using hu
    · exact Or.inr (Or.inr h3)
  case sealedW => exact h.sealedW
  case sealedH => exact h.sealedH
  case ti =>
    intro u
    by_cases hu : u = t
    · simp [hu, TI]
      exact ⟨hleRP, fun h3 => h.mPW s.P (Nat.le_refl _) hPW h3⟩
    · simp only [go_pc, hu, if_false]
      have hu' := h.ti u
      cases hp : s.pc u <;> rw [hp] at hu' <;> simp [TI, Own] at hu' ⊢ <;>
        (try exact hu') <;> (try omega)
      case cDisp => exact ⟨hu'.1, by omega, hu'.2.2⟩
      case cClear => exact ⟨hu'.1, by omega, hu'.2.2⟩
      case rCas => exact ⟨hu'.1, fun e => ⟨by have := (hu'.2 e).1; omega, (hu'.2 e).2⟩⟩
  case uniqC =>
    intro u v j h1 h2
    by_cases hu : u = t
    · by_cases hv : v = t
      · rw [hu, hv]
      · subst hu
        simp only [go_pc, hv, if_false, if_true] at h1 h2
        simp [cown] at h1
        have := (cown_range (h.ti v) h2).2.1
        omega
    · by_cases hv : v = t
      · subst hv
        simp only [go_pc, hu, if_false, if_true] at h1 h2
        simp [cown] at h2
        have := (cown_range (h.ti u) h1).2.1
        omega
      · simp only [go_pc, hu, hv, if_false] at h1 h2
        exact h.uniqC u v j h1 h2
  case consTid =>
    intro hA u hu
    by_cases hut : u = t
    · rw [hut]; exact h.consTid hA t (by rw [hpc]; rfl)
    · simp only [go_pc, hut, if_false] at hu
      exact h.consTid hA u hu
  case outND => exact h.outND
  case outMem =>
    intro j
    simp only [go_out, go_base, go_P]
    rw [h.outMem j]
    constructor
    · rintro ⟨h1, h2, h3⟩
      refine ⟨h1, by omega, fun u => ?_⟩
      by_cases hu : u = t
      · simp [hu]; omega
      · simpa [hu] using h3 u
    · rintro ⟨h1, h2, h3⟩
      have hjP : j ≠ s.P := by
        have := h3 t; simp at this; omega
      refine ⟨h1, by omega, fun u => ?_⟩
      by_cases hu : u = t
      · rw [hu, hpc]; simp
      · simpa [hu] using h3 u
  case outVal => exact h.outVal
  case lostR =>
    intro j hj
    obtain ⟨h1, h2, h3, h4⟩ := h.lostR j hj
    refine ⟨h1, h2, h3, fun u => ?_⟩
    by_cases hu : u = t
    · simp [hu, pown]
    · simpa [hu] using h4 u

/-- 124: the record is output. -/
theorem Inv.disp {c : Cfg α} {s : St α} (h : Inv c s) {t k : Nat} (hpc : s.pc t = .cDisp k) :
    Inv c ({ s with out := s.out ++ [(k, s.cell (k % c.L))] }.go t (.cClear k)) := by
  have hti := h.ti t
  rw [hpc] at hti
  obtain ⟨hRk, hkP, hmk⟩ := hti
  have hlePW := h.lePW
  have hbR := h.baseR
  have hcown : ∀ u, cown ((s.go t (.cClear k)).pc u) = cown (s.pc u) := by
    intro u; simp only [go_pc]; split
    · rename_i e; rw [e, hpc]; rfl
    · rfl
  have hpown : ∀ u, pown ((s.go t (.cClear k)).pc u) = pown (s.pc u) := by
    intro u; simp only [go_pc]; split
    · rename_i e; rw [e, hpc]; rfl
    · rfl
  constructor
  case leRP => exact h.leRP
  case lePW => exact h.lePW
  case leWH => exact h.leWH
  case cap => exact h.cap
  case len => exact h.len
  case baseR => exact h.baseR
  case oldOk => exact h.oldOk
  case mPW => exact h.mPW
  case mFree => exact h.mFree
  case mRP =>
    intro j h1 h2
    rcases h.mRP j h1 h2 with h3 | ⟨u, hu⟩
    · exact Or.inl h3
    · exact Or.inr ⟨u, (hcown u).trans hu⟩
  case mWH =>
    intro j h1 h2
    rcases h.mWH j h1 h2 with h3 | ⟨u, hu⟩ | h3
    · exact Or.inl h3
    · exact Or.inr (Or.inl ⟨u, (hpown u).trans hu⟩)
    · exact Or.inr (Or.inr h3)
  case sealedW => exact h.sealedW
  case sealedH => exact h.sealedH
  case ti =>
    intro u
    by_cases hu : u = t
    · simp only [go_pc, hu, if_true, TI]; exact ⟨hRk, hkP, hmk⟩
    · simp only [go_pc, hu, if_false]
      exact TI.congr (s := s) rfl rfl rfl rfl rfl rfl rfl rfl (h.ti u)
  case uniqC =>
    intro u v j h1 h2
    exact h.uniqC u v j ((hcown u).symm.trans h1) ((hcown v).symm.trans h2)
  case consTid =>
    intro hA u hu
    by_cases hut : u = t
    · rw [hut]; exact h.consTid hA t (by rw [hpc]; rfl)
    · simp only [go_pc, hut, if_false] at hu
      exact h.consTid hA u hu
  case outND =>
    simp only [go_out, List.map_append, List.map_cons, List.map_nil]
    rw [List.nodup_append]
    refine ⟨h.outND, by simp, ?_⟩
    intro a ha b hb
    simp at hb
    subst hb
    rintro rfl
    exact ((h.outMem a).mp ha).2.2 t hpc
  case outMem =>
    intro j
    simp only [go_out, go_base, go_P, List.map_append, List.map_cons, List.map_nil,
      List.mem_append, List.mem_singleton]
    rw [h.outMem j]
    constructor
    · rintro (⟨h1, h2, h3⟩ | rfl)
      · refine ⟨h1, h2, fun u => ?_⟩
        by_cases hu : u = t
        · simp [hu]
        · simpa [hu] using h3 u
      · refine ⟨by omega, hkP, fun u => ?_⟩
        by_cases hu : u = t
        · simp [hu]
        · simp only [go_pc, hu, if_false]
          intro h5
          exact hu (h.uniqC u t j (by rw [h5]; rfl) (by rw [hpc]; rfl))
    · rintro ⟨h1, h2, h3⟩
      by_cases hjk : j = k
      · exact Or.inr hjk
      · refine Or.inl ⟨h1, h2, fun u => ?_⟩
        by_cases hu : u = t
        · rw [hu, hpc]; simpa using Ne.symm hjk
        · simpa [hu] using h3 u
  case outVal =>
    intro e he
    simp only [go_out, List.mem_append, List.mem_singleton] at he
    rcases he with he | rfl
    · exact h.outVal e he
    · exact h.sealedW k hRk (by omega)
  case lostR =>
    intro j hj
    obtain ⟨h1, h2, h3, h4⟩ := h.lostR j hj
    refine ⟨h1, h2, h3, fun u => ?_⟩
    exact fun h5 => h4 u ((hpown u).symm.trans h5)

/-- 125: the consumer clears the mark. -/
theorem Inv.clear {c : Cfg α} {s : St α} (h : Inv c s) {t k : Nat} (hpc : s.pc t = .cClear k) :
    Inv c ({ s with mark := upd s.mark (k % c.L) .invalid }.go t (.cStat k)) := by
  have hti := h.ti t
  rw [hpc] at hti
  obtain ⟨hRk, hkP, hmk⟩ := hti
  have hlePW := h.lePW
  have hleWH := h.leWH
  have hcap := h.cap
  have hne : ∀ j, s.R ≤ j → j < s.R + c.L → j ≠ k → j % c.L ≠ k % c.L := by
    intro j h1 h2 h3 h4
    exact h3 (slot_inj h4 h1 h2 (by omega) (by omega))
  constructor
  case leRP => exact h.leRP
  case lePW => exact h.lePW
  case leWH => exact h.leWH
  case cap => exact h.cap
  case len => exact h.len
  case baseR => exact h.baseR
  case oldOk => exact h.oldOk
  case mPW =>
    intro j h1 h2 h3
    simp only [go_mark, go_P, go_W, go_old] at h1 h2 h3 ⊢
    rw [upd_ne _ _ (hne j (by omega) (by omega) (by omega))]
    exact h.mPW j h1 h2 h3
  case mFree =>
    intro j h1 h2
    simp only [go_mark, go_H, go_R] at h1 h2 ⊢
    rw [upd_ne _ _ (hne j (by omega) (by omega) (by omega))]
    exact h.mFree j h1 h2
  case mRP =>
    intro j h1 h2
    simp only [go_mark, go_P, go_R] at h1 h2 ⊢
    by_cases hj : j = k
    · rw [hj, upd_same]; exact Or.inl rfl
    · rw [upd_ne _ _ (hne j (by omega) (by omega) hj)]
      rcases h.mRP j h1 h2 with h3 | ⟨u, hu⟩
      · exact Or.inl h3
      · refine Or.inr ⟨u, ?_⟩
        have : u ≠ t := by rintro rfl; rw [hpc] at hu; simp [cown] at hu; exact hj hu.symm
        simpa [this] using hu
  case mWH =>
    intro j h1 h2
    simp only [go_mark, go_W, go_H, go_lost] at h1 h2 ⊢
    rw [upd_ne _ _ (hne j (by omega) (by omega) (by omega))]
    rcases h.mWH j h1 h2 with h3 | ⟨u, hu⟩ | h3
    · exact Or.inl h3
    · refine Or.inr (Or.inl ⟨u, ?_⟩)
      have : u ≠ t := by rintro rfl; rw [hpc] at hu; simp [pown] at hu
      simpa [this] using hu
    · exact Or.inr (Or.inr h3)
  case sealedW => exact h.sealedW
  case sealedH =>
    intro j h1 h2 h3
    simp only [go_cell, go_H, go_W, go_acquired, go_mark] at h1 h2 h3 ⊢
    rw [upd_ne _ _ (hne j (by omega) (by omega) (by omega))] at h3
    exact h.sealedH j h1 h2 h3
  case ti =>
    intro u
    by_cases hu : u = t
    · simp [hu, TI]
    · simp only [go_pc, hu, if_false]
      have hu' := h.ti u
      have hno : ∀ j, cown (s.pc u) = some j → j ≠ k := by
        rintro j h1 rfl; exact hu (h.uniqC u t _ h1 (by rw [hpc]; rfl))
      have hO : ∀ j m', Own c s j m' →
          Own c ({ s with mark := upd s.mark (k % c.L) .invalid }.go t (.cStat k)) j m' := by
        intro j m' ⟨h2, h3, h4⟩
        refine ⟨h2, h3, ?_⟩
        simp only [go_mark]
        rw [upd_ne _ _ (hne j (by omega) (by omega) (by omega))]; exact h4
      cases hp : s.pc u <;> rw [hp] at hu' hno <;> simp only [TI] at hu' ⊢ <;> (try exact hu') <;>
        (try exact ⟨hO _ _ hu'.1, hu'.2⟩)
      case wCas tk =>
        refine ⟨hu'.1, fun e => ⟨(hu'.2 e).1, ?_⟩⟩
        simp only [go_mark]
        simp only [go_W] at e
        have := (hu'.2 e).1
        rw [upd_ne _ _ (hne tk (by omega) (by omega) (by omega))]
        exact (hu'.2 e).2
      case cDisp j =>
        refine ⟨hu'.1, hu'.2.1, fun e => ?_⟩
        simp only [go_mark]
        rw [upd_ne _ _ (hne j (by omega) (by omega) (hno j rfl))]
        exact hu'.2.2 e
      case cClear j =>
        refine ⟨hu'.1, hu'.2.1, fun e => ?_⟩
        simp only [go_mark]
        rw [upd_ne _ _ (hne j (by omega) (by omega) (hno j rfl))]
        exact hu'.2.2 e
      case rCas tk =>
        refine ⟨hu'.1, fun e => ⟨(hu'.2 e).1, ?_⟩⟩
        simp only [go_mark]
        simp only [go_R] at e
        by_cases htk : tk % c.L = k % c.L
        · rw [htk, upd_same]
        · rw [upd_ne _ _ htk]; exact (hu'.2 e).2
  case uniqC =>
    intro u v j h1 h2
    have hu : u ≠ t := by rintro rfl; simp [cown] at h1
    have hv : v ≠ t := by rintro rfl; simp [cown] at h2
    simp only [go_pc, hu, hv, if_false] at h1 h2
    exact h.uniqC u v j h1 h2
  case consTid =>
    intro hA u hu
    by_cases hut : u = t
    · rw [hut]; exact h.consTid hA t (by rw [hpc]; rfl)
    · simp only [go_pc, hut, if_false] at hu
      exact h.consTid hA u hu
  case outND => exact h.outND
  case outMem =>
    intro j
    simp only [go_out, go_base, go_P]
    rw [h.outMem j]
    constructor
    · rintro ⟨h1, h2, h3⟩
      refine ⟨h1, h2, fun u => ?_⟩
      by_cases hu : u = t
      · simp [hu]
      · simpa [hu] using h3 u
    · rintro ⟨h1, h2, h3⟩
      refine ⟨h1, h2, fun u => ?_⟩
      by_cases hu : u = t
      · rw [hu, hpc]; simp
      · simpa [hu] using h3 u
  case outVal => exact h.outVal
  case lostR =>
    intro j hj
    obtain ⟨h1, h2, h3, h4⟩ := h.lostR j hj
    refine ⟨h1, h2, ?_, fun u => ?_⟩
    · simp only [go_mark]
      rw [upd_ne _ _ (hne j (by omega) (by omega) (by omega))]; exact h3
    · by_cases hu : u = t
      · simp [hu, pown]
      · simpa [hu] using h4 u

/-- 168: a successful compare-and-swap on `read_idx_`. -/
theorem Inv.read {c : Cfg α} {s : St α} (h : Inv c s) {t : Nat} (hpc : s.pc t = .rCas s.R) :
    Inv c ({ s with R := s.R + 1 }.go t .rLoad) := by
  have hti := h.ti t
  rw [hpc] at hti
  obtain ⟨hRP, hmk⟩ := hti.2 rfl
  have hlePW := h.lePW
  have hleWH := h.leWH
  have hnotR : ∀ u k, cown (s.pc u) = some k → k ≠ s.R := by
    rintro u k h1 rfl
    rcases h.oldOk with hA | hO
    · have hu : u = worker := h.consTid hA u (by
        cases hp : s.pc u <;> rw [hp] at h1 <;> simp [cown] at h1 <;> rfl)
      have ht : t = worker := h.consTid hA t (by rw [hpc]; rfl)
      rw [hu, ← ht, hpc] at h1; simp [cown] at h1
    · have := (cown_range (h.ti u) h1).2.2 hO
      rw [hmk] at this; cases this
  constructor
  case leRP => exact hRP
  case lePW => exact h.lePW
  case leWH => exact h.leWH
  case cap => have := h.cap; simp; omega
  case len => exact h.len
  case baseR => have := h.baseR; simp; omega
  case oldOk =>
    rcases h.oldOk with h1 | h1
    · exact Or.inl h1
    · right; simp; omega
  case mPW => exact h.mPW
  case mFree =>
    intro j h1 h2
    simp at h1 h2 ⊢
    by_cases hj : j = s.R + c.L
    · rw [hj, Nat.add_mod_right]; exact hmk
    · exact h.mFree j h1 (by omega)
  case mRP =>
    intro j h1 h2
    simp only [go_R, go_P] at h1 h2
    rcases h.mRP j (by omega) h2 with h3 | ⟨u, hu⟩
    · exact Or.inl h3
    · refine Or.inr ⟨u, ?_⟩
      have : u ≠ t := by rintro rfl; rw [hpc] at hu; simp [cown] at hu
      simpa [this] using hu
  case mWH =>
    intro j h1 h2
    rcases h.mWH j h1 h2 with h3 | ⟨u, hu⟩ | h3
    · exact Or.inl h3
    · refine Or.inr (Or.inl ⟨u, ?_⟩)
      have : u ≠ t := by rintro rfl; rw [hpc] at hu; simp [pown] at hu
      simpa [this] using hu
    · exact Or.inr (Or.inr h3)
  case sealedW =>
    intro j h1 h2
    simp only [go_R, go_W] at h1 h2
    exact h.sealedW j (by omega) h2
  case sealedH => exact h.sealedH
  case ti =>
    intro u
    by_cases hu : u = t
    · simp [hu, TI]
    · simp only [go_pc, hu, if_false]
      have hu' := h.ti u
      have hno := hnotR u
      cases hp : s.pc u <;> rw [hp] at hu' hno <;> simp [TI, Own, cown] at hu' hno ⊢ <;>
        (try exact hu') <;> (try omega)
      case cDisp => exact ⟨by omega, hu'.2⟩
      case cClear => exact ⟨by omega, hu'.2⟩
  case uniqC =>
    intro u v j h1 h2
    have hu : u ≠ t := by rintro rfl; simp [cown] at h1
    have hv : v ≠ t := by rintro rfl; simp [cown] at h2
    simp only [go_pc, hu, hv, if_false] at h1 h2
    exact h.uniqC u v j h1 h2
  case consTid =>
    intro hA u hu
    by_cases hut : u = t
    · rw [hut]; exact h.consTid hA t (by rw [hpc]; rfl)
    · simp only [go_pc, hut, if_false] at hu
      exact h.consTid hA u hu
  case outND => exact h.outND
  case outMem =>
    intro j
    simp only [go_out, go_base, go_P]
    rw [h.outMem j]
    constructor
    · rintro ⟨h1, h2, h3⟩
      refine ⟨h1, h2, fun u => ?_⟩
      by_cases hu : u = t
      · simp [hu]
      · simpa [hu] using h3 u
    · rintro ⟨h1, h2, h3⟩
      refine ⟨h1, h2, fun u => ?_⟩
      by_cases hu : u = t
      · rw [hu, hpc]; simp
      · simpa [hu] using h3 u
  case outVal => exact h.outVal
  case lostR =>
    intro j hj
    obtain ⟨h1, h2, h3, h4⟩ := h.lostR j hj
    refine ⟨h1, h2, h3, fun u => ?_⟩
    by_cases hu : u = t
    · simp [hu, pown]
    · simpa [hu] using h4 u

/-- A timely compare-and-swap that succeeds finds the very total it loaded. -/
theorem cas_eq {L n tk : Nat} (h : n % L = tk % L) (h1 : tk ≤ n) (h2 : n < tk + L) : n = tk :=
  (mod_inj h.symm h1 h2).symm

/-- Every step of a thread preserves the invariant, unless it is a compare-and-swap that succeeds
a full lap late. -/
theorem Inv.stepT {c : Cfg α} {s : St α} (h : Inv c s) {t : Nat} (ht : timelyAt c s t) :
    Inv c (stepT c s t) := by
  have hti := h.ti t
  have hct := fun hA => h.consTid hA t
  have hwin : s.H < s.R + c.L := h.cap
  have h1 := h.leRP
  have h2 := h.lePW
  have h3 := h.leWH
  have hself : ∀ (f : Nat → Mark) i, upd f i (f i) = f := by
    intro f i; funext j; unfold upd; split <;> simp_all
  have hself' : ∀ (f : Nat → List α) i, upd f i (f i) = f := by
    intro f i; funext j; unfold upd; split <;> simp_all
  unfold Ring.stepT
  unfold timelyAt at ht
  cases hpc : s.pc t <;> rw [hpc] at hti hct ht <;> (try simp only) <;>
    (try simp only at ht) <;>
    (try simp only [TI, Own] at hti) <;> (try simp only [isCons] at hct)
  case idle => exact h
  case done => exact h
  case hChk i b => split <;> exact h.loc (t := t) rfl rfl rfl rfl rfl rfl rfl rfl rfl rfl rfl rfl
                     (by rw [hpc]; rfl) (by rw [hpc]; rfl) (by simp [hpc]) (by simp [isCons]) trivial
  case hLoad i b => exact h.loc (t := t) rfl rfl rfl rfl rfl rfl rfl rfl rfl rfl rfl rfl
                     (by rw [hpc]; rfl) (by rw [hpc]; rfl) (by simp [hpc]) (by simp [isCons]) (Nat.le_refl _)
  case hRead i tk b =>
    split
    · exact h.loc (t := t) rfl rfl rfl rfl rfl rfl rfl rfl rfl rfl rfl rfl
        (by rw [hpc]; rfl) (by rw [hpc]; rfl) (by simp [hpc]) (by simp [isCons]) trivial
    · rename_i hne
      refine h.loc (t := t) rfl rfl rfl rfl rfl rfl rfl rfl rfl rfl rfl rfl
        (by rw [hpc]; rfl) (by rw [hpc]; rfl) (by simp [hpc]) (by simp [isCons]) ⟨hti, fun e => ?_⟩
      rcases Nat.lt_or_ge (s.H + 1) (s.R + c.L) with h5 | h5
      · exact h5
      · exfalso
        have : tk + 1 = s.R + c.L := by omega
        rw [this, Nat.add_mod_right] at hne
        exact hne rfl
  case hCas i tk b =>
    split
    · rename_i he
      have : s.H = tk := ht he
      subst this
      exact h.hold hpc
    · split <;> exact h.loc (t := t) rfl rfl rfl rfl rfl rfl rfl rfl rfl rfl rfl rfl
        (by rw [hpc]; rfl) (by rw [hpc]; rfl) (by simp [hpc]) (by simp [isCons]) trivial
  case hOut b => split <;> exact h.loc (t := t) rfl rfl rfl rfl rfl rfl rfl rfl rfl rfl rfl rfl
                     (by rw [hpc]; rfl) (by rw [hpc]; rfl) (by simp [hpc]) (by simp [isCons]) trivial
  case hSleep b => exact h.loc (t := t) rfl rfl rfl rfl rfl rfl rfl rfl rfl rfl rfl rfl
                     (by rw [hpc]; rfl) (by rw [hpc]; rfl) (by simp [hpc]) (by simp [isCons]) trivial
  case hInc k b => exact h.loc (t := t) rfl rfl rfl rfl rfl rfl rfl rfl rfl rfl rfl rfl
                     (by rw [hpc]; rfl) (by rw [hpc]; rfl) (by simp [hpc]) (by simp [isCons]) hti
  case hMark k b =>
    have := h.prod (t := t) (k := k) (p := .fInit k b) (m := .hold) (x := s.cell (k % c.L))
      (by rw [hpc]; rfl) (by rw [hpc]; rfl) rfl
      ⟨⟨hti.1.1, hti.1.2.1, by simp [upd_same]⟩, hti.2⟩ (Or.inl ⟨rfl, by simp⟩)
    rw [hself'] at this
    exact this
  case fInit k b =>
    have := h.prod (t := t) (k := k) (p := .fill k b) (m := s.mark (k % c.L)) (x := [])
      (by rw [hpc]; rfl) (by rw [hpc]; rfl) rfl
      ⟨⟨hti.1.1, hti.1.2.1, by simp [upd_same, hti.1.2.2]⟩, by simpa [upd_same] using hti.2⟩
      (Or.inl ⟨rfl, by simp [hti.1.2.2]⟩)
    rw [hself] at this
    exact this
  case fill k rest =>
    cases rest with
    | nil => 
      refine h.loc (t := t) rfl rfl rfl rfl rfl rfl rfl rfl rfl rfl rfl rfl
        (by rw [hpc]; rfl) (by rw [hpc]; rfl) (by simp [hpc]) (by simp [isCons]) ⟨hti.1, ?_⟩
      simpa using hti.2
    | cons a rest =>
      have := h.prod (t := t) (k := k) (p := .fill k rest) (m := s.mark (k % c.L))
        (x := s.cell (k % c.L) ++ [a])
        (by rw [hpc]; rfl) (by rw [hpc]; rfl) rfl
        ⟨⟨hti.1.1, hti.1.2.1, by simp [upd_same, hti.1.2.2]⟩, by simpa [upd_same] using hti.2⟩
        (Or.inl ⟨rfl, by simp [hti.1.2.2]⟩)
      rw [hself] at this
      exact this
  case pChk k =>
    split
    · exact h.loc (t := t) rfl rfl rfl rfl rfl rfl rfl rfl rfl rfl rfl rfl
        (by rw [hpc]; rfl) (by rw [hpc]; rfl) (by simp [hpc]) (by simp [isCons]) hti
    · exact h.drop hpc
  case pSeal k =>
    have := h.prod (t := t) (k := k) (p := .pMark k) (m := s.mark (k % c.L))
      (x := s.cell (k % c.L) ++ [c.nl])
      (by rw [hpc]; rfl) (by rw [hpc]; rfl) rfl
      ⟨⟨hti.1.1, hti.1.2.1, by simp [upd_same, hti.1.2.2]⟩, by simpa [upd_same] using hti.2⟩
      (Or.inl ⟨rfl, by simp [hti.1.2.2]⟩)
    rw [hself] at this
    exact this
  case pMark k =>
    have := h.prod (t := t) (k := k) (p := .wLoad) (m := .ready) (x := s.cell (k % c.L))
      (by rw [hpc]; rfl) (by rw [hpc]; rfl) rfl trivial
      (Or.inr ⟨rfl, rfl, by simp [hti.2]⟩)
    rw [hself'] at this
    exact this
  case wLoad => exact h.loc (t := t) rfl rfl rfl rfl rfl rfl rfl rfl rfl rfl rfl rfl
                     (by rw [hpc]; rfl) (by rw [hpc]; rfl) (by simp [hpc]) (by simp [isCons]) (Nat.le_refl _)
  case wHold tk =>
    split
    · exact h.loc (t := t) rfl rfl rfl rfl rfl rfl rfl rfl rfl rfl rfl rfl
        (by rw [hpc]; rfl) (by rw [hpc]; rfl) (by simp [hpc]) (by simp [isCons]) trivial
    · rename_i hne
      refine h.loc (t := t) rfl rfl rfl rfl rfl rfl rfl rfl rfl rfl rfl rfl
        (by rw [hpc]; rfl) (by rw [hpc]; rfl) (by simp [hpc]) (by simp [isCons]) ⟨hti, fun e => ?_⟩
      have : tk ≠ s.H := by rintro rfl; exact hne rfl
      omega
  case wMark tk =>
    split
    · exact h.loc (t := t) rfl rfl rfl rfl rfl rfl rfl rfl rfl rfl rfl rfl
        (by rw [hpc]; rfl) (by rw [hpc]; rfl) (by simp [hpc]) (by simp [isCons]) trivial
    · rename_i hne
      refine h.loc (t := t) rfl rfl rfl rfl rfl rfl rfl rfl rfl rfl rfl rfl
        (by rw [hpc]; rfl) (by rw [hpc]; rfl) (by simp [hpc]) (by simp [isCons])
        ⟨hti.1, fun e => ⟨hti.2 e, by simpa using hne⟩⟩
  case wCas tk =>
    split
    · rename_i he
      have : s.W = tk := ht he
      subst this
      exact h.write hpc
    · exact h.loc (t := t) rfl rfl rfl rfl rfl rfl rfl rfl rfl rfl rfl rfl
        (by rw [hpc]; rfl) (by rw [hpc]; rfl) (by simp [hpc]) (by simp [isCons]) trivial
  case wInc => exact h.loc (t := t) rfl rfl rfl rfl rfl rfl rfl rfl rfl rfl rfl rfl
                     (by rw [hpc]; rfl) (by rw [hpc]; rfl) (by simp [hpc]) (by simp [isCons]) trivial
  case wCond => split <;> exact h.loc (t := t) rfl rfl rfl rfl rfl rfl rfl rfl rfl rfl rfl rfl
                     (by rw [hpc]; rfl) (by rw [hpc]; rfl) (by simp [hpc]) (by simp [isCons]) trivial
  case wExit =>
    split
    · rename_i hA
      exact h.loc (t := t) rfl rfl rfl rfl rfl rfl rfl rfl rfl rfl rfl rfl
        (by rw [hpc]; rfl) (by rw [hpc]; rfl) (by simp [hpc]) (by simp [hA.1]) trivial
    · exact h.loc (t := t) rfl rfl rfl rfl rfl rfl rfl rfl rfl rfl rfl rfl
        (by rw [hpc]; rfl) (by rw [hpc]; rfl) (by simp [hpc]) (by simp [isCons]) trivial
  case cLoad => exact h.loc (t := t) rfl rfl rfl rfl rfl rfl rfl rfl rfl rfl rfl rfl
                     (by rw [hpc]; rfl) (by rw [hpc]; rfl) (by simp [hpc]) (fun a _ => hct a trivial) (Nat.le_refl _)
  case cWrite tk =>
    split
    · exact h.loc (t := t) rfl rfl rfl rfl rfl rfl rfl rfl rfl rfl rfl rfl
        (by rw [hpc]; rfl) (by rw [hpc]; rfl) (by simp [hpc]) (fun a _ => hct a trivial) trivial
    · rename_i hne
      refine h.loc (t := t) rfl rfl rfl rfl rfl rfl rfl rfl rfl rfl rfl rfl
        (by rw [hpc]; rfl) (by rw [hpc]; rfl) (by simp [hpc]) (fun a _ => hct a trivial) ⟨hti, fun e => ?_⟩
      have : tk ≠ s.W := by rintro rfl; exact hne rfl
      omega
  case cCas tk =>
    split
    · rename_i he
      have : s.P = tk := ht he
      subst this
      exact h.proc hpc
    · exact h.loc (t := t) rfl rfl rfl rfl rfl rfl rfl rfl rfl rfl rfl rfl
        (by rw [hpc]; rfl) (by rw [hpc]; rfl) (by simp [hpc]) (fun a _ => hct a trivial) trivial
  case cDisp k => exact h.disp hpc
  case cClear k => exact h.clear hpc
  case cStat k => exact h.loc (t := t) rfl rfl rfl rfl rfl rfl rfl rfl rfl rfl rfl rfl
                     (by rw [hpc]; rfl) (by rw [hpc]; rfl) (by simp [hpc]) (fun a _ => hct a trivial) trivial
  case cBytes k => exact h.loc (t := t) rfl rfl rfl rfl rfl rfl rfl rfl rfl rfl rfl rfl
                     (by rw [hpc]; rfl) (by rw [hpc]; rfl) (by simp [hpc]) (fun a _ => hct a trivial) trivial
  case rLoad => exact h.loc (t := t) rfl rfl rfl rfl rfl rfl rfl rfl rfl rfl rfl rfl
                     (by rw [hpc]; rfl) (by rw [hpc]; rfl) (by simp [hpc]) (fun a _ => hct a trivial) (Nat.le_refl _)
  case rProc tk =>
    split
    · exact h.loc (t := t) rfl rfl rfl rfl rfl rfl rfl rfl rfl rfl rfl rfl
        (by rw [hpc]; rfl) (by rw [hpc]; rfl) (by simp [hpc]) (fun a _ => hct a trivial) trivial
    · rename_i hne
      refine h.loc (t := t) rfl rfl rfl rfl rfl rfl rfl rfl rfl rfl rfl rfl
        (by rw [hpc]; rfl) (by rw [hpc]; rfl) (by simp [hpc]) (fun a _ => hct a trivial) ⟨hti, fun e => ?_⟩
      have : tk ≠ s.P := by rintro rfl; exact hne rfl
      omega
  case rMark tk =>
    split
    · exact h.loc (t := t) rfl rfl rfl rfl rfl rfl rfl rfl rfl rfl rfl rfl
        (by rw [hpc]; rfl) (by rw [hpc]; rfl) (by simp [hpc]) (fun a _ => hct a trivial) trivial
    · rename_i hne
      refine h.loc (t := t) rfl rfl rfl rfl rfl rfl rfl rfl rfl rfl rfl rfl
        (by rw [hpc]; rfl) (by rw [hpc]; rfl) (by simp [hpc]) (fun a _ => hct a trivial)
        ⟨hti.1, fun e => ⟨hti.2 e, by simpa using hne⟩⟩
  case rCas tk =>
    split
    · rename_i he
      have : s.R = tk := ht he
      subst this
      exact h.read hpc
    · exact h.loc (t := t) rfl rfl rfl rfl rfl rfl rfl rfl rfl rfl rfl rfl
        (by rw [hpc]; rfl) (by rw [hpc]; rfl) (by simp [hpc]) (fun a _ => hct a trivial) trivial
  case cEnd => split <;> exact h.loc (t := t) rfl rfl rfl rfl rfl rfl rfl rfl rfl rfl rfl rfl
                     (by rw [hpc]; rfl) (by rw [hpc]; rfl) (by simp [hpc]) (fun a _ => hct a trivial) trivial
  case cSet => exact h.loc (t := t) rfl rfl rfl rfl rfl rfl rfl rfl rfl rfl rfl rfl
                     (by rw [hpc]; rfl) (by rw [hpc]; rfl) (by simp [hpc]) (fun a _ => hct a trivial) trivial
  case cLoop =>
    split
    · exact h.loc (t := t) rfl rfl rfl rfl rfl rfl rfl rfl rfl rfl rfl rfl
        (by rw [hpc]; rfl) (by rw [hpc]; rfl) (by simp [hpc]) (by simp [isCons]) trivial
    · split <;> exact h.loc (t := t) rfl rfl rfl rfl rfl rfl rfl rfl rfl rfl rfl rfl
        (by rw [hpc]; rfl) (by rw [hpc]; rfl) (by simp [hpc]) (fun a _ => hct a trivial) trivial
  case cLoopW => exact h.loc (t := t) rfl rfl rfl rfl rfl rfl rfl rfl rfl rfl rfl rfl
                     (by rw [hpc]; rfl) (by rw [hpc]; rfl) (by simp [hpc]) (fun a _ => hct a trivial) (Nat.le_refl _)
  case cLoopR w => split <;> exact h.loc (t := t) rfl rfl rfl rfl rfl rfl rfl rfl rfl rfl rfl rfl
                     (by rw [hpc]; rfl) (by rw [hpc]; rfl) (by simp [hpc]) (fun a _ => hct a trivial) trivial
  case cFin => exact h.loc (t := t) rfl rfl rfl rfl rfl rfl rfl rfl rfl rfl rfl rfl
                     (by rw [hpc]; rfl) (by rw [hpc]; rfl) (by simp [hpc]) (fun a _ => hct a trivial) trivial

theorem Inv.step {c : Cfg α} {s : St α} (h : Inv c s) {e : Ev α}
    (ht : timelyEv c s e) : Inv c (step c s e) := by
  cases e with
  | run t => exact h.stepT ht
  | call t b =>
    unfold Ring.step
    simp only
    split
    · rename_i hpc
      split
      · exact h.loc (t := t) rfl rfl rfl rfl rfl rfl rfl rfl rfl rfl rfl rfl
          (by rw [hpc]; rfl) (by rw [hpc]; rfl) (by simp [hpc]) (by simp [isCons]) trivial
      · exact h
    · exact h
  | started =>
    unfold Ring.step
    simp only
    split
    · exact ⟨h.1, h.2, h.3, h.4, h.5, h.6, h.7, h.8, h.9, h.10, h.11, h.12, h.13,
        fun t => (h.14 t).congr rfl rfl rfl rfl rfl rfl rfl rfl, h.15, h.16, h.17, h.18, h.19, h.20⟩
    · exact h
  | closing => exact ⟨h.1, h.2, h.3, h.4, h.5, h.6, h.7, h.8, h.9, h.10, h.11, h.12, h.13,
        fun t => (h.14 t).congr rfl rfl rfl rfl rfl rfl rfl rfl, h.15, h.16, h.17, h.18, h.19, h.20⟩
  | stop =>
    have key : ∀ st, Inv c { s with state := st } := fun st =>
      ⟨h.1, h.2, h.3, h.4, h.5, h.6, h.7, h.8, h.9, h.10, h.11, h.12, h.13,
        fun t => (h.14 t).congr rfl rfl rfl rfl rfl rfl rfl rfl, h.15, h.16, h.17, h.18, h.19, h.20⟩
    unfold Ring.step
    simp only
    split
    · split
      · exact key _
      · exact h
    · exact key _

theorem Inv.run {c : Cfg α} : ∀ {es : List (Ev α)} {s : St α}, Inv c s → Timely c s es →
    Inv c (run c s es) := by
  intro es
  induction es with
  | nil => intro s h _; exact h
  | cons e es ih =>
    intro s h ht
    exact ih (h.step ht.1) ht.2

theorem Inv.init (c : Cfg α) (hL : 0 < c.L) : Inv c (init c) := by
  constructor <;> simp [Ring.init]
  case cap => exact hL
  case ti =>
    intro t
    by_cases h : c.async = true ∧ t = worker
    · rw [if_pos h]; trivial
    · rw [if_neg h]; trivial
  case uniqC =>
    intro t u k h; split at h <;> simp [cown] at h
  case consTid => intro _ t h; split at h <;> simp_all [isCons]

end FNLog.Ring
