import Verif.Props.RotatingThreads
import Verif.Props.Capstone

/-!
# From the text of a configuration to rotated files
-/

namespace FNLog
open Spec Ring

/-- The bytes of `F` and its `N` backups, the oldest first. -/
def Spec.keptBytes (N : Nat) (F : List Char) (b : List Char → Option (List Char)) : List Char :=
  match N with
  | 0 => (b F).getD []
  | n + 1 => (b (backup F (n + 1))).getD [] ++ keptBytes n F b

theorem kept_bytes (N : Nat) (F : List Char) (fs : Fs) : keptBytes N F (bytesOf fs) = (kept N F fs).flatten := by
  have key : ∀ p, (bytesOf fs p).getD [] = ((fs p).getD []).flatten := by
    intro p
    unfold bytesOf
    cases fs p <;> rfl
  induction N with
  | zero => exact key F
  | succ n ih => rw [keptBytes, kept, key, ih, List.flatten_append]

theorem keptBytes_congr {N : Nat} {F : List Char} {a b : List Char → Option (List Char)}
    (h : ∀ i, i ≤ N → a (backup F i) = b (backup F i)) : keptBytes N F a = keptBytes N F b := by
  induction N with
  | zero =>
    have h0 : a F = b F := h 0 (Nat.le_refl _)
    rw [keptBytes, keptBytes, h0]
  | succ n ih => rw [keptBytes, keptBytes, h (n + 1) (Nat.le_refl _), ih fun i hi => h i (by omega)]

/-- **C97** for a device that rotates, with any limits and names: the files of C97 (`b`), as bytes. None of the files of the
device was there, and it has opened at most as many as it has backups. Then each line its filter takes has a file name
(`w`), and the backups and the file of each name contain the lines with that name, one after the other. -/
theorem C97_rotated {S : Setup} {made : List (Nat × Call × List StreamOp)} {recs : List (Nat × Head × List Char)}
    (hr : ∀ t, Logged S (linesOf t made) (linesOf t recs)) (hsound : ∀ x ∈ made, Sound S x.2.1 x.2.2)
    {o : OutSt} {i : Int} {j : Nat} {d : Device} {taken : List FileLog}
    {t : FileSt} (ht : Runs S.fenv i d (view o j) (handed S.os j d 0 (recs.map Prod.snd)) taken t)
    {b : List Char → Option (List Char)} (hb : ∀ p, FilesOf S.fenv i d p → b p = bytesOf t.fs p)
    (hroll : d.cfg.rollback < 2 ^ 31)
    (hF : ∀ ts, ∃ p, fullPath S.fenv.proc (S.fenv.tm ts) S.fenv.fuel d i = some p ∧ p.length < 250)
    (hos : ∀ n, (S.os n j).opens = true ∧ (S.os n j).short = none) (hh : (o.dev j).handle = none)
    (hts : ∀ x ∈ made, (o.dev j).logs DEVICE_LOG_LAST_TRY_CREATE_TIMESTAMP + 5 ≤ x.2.1.ts)
    (hfs : ∀ p, FilesOf S.fenv i d p → o.fs p = none)
    (hN : t.logs DEVICE_LOG_LAST_TRY_CREATE_CNT - (o.dev j).logs DEVICE_LOG_LAST_TRY_CREATE_CNT ≤ backups d) :
    ∃ w : List (List Char × List Char), w.map Prod.snd = linesFor d (recs.map Prod.snd) ∧
      ∀ x ∈ w, keptBytes (backups d) x.1 b = ((w.filter fun y => y.1 = x.1).map Prod.snd).flatten := by
  have hmem : ∀ u, ∀ x ∈ linesOf u made, ∃ z ∈ made, z.2 = x := by
    intro u x hx
    obtain ⟨z, hz, rfl⟩ := List.mem_map.mp hx
    exact ⟨z, (List.mem_filter.mp hz).1, rfl⟩
  obtain ⟨w, hw, hx⟩ := rotated_runs hroll hF hos ht (fun r hm => by
      obtain ⟨y, hy, rfl⟩ := List.mem_map.mp hm
      have hy' : y.2 ∈ linesOf y.1 recs := List.mem_map.mpr ⟨y, List.mem_filter.mpr ⟨hy, by simp⟩, rfl⟩
      obtain ⟨g1, x, hx, e⟩ := logged_lines (hr y.1) y.2 hy'
      refine ⟨logged_valid (hr y.1) (fun x hx => ?_) y.2 hy', g1, ?_⟩
      · obtain ⟨z, hz, rfl⟩ := hmem _ x hx
        exact hsound z hz
      · obtain ⟨z, hz, rfl⟩ := hmem _ x hx
        rw [e]; exact hts z hz) hh hfs hN
  refine ⟨w, hw, fun x hm => ?_⟩
  obtain ⟨⟨ts, hFx⟩, e⟩ := hx x hm
  rw [← e, ← kept_bytes]
  exact keptBytes_congr fun n _ => hb _ ⟨ts, _, n, hFx, rfl⟩

theorem linesOf_same {β : Type} (t u : Nat) (l : List β) : linesOf u (l.map fun x => (t, x)) = if t = u then l else [] := by
  unfold linesOf
  rw [List.filter_map, List.map_map]
  by_cases h : t = u
  · rw [if_pos h, List.filter_eq_self.mpr (by intro a _; simp [h])]
    exact List.map_id _
  · rw [if_neg h, List.filter_eq_nil_iff.mpr (by intro a _; simp [h])]
    rfl

/-- The conditions of `C97_rotated`: the program of `C64_case_rotated` on thread 1. The device opens two files. -/
theorem C97_case_rotated : ∃ recs taken t,
    (∀ u, Logged rotSetup (linesOf u (demoProg.map fun x => (1, x))) (linesOf u recs)) ∧
    (∀ x ∈ demoProg.map fun x => (1, x), Sound rotSetup x.2.1 x.2.2) ∧
    Runs rotSetup.fenv 0 rotFile (view demoSys.out 0) (handed rotSetup.os 0 rotFile 0 (recs.map Prod.snd)) taken t ∧
    (∀ x ∈ demoProg.map fun x => (1, x), (demoSys.out.dev 0).logs DEVICE_LOG_LAST_TRY_CREATE_TIMESTAMP + 5 ≤ x.2.1.ts) ∧
    t.logs DEVICE_LOG_LAST_TRY_CREATE_CNT - (demoSys.out.dev 0).logs DEVICE_LOG_LAST_TRY_CREATE_CNT = 2 ∧
    backups rotFile = 3 := by
  obtain ⟨h1, h2, h3, h4, h5, h6, h7, h8, h9, _, _, _, _, h14, _, h16, h17⟩ := C64_case_rotated
  obtain ⟨recs, s', g1, g2, _, g4, _⟩ := C64_end_to_end_partial h1 h2 h3 h4 h5 h6
  obtain ⟨tk, t, hr, _, hl, _⟩ := g4 0 rotFile h7 h8 (Or.inl h9)
  rw [g2, Option.map_some] at h17
  have hcnt := (Prod.mk.inj (Option.some.inj h17)).1
  refine ⟨recs.map fun x => (1, x), tk, t, fun u => ?_, fun x hx => ?_, ?_, fun x hx => ?_, ?_, h16⟩
  · rw [linesOf_same, linesOf_same]
    split
    · exact g1
    · exact .nil
  · obtain ⟨y, hy, rfl⟩ := List.mem_map.mp hx
    exact h3 y hy
  · rw [List.map_map]
    have : recs.map (Prod.snd ∘ fun x => ((1 : Nat), x)) = recs := List.map_id _
    rw [this]
    exact hr
  · obtain ⟨y, hy, rfl⟩ := List.mem_map.mp hx
    exact h14 y hy
  · rw [hl, hcnt]; rfl

end FNLog
