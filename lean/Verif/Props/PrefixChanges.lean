import Verif.Props.Stream
import Verif.Proof.Regular

/-!
# C27 in zones with clock changes
-/

namespace FNLog
open Spec

/-- **C27** in a zone with clock changes: the prefix of a log on a day without a change has the local time of the log,
whatever dates the thread printed before, those of days with a change included. -/
theorem C27_printed (E : Env) (hlib : E.lib.Sane) (hz : E.zone.Sane)
    (a : PrefixArgs) (ha : a.Ok) (hd : E.zone.Printed a.timestamp a.precise)
    (hm : a.mask ≠ 0) (file : List Char) (hfile : FileField a.file file)
    (hsize : file.length + (funcField a.func).length + 398 ≤ E.N)
    (content : List Char) (hcon : content.length = E.N) (dates : List Int) :
    ∃ r c', ctorPrefix E a ⟨some ⟨content, 0⟩, cacheAfter E.zone dates⟩ = some ⟨some r, c'⟩ ∧
      r.content.length = E.N ∧ r.len ≤ E.N ∧
      r.content.take r.len = prefixText
        [(a.mask.testBit 0, localDate E.zone a.timestamp a.precise),
         (a.mask.testBit 1, bracket (priorityText a.priority.toNat)),
         (a.mask.testBit 2, bracket (numeral 10 a.thread)),
         (a.mask.testBit 3, bracket a.name),
         (a.mask.testBit 4, bracket a.desc),
         (a.mask.testBit 5, bracket (file ++ [':'] ++ numeral 10 a.line.toNat)),
         (a.mask.testBit 6, ['('] ++ funcField a.func ++ [')'])] := by
  have hD := fun c hc' => (dateOut_printed hd (c := c) hc').1
  have hL := (dateOut_printed hd (c := DateCache.zero) (Or.inl rfl)).2
  obtain ⟨_, h⟩ := ctorPrefix_adds hlib hz a ha _ hD (by omega) hm
  rw [fileText_eq hfile, funcText_eq] at h
  obtain ⟨r, c', e, _, w⟩ := h ⟨content, 0⟩ (cacheAfter E.zone dates) hcon (by show 0 + _ ≤ _; rw [Nat.zero_add]; exact hsize) (cacheAfter_ok _ _)
  refine ⟨r, c', e, w.size, w.bound, ?_⟩
  rw [w.text]
  have hbit : ∀ i, decide (a.mask &&& 2 ^ i ≠ 0) = a.mask.testBit i := by
    intro i
    cases hb : a.mask.testBit i with
    | true =>
      refine decide_eq_true fun h0 => ?_
      have h1 : (a.mask &&& 2 ^ i).testBit i = true := by
        rw [Nat.testBit_and, hb, Nat.testBit_two_pow_self]; rfl
      rw [h0, Nat.zero_testBit] at h1
      exact Bool.noConfusion h1
    | false =>
      refine decide_eq_false (fun h0 => h0 (Nat.eq_of_testBit_eq fun j => ?_))
      rw [Nat.testBit_and, Nat.zero_testBit, Nat.testBit_two_pow]
      by_cases hj : i = j
      · rw [← hj, hb]; rfl
      · rw [decide_eq_false hj, Bool.and_false]
  unfold prefixFields
  have b0 := hbit 0; have b1 := hbit 1; have b2 := hbit 2; have b3 := hbit 3
  have b4 := hbit 4; have b5 := hbit 5; have b6 := hbit 6
  simp only [Nat.reducePow] at b0 b1 b2 b3 b4 b5 b6
  rw [b0, b1, b2, b3, b4, b5, b6, fileText_eq hfile, funcText_eq]
  rfl

end FNLog
