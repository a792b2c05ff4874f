import Verif.Model.Diag
import Verif.Spec.Diag
import Verif.Proof.LinesLogger
import Verif.Proof.ParseFuel

/-! # The parser with its place: same results, and the place is a line -/

namespace FNLog
open Spec

/-! ## Same results -/

theorem DRes.erase_bind {α β γ δ : Type} (r : DRes α) (f : α → DRes β) (p : α → γ) (q : β → δ) (g : γ → PRes δ)
    (h : ∀ a, (f a).erase q = g (p a)) : (r.bind f).erase q = (r.erase p).bind g := by
  cases r with
  | ok a => exact h a
  | _ => rfl

theorem at_erase {α : Type} (line pos : Nat) (t : List Char) (r : PRes α) : (r.at line pos t).erase id = r := by
  cases r <;> rfl

theorem lexD_erase (t : List Char) (en cur line : Nat) :
    (lexD t en cur line).erase (fun x => (x.1, x.2.1)) = lex t en cur := by
  unfold lexD
  cases lex t en cur <;> rfl

theorem devFieldD_erase (t : List Char) (a b c d : Nat) (r : PRes Device) : (devFieldD t a b c d r).erase id = r := by
  unfold devFieldD
  split
  · rfl
  · exact at_erase _ _ _ _

theorem parseDeviceD_erase {dns : List Char → Option Int} {t : List Char} {en indent : Nat} :
    ∀ (fuel cur line : Nat) (d : Device),
      (parseDeviceD dns t en indent fuel cur line d).erase (fun x => (x.1, x.2.1)) =
        parseDevice dns t en indent fuel cur d := by
  intro fuel
  induction fuel with
  | zero => intro cur line d; rfl
  | succ fuel ih =>
    intro cur line d
    unfold parseDeviceD parseDevice
    rw [← lexD_erase t en cur line]
    refine DRes.erase_bind _ _ _ _ _ ?_
    rintro ⟨ln, c, l⟩
    simp only
    cases ln.key with
    | none =>
      simp only
      split
      · rfl
      · exact ih _ _ _
    | some k =>
      simp only
      split
      · rfl
      · conv => rhs; rw [← devFieldD_erase t cur (l - 1) c l (devField dns k _ _ d)]
        refine DRes.erase_bind _ _ _ _ _ ?_
        intro d
        simp only [id]
        split
        · exact ih _ _ _
        · rfl

theorem parseChannelD_erase {dns : List Char → Option Int} {t : List Char} {en indent : Nat} :
    ∀ (fuel cur line : Nat) (ch : Channel),
      (parseChannelD dns t en indent fuel cur line ch).erase (fun x => (x.1, x.2.1)) =
        parseChannel dns t en indent fuel cur ch := by
  intro fuel
  induction fuel with
  | zero => intro cur line d; rfl
  | succ fuel ih =>
    intro cur line ch
    unfold parseChannelD parseChannel
    rw [← lexD_erase t en cur line]
    refine DRes.erase_bind _ _ _ _ _ ?_
    rintro ⟨ln, c, l⟩
    simp only
    cases ln.key with
    | none =>
      simp only
      split
      · rfl
      · exact ih _ _ _
    | some k =>
      simp only
      split
      · rfl
      · split
        · split
          · rfl
          · split
            · rfl
            · conv => rhs; rw [← parseDeviceD_erase _ _ l]
              refine DRes.erase_bind _ _ _ _ _ ?_
              rintro ⟨d, c, l⟩
              simp only
              split
              · exact ih _ _ _
              · rfl
        · conv => rhs; rw [← at_erase l c t (chanField k _ _ ch)]
          refine DRes.erase_bind _ _ _ _ _ ?_
          intro ch
          simp only [id]
          split
          · exact ih _ _ _
          · rfl

theorem varItemD_erase (line pos fuel : Nat) (t item : List Char) (off : Nat) :
    (varItemD line pos fuel t item off).erase id = varItem fuel t item off := by
  unfold varItemD varItem
  split
  · rfl
  · simp only
    cases dropBack (item.takeWhile (· != '=')) with
    | nil => rfl
    | cons c cs =>
      simp only
      split
      · rfl
      · conv => rhs; rw [← at_erase line pos t (predefinedInplace fuel t _ _ _ _ _)]
        exact DRes.erase_bind _ _ _ _ _ fun t => at_erase _ _ _ _

theorem varLoopD_erase (line pos fuel off : Nat) : ∀ (n : Nat) (t text : List Char),
    (varLoopD line pos fuel off n t text).erase id = varLoop fuel off n t text := by
  intro n
  induction n with
  | zero => intro t text; rfl
  | succ n ih =>
    intro t text
    unfold varLoopD varLoop
    cases text with
    | nil => rfl
    | cons c cs =>
      simp only
      split
      · exact ih _ _
      · rw [← varItemD_erase line pos]
        exact DRes.erase_bind _ _ _ _ _ fun t => ih _ _

theorem loggerLoopD_erase {dns : List Char → Option Int} {en : Nat} :
    ∀ (fuel : Nat) (t : List Char) (cur line : Nat) (g : Config),
      (loggerLoopD dns en fuel t cur line g).erase id = loggerLoop dns en fuel t cur g := by
  intro fuel
  induction fuel with
  | zero => intro t cur line g; rfl
  | succ fuel ih =>
    intro t cur line g
    unfold loggerLoopD loggerLoop
    rw [← lexD_erase t en cur line]
    refine DRes.erase_bind _ _ _ _ _ ?_
    rintro ⟨ln, c, l⟩
    have hgo : ∀ (t : List Char) (c l : Nat) (g : Config),
        (if c < en then loggerLoopD dns en fuel t c l g
          else if g.channels.length = 0 then .err .invalidChannelSize l c t else .ok g : DRes Config).erase id =
        (if c < en then loggerLoop dns en fuel t c g
          else if g.channels.length = 0 then .err .invalidChannelSize else .ok g) := by
      intro t c l g
      split
      · exact ih _ _ _ _
      · split <;> rfl
    simp only
    cases ln.key with
    | none =>
      simp only
      split
      · rfl
      · exact ih _ _ _ _
    | some k =>
      cases k with
      | hotUpdate => exact hgo _ _ _ _
      | define =>
        simp only
        conv => rhs; rw [← at_erase (l - 1) cur t (predefinedMacro fuel t _ _)]
        exact DRes.erase_bind _ _ _ _ _ fun t => hgo _ _ _ _
      | «variable» =>
        simp only
        unfold predefinedVar
        rw [← varLoopD_erase (l - 1) cur]
        exact DRes.erase_bind _ _ _ _ _ fun t => hgo _ _ _ _
      | loggerName => exact hgo _ _ _ _
      | loggerDesc => exact hgo _ _ _ _
      | shmKey => exact hgo _ _ _ _
      | channel =>
        simp only
        split
        · rfl
        · split
          · rfl
          · rw [← parseChannelD_erase _ _ l]
            exact DRes.erase_bind _ _ _ _ _ fun x => hgo _ _ _ _
      | _ => rfl

/-- The parser with its place gives the results of the parser. -/
theorem parseLoggerD_erase (dns : List Char → Option Int) (garbage : Int) (fuel : Nat) (t : List Char) :
    (parseLoggerD dns garbage fuel t).erase id = parseLogger dns garbage fuel t := loggerLoopD_erase _ _ _ _ _

end FNLog
