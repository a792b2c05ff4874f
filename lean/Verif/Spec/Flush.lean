import Verif.Model.Flush
import Verif.Spec.Threads

/-! # What flushing is supposed to achieve -/

namespace FNLog.Spec

/-- The bytes of a file. -/
def bytesOf (fs : Fs) (p : List Char) : Option (List Char) := (fs p).map List.flatten

/-- Nothing makes a file device close its file: no rotation by size, day or hour is configured, every `fwrite` is complete. -/
structure Steady (S : Setup) : Prop where
  cfg : ∀ d ∈ S.channel.devices, d.outType = .file →
    d.cfg.rolldaily = 0 ∧ d.cfg.rollhourly = 0 ∧ (d.cfg.limitSize ≤ 0 ∨ d.cfg.rollback ≤ 0)
  writes : ∀ n j, (S.os n j).short = none

/-- One log statement at a time: whenever a thread begins a log statement or makes a step of it, every other thread is outside of the
log statements.  (The README says of sync channels "only support single thread".) -/
def Serial (S : Setup) (B : Stdio) : List Act → FCrew → Prop
  | [], _ => True
  | e :: es, f => (∀ t, e.thread = some t → ∀ u, u ≠ t → f.crew.ring.pc u = .idle) ∧
      ∀ f', fAct S B f e = some f' → Serial S B es f'

/-- A thread is outside of the log statements, or (the thread of an async channel) has ended or is between two rounds, where it
sleeps (fn_channel.h 258-261). -/
def AtRest (f : FCrew) (t : Nat) : Prop :=
  f.crew.ring.pc t = .idle ∨ f.crew.ring.pc t = .done ∨ (f.crew.ring.pc t = .cLoop ∧ f.fl t = .off)

end FNLog.Spec
