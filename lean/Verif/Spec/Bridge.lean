import Verif.Spec.Statement
import Verif.Model.Bridge

/-! # What sources and target output when records are forwarded -/

namespace FNLog.Spec

/-- The fields of a copy: those of the record, but for the channel. -/
def copyHead (B : Setup) (h : Head) : Head :=
  ⟨B.channel.id, h.priority, h.category, h.identify, h.line, h.func, h.file, h.ts, h.precise, h.thread, h.prefixLen⟩

/-- The virtual device of the source accepts the record, and the target admits it. -/
def Forwards (A B : Setup) (h : Head) : Prop :=
  A.hook = true ∧ 0 ≤ A.channel.virtualDeviceId ∧ HookAccepts (A.channel.devices.getD A.channel.virtualDeviceId.toNat {}) h ∧
    Admitted B.lg B.channel.id h.priority h.category h.identify

/-- The records of a sequence of statements with the number of their source, and the copies of those that are forwarded: the same lines. -/
inductive Bridged (src : Nat → Setup) (B : Setup) : List Item → List (Nat × Head × List Char) → List (Head × List Char) → Prop
  | nil : Bridged src B [] [] []
  | refused {x : Item} {rest : List Item} {recs : List (Nat × Head × List Char)} {copies : List (Head × List Char)} :
    ¬ Admitted (src x.src).lg x.call.channelId x.call.priority x.call.category x.call.identify → Bridged src B rest recs copies →
    Bridged src B (x :: rest) recs copies
  | kept {x : Item} {file t : List Char} {rest : List Item} {recs : List (Nat × Head × List Char)} {copies : List (Head × List Char)} :
    Admitted (src x.src).lg x.call.channelId x.call.priority x.call.category x.call.identify → FileField x.call.file file →
    RecordText (src x.src).env (src x.src).names x.call x.ops file t →
    ¬ Forwards (src x.src) B (headOf (src x.src).env (src x.src).names x.call x.ops file) → Bridged src B rest recs copies →
    Bridged src B (x :: rest) ((x.src, headOf (src x.src).env (src x.src).names x.call x.ops file, lineOf (src x.src).env.N t) :: recs) copies
  | forwarded {x : Item} {file t : List Char} {rest : List Item} {recs : List (Nat × Head × List Char)} {copies : List (Head × List Char)} :
    Admitted (src x.src).lg x.call.channelId x.call.priority x.call.category x.call.identify → FileField x.call.file file →
    RecordText (src x.src).env (src x.src).names x.call x.ops file t →
    Forwards (src x.src) B (headOf (src x.src).env (src x.src).names x.call x.ops file) → Bridged src B rest recs copies →
    Bridged src B (x :: rest) ((x.src, headOf (src x.src).env (src x.src).names x.call x.ops file, lineOf (src x.src).env.N t) :: recs)
      ((copyHead B (headOf (src x.src).env (src x.src).names x.call x.ops file), lineOf (src x.src).env.N t) :: copies)

/-- The records of one source. -/
def ofSource (i : Nat) (recs : List (Nat × Head × List Char)) : List (Head × List Char) :=
  (recs.filter fun x => x.1 == i).map fun x => x.2

end FNLog.Spec
