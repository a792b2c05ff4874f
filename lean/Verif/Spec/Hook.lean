import Verif.Model.Hook
import Verif.Spec.Threads

/-!
# What a hook may expect when several threads log
-/

namespace FNLog.Spec

/-- A hook is registered, and the device at `virtual_device_id_` accepts the record. -/
def HookTakes (S : Setup) (h : Head) : Prop :=
  S.hook = true ∧ 0 ≤ S.channel.virtualDeviceId ∧
    HookAccepts (S.channel.devices.getD S.channel.virtualDeviceId.toNat {}) h

/-- The device of the hook. -/
def HookDevice (S : Setup) (k : Nat) : Prop :=
  S.hook = true ∧ 0 ≤ S.channel.virtualDeviceId ∧ k = S.channel.virtualDeviceId.toNat

open Classical in
/-- The calls of the hook for a record with this text. -/
noncomputable def hookCall (S : Setup) (h : Head) (text : List Char) : List (Head × List Char) :=
  if HookTakes S h then [(h, hookText S.env.N text)] else []

/-- The records of a sequence of statements as in `Logged`, and the calls of the hook for them. -/
inductive LoggedHook (S : Setup) : List (Call × List StreamOp) → List (Head × List Char) → List (Head × List Char) → Prop
  | nil : LoggedHook S [] [] []
  | refused {a : Call} {ops : List StreamOp} {rest : List (Call × List StreamOp)} {recs calls : List (Head × List Char)} :
    ¬ Admitted S.lg a.channelId a.priority a.category a.identify → LoggedHook S rest recs calls →
    LoggedHook S ((a, ops) :: rest) recs calls
  | admitted {a : Call} {ops : List StreamOp} {file t : List Char} {rest : List (Call × List StreamOp)}
    {recs calls : List (Head × List Char)} :
    Admitted S.lg a.channelId a.priority a.category a.identify → FileField a.file file →
    RecordText S.env S.names a ops file t → LoggedHook S rest recs calls →
    LoggedHook S ((a, ops) :: rest) ((headOf S.env S.names a ops file, lineOf S.env.N t) :: recs)
      (hookCall S (headOf S.env S.names a ops file) t ++ calls)

/-- The statistics of the device of the hook count the calls. -/
structure HookCounted (before after : Fields) (calls : List (Head × List Char)) : Prop where
  lines : after DEVICE_LOG_TOTAL_WRITE_LINE = before DEVICE_LOG_TOTAL_WRITE_LINE + calls.length
  bytes : after DEVICE_LOG_TOTAL_WRITE_BYTE = before DEVICE_LOG_TOTAL_WRITE_BYTE + (calls.map Prod.snd).flatten.length
  priorities : ∀ q : Nat, q ≤ 6 → after (DEVICE_LOG_PRIORITY + q) = before (DEVICE_LOG_PRIORITY + q) +
    ((calls.filter fun c => c.1.priority == (q : Int)).map Prod.snd).flatten.length
  /-- no other statistics -/
  rest : ∀ i, i ≠ DEVICE_LOG_TOTAL_WRITE_LINE → i ≠ DEVICE_LOG_TOTAL_WRITE_BYTE →
    (∀ q : Nat, q ≤ 6 → i ≠ DEVICE_LOG_PRIORITY + q) → after i = before i

end FNLog.Spec
