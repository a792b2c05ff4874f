import Verif.Model.Flush
import Verif.Model.Device

/-!
# The rounds of the thread of a channel, with UDP input

One round of the loop of `EnterProcChannel` (fn_channel.h 103-264) as seen by one file device that is also an input device
(`in_type: udp, out_type: file`): the records that reach it, the flushes, then the datagrams.  A single thread makes all rounds
(an async channel).  The functions take what a device does with a line as an argument, so that the same rounds can be made
with and without the buffer of the stream.

Simplifications: the other devices of the channel are left out, and with them the records this device does not take; the socket
is open (204-236).
-/

namespace FNLog

/-- What a round meets: the records for the device, the datagrams waiting (with the time of their reception), and for each
line the bytes the C library hands on by itself. -/
structure Round where
  recs : List (FileLog × Nat)
  grams : List (List Char × Int × Os × Nat)

/-- The inner loop (fn_channel.h 106-184): the records, `flush_count`, and the forced flush. -/
def recordsIn {σ : Type} (queue : Nat) (dev : FileLog → Nat → σ → Option σ) (flush : σ → σ) :
    List (FileLog × Nat) → Nat × σ → Option (Nat × σ)
  | [], s => some s
  | (log, n) :: rest, (count, s) => do
    let s ← dev log n s
    if count + 1 > queue then recordsIn queue dev flush rest (0, flush s)
    else recordsIn queue dev flush rest (count + 1, s)

/-- The datagrams (fn_channel.h 239-254), as `udpInput`. -/
def gramsIn {σ : Type} (N : Nat) (dev : FileLog → Nat → σ → Option σ) :
    List (List Char × Int × Os × Nat) → UdpBuf × σ → Option (UdpBuf × σ)
  | [], s => some s
  | (gram, ts, os, n) :: rest, (b, s) => do
    let b ← readUdp N gram b
    if b.len = 0 then some (b, s)
    else do
      let _ ← cString b.content
      let s ← dev ⟨ts, PRIORITY_INFO, b.content.take b.len, os.opens, os.short⟩ n s
      gramsIn N dev rest (b, s)

/-- A round: the records, `if (flush_count != 0)` (192-201), the datagrams (202-255). -/
def roundIn {σ : Type} (queue N : Nat) (dev : FileLog → Nat → σ → Option σ) (flush : σ → σ) (r : Round) (s : UdpBuf × σ) :
    Option (UdpBuf × σ) := do
  let x ← recordsIn queue dev flush r.recs (0, s.2)
  gramsIn N dev r.grams (s.1, if x.1 ≠ 0 then flush x.2 else x.2)

/-- Rounds. -/
def roundsIn {σ : Type} (queue N : Nat) (dev : FileLog → Nat → σ → Option σ) (flush : σ → σ) :
    List Round → UdpBuf × σ → Option (UdpBuf × σ)
  | [], s => some s
  | r :: rs, s => do
    let s ← roundIn queue N dev flush r s
    roundsIn queue N dev flush rs s

/-- The rounds of a file device. -/
def bufRounds (E : FileEnv) (ch : Int) (d : Device) (queue N : Nat) (rs : List Round) (s : UdpBuf × BufSt) :
    Option (UdpBuf × BufSt) :=
  roundsIn queue N (fun log n => bufFileDevice E ch 0 n d log) BufSt.flush rs s

/-- The rounds of a file device without buffer (`fileDevice`). -/
def plainRounds (E : FileEnv) (ch : Int) (d : Device) (N : Nat) (rs : List Round) (s : UdpBuf × FileSt) :
    Option (UdpBuf × FileSt) :=
  roundsIn 0 N (fun log _ => fileDevice E ch d log) id rs s

end FNLog
