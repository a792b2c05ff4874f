import Verif.Spec.Statement

/-!
# What the screen and UDP devices should output
-/

namespace FNLog.Spec

/-- The escape sequence that switches to the colour of a priority: high blue, yellow, red, green, magenta. -/
def colourOf (priority : Int) : List Char :=
  if priority = 2 then "\x1b[34m\x1b[1m".toList
  else if priority = 3 then "\x1b[33m".toList
  else if priority = 4 then "\x1b[31m".toList
  else if priority = 5 then "\x1b[32m".toList
  else "\x1b[35m".toList

/-- A line on the screen: from INFO on in the colour of its priority.  A NUL in the text ends it. -/
def shown (priority : Int) (line : List Char) : List Char :=
  if priority < 2 then line.takeWhile (· ≠ '\x00')
  else colourOf priority ++ line.takeWhile (· ≠ '\x00') ++ "\x1b[0m".toList

open Classical in
/-- The devices of type `ty` that take a record, in their order. -/
noncomputable def takers (ty : OutType) (devices : List Device) (h : Head) : List Device :=
  devices.filter fun d => d.outType = ty ∧ DeviceTakes d h.priority h.category h.identify

/-- What records show on the screen: each once for every screen device that takes it. -/
noncomputable def screenLines (devices : List Device) (recs : List (Head × List Char)) : List (List Char) :=
  recs.flatMap fun r => (takers .screen devices r.1).map fun _ => shown r.1.priority r.2

/-- The datagram of a line to the address of a device. -/
def datagram (d : Device) (line : List Char) : Datagram :=
  ⟨(d.cfg.udpIp % 2 ^ 32).toNat, (d.cfg.udpPort % 2 ^ 16).toNat, line⟩

/-- The datagrams of records: each once for every UDP device that takes it. -/
noncomputable def datagrams (devices : List Device) (recs : List (Head × List Char)) : List Datagram :=
  recs.flatMap fun r => (takers .udp devices r.1).map fun d => datagram d r.2

/-- The fate of the records (from number `n` on) at UDP device `k`: `lost` of those that it takes were dropped for want of
a socket; the others were handed to `sendto`, with the success noted. -/
inductive UdpFate (os : Nat → Nat → Os) (k : Nat) (d : Device) :
    Nat → List (Head × List Char) → Nat → List (List Char × Bool) → Prop
  | nil {n : Nat} : UdpFate os k d n [] 0 []
  | refused {n : Nat} {h : Head} {line : List Char} {rest : List (Head × List Char)} {lost : Nat}
    {sent : List (List Char × Bool)} : ¬ DeviceTakes d h.priority h.category h.identify →
    UdpFate os k d (n + 1) rest lost sent → UdpFate os k d n ((h, line) :: rest) lost sent
  | lost {n : Nat} {h : Head} {line : List Char} {rest : List (Head × List Char)} {lost : Nat}
    {sent : List (List Char × Bool)} : DeviceTakes d h.priority h.category h.identify →
    UdpFate os k d (n + 1) rest lost sent → UdpFate os k d n ((h, line) :: rest) (lost + 1) sent
  | sent {n : Nat} {h : Head} {line : List Char} {rest : List (Head × List Char)} {lost : Nat}
    {sent : List (List Char × Bool)} : DeviceTakes d h.priority h.category h.identify →
    UdpFate os k d (n + 1) rest lost sent →
    UdpFate os k d n ((h, line) :: rest) lost ((line, decide (0 < (os n k).sent)) :: sent)

end FNLog.Spec
