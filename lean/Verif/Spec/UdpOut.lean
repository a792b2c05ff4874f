import Verif.Model.UdpOut

/-! # What is expected of the output of a UDP device -/

namespace FNLog.Spec
open UdpOut

/-- The address the configuration names. -/
def configured (ip port : Int) : SockAddr := ⟨true, (ip % 2 ^ 32).toNat, (port % 2 ^ 16).toNat⟩

/-- The calls that handed a datagram to `sendto`; those of them that were refused. -/
def udpHanded (s : UdpOut.St) : List (Nat × List Char) := s.net.map (·.1)
def udpRefused (s : UdpOut.St) : List (Nat × List Char) := (s.net.filter (fun g => !g.2.2)).map (·.1)

/-- Every call has ended in exactly one way: dropped because there is no socket, handed to `sendto` as one datagram, or not handed to it because
the socket was closed meanwhile; the statistics: lost are those that were not sent, written those not dropped. -/
structure Accounted (s : UdpOut.St) : Prop where
  ends : s.begun.Perm (s.dropped ++ udpHanded s ++ s.unsent)
  lost : s.lost.Perm (s.dropped ++ s.unsent ++ udpRefused s)
  written : s.written.Perm (udpHanded s ++ s.unsent)

/-- The datagrams of each thread are texts of its calls, in their order. -/
def UdpInOrder (s : UdpOut.St) : Prop := ∀ t, ((udpHanded s).filter (·.1 = t)).Sublist (s.begun.filter (·.1 = t))

end FNLog.Spec
