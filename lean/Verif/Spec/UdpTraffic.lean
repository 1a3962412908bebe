import Verif.Spec.TrackerUdp

/-!
# Specification: how much is sent to a UDP tracker
-/

namespace Demag.Spec

/-- The packet that is sent, if one is. -/
def sentPacket : UdpOutput → Option (List UInt8)
  | .transmit bs => some bs
  | _ => none

/-- The packets sent to the tracker, in order. -/
def udpSent (tr : UdpTrace) : List (List UInt8) := (tr.flatMap (·.2)).filterMap sentPacket

/-- Whether `announce` is called. -/
def isCall : UdpInput → Bool
  | .call _ => true
  | _ => false

/-- How many announcements were asked for. -/
def udpCalls (tr : UdpTrace) : Nat := (tr.filter fun x => isCall x.1.input).length

/-- The length of the options of BEP 41 for URL data of `n` bytes: two bytes for each 255 bytes or part of them. -/
def optionsLength (n : Nat) : Nat := n + 2 * ((n + 254) / 255)

end Demag.Spec
