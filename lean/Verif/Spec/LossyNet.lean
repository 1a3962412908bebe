import Verif.Model.LossyNet
import Verif.Spec.TrackerFlow
import Verif.Spec.TrackerUdp

/-!
# What it means that a tracker answers, and what lost datagrams cost
-/

namespace Demag.Spec

/-- BEP 15: `bs` is an answer to `req` by a tracker that can be reached over IPv6, or over IPv4: a connection to a connect request, peers to an
announce request.  It carries the transaction ID of the request, bytes 12 to 15 of either. -/
def Answers (v6 : Bool) (req bs : List UInt8) : Prop :=
  ∃ xid, At req 12 4 xid ∧
    ((At req 8 4 0 ∧ ∃ cid, IsConnectResponse xid cid bs) ∨ (At req 8 4 1 ∧ ∃ i l n addrs, IsAnnounceResponse v6 xid i l n addrs bs))

/-- The waits for the first `n` of a request's datagrams: 15 seconds, then 30, then 60, … -/
def waits (n : Nat) : Nat := ((List.range n).map fun i => 15 * 2 ^ i * 1000000000).sum

end Demag.Spec
