import Verif.Spec.Get
import Verif.Spec.DhtTraffic

/-!
# Specification: how many bytes arrive

Counted from the events while a tracker is asked, and from those of the DHT client.
-/

namespace Demag.Spec

/-- The bytes that arrive with an event: those of the packet of a UDP tracker, or of the body of the response of an HTTP tracker. -/
def bytesHeard : AskEvent → Nat
  | .udp ⟨_, _, .packet bs⟩ => bs.length
  | .http (.body b) => b.length
  | _ => 0

/-- All the bytes that arrive while a tracker is asked. -/
def heard (tr : AskTrace) : Nat := (tr.map fun x => bytesHeard x.1).sum

/-- All the bytes that arrive for the DHT client. -/
def dhtHeard (es : List DhtEvent) : Nat := ((packetsIn es).map fun p => p.2.length).sum

end Demag.Spec
