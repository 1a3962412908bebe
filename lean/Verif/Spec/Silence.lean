import Verif.Spec.NetBatch
import Verif.Spec.AppDht
import Verif.Spec.DhtTraffic
import Verif.Spec.Download

/-!
# Specification: when everybody falls silent
-/

namespace Demag.Spec

/-- Nothing comes from the network: no tracker answers, no packet reaches the DHT client, and no peer accepts a connection.  What is left is what the
program does by itself, and the ends of the times that it allows others.  (A request is sent again to a UDP tracker as long as the time for asking it has not
ended; that leads nowhere, and is left out.) -/
def Silent : NetEvent → Prop
  | .dht (.client e) => isInternal e = true
  | .tracker _ _ (.udp _) => False
  | .tracker _ _ (.http _) => False
  | .peerBegins _ _ links => ∀ i, (links i).connect ≠ .ok
  | _ => True

/-- The packet that reaches the DHT client in an event. -/
def dhtPacket (x : NetEvent × List NetOutput) : Option (SockAddr × Bytes) :=
  match x.1 with
  | .dht (.client e) => packetOf e
  | _ => none

/-- The packets that have reached the DHT client. -/
def dhtPackets (tr : NetTrace) : List (SockAddr × Bytes) := tr.filterMap dhtPacket

/-- None of the peers that have been contacted stalls after having agreed to talk about the metadata (see C59). -/
def NobodyStalls (env : GetEnv) (ms : List Magnet) (tr : NetTrace) : Prop :=
  ∀ (n : Nat) (m : Magnet) (p : Peer) (links : Nat → Link), ms[n]? = some m → Behaved tr p links → ∀ i enc, ¬ Stalls (links i) ⟨m.infoHash, env.localId, p.address.ip⟩ enc

end Demag.Spec
