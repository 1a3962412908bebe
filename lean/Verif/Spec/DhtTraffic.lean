import Verif.Spec.DhtLookup

/-!
# Specification: how much DHT lookups send and keep

Functions of the events and effects of the DHT client.
-/

namespace Demag.Spec

/-- A reply that a lookup took: the lookup, the sender and the message. -/
def replyOf : DhtEffect → Option (Nat × SockAddr × Bytes)
  | .replied sid addr _ msg => some (sid, addr, msg)
  | _ => none

/-- The replies that lookups took, in order. -/
def repliesTaken (tr : List DhtEffect) : List (Nat × SockAddr × Bytes) := tr.filterMap replyOf

/-- The replies that one lookup took. -/
def repliesTo (sid : Nat) (tr : List DhtEffect) : List (Nat × SockAddr × Bytes) := (repliesTaken tr).filter fun x => x.1 = sid

/-- The number of bytes of messages. -/
def messageBytes (l : List (Nat × SockAddr × Bytes)) : Nat := (l.map fun x => x.2.2.length).sum

/-- A packet that arrives. -/
def packetOf : DhtEvent → Option (SockAddr × Bytes)
  | .packet addr msg _ _ => some (addr, msg)
  | _ => none

/-- The packets that arrive, in order. -/
def packetsIn (es : List DhtEvent) : List (SockAddr × Bytes) := es.filterMap packetOf

/-- A packet given to the socket. -/
def outOf : DhtEffect → Option Bytes
  | .query _ _ _ packet _ => packet
  | _ => none

/-- The packets given to the socket, in order. -/
def packetsOut (tr : List DhtEffect) : List Bytes := tr.filterMap outOf

/-- A lookup that starts. -/
def startOf : DhtEffect → Option Nat
  | .started sid _ _ => some sid
  | _ => none

/-- The lookups that started, in order. -/
def lookupsStarted (tr : List DhtEffect) : List Nat := tr.filterMap startOf

/-- What a lookup has in memory: the nodes in its buckets, the addresses of nodes, the peers, and the queries in flight. -/
structure KeptWithin (s : LookupSession) (boot queries bytes : Nat) : Prop where
  nodes : 26 * (s.nodes.nodes.flatMap fun e => e.2).length + 6 * s.peers.length ≤ bytes
  addrs : s.nodes.addr2node.length = (s.nodes.nodes.flatMap fun e => e.2).length
  flight : s.inFlight.length ≤ queries
  waiting : s.toQuery = []
  asked : 26 * queries ≤ 26 * boot + bytes

end Demag.Spec
