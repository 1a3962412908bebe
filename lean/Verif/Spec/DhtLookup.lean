import Verif.Spec.Dht

/-!
# Specification: what can be seen of DHT lookups

Functions of the sequence of effects of the DHT client: which queries were sent, which are outstanding, what the replies said.
-/

namespace Demag.Spec

/-- The lookup to which an effect belongs. -/
def lookupOf : DhtEffect → Option Nat
  | .query sid _ _ _ _ => some sid
  | .replied sid _ _ _ => some sid
  | .timedOut sid _ _ => some sid
  | .started sid _ _ => some sid
  | _ => none

/-- A query, with the lookup and the address. -/
def queryOf : DhtEffect → Option (Nat × SockAddr × GetPeersQuery)
  | .query sid addr q _ _ => some (sid, addr, q)
  | _ => none

/-- All the queries, in order (also those the socket refused). -/
def queries (tr : List DhtEffect) : List (Nat × SockAddr × GetPeersQuery) := tr.filterMap queryOf

/-- The addresses to which queries of a lookup went, in order. -/
def queriedBy (sid : Nat) (tr : List DhtEffect) : List SockAddr :=
  ((queries tr).filter fun q => q.1 = sid).map fun q => q.2.1

/-- The outstanding queries of a lookup: sent, and neither answered nor timed out. -/
def outstep (sid : Nat) (l : List (SockAddr × Bytes)) : DhtEffect → List (SockAddr × Bytes)
  | .query sid' addr q _ ok => if sid' = sid ∧ ok = true then l ++ [(addr, q.transactionId)] else l
  | .replied sid' addr txn _ => if sid' = sid then l.filter fun x => x ≠ (addr, txn) else l
  | .timedOut sid' addr txn => if sid' = sid then l.filter fun x => x ≠ (addr, txn) else l
  | _ => l

/-- The outstanding queries of a lookup, in the order in which they were sent. -/
def outstanding (sid : Nat) (tr : List DhtEffect) : List (SockAddr × Bytes) := tr.foldl (outstep sid) []

/-- No query carries the transaction ID of a query to the same address, of whatever lookup, that is outstanding when it is sent.  (As the
transaction IDs are those of a counter, it takes 2^32 queries for one to come again.) -/
def NoReuse (tr : List DhtEffect) : Prop :=
  ∀ before sid addr q packet ok after, tr = before ++ .query sid addr q packet ok :: after →
    ∀ sid', (addr, q.transactionId) ∉ outstanding sid' before

/-- A query that the socket took. -/
def takenOf : DhtEffect → Option (Nat × SockAddr × Bytes)
  | .query sid addr q _ true => some (sid, addr, q.transactionId)
  | _ => none

/-- The queries that the socket took: the lookup, the address and the transaction ID. -/
def sentQueries (tr : List DhtEffect) : List (Nat × SockAddr × Bytes) := tr.filterMap takenOf

/-- A valid response to a query of a lookup, with its sender. -/
def responseOf (sid : Nat) : DhtEffect → Option (SockAddr × GetPeersResponse)
  | .replied sid' addr _ msg => if sid' = sid then (decodeResponse lossyUtf8 msg).toOption.map fun r => (addr, r) else none
  | _ => none

/-- The valid responses to the queries of a lookup, in order. -/
def responses (sid : Nat) (tr : List DhtEffect) : List (SockAddr × GetPeersResponse) := tr.filterMap (responseOf sid)

/-- The nodes that a response lists. -/
def listed (r : GetPeersResponse) : List Node := r.nodes.map NodeT.ofV4 ++ r.nodes6.map NodeT.ofV6

/-- What a lookup does with its nodes when a response comes: it learns of the nodes listed; it marks the ID under which the sender
was known before the response; it asks the not yet queried among the 8 closest. -/
def respond (ops : List SpaceOp) (r : SockAddr × GetPeersResponse) : List SpaceOp :=
  ops ++ (listed r.2).map SpaceOp.add ++
    (((known ops).find? fun n => Node.address n = r.1).map fun n => SpaceOp.mark n.id).toList ++ [SpaceOp.ask 8]

/-- What a lookup has done with its nodes. -/
def nodeOps (rs : List (SockAddr × GetPeersResponse)) : List SpaceOp := rs.foldl respond []

/-- The peers listed in responses. -/
def peersOf (rs : List (SockAddr × GetPeersResponse)) : List Peer := rs.flatMap fun r => r.2.values

/-- A request that gets its result or the error that the client is down. -/
def settledOf : DhtEffect → Option Nat
  | .answer req _ => some req
  | .down req => some req
  | _ => none

/-- The requests that got a result or an error. -/
def settled (tr : List DhtEffect) : List Nat := tr.filterMap settledOf

/-- The request for a lookup in an event. -/
def submittedOf : DhtEvent → Option Nat
  | .submit m => m.request
  | _ => none

/-- The requests made for lookups. -/
def submitted (es : List DhtEvent) : List Nat := es.filterMap submittedOf

/-- The addresses of the bootstrap nodes in an event. -/
def resolvedOf : DhtEvent → Option (List SockAddr)
  | .resolved addrs => some addrs
  | _ => none

/-- The addresses of the bootstrap nodes. -/
def bootstrapOf (es : List DhtEvent) : List SockAddr := (es.findSome? resolvedOf).getD []

/-- A query of a lookup that ends, by a reply or by a timeout. -/
def endOf : DhtEffect → Option (Nat × SockAddr × Bytes)
  | .replied sid addr txn _ => some (sid, addr, txn)
  | .timedOut sid addr txn => some (sid, addr, txn)
  | _ => none

/-- The queries that ended. -/
def ends (tr : List DhtEffect) : List (Nat × SockAddr × Bytes) := tr.filterMap endOf

/-- The events that come from the client itself and its timers: they happen without any packet or new request. -/
def isInternal : DhtEvent → Bool
  | .resolved _ => true
  | .receive _ => true
  | .timer _ _ _ => true
  | _ => false

/-- How much the client can still do by itself: a request in the channel is taken out and may start a timer for each of the bootstrap
addresses, and each timer runs out. -/
def work (lookup : Text → BitVec 16 → Option (List SockAddr)) (nodes : List InetAddr) (st : DhtState) : Nat :=
  match st.phase with
  | .starting => st.inbox.length * ((nodes.filterMap (InetAddr.resolve lookup st.actor.usingIpv6)).length + 1) + st.actor.timers.length + 1
  | .running b => st.inbox.length * (b.length + 1) + st.actor.timers.length
  | .stopped => 0

end Demag.Spec
