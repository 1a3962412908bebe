import Verif.Spec.DhtLookup

/-!
# Specification: what happens to one DHT lookup

What a lookup hears and what the socket does with its queries, without transaction IDs and without a trace of other lookups.
-/

namespace Demag.Spec

/-- What a lookup hears about a query: a reply, which may be a valid response; or that the time for a reply is over. -/
inductive Heard where
  | reply (r : Option GetPeersResponse)
  | silence

/-- What an effect tells about a query of a lookup, with the address that was queried. -/
def heardOf (sid : Nat) : DhtEffect → Option (SockAddr × Heard)
  | .replied sid' addr _ msg => if sid' = sid then some (addr, .reply (decodeResponse lossyUtf8 msg).toOption) else none
  | .timedOut sid' addr _ => if sid' = sid then some (addr, .silence) else none
  | _ => none

/-- What a lookup has heard, in order. -/
def lookupHeard (sid : Nat) (tr : List DhtEffect) : List (SockAddr × Heard) := tr.filterMap (heardOf sid)

/-- What the socket did with a query of a lookup. -/
def socketOf (sid : Nat) : DhtEffect → Option Bool
  | .query sid' _ _ _ ok => if sid' = sid then some ok else none
  | _ => none

/-- For each query of a lookup, in order: whether the socket took it. -/
def socketSaid (sid : Nat) (tr : List DhtEffect) : List Bool := tr.filterMap (socketOf sid)

/-- The request for which a lookup is started. -/
def startRequest : DhtEffect → Option Nat
  | .started _ req _ => some req
  | _ => none

/-- The requests for which lookups were started. -/
def startedFor (tr : List DhtEffect) : List Nat := tr.filterMap startRequest

end Demag.Spec
