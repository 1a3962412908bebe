import Verif.Model.DhtSockets

/-!
# Specification: datagrams at the sockets of the DHT client
-/

namespace Demag.Spec

/-- The datagrams that arrived at the IPv4 socket. -/
def arrived4 (es : List SocketEvent) : List (SockV4 × List UInt8) := es.filterMap fun e => match e with | .arrive4 d => some d | _ => none

/-- The datagrams that arrived at the IPv6 socket. -/
def arrived6 (es : List SocketEvent) : List (SockV6 × List UInt8) := es.filterMap fun e => match e with | .arrive6 d => some d | _ => none

/-- The datagrams that came from IPv4 addresses. -/
def from4 (l : List (SockAddr × List UInt8)) : List (SockV4 × List UInt8) :=
  l.filterMap fun d => match d.1 with | .v4 a => some (a, d.2) | .v6 _ => none

/-- The datagrams that came from IPv6 addresses. -/
def from6 (l : List (SockAddr × List UInt8)) : List (SockV6 × List UInt8) :=
  l.filterMap fun d => match d.1 with | .v6 a => some (a, d.2) | .v4 _ => none

end Demag.Spec
