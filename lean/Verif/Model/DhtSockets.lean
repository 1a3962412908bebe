import Verif.Model.Dht
import Verif.Model.LogText

/-!
# The sockets of the DHT client: the model of `/repo/src/dht/actor.rs` 94-116 and 690-807

The client has a socket for IPv4 and, where the system has IPv6, another one for IPv6.
-/

namespace Demag

/-- What binding a UDP socket gives (`UdpSocket::bind`, external): an error, or a socket, whose port is known if `local_addr` succeeds. -/
inductive BindResult where
  | failed
  | bound (port : Option (BitVec 16))
  deriving DecidableEq

/-- src/dht/actor.rs:691-694 `UdpHandle`: the datagrams that wait in the sockets, the oldest first. -/
structure UdpHandle where
  ipv4 : List (SockV4 × Bytes)
  ipv6 : Option (List (SockV6 × Bytes))
  deriving DecidableEq

/-- What `UdpHandle::new` logs (src/dht/actor.rs:708-714, 719-727, 732-734). -/
inductive SocketLine where
  | port (v6 : Bool) (p : BitVec 16)
  | unknown (v6 : Bool)
  | withoutIpv6
  deriving DecidableEq

/-- The name of a family in src/dht/actor.rs:709, 713, 720, 725. -/
def familyName (v6 : Bool) : Text := if v6 then "IPv6".toList else "IPv4".toList

/-- The texts of these messages; `io` is the error of the system. -/
def SocketLine.text (io : Text) : SocketLine → Text
  | .port v6 p => "DHT node using UDP port ".toList ++ decimal p.toNat ++ " for ".toList ++ familyName v6 ++ " communication".toList
  | .unknown v6 => "Could not determine local address for DHT UDP socket on ".toList ++ familyName v6 ++ ": ".toList ++ io
  | .withoutIpv6 => "Failed to create UDP socket over IPv6 for DHT: ".toList ++ io ++ "; proceding without IPv6".toList

/-- src/dht/actor.rs:707-715, 718-729: what is logged of a socket. -/
def portLine (v6 : Bool) : Option (BitVec 16) → SocketLine
  | some p => .port v6 p
  | none => .unknown v6

/-- src/dht/actor.rs:703-739 `UdpHandle::new`, and what it logs; `none` is `CreateDhtActorError::BindIPv4`.  The arguments are the results of
binding `0.0.0.0:0` and `[::]:0`. -/
def UdpHandle.new (bind4 bind6 : BindResult) : Option UdpHandle × List SocketLine :=
  match bind4 with
  | .failed => (none, [])
  | .bound p4 =>
    match bind6 with
    | .failed => (some ⟨[], none⟩, [portLine false p4, .withoutIpv6])
    | .bound p6 => (some ⟨[], some []⟩, [portLine false p4, portLine true p6])

/-- src/dht/actor.rs:794-796 `UdpHandle::using_ipv6`. -/
def UdpHandle.usingIpv6 (h : UdpHandle) : Bool := h.ipv6.isSome

/-- src/dht/actor.rs:748-773 `UdpHandle::recv`, when it ends with a datagram; `none` while it waits.  If both sockets have one, `select!` takes
either: `first6` tells which.  A call that is dropped takes none (`recv_buf_from` is cancel safe), and the buffer of 65535 bytes
(src/consts.rs `UDP_PACKET_LEN`) holds any datagram. -/
def UdpHandle.recv (h : UdpHandle) (first6 : Bool) : Option ((SockAddr × Bytes) × UdpHandle) :=
  match h.ipv4, h.ipv6, first6 with
  | [], some (d :: l), _ => some ((.v6 d.1, d.2), { h with ipv6 := some l })
  | _ :: _, some (d :: l), true => some ((.v6 d.1, d.2), { h with ipv6 := some l })
  | d :: l, _, _ => some ((.v4 d.1, d.2), { h with ipv4 := l })
  | [], _, _ => none

/-- src/dht/actor.rs:799-807 `UdpSendError`. -/
inductive UdpSendError where
  | io
  | ipv6Disabled
  deriving DecidableEq

/-- src/dht/actor.rs:800-807: the texts of these errors. -/
def UdpSendError.text (io : Text) : UdpSendError → Text
  | .io => io
  | .ipv6Disabled => "INTERNAL ERROR: attempted to send DHT message over IPv6 while IPv6 was disabled".toList

/-- src/dht/actor.rs:782-791 `UdpHandle::send`: the error, if any.  `udp` tells whether the socket for the family takes the datagram. -/
def UdpHandle.send (h : UdpHandle) (udp : SockAddr → Bytes → Bool) (addr : SockAddr) (msg : Bytes) : Option UdpSendError :=
  if addr.isIpv4 then (if udp addr msg then none else some .io)
  else
    match h.ipv6 with
    | some _ => if udp addr msg then none else some .io
    | none => some .ipv6Disabled

/-- What happens at the sockets: a datagram arrives, or `recv` takes one. -/
inductive SocketEvent where
  | arrive4 (d : SockV4 × Bytes)
  | arrive6 (d : SockV6 × Bytes)
  | recv (first6 : Bool)
  deriving DecidableEq

/-- One event at the sockets, with what `recv` gives; `none` if it cannot happen (without a socket, no datagram arrives). -/
def UdpHandle.step (h : UdpHandle) : SocketEvent → Option (UdpHandle × List (SockAddr × Bytes))
  | .arrive4 d => some ({ h with ipv4 := h.ipv4 ++ [d] }, [])
  | .arrive6 d =>
    match h.ipv6 with
    | some l => some ({ h with ipv6 := some (l ++ [d]) }, [])
    | none => none
  | .recv first6 => (h.recv first6).map fun r => (r.2, [r.1])

/-- A sequence of events at the sockets: all the datagrams that `recv` gave, in order. -/
def UdpHandle.run (h : UdpHandle) : List SocketEvent → Option (UdpHandle × List (SockAddr × Bytes))
  | [] => some (h, [])
  | e :: es =>
    match h.step e with
    | none => none
    | some (h', got) =>
      match h'.run es with
      | none => none
      | some (h'', got') => some (h'', got ++ got')

/-- src/dht/actor.rs:94-116 `DhtActor::new`: the client with its sockets, or nothing if it cannot be created. -/
def DhtState.create (my : NodeId) (bind4 bind6 : BindResult) : Option DhtState :=
  (UdpHandle.new bind4 bind6).1.map fun h => DhtState.init my h.usingIpv6

end Demag
