import Verif.Model.Wire

/-!
# Compact addresses: the model of `/repo/src/compact.rs` and of the compact node info in `/repo/src/dht/mod.rs`
-/

namespace Demag

/-- src/compact.rs:154-159 `FromCompactError`. -/
structure FromCompactError where
  ty : String
  length : Nat
  deriving DecidableEq, Repr

/-- src/compact.rs:41-50 `<IpAddr as ToCompact>::to_compact`. -/
def ipToCompact : IpAddr → Bytes
  | .v4 ip => ip.octets
  | .v6 ip => ip.octets

/-- src/compact.rs:52-62 `<SocketAddr as ToCompact>::to_compact`. -/
def sockToCompact : SockAddr → Bytes
  | .v4 a => a.ip.octets ++ putU16 a.port
  | .v6 a => a.ip.octets ++ putU16 a.port

/-- src/compact.rs:71-72, 96-97: `get_u32` then `get_u16`, called only on 6 bytes (so the `bytes`
crate's panic on a short buffer cannot occur). -/
def readV4 (bs : Bytes) : SockV4 :=
  ⟨⟨BitVec.ofNat 32 (beAccum (bs.take 4))⟩, BitVec.ofNat 16 (beAccum ((bs.drop 4).take 2))⟩

/-- src/compact.rs:76-77, 116-117: `get_u128` then `get_u16`, called only on 18 bytes. -/
def readV6 (bs : Bytes) : SockV6 :=
  ⟨⟨BitVec.ofNat 128 (beAccum (bs.take 16))⟩, BitVec.ofNat 16 (beAccum ((bs.drop 16).take 2))⟩

/-- src/compact.rs:64-86 `<SocketAddr as FromCompact>::from_compact`. -/
def sockFromCompact (bs : Bytes) : Except FromCompactError SockAddr :=
  match bs.length with
  | 6 => .ok (.v4 (readV4 bs))
  | 18 => .ok (.v6 (readV6 bs))
  | other => .error ⟨"SocketAddr", other⟩

/-- src/compact.rs:88-106 `<SocketAddrV4 as FromCompact>::from_compact`. -/
def v4FromCompact (bs : Bytes) : Except FromCompactError SockV4 :=
  match bs.length with
  | 6 => .ok (readV4 bs)
  | other => .error ⟨"SocketAddrV4", other⟩

/-- src/compact.rs:108-126 `<SocketAddrV6 as FromCompact>::from_compact`. -/
def v6FromCompact (bs : Bytes) : Except FromCompactError SockV6 :=
  match bs.length with
  | 18 => .ok (readV6 bs)
  | other => .error ⟨"SocketAddrV6", other⟩

/-- src/compact.rs:128-149 macro `impl_vec_fromcompact!` (`$len` is one of the positive literals 6, 18,
26, 38; `one` is `<$t>::from_compact`). -/
def vecFromCompact {α : Type} (len : Nat) (hlen : 0 < len)
    (one : Bytes → Except FromCompactError α) (bs : Bytes) : Except FromCompactError (List α) :=
  if bs.isEmpty then .ok []
  else if _h : bs.length ≥ len then do
    let x ← one (bs.take len)
    let xs ← vecFromCompact len hlen one (bs.drop len)
    return x :: xs
  else do
    let x ← one bs
    return [x]
termination_by bs.length
decreasing_by rw [List.length_drop]; omega

/-- src/compact.rs:151 `Vec<SocketAddrV4>`. -/
def v4sFromCompact : Bytes → Except FromCompactError (List SockV4) :=
  vecFromCompact 6 (by decide) v4FromCompact

/-- src/compact.rs:152 `Vec<SocketAddrV6>`. -/
def v6sFromCompact : Bytes → Except FromCompactError (List SockV6) :=
  vecFromCompact 18 (by decide) v6FromCompact

/-- src/dht/mod.rs:18-19 `NodeId`: exactly 20 bytes. -/
structure NodeId where
  bytes : Bytes
  len : bytes.length = 20
  deriving DecidableEq

/-- src/dht/mod.rs:46-56 `NodeId::try_from_buf`. -/
def tryGetNodeId (buf : Bytes) : Except PacketError (NodeId × Bytes) :=
  if h : buf.length ≥ 20 then
    .ok (⟨buf.take 20, by rw [List.length_take]; omega⟩, buf.drop 20)
  else .error .short

/-- src/dht/mod.rs:84-89 `Node<T>`. -/
structure NodeT (α : Type) where
  id : NodeId
  ip : α
  port : BitVec 16
  deriving DecidableEq

/-- src/dht/mod.rs:123-138 and 140-155: id, ip, port, end; every failure is reported as `e`. -/
def nodeFromCompact {α : Type} (ty : String) (getIp : Bytes → Except PacketError (α × Bytes))
    (bs : Bytes) : Except FromCompactError (NodeT α) :=
  let e : FromCompactError := ⟨ty, bs.length⟩
  match tryGetNodeId bs with
  | .error _ => .error e
  | .ok (id, b1) =>
    match getIp b1 with
    | .error _ => .error e
    | .ok (ip, b2) =>
      match tryGet (BitVec 16) b2 with
      | .error _ => .error e
      | .ok (port, b3) =>
        match eof b3 with
        | .error _ => .error e
        | .ok () => .ok ⟨id, ip, port⟩

/-- src/dht/mod.rs:123-138 `Node<Ipv4Addr>::from_compact`. -/
def node4FromCompact : Bytes → Except FromCompactError (NodeT Ipv4) :=
  nodeFromCompact "NodeInfo<Ipv4Addr>" tryGetIpv4

/-- src/dht/mod.rs:140-155 `Node<Ipv6Addr>::from_compact`. -/
def node6FromCompact : Bytes → Except FromCompactError (NodeT Ipv6) :=
  nodeFromCompact "NodeInfo<Ipv6Addr>" tryGetIpv6

/-- src/dht/mod.rs:157 `Vec<Node<Ipv4Addr>>`. -/
def node4sFromCompact : Bytes → Except FromCompactError (List (NodeT Ipv4)) :=
  vecFromCompact 26 (by decide) node4FromCompact

/-- src/dht/mod.rs:158 `Vec<Node<Ipv6Addr>>`. -/
def node6sFromCompact : Bytes → Except FromCompactError (List (NodeT Ipv6)) :=
  vecFromCompact 38 (by decide) node6FromCompact

/-- src/dht/mod.rs:84-101 `Node<IpAddr>`. -/
abbrev Node := NodeT IpAddr

/-- src/dht/mod.rs:91-95 `Node::address`. -/
def Node.address (n : Node) : SockAddr :=
  match n.ip with
  | .v4 ip => .v4 ⟨ip, n.port⟩
  | .v6 ip => .v6 ⟨ip, n.port⟩

/-- src/dht/mod.rs:103-111 `From<Node<Ipv4Addr>> for Node<IpAddr>`. -/
def NodeT.ofV4 (n : NodeT Ipv4) : Node := ⟨n.id, .v4 n.ip, n.port⟩
/-- src/dht/mod.rs:113-121 `From<Node<Ipv6Addr>> for Node<IpAddr>`. -/
def NodeT.ofV6 (n : NodeT Ipv6) : Node := ⟨n.id, .v6 n.ip, n.port⟩

end Demag
