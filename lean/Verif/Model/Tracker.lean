import Verif.Model.Compact

/-!
# Trackers: the types of `/repo/src/tracker/mod.rs` and `Peer` of `/repo/src/peer/mod.rs`
-/

namespace Demag

/-- src/peer/mod.rs:38-43 `Peer`. -/
structure Peer where
  address : SockAddr
  id : Option PeerId
  requiresCrypto : Bool
  deriving DecidableEq

/-- src/peer/mod.rs:83-91 `From<SocketAddr> for Peer`. -/
def Peer.ofAddr (a : SockAddr) : Peer := ⟨a, none, false⟩
/-- src/peer/mod.rs:93-101 `From<SocketAddrV4> for Peer`. -/
def Peer.ofV4 (a : SockV4) : Peer := ⟨.v4 a, none, false⟩
/-- src/peer/mod.rs:103-111 `From<SocketAddrV6> for Peer`. -/
def Peer.ofV6 (a : SockV6) : Peer := ⟨.v6 a, none, false⟩

/-- src/tracker/mod.rs:247-255 `AnnounceEvent`. -/
inductive AnnounceEvent where
  | announce
  | completed
  | started
  | stopped
  deriving DecidableEq, Repr

/-- src/tracker/mod.rs:268-275 `AnnounceEvent::for_udp`. -/
def AnnounceEvent.forUdp : AnnounceEvent → BitVec 32
  | .announce => 0
  | .completed => 1
  | .started => 2
  | .stopped => 3

/-- src/tracker/mod.rs:307-313 `TrackerCrypto`. -/
inductive TrackerCrypto where
  | required
  | supported
  | plain
  deriving DecidableEq, Repr

/-- src/tracker/mod.rs:278-290 `Announcement`. -/
structure Announcement where
  infoHash : InfoHash
  peerId : PeerId
  downloaded : BitVec 64
  left : BitVec 64
  uploaded : BitVec 64
  event : AnnounceEvent
  key : BitVec 32
  numwant : BitVec 32
  port : BitVec 16
  crypto : TrackerCrypto
  deriving DecidableEq

/-- src/tracker/mod.rs:292-303 `AnnounceResponse`. -/
structure AnnounceResponse where
  interval : BitVec 32
  peers : List Peer
  warningMessage : Option Text
  minInterval : Option (BitVec 32)
  trackerId : Option Bytes
  complete : Option (BitVec 32)
  incomplete : Option (BitVec 32)
  leechers : Option (BitVec 32)
  seeders : Option (BitVec 32)
  deriving DecidableEq

end Demag
