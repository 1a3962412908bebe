import Verif.Spec.Download
import Verif.Props.Connect

/-!
# Specification: peers that stall, and one that delivers
-/

namespace Demag.Spec

/-- The peer `p` is named for the magnet link: found on the DHT, if the link has no trackers, or in the answer of one of its trackers.  `trackerEnd` says how
asking each tracker ends. -/
def NamedFor (m : Magnet) (dht : Except TaskError (List Peer × List SockAddr)) (trackerEnd : Tracker → Outcome (Except TaskError (List Peer))) (p : Peer) : Prop :=
  (m.trackers = [] ∧ ∃ found ns, dht = .ok (found, ns) ∧ p ∈ found) ∨ ∃ t ∈ m.trackers, ∃ ps, trackerEnd t = .value (.ok ps) ∧ p ∈ ps

/-- The trackers asked so far have answered as `trackerEnd` says. -/
def AnswersAs (trackerEnd : Tracker → Outcome (Except TaskError (List Peer))) (tr : ResolveTrace Tracker Peer SockAddr TorrentInfo TaskError) : Prop :=
  ∀ x ∈ trackerDones tr, x.2 = trackerPeers (trackerEnd x.1)

/-- Connecting to the peer `p` by the link `links 0` one is served metadata with the info hash of the magnet link. -/
def ServesTo (sha1 : List UInt8 → List UInt8) (localId : PeerId) (pref : CryptoPreference) (m : Magnet) (p : Peer) (links : Nat → Link) : Prop :=
  ∃ d, sha1 d = m.infoHash.bytes ∧ Props.IsInfoDict d ∧
    Delivers (fun f m => Message.decode f Props.reg42 = .ok m) (links 0) ⟨m.infoHash, localId, p.address.ip⟩ (firstEncrypts pref p.requiresCrypto) d

/-- The peer `p` may be contacted under the encryption preference `pref`, and whatever it may do, it serves the metadata. -/
def Reliable (sha1 : List UInt8 → List UInt8) (localId : PeerId) (pref : CryptoPreference) (behaves : Peer → (Nat → Link) → Prop) (m : Magnet) (p : Peer) : Prop :=
  ¬ (pref = .never ∧ p.requiresCrypto = true) ∧ ∀ links, behaves p links → ServesTo sha1 localId pref m p links

/-- The conversation with the peer `p` may end: the peer may do something by which it serves the metadata, or does at any rate not stall after having agreed to
talk about it. -/
def MayEnd (sha1 : List UInt8 → List UInt8) (localId : PeerId) (pref : CryptoPreference) (behaves : Peer → (Nat → Link) → Prop) (m : Magnet) (p : Peer) : Prop :=
  ∃ links, behaves p links ∧ (ServesTo sha1 localId pref m p links ∨ ∀ i enc, ¬ Stalls (links i) ⟨m.infoHash, localId, p.address.ip⟩ enc)

end Demag.Spec
