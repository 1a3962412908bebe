import Verif.Spec.StuckLinks

/-!
# Specification: two runs in the same surroundings
-/

namespace Demag.Spec

/-- Whether the peer at an address delivers the metadata does not depend on the run: of two conversations with peers named for the link at the same address, one
in each of two runs, both give a torrent or neither does. -/
def SteadyPeers (sha1 : List UInt8 → List UInt8) (localId localId' : PeerId) (pref : CryptoPreference) (behaves behaves' : Peer → (Nat → Link) → Prop) (m : Magnet)
    (dht : Except TaskError (List Peer × List SockAddr)) (trackerEnd : Tracker → Outcome (Except TaskError (List Peer))) : Prop :=
  ∀ p p' links links', NamedFor m dht trackerEnd p → NamedFor m dht trackerEnd p' → p.address = p'.address → behaves p links → behaves' p' links' →
    ((∃ i, peerTask sha1 localId pref m.infoHash p links = .ok i) ↔ ∃ i, peerTask sha1 localId' pref m.infoHash p' links' = .ok i)

/-- The two results are the same, up to the metadata of torrents with the same info hash (for which see C105). -/
def SameResult {T D : Type} : Resolved T D TorrentInfo TaskError → Resolved T D TorrentInfo TaskError → Prop
  | .file i ts ns, .file i' ts' ns' => i.infoHash = i'.infoHash ∧ ts = ts' ∧ ns = ns'
  | .nothing, .nothing => True
  | .dht e, .dht e' => e = e'
  | .panicked, .panicked => True
  | _, _ => False

end Demag.Spec
