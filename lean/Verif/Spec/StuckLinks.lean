import Verif.Spec.Fleet
import Verif.Spec.Stallers

/-!
# Specification: links that get stuck in a batch
-/

namespace Demag.Spec

/-- The trace of a batch of magnet links. -/
abbrev LinksTrace := FleetTrace Magnet Tracker Peer SockAddr TorrentInfo TaskError

/-- The runs of a batch of the links `ms` in which every peer task that ends ends as its peer makes it end. -/
structure BatchTasks (sha1 : List UInt8 → List UInt8) (localId : PeerId) (pref : CryptoPreference) (behaves : Peer → (Nat → Link) → Prop) (ms : List Magnet)
    (jobsT jobsP jobs : Nat) (tr : LinksTrace) (f : Fleet Magnet Tracker Peer SockAddr SockAddr TorrentInfo TaskError) : Prop where
  run : FleetRun (fun p : Peer => p.address) Magnet.trackers jobsT jobsP (some ms) jobs tr f
  tasks : ∀ n m, ms[n]? = some m → ∀ eo ∈ tr, ∀ p r, .output n (.peerDone p r) ∈ eo.2 →
    ∃ links, behaves p links ∧ taskOutcome (peerTask sha1 localId pref m.infoHash p links) = some r

/-- For link `n` the DHT has answered `dhtEnd n`, the trackers asked have answered as `trackerEnd n` says, and saving the torrent file ended as `savedEnd n` says. -/
structure Foreseen (dhtEnd : Nat → Except TaskError (List Peer × List SockAddr)) (trackerEnd : Nat → Tracker → Outcome (Except TaskError (List Peer)))
    (savedEnd : Nat → Outcome Bool) (tr : LinksTrace) : Prop where
  dht : ∀ n d, DhtSaid tr n d → d = dhtEnd n
  trackers : ∀ n, AnswersAs (trackerEnd n) (alone n tr)
  saved : ∀ w sv n m o, (FleetEvent.ends w sv, [FleetOutput.over n m o]) ∈ tr → sv = savedEnd n

/-- The conditions of C107: among the peers named for the link there are stalling ones at fewer addresses than peers are asked at the same time, nobody else stalls, and
somebody else reliably serves the metadata.  (The DHT finds every address once.) -/
def Servable (sha1 : List UInt8 → List UInt8) (localId : PeerId) (pref : CryptoPreference) (behaves : Peer → (Nat → Link) → Prop) (jobsP : Nat) (m : Magnet)
    (dht : Except TaskError (List Peer × List SockAddr)) (trackerEnd : Tracker → Outcome (Except TaskError (List Peer))) : Prop :=
  (∀ t, trackerEnd t ≠ .panic) ∧ (∀ found ns, dht = .ok (found, ns) → (found.map fun p => p.address).Nodup) ∧
    ∃ (stalling : List SockAddr) (good : Peer), stalling.length < jobsP ∧
      (∀ p, NamedFor m dht trackerEnd p → p.address ∉ stalling → MayEnd sha1 localId pref behaves m p) ∧
      NamedFor m dht trackerEnd good ∧ good.address ∉ stalling ∧
      ∀ p, p.address = good.address → NamedFor m dht trackerEnd p → Reliable sha1 localId pref behaves m p

/-- Something happens in download `n`, or it ends. -/
def Concerns {M T P D I ε : Type} (n : Nat) (x : FleetEvent P D I ε × List (FleetOutput M T P D I ε)) : Prop :=
  OfDownload n x.1 ∨ ∃ m o, .over n m o ∈ x.2

end Demag.Spec
