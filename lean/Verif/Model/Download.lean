import Verif.Model.Resolve
import Verif.Model.PeerSession
import Verif.Model.Magnet
import Verif.Model.Template
import Verif.Model.TrackerFlow
import Verif.Model.UrlParse

/-!
# Downloading a torrent file: magnet link, peers and file put together

Model of `Magnet::download_torrent_file` (src/magnet.rs): `get_torrent_file` (`Model/Resolve.lean`) with the tasks that ask peers
for metadata (`Model/PeerSession.lean`), followed by `TorrentFile::save` (`Model/Template.lean`).  What trackers and the DHT answer,
and what the peers do, is left to the environment.
-/

namespace Demag

/-- src/app.rs:91-97 `DhtError`: the DHT node could not be created (src/dht/actor.rs:351-355) or is gone (src/dht/actor.rs:360-361). -/
inductive DhtFailure where
  | create
  | down
  deriving DecidableEq

/-- The errors that end the tasks of `get_torrent_file`. -/
inductive TaskError where
  | tracker (e : GetterError AskError)
  | dht (e : DhtFailure)
  | peer (e : PeerError)

/-- src/magnet.rs:78-81, src/peer/mod.rs:50-61 `Peer::info_getter`, 189-212 `InfoGetter::run`: asking the peer `p` for the metadata
of the torrent `ih`; the network behaves as `links` says. -/
def peerTask (sha1 : Bytes → Bytes) (localId : PeerId) (pref : CryptoPreference) (ih : InfoHash) (p : Peer) (links : Nat → Link) :
    Res PeerError TorrentInfo :=
  (infoGetterRun sha1 links ⟨ih, localId, p.address.ip⟩ none pref p.requiresCrypto).2

/-- The outcome of such a task, as its nursery sees it; `none` if it never ends. -/
def taskOutcome : Res PeerError TorrentInfo → Option (Outcome (Except TaskError TorrentInfo))
  | .ok info => some (.value (.ok info))
  | .err e => some (.value (.error (.peer e)))
  | .panic => some .panic
  | .hang => none

/-- The runs of `get_torrent_file` (src/magnet.rs:32-103) for the magnet `m` in which every peer task that ends ends as its peer
makes it end: `behaves p links` says that the network may behave as `links` towards the peer `p`. -/
structure DownloadRun (sha1 : Bytes → Bytes) (localId : PeerId) (pref : CryptoPreference) (behaves : Peer → (Nat → Link) → Prop)
    (m : Magnet) (dht : Except TaskError (List Peer × List SockAddr)) (jobsT jobsP : Nat)
    (tr : List (ResolveEvent Peer TaskError TorrentInfo × List (ResolveOutput Tracker Peer SockAddr TorrentInfo TaskError)))
    (s : Resolve Tracker Peer SockAddr SockAddr TorrentInfo TaskError) : Prop where
  run : ResolveRun (fun p => p.address) m.trackers dht jobsT jobsP tr s
  tasks : ∀ eo ∈ tr, ∀ p r, .peerDone p r ∈ eo.2 →
    ∃ links, behaves p links ∧ taskOutcome (peerTask sha1 localId pref m.infoHash p links) = some r

/-- src/tracker/mod.rs:25-30, http.rs:25-27, udp.rs:24-26 `url_string`. -/
def Tracker.urlString : Tracker → Text
  | .http u => u.text
  | .udp u => u.display

/-- src/magnet.rs:105-113 `download_torrent_file`: what it does to the file system once `get_torrent_file` has given its result; `none`
is a panic.  `now` is the system clock. -/
def downloadEffects (lossy : Bytes → Text) (ipText : IpAddr → Text) (parent : Text → Option Text) (now : Except Nat Nat)
    (template : List TemplateElement) :
    Resolved Tracker SockAddr TorrentInfo TaskError → Option (List SaveEffect)
  | .file info trackers nodes =>
    (TorrentFile.new now info (trackers.map Tracker.urlString) nodes).save lossy ipText parent template
  | .dht _ => some []
  | .nothing => some []
  | .panicked => none

end Demag
