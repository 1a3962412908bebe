import Verif.Spec.Get
import Verif.Spec.Disk
import Verif.Spec.UrlWhole
import Verif.Spec.Magnet
import Verif.Spec.Download
import Verif.Props.Connect
import Verif.Model.BatchGet

/-! # Specification: the command `batch` from text to files -/

namespace Demag.Spec

/-- The configuration is one that is accepted (from some document). -/
def Accepted (cfg : Config) : Prop :=
  ∃ parseHost dht doc, DhtConfig.dflt parseHost = some dht ∧ readConfig parseHost dht doc = some cfg

/-- The text `s` is a magnet link that reads `m`. -/
def IsMagnetLink (uenv : UrlEnv) (lossy : List UInt8 → List Char) (s : List Char) (m : Magnet) : Prop :=
  ∃ q, IsMagnetUrl s q ∧ DescribesMagnet (urlParse uenv) (textPairs lossy q) m

/-- The file's lines that are neither blank nor comments are, in this order, the magnet links `ms`. -/
def ListsLinks (uenv : UrlEnv) (lossy : List UInt8 → List Char) (content : List UInt8) (ms : List Magnet) : Prop :=
  ∃ ls, IsLines content ls ∧ LinesDenote (IsMagnetLink uenv lossy) ls ms

/-- All were asked in vain: every tracker of the link, every address any of them gave (or, without trackers, every peer found on the DHT), and
none of the peers asked has delivered the metadata. -/
def AskedInVain (sha1 : List UInt8 → List UInt8) (env : GetEnv) (behaves : Peer → (Nat → Link) → Prop) (answers : Tracker → AskTrace → Prop)
    (m : Magnet) : Prop :=
  ∃ asked : List Peer,
    (∀ t ∈ m.trackers, ∃ atr a r, AskRun env.lossy env.parseIp t (env.getter m) atr a ∧ answers t atr ∧ r ∈ askResults atr ∧
      ∀ ps, r = .ok ps → ∀ p ∈ ps, ∃ q ∈ asked, q.address = p.address) ∧
    (m.trackers = [] → ∃ nodes, FoundOnDht env.cfg.dht.bootstrapNodes m.infoHash asked nodes) ∧
    ∀ p ∈ asked, ∃ links e, behaves p links ∧ peerTask sha1 env.localId env.cfg.general.encrypt m.infoHash p links = .err e

/-- The peer at `addr` will deliver the metadata of the torrent to us, however it is described. -/
def WillDeliver (sha1 : List UInt8 → List UInt8) (env : GetEnv) (behaves : Peer → (Nat → Link) → Prop) (ih : InfoHash) (addr : SockAddr) : Prop :=
  ∀ p : Peer, p.address = addr → ¬ (env.cfg.general.encrypt = .never ∧ p.requiresCrypto = true) ∧
    ∀ links, behaves p links → ∃ d, sha1 d = ih.bytes ∧ Props.IsInfoDict d ∧
      Delivers (fun f m => Message.decode f Props.reg42 = .ok m) (links 0) ⟨ih, env.localId, addr.ip⟩
        (firstEncrypts env.cfg.general.encrypt p.requiresCrypto) d

/-- The tracker will, whenever it is asked about the link, list a peer at `addr`. -/
def WillName (env : GetEnv) (answers : Tracker → AskTrace → Prop) (m : Magnet) (t : Tracker) (addr : SockAddr) : Prop :=
  ∀ atr a r, AskRun env.lossy env.parseIp t (env.getter m) atr a → answers t atr → r ∈ askResults atr →
    ∃ ps, r = .ok ps ∧ ∃ p ∈ ps, p.address = addr

end Demag.Spec
