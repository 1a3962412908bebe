import Verif.Spec.Resolve
import Verif.Spec.Template
import Verif.Spec.Torrent
import Verif.Spec.Utf8
import Verif.Model.Disk
import Verif.Props.Torrent

/-!
# Specification: the files of a batch
-/

namespace Demag.Spec

/-- The file `bytes` at `out` is a torrent file for the magnet link `m`: its info dictionary has the info hash of the magnet link, its trackers
are the magnet link's (it names DHT nodes only if there are none), and it is where the template `es` puts a torrent with its name and info hash. -/
def TorrentFor (sha1 : List UInt8 → List UInt8) (lossy : List UInt8 → List Char) (ipText : IpAddr → List Char)
    (es : List TemplateElement) (m : Magnet) (out : Output) (bytes : List UInt8) : Prop :=
  ∃ (info : List (List UInt8 × Ben)) (nodes : List SockAddr) (time : Int),
    out = Output.fromArg (PathTemplate.format es (sanitize (((Props.NameOf info).map lossy).getD "NONAME".toList)) m.infoHash) ∧
    bytes = benc (.dict (Props.torrentDict ipText (.dict info) (m.trackers.map Tracker.urlString) nodes time client)) ∧
    Canonical (.dict info) ∧ sha1 (benc (.dict info)) = m.infoHash.bytes ∧ (m.trackers ≠ [] → nodes = [])

end Demag.Spec
