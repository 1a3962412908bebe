import Verif.Model.ProgramLog
import Verif.Spec.Program
import Verif.Spec.TrackerFlow

/-!
# Specification: what the messages of the log assert
-/

namespace Demag.Spec

/-- The messages of this program that are to be seen with a given setting of the option `--log-level`. -/
def Shows : LevelFilter → List Level
  | .off => []
  | .error => [.error]
  | .warn => [.error, .warn]
  | .info => [.error, .warn, .info]
  | .debug => [.error, .warn, .info, .debug]
  | .trace => [.error, .warn, .info, .debug, .trace]

/-- The configuration file `p` cannot be used: it does not exist, cannot be read, or does not describe a configuration. -/
def UnusableConfig (W : World) (p : List Char) : ConfigError → Prop
  | .notFound => W.configs p = .notFound
  | .read => W.configs p = .failed
  | .parse => ∃ t, W.configs p = .text t ∧ ∀ doc cfg, W.parseToml t = some doc → readConfig W.parseHost W.dht doc ≠ some cfg

/-- The file of magnet links cannot be used: it cannot be read; or one of its lines, all those before which are blank, comments or magnet links, is
not text; or it is, but (being line `n`, counted from 1) it is neither blank nor a comment nor a magnet link. -/
def UnusableLinks (W : World) (f : InputArg) : MagnetsFileError → Prop
  | .read => W.inputs f = none ∨ ∃ content pre l post ms, W.inputs f = some content ∧ IsLines content (pre ++ l :: post) ∧
      LinesDenote (IsMagnetLink W.uenv W.lossy) pre ms ∧ ∀ t, l ≠ utf8 t
  | .parse n _ => ∃ content pre l post s ms, W.inputs f = some content ∧ IsLines content (pre ++ l :: post) ∧ n = pre.length + 1 ∧
      LinesDenote (IsMagnetLink W.uenv W.lossy) pre ms ∧ MagnetLine l s ∧ ∀ m, ¬ IsMagnetLink W.uenv W.lossy s m

/-- The download for the link `m` has failed for this reason: metadata with the link's digest was received but could not be saved; or all were asked
in vain; or, for a link without trackers, there is no DHT. -/
def DownloadFails (W : World) (cfg : Config) (m : Magnet) : DownloadFailure → Prop
  | .save => ∃ d, W.sha1 d = m.infoHash.bytes ∧ Props.IsInfoDict d
  | .nothingFromPeers => AskedInVain W.sha1 (W.getEnv cfg) W.behaves W.answers m
  | .dhtCreate => m.trackers = []
  | .dhtDown => m.trackers = []

/-- What an error message in the log asserts of a run of the program with these arguments (read with `R`). -/
inductive Reason (R : Readers) (W : World) (args : List (List Char)) : MainLine → Prop
  | noHome {l} : CommandLineMeans R args l → l.noConfig = false → l.config = none → W.defaultPath = none → Reason R W args .noHome
  | badConfig {l p e} : CommandLineMeans R args l → l.noConfig = false →
      (l.config = some p ∨ l.config = none ∧ W.defaultPath = some p ∧ e ≠ .notFound) → UnusableConfig W p e → Reason R W args (.badConfig p e)
  | badMagnets {l t f e} : CommandLineMeans R args l → l.command = .batch t f → UnusableLinks W f e → Reason R W args (.about (.badMagnets e))
  | get {l t m cfg f} : CommandLineMeans R args l → l.command = .get t m → AsksConfig R W args cfg → DownloadFails W cfg m f →
      (f = .save → ∃ i, W.fileOk i = false) → Reason R W args (.about (.getFailed f))
  | batch {l t file content ms m cfg f} : CommandLineMeans R args l → l.command = .batch t file → AsksConfig R W args cfg →
      W.inputs file = some content → ListsLinks W.uenv W.lossy content ms → m ∈ ms → DownloadFails W cfg m f →
      Reason R W args (.about (.batchFailed m f))
  | queryTracker {l cfg j n r s t h tr a e} : CommandLineMeans R args l → l.command = .queryTracker j n r s t h → AsksConfig R W args cfg →
      AskRun W.lossy W.parseIp t ⟨h, W.localId, W.key, W.port, BitVec.ofNat 32 cfg.trackers.numwant, cfg.general.encrypt,
        if r then some .required else if s then some .supported else if n then some .plain else none⟩ tr a →
      .error e ∈ askResults tr → Reason R W args (.about (.queryFailed e))
  | noPeers {l cfg j h nodes} : CommandLineMeans R args l → l.command = .queryDht j h → AsksConfig R W args cfg →
      FoundOnDht cfg.dht.bootstrapNodes h [] nodes → Reason R W args .noDhtPeers
  | noDht {l j h e} : CommandLineMeans R args l → l.command = .queryDht j h → Reason R W args (.dhtFailed e)
  | fetch {l cfg enc n p t q h e mse} : CommandLineMeans R args l → l.command = .queryPeer enc n p t q h → AsksConfig R W args cfg →
      ((W.queryPeerEnv cfg).ask W.sha1 W.H enc p n q h).2 = .err e → Reason R W args (.about (.fetchFailed e mse))
  | write {l cfg enc n p t q h info} : CommandLineMeans R args l → l.command = .queryPeer enc n p t q h → AsksConfig R W args cfg →
      ((W.queryPeerEnv cfg).ask W.sha1 W.H enc p n q h).2 = .ok info → (∃ i, W.fileOk i = false) → Reason R W args .writeFailed

/-- What a warning in the log asserts: a tracker of a link that was asked for has been asked with this error, or a peer has been asked for the
metadata of such a link with this error. -/
inductive Warns (R : Readers) (W : World) (args : List (List Char)) : MainLine → Prop
  | tracker {cfg tpl m t atr a e} : AsksFor R W args tpl m → AsksConfig R W args cfg → t ∈ m.trackers →
      AskRun W.lossy W.parseIp t ((W.getEnv cfg).getter m) atr a → W.answers t atr → .error e ∈ askResults atr →
      Warns R W args (.about (.trackerFailed t m e))
  | peer {cfg tpl m p links e mse} : AsksFor R W args tpl m → AsksConfig R W args cfg → W.behaves p links →
      peerTask W.sha1 W.localId cfg.general.encrypt m.infoHash p links = .err e → Warns R W args (.about (.peerFailed m p e mse))

/-- The log explains why nothing was found for the link `m`: of each of its trackers it tells that asking it failed, or the tracker has answered and
of a peer at each of the addresses in the answer the log tells that it failed; and, if the link has no trackers, of each peer found on the DHT. -/
def ExplainsVain (W : World) (cfg : Config) (m : Magnet) (log : List MainLine) : Prop :=
  (∀ t ∈ m.trackers, (∃ e, .about (.trackerFailed t m e) ∈ log) ∨
    ∃ atr a ps, AskRun W.lossy W.parseIp t ((W.getEnv cfg).getter m) atr a ∧ W.answers t atr ∧ .ok ps ∈ askResults atr ∧
      ∀ p ∈ ps, ∃ q e mse, q.address = p.address ∧ .about (.peerFailed m q e mse) ∈ log) ∧
  (m.trackers = [] → ∃ found nodes, FoundOnDht cfg.dht.bootstrapNodes m.infoHash found nodes ∧
    ∀ p ∈ found, ∃ e mse, .about (.peerFailed m p e mse) ∈ log)

/-- Metadata for the link `m` has been received, and the template `t` puts its torrent file at `out`. -/
def PlaceFor (W : World) (t : List TemplateElement) (m : Magnet) (out : Output) : Prop :=
  ∃ info : List (List UInt8 × Ben), Canonical (.dict info) ∧ W.sha1 (benc (.dict info)) = m.infoHash.bytes ∧
    out = Output.fromArg (PathTemplate.format t (sanitize (((Props.NameOf info).map W.lossy).getD "NONAME".toList)) m.infoHash)

/-- The links of which the log says that their download failed. -/
def failedLinks (log : List MainLine) : List Magnet := log.filterMap fun | .about (.batchFailed m _) => some m | _ => none

end Demag.Spec
