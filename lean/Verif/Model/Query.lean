import Verif.Model.App
import Verif.Model.Json
import Verif.Model.IpParse
import Verif.Model.TrackerFlow
import Verif.Model.Dht
import Verif.Model.Download
import Verif.Model.SecureLink

/-!
# The commands `query-tracker`, `query-dht` and `query-peer`: the model of `/repo/src/main.rs` 285-378
-/

namespace Demag

/-- src/main.rs:306-310, 329-333: what is printed for a peer, without the line feed. -/
def peerLine (json : Bool) (p : Peer) : Text := if json then displayJson p else sockText p.address

/-- `println!` (std), repeated: what gets to the standard output, and whether all of it does.  `out i` says how the standard output takes the
line with the number `i`: `some k` if it fails after `k` bytes, in which case `println!` panics. -/
def printLines (out : Nat → Option Nat) : Nat → List Text → Bytes × Bool
  | _, [] => ([], true)
  | i, t :: ts =>
    match out i with
    | some k => ((utf8 t ++ [10]).take k, false)
    | none => let r := printLines out (i + 1) ts; (utf8 t ++ [10] ++ r.1, r.2)

/-- src/main.rs:299-318, 321-340: what is printed, and the exit status. -/
def printPeers (json : Bool) (out : Nat → Option Nat) (ps : List Peer) : Bytes × ExitCode :=
  let r := printLines out 0 (ps.map (peerLine json))
  (r.1, if r.2 then .success else .crash)

/-- src/main.rs:285-319 `Command::QueryTracker`, for the result of `PeerGetter::run`: what is printed, and the exit status. -/
def queryTracker {ε : Type} (json : Bool) (out : Nat → Option Nat) : Except ε (List Peer) → Bytes × ExitCode
  | .ok ps => printPeers json out ps
  | .error _ => ([], .failure)

/-- src/main.rs:320-340 `Command::QueryDht`, for the result of `App::get_peers_from_dht` (`none`: an error). -/
def queryDht (json : Bool) (out : Nat → Option Nat) : Option FoundPeers → Bytes × ExitCode
  | some found => if found.peers.isEmpty then ([], .failure) else printPeers json out found.peers
  | none => ([], .failure)

/-- src/main.rs:297-302: how `query-tracker` asks; the other values are those of src/app.rs:15-35 and the configuration. -/
def GetterCtx.withFlags (c : GetterCtx) (infoHash : InfoHash) (requireCrypto supportCrypto noCrypto : Bool) : GetterCtx :=
  { c with infoHash := infoHash, trackerCrypto := trackerCryptoFlags requireCrypto supportCrypto noCrypto }

/-- src/torrent.rs:154-177: the effects of `save` performed until one fails; those that succeeded, and whether all did.  (What an effect that
fails leaves behind: Model/Disk.lean.) -/
def performEffects (ok : Nat → Bool) : Nat → List SaveEffect → List SaveEffect × Bool
  | _, [] => ([], true)
  | i, e :: es => if ok i then let r := performEffects ok (i + 1) es; (e :: r.1, r.2) else ([], false)

/-- What surrounds `query-peer`: our peer ID, the encryption preference, the clock, how file names are read, the random numbers, the network
and the file system. -/
structure QueryPeerEnv where
  localId : PeerId
  pref : CryptoPreference
  now : Except Nat Nat
  lossy : Bytes → Text
  parent : Text → Option Text
  chances : Nat → Chances
  raws : Nat → RawLink
  fileOk : Nat → Bool

/-- The connection attempts of `query-peer` and their result: src/main.rs:355-360. -/
def QueryPeerEnv.ask (sha1 H : Bytes → Bytes) (env : QueryPeerEnv) (encrypt prefer noEncrypt : Bool) (peer : Peer) (ih : InfoHash) :
    List Attempt × Res PeerError TorrentInfo :=
  wireRun sha1 H env.chances env.raws ⟨ih, env.localId, peer.address.ip⟩ (queryPeerMode encrypt prefer noEncrypt) env.pref peer.requiresCrypto

/-- src/main.rs:341-376 `Command::QueryPeer`: what is done to the file system, and the exit status; `none` if it never ends. -/
def queryPeer (sha1 H : Bytes → Bytes) (env : QueryPeerEnv) (encrypt prefer noEncrypt : Bool) (template : List TemplateElement) (peer : Peer)
    (ih : InfoHash) : Option (List SaveEffect × ExitCode) :=
  match (env.ask sha1 H encrypt prefer noEncrypt peer ih).2 with
  | .ok info =>
    match (TorrentFile.new env.now info [] []).save env.lossy ipText env.parent template with
    | none => some ([], .crash)
    | some effects => let r := performEffects env.fileOk 0 effects; some (r.1, if r.2 then .success else .failure)
  | .err _ => some ([], .failure)
  | .panic => some ([], .crash)
  | .hang => none

end Demag
