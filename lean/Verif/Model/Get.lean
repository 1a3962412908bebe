import Verif.Model.Query
import Verif.Model.Settings

/-!
# The command `get`, from the datagrams, URLs and connections to the file: the model of `/repo/src/main.rs` 223-233 with all that it calls
-/

namespace Demag

/-- What surrounds `get`: the configuration, what src/app.rs:73-78 `LocalPeer` has, the clock, how texts, addresses and paths are read, and the
file system. -/
structure GetEnv where
  cfg : Config
  localId : PeerId
  key : BitVec 32
  port : BitVec 16
  now : Except Nat Nat
  lossy : Bytes → Text
  parseIp : Text → Option IpAddr
  parent : Text → Option Text
  fileOk : Nat → Bool

/-- src/magnet.rs:56, src/tracker/mod.rs:32-42 `Tracker::peer_getter`, 53-58: how the trackers of the magnet are asked. -/
def GetEnv.getter (env : GetEnv) (m : Magnet) : GetterCtx :=
  ⟨m.infoHash, env.localId, env.key, env.port, BitVec.ofNat 32 env.cfg.trackers.numwant, env.cfg.general.encrypt, none⟩

/-- src/magnet.rs:40-43, src/app.rs:54-59 `get_peers_from_dht`: the DHT actor could not be created or is gone, or it gives what it answers to a
request for the magnet's info hash, starting from the configured nodes.  (A request is identified by its number.) -/
def DhtGives (bootstrap : List InetAddr) (m : Magnet) (dht : Except TaskError (List Peer × List SockAddr)) : Prop :=
  (∃ e, dht = .error (.dht e)) ∨
  ∃ lookup my v6 es st tr req found, (DhtState.init my v6).run lookup bootstrap es = some (st, tr) ∧
    (∀ h, DhtEvent.submit (.lookup req h) ∈ es → h = m.infoHash) ∧ DhtEffect.answer req found ∈ tr ∧
    dht = .ok (found.peers, found.closestNodes)

/-- The runs of `get_torrent_file` (src/magnet.rs:32-103) in which the tasks that ask trackers are those of Model/TrackerFlow.lean (they do not
panic), the tasks that ask peers those of Model/PeerSession.lean, and the DHT that of Model/Dht.lean.  `behaves` says what the network may do
towards a peer, `answers` what may happen while a tracker is asked. -/
structure GetRun (sha1 : Bytes → Bytes) (env : GetEnv) (behaves : Peer → (Nat → Link) → Prop) (answers : Tracker → AskTrace → Prop) (m : Magnet)
    (tr : List (ResolveEvent Peer TaskError TorrentInfo × List (ResolveOutput Tracker Peer SockAddr TorrentInfo TaskError)))
    (s : Resolve Tracker Peer SockAddr SockAddr TorrentInfo TaskError) : Prop where
  /-- src/magnet.rs:36-103 -/
  run : ∃ dht, DhtGives env.cfg.dht.bootstrapNodes m dht ∧ DownloadRun sha1 env.localId env.cfg.general.encrypt behaves m dht env.cfg.trackers.jobsPerMagnet
    env.cfg.peers.jobsPerMagnet tr s
  /-- src/magnet.rs:54-66 -/
  asked : ∀ eo ∈ tr, ∀ t ps, .answer t ps ∈ eo.2 → ∃ w atr a r, AskRun env.lossy env.parseIp t (env.getter m) atr a ∧ answers t atr ∧
    AskOutput.result r ∈ atr.flatMap Prod.snd ∧ ps = r.toOption.getD [] ∧ eo.1 = .trackerEnds w (.value (r.mapError .tracker))
  calm : ∀ eo ∈ tr, ∀ t, .trackerPanic t ∉ eo.2

/-- A torrent file has been made. -/
def Resolved.isFile {T D I ε : Type} : Resolved T D I ε → Bool
  | .file _ _ _ => true
  | _ => false

/-- src/main.rs:223-233, src/magnet.rs:105-113: what is done to the file system after `get_torrent_file` has given its result, and the exit
status. -/
def getEffects (env : GetEnv) (template : List TemplateElement) (r : Resolved Tracker SockAddr TorrentInfo TaskError) :
    List SaveEffect × ExitCode :=
  match downloadEffects env.lossy ipText env.parent env.now template r with
  | none => ([], .crash)
  | some effects => let q := performEffects env.fileOk 0 effects; (q.1, if r.isFile && q.2 then .success else .failure)

end Demag
