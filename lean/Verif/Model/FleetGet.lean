import Verif.Model.BatchGet
import Verif.Model.Fleet

/-!
# The command `batch` with everything that happens in its downloads, and the one DHT client they share: the model of `/repo/src/main.rs` 234-284 with
all that it calls
-/

namespace Demag

/-- The downloads of a batch, side by side. -/
abbrev MagnetFleet := Fleet Magnet Tracker Peer SockAddr SockAddr TorrentInfo TaskError

/-- What happens in them. -/
abbrev MagnetFleetTrace := List (FleetEvent Peer SockAddr TorrentInfo TaskError × List (FleetOutput Magnet Tracker Peer SockAddr TorrentInfo TaskError))

/-- src/app.rs:41-59: the answers that the downloads get from the DHT all come from one run of one client (C62), in which the request of download
`n` is number `n`; or they are errors. -/
def SharedDht (bootstrap : List InetAddr) (tr : MagnetFleetTrace) : Prop :=
  ∃ lookup my v6 es st dtr, (DhtState.init my v6).run lookup bootstrap es = some (st, dtr) ∧
    ∀ n d m, (FleetEvent.begins n d, [FleetOutput.began n m]) ∈ tr →
      (∃ e, d = .error (.dht e)) ∨
      ∃ found, (∀ h, DhtEvent.submit (.lookup n h) ∈ es → h = m.infoHash) ∧ DhtEffect.answer n found ∈ dtr ∧ d = .ok (found.peers, found.closestNodes)

/-- The runs of the batch command (src/main.rs:234-284), with what happens in its downloads.  As in Model/Get.lean, the tasks that ask peers are those of
Model/PeerSession.lean, those that ask trackers those of Model/TrackerFlow.lean; what is observed of download `n` is `.output n` of it. -/
structure FleetGet (sha1 : Bytes → Bytes) (env : GetEnv) (uenv : UrlEnv) (behaves : Peer → (Nat → Link) → Prop)
    (answers : Tracker → AskTrace → Prop) (template : List TemplateElement) (file : Option Bytes) (tr : MagnetFleetTrace) (f : MagnetFleet) : Prop where
  run : FleetRun (fun p : Peer => p.address) Magnet.trackers env.cfg.trackers.jobsPerMagnet env.cfg.peers.jobsPerMagnet
    (batchLinks uenv env.lossy file) env.cfg.general.batchJobs tr f
  /-- src/magnet.rs:40-43 -/
  dht : SharedDht env.cfg.dht.bootstrapNodes tr
  /-- src/magnet.rs:78-81 -/
  tasks : ∀ n m, (∃ eo ∈ tr, .began n m ∈ eo.2) → ∀ eo ∈ tr, ∀ p r, .output n (.peerDone p r) ∈ eo.2 →
    ∃ links, behaves p links ∧ taskOutcome (peerTask sha1 env.localId env.cfg.general.encrypt m.infoHash p links) = some r
  /-- src/magnet.rs:54-66 -/
  asked : ∀ n m, (∃ eo ∈ tr, .began n m ∈ eo.2) → ∀ eo ∈ tr, ∀ t ps, .output n (.answer t ps) ∈ eo.2 →
    ∃ w atr a r, AskRun env.lossy env.parseIp t (env.getter m) atr a ∧ answers t atr ∧ AskOutput.result r ∈ atr.flatMap Prod.snd ∧
      ps = r.toOption.getD [] ∧ eo.1 = .goesOn n (.trackerEnds w (.value (r.mapError .tracker)))
  calm : ∀ eo ∈ tr, ∀ n t, .output n (.trackerPanic t) ∉ eo.2
  /-- src/magnet.rs:110-111: `save`, at some time and with a file system that lets some operations succeed -/
  saved : ∀ w sv n m o, (FleetEvent.ends w sv, [FleetOutput.over n m o]) ∈ tr → ∀ r, (f.work n).bind Resolve.result = some r →
    ∃ now fileOk, r.isFile = true → sv = jobOutcome (getEffects { env with now := now, fileOk := fileOk } template r).2

end Demag
