import Verif.Model.Tracker
import Verif.Model.PeerSession

/-!
# Asking a tracker for peers: the model of `PeerGetter` and `TrackerSession` in `/repo/src/tracker/mod.rs`

`run` and the task it leaves behind for the "stopped" announcement are a transition system.  How an announcement is made is
the subject of Model/TrackerUdp.lean and Model/TrackerHttp.lean; here its outcome is an event.
-/

namespace Demag

/-- src/config.rs:279-285 `CryptoPreference::get_tracker_crypto`. -/
def CryptoPreference.getTrackerCrypto : CryptoPreference → TrackerCrypto
  | .always => .required
  | .never => .plain
  | _ => .supported

/-- src/main.rs:291-296: the command line options `--require-crypto`, `--support-crypto` and `--no-crypto`. -/
def trackerCryptoFlags (requireCrypto supportCrypto noCrypto : Bool) : Option TrackerCrypto :=
  match requireCrypto, supportCrypto, noCrypto with
  | true, _, _ => some .required
  | false, true, _ => some .supported
  | false, false, true => some .plain
  | false, false, false => none

/-- What src/tracker/mod.rs:46-51 `PeerGetter` and src/app.rs have: src/app.rs:73-78 `LocalPeer`, the configuration, the
override. -/
structure GetterCtx where
  infoHash : InfoHash
  peerId : PeerId
  key : BitVec 32
  port : BitVec 16
  numwant : BitVec 32
  pref : CryptoPreference
  trackerCrypto : Option TrackerCrypto

/-- src/tracker/mod.rs:149-152 `TrackerSession::get_tracker_crypto`. -/
def GetterCtx.getTrackerCrypto (c : GetterCtx) : TrackerCrypto := c.trackerCrypto.getD c.pref.getTrackerCrypto

/-- src/tracker/mod.rs:161-180 `TrackerSession::start` and src/tracker/mod.rs:182-201 `stop`: the announcement with this
event.  The constant is src/consts.rs `LEFT`. -/
def GetterCtx.announcement (c : GetterCtx) (e : AnnounceEvent) : Announcement :=
  { infoHash := c.infoHash, peerId := c.peerId, downloaded := 0, left := 65535, uploaded := 0, event := e, key := c.key,
    numwant := c.numwant, port := c.port, crypto := c.getTrackerCrypto }

/-- src/tracker/mod.rs:235-245 `TrackerError`; `ε` has the errors of connecting and announcing. -/
inductive GetterError (ε : Type) where
  | timeout
  | inner (e : ε)

/-- Where `run` (src/tracker/mod.rs:60-98) is: in `connect`, in `start`, or over. -/
inductive GetterPhase where
  | connecting
  | starting
  | over
  deriving DecidableEq

/-- Where the task of src/tracker/mod.rs:84-96 is: not spawned, spawned but not yet run, in `stop`, or over. -/
inductive StopTask where
  | absent
  | spawned
  | announcing
  | over
  deriving DecidableEq

structure GetterState where
  phase : GetterPhase
  task : StopTask

/-- What may happen: the outcomes of `connect` and `start`; the timeout of src/tracker/mod.rs:66-69 firing; the future being
dropped (its task aborted); the stop task being scheduled for the first time and starting with `stop`; its token being
cancelled; and the outcomes of `stop`. -/
inductive GetterEvent (ε : Type) where
  | connectOk
  | connectErr (e : ε)
  | startOk (r : AnnounceResponse)
  | startErr (e : ε)
  | timeout
  | dropped
  | stopScheduled
  | stopCancelled
  | stopOk (r : AnnounceResponse)
  | stopErr (e : ε)

/-- What can be observed: an announcement being made, the stop task being spawned, the result of `run`, and the warning of
src/tracker/mod.rs:89-92. -/
inductive GetterOutput (ε : Type) where
  | announce (a : Announcement)
  | spawnStop
  | result (r : Except (GetterError ε) (List Peer))
  | warn (e : ε)

/-- src/tracker/mod.rs:60-98: one event, or `none` if it cannot happen in this state.  When the response to `start` arrives the
task is spawned and the peers are returned without another await, so that the timeout cannot come between. -/
def GetterState.step {ε : Type} (c : GetterCtx) (s : GetterState) : GetterEvent ε → Option (GetterState × List (GetterOutput ε))
  | .connectOk =>
    if s.phase = .connecting then some ({ s with phase := .starting }, [.announce (c.announcement .started)]) else none
  | .connectErr e => if s.phase = .connecting then some ({ s with phase := .over }, [.result (.error (.inner e))]) else none
  | .startOk r =>
    if s.phase = .starting then some ({ phase := .over, task := .spawned }, [.spawnStop, .result (.ok r.peers)]) else none
  | .startErr e => if s.phase = .starting then some ({ s with phase := .over }, [.result (.error (.inner e))]) else none
  | .timeout => if s.phase ≠ .over then some ({ s with phase := .over }, [.result (.error .timeout)]) else none
  | .dropped => if s.phase ≠ .over then some ({ s with phase := .over }, []) else none
  | .stopScheduled =>
    if s.task = .spawned then some ({ s with task := .announcing }, [.announce (c.announcement .stopped)]) else none
  | .stopCancelled => if s.task = .spawned ∨ s.task = .announcing then some ({ s with task := .over }, []) else none
  | .stopOk _ => if s.task = .announcing then some ({ s with task := .over }, []) else none
  | .stopErr e => if s.task = .announcing then some ({ s with task := .over }, [.warn e]) else none

/-- The beginning of `run`. -/
def GetterState.init : GetterState := ⟨.connecting, .absent⟩

/-- A run: the events with what could be observed at each. -/
inductive GetterRun {ε : Type} (c : GetterCtx) : List (GetterEvent ε × List (GetterOutput ε)) → GetterState → Prop
  | init : GetterRun c [] .init
  | step {tr s e s' out} : GetterRun c tr s → s.step c e = some (s', out) → GetterRun c (tr ++ [(e, out)]) s'

end Demag
