import Verif.Spec.LogFaithful
import Verif.Model.TrackerFlow
import Verif.Model.Mse
import Verif.Model.LogText

/-!
# What an error message has to tell

Only the data types of the model are used.
-/

namespace Demag.Spec

/-- Ways for a connection to break that may happen during the encryption handshake as well as afterwards. -/
inductive Break where
  | sending
  | receiving
  | closing
  deriving DecidableEq

/-- How the connection broke, if it did. -/
def brokenBy : PeerError → MseError → Option Break
  | .send, _ | .cryptoHandshake, .send => some .sending
  | .recv _, _ | .cryptoHandshake, .recv => some .receiving
  | .disconnect, _ | .cryptoHandshake, .disconnect => some .closing
  | _, _ => none

/-- The same went wrong with two peers, as far as a message has to tell; `x` and `y` are the errors of the encryption handshake, if that has
failed.  A message of the peer that was not expected is told as in the log. -/
inductive SameFailure : PeerError → MseError → PeerError → MseError → Prop
  | same {e x y} : e ≠ .cryptoHandshake → SameFailure e x e y
  | crypto {x} : SameFailure .cryptoHandshake x .cryptoHandshake x
  | broken {e x e' y b} : brokenBy e x = some b → brokenBy e' y = some b → SameFailure e x e' y
  | unexpected {m m' x y} : SameMessage m m' → SameFailure (.unexpected m) x (.unexpected m') y

/-- The values of `PeerError` that only stand for panics of the code. -/
def IsPanic : PeerError → Prop
  | .infoConstruct .panic | .infoPush .panic => True
  | _ => False

/-- The same went wrong with two trackers, as far as a message has to tell: it does not tell of which kind the tracker is that complains. -/
inductive SameComplaint : GetterError AskError → GetterError AskError → Prop
  | same {e} : SameComplaint e e
  | udpHttp {m} : SameComplaint (.inner (.udp (.failure m))) (.inner (.http (.failure m)))
  | httpUdp {m} : SameComplaint (.inner (.http (.failure m))) (.inner (.udp (.failure m)))

/-- A message that says what was expected and what came instead. -/
def SaysExpected (message expected got : List Char) : Prop :=
  ∃ before, message = before ++ "expected ".toList ++ expected ++ ", got ".toList ++ got

/-- Two magnet links are the same, as far as a message has to tell. -/
def SameLink (m m' : Magnet) : Prop := m.infoHash = m'.infoHash ∧ m.displayName = m'.displayName

/-- The tracker that a message about the asking of trackers names. -/
def askedTracker : LogLine → Option Tracker
  | .trackerFailed t _ _ | .requestingPeers _ t | .returnedCount t _ _ | .returned t _ _ | .stopCancelled t _ | .stopFailed t _ _
  | .announcing _ t _ | .warned t _ _ => some t
  | _ => none

/-- Two messages about the asking of trackers tell the same: they name the same tracker and the same magnet link, and the same event, failure,
number of peers, addresses of peers, or warning. -/
inductive SameTrackerLine : LogLine → LogLine → Prop
  | failed {t m m' e e'} : SameLink m m' → SameComplaint e e' → SameTrackerLine (.trackerFailed t m e) (.trackerFailed t m' e')
  | requesting {t m m'} : SameLink m m' → SameTrackerLine (.requestingPeers m t) (.requestingPeers m' t)
  | count {t m m'} {ps ps' : List Peer} : SameLink m m' → ps.length = ps'.length →
      SameTrackerLine (.returnedCount t m ps) (.returnedCount t m' ps')
  | returned {t m m'} {ps ps' : List Peer} : SameLink m m' → ps.map Peer.address = ps'.map Peer.address →
      SameTrackerLine (.returned t m ps) (.returned t m' ps')
  | cancelled {t m m'} : SameLink m m' → SameTrackerLine (.stopCancelled t m) (.stopCancelled t m')
  | stopFailed {t m m' e e'} : SameLink m m' → SameComplaint (.inner e) (.inner e') →
      SameTrackerLine (.stopFailed t m e) (.stopFailed t m' e')
  | announcing {t m m' e e'} : SameLink m m' → (e = .stopped ↔ e' = .stopped) → SameTrackerLine (.announcing e t m) (.announcing e' t m')
  | warned {t m m' w} : SameLink m m' → SameTrackerLine (.warned t m w) (.warned t m' w)

end Demag.Spec
