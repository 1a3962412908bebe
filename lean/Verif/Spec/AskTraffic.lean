import Verif.Spec.TrackerFlow
import Verif.Spec.UdpTraffic

/-!
# Specification: how much is sent to a tracker that is asked for peers
-/

namespace Demag.Spec

/-- The moment of the event, for those that a UDP session can see. -/
def AskEvent.moment : AskEvent → Option Nat
  | .socket time _ _ => some time
  | .udp e => some e.time
  | .stopScheduled time _ => some time
  | _ => none

/-- The moments of what happened, in order. -/
def askMoments (tr : AskTrace) : List Nat := tr.filterMap fun x => AskEvent.moment x.1

/-- Time does not run backwards, and all of it happens in the time `T` that begins at `t0`. -/
def During (t0 T : Nat) (tr : AskTrace) : Prop :=
  (askMoments tr).Pairwise (· ≤ ·) ∧ ∀ m ∈ askMoments tr, t0 ≤ m ∧ m ≤ t0 + T

/-- The length of the URL data that is sent to a UDP tracker. -/
def urlDataLength : Tracker → Nat
  | .udp u => (utf8 u.urldata).length
  | .http _ => 0

end Demag.Spec
