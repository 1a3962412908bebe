import Verif.Model.TrackerSession

/-!
# Specification: what can be observed of asking a tracker for peers

Only the types of events and outputs of the model are used.
-/

namespace Demag.Spec

variable {ε : Type}

/-- A trace: events, each with what could be observed at it. -/
abbrev GetterTrace (ε : Type) := List (GetterEvent ε × List (GetterOutput ε))

def announcementOf : GetterOutput ε → Option Announcement
  | .announce a => some a
  | _ => none

def resultOf : GetterOutput ε → Option (Except (GetterError ε) (List Peer))
  | .result r => some r
  | _ => none

/-- The announcements made, in order. -/
def announcements (tr : GetterTrace ε) : List Announcement := tr.flatMap fun x => x.2.filterMap announcementOf

/-- The results returned. -/
def results (tr : GetterTrace ε) : List (Except (GetterError ε) (List Peer)) := tr.flatMap fun x => x.2.filterMap resultOf

/-- The events of a trace. -/
def happened (tr : GetterTrace ε) : List (GetterEvent ε) := tr.map Prod.fst

def warningOf : GetterOutput ε → Option ε
  | .warn e => some e
  | _ => none

/-- The warnings, in order. -/
def warnings (tr : GetterTrace ε) : List ε := tr.flatMap fun x => x.2.filterMap warningOf

/-- The "stopped" announcement failed. -/
def stopFailure : GetterEvent ε → Option ε
  | .stopErr e => some e
  | _ => none

/-- The result an event decides on. -/
def outcome : GetterEvent ε → Option (Except (GetterError ε) (List Peer))
  | .connectErr e => some (.error (.inner e))
  | .startErr e => some (.error (.inner e))
  | .startOk r => some (.ok r.peers)
  | .timeout => some (.error .timeout)
  | _ => none

/-- The "started" announcement was answered. -/
def StartSucceeded (tr : GetterTrace ε) (r : AnnounceResponse) : Prop := GetterEvent.startOk r ∈ happened tr

end Demag.Spec
