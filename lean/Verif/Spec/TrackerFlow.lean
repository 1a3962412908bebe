import Verif.Spec.TrackerUdp
import Verif.Spec.TrackerHttp
import Verif.Model.TrackerFlow

/-! # Specification: what is exchanged with a tracker -/

namespace Demag.Spec

/-- The datagrams sent, in order. -/
def datagrams (tr : AskTrace) : List (SockAddr × List UInt8) :=
  (tr.flatMap Prod.snd).filterMap fun | .datagram addr bs => some (addr, bs) | _ => none

/-- The URLs requested, in order. -/
def requests (tr : AskTrace) : List Url :=
  (tr.flatMap Prod.snd).filterMap fun | .get u => some u | _ => none

/-- The results returned. -/
def askResults (tr : AskTrace) : List (Except (GetterError AskError) (List Peer)) :=
  (tr.flatMap Prod.snd).filterMap fun | .result r => some r | _ => none

/-- Peers have been returned. -/
def Answered (tr : AskTrace) : Prop := ∃ ps, .ok ps ∈ askResults tr

/-- The tracker's host was looked up, and this was the first address found. -/
def Found (tr : AskTrace) (addr : SockAddr) : Prop :=
  ∃ time xid x out rest, (AskEvent.socket time xid x, out) ∈ tr ∧ x.lookup = some (addr :: rest)

/-- `url` asks the tracker at `u` for the announcement `a`: the same URL, without a fragment, with the parameters of the announcement after
those of the query. -/
def IsHttpAnnounce (u : Url) (a : Announcement) (url : Url) : Prop :=
  url.scheme = u.scheme ∧ url.host = u.host ∧ url.port = u.port ∧ url.path = u.path ∧ url.fragment = none ∧
    ∃ q ps, url.query = some q ∧ IsAnnounceParams a ps ∧ formDecode q = formDecode (u.query.getD []) ++ ps

/-- The announcement to be made: "started" until peers have been returned, then "stopped". -/
def CurrentEvent (tr : AskTrace) (e : AnnounceEvent) : Prop := (e = .started ∧ ¬ Answered tr) ∨ (e = .stopped ∧ Answered tr)

end Demag.Spec
