import Verif.Spec.AskTraffic
import Verif.Model.AskLog

/-!
# Specification: what the log should tell of a conversation with a tracker

Functions of what happened while the tracker was asked: events, datagrams, requests and results.
-/

namespace Demag.Spec

/-- The events and outputs alone. -/
def unlogged (tr : AskLogTrace) : AskTrace := tr.map fun x => (x.1, x.2.1)

/-- The announcement that begins with an event: "started" when there is a connected socket or an HTTP client, "stopped" when its task runs. -/
def begunBy : AskEvent → Option AnnounceEvent
  | .socket _ _ x =>
    match x.lookup with
    | some (addr :: _) => if x.bind addr.isV6 && x.connect addr then some .started else none
    | _ => none
  | .client true => some .started
  | .stopScheduled _ _ => some .stopped
  | _ => none

/-- A message that an announcement is sent: which, to whom, for what. -/
def saysBegun : LogLine → Option (AnnounceEvent × Tracker × Magnet)
  | .announcing ev t m => some (ev, t, m)
  | _ => none

/-- The peers that are returned. -/
def returns : AskOutput → Option (List Peer)
  | .result (.ok ps) => some ps
  | _ => none

/-- A message that there are so many peers. -/
def saysCount : LogLine → Option (List Peer × Tracker × Magnet)
  | .returnedCount t m ps => some (ps, t, m)
  | _ => none

/-- A message with the peers. -/
def saysPeers : LogLine → Option (List Peer × Tracker × Magnet)
  | .returned t m ps => some (ps, t, m)
  | _ => none

/-- The failure to announce "stopped". -/
def failsToStop : AskOutput → Option AskError
  | .warn e => some e
  | _ => none

/-- A message about that. -/
def saysStopFailed : LogLine → Option (AskError × Tracker × Magnet)
  | .stopFailed t m e => some (e, t, m)
  | _ => none

/-- A message that the announcement of "stopped" is given up. -/
def saysCancelled : LogLine → Option (Tracker × Magnet)
  | .stopCancelled t m => some (t, m)
  | _ => none

/-- A message about a warning. -/
def saysWarned : LogLine → Option (Text × Tracker × Magnet)
  | .warned t m msg => some (msg, t, m)
  | _ => none

/-- A message about the address of a UDP tracker. -/
def saysSocket : LogLine → Option (SockAddr × UdpUrl)
  | .udpConnected u a => some (a, u)
  | _ => none

/-- The body of the response to an HTTP request has this warning (and is no failure). -/
def HasWarning (lossy : List UInt8 → Text) (parseIp : Text → Option IpAddr) (e : AskEvent) (msg : Text) : Prop :=
  ∃ kvs r, e = .http (.body (benc (.dict kvs))) ∧ Canonical (.dict kvs) ∧ depth (.dict kvs) ≤ 2048 ∧ DenotesResponse lossy parseIp kvs r ∧
    r.warningMessage = some msg

/-- The address that a socket is bound for: the first one found for the host. -/
def boundFor : AskEvent → Option SockAddr
  | .socket _ _ x =>
    match x.lookup with
    | some (addr :: _) => if x.bind addr.isV6 then some addr else none
    | _ => none
  | _ => none

/-- What should be said about it: the address, and the tracker it is one of. -/
def socketTold (t : Tracker) (e : AskEvent) : List (SockAddr × UdpUrl) :=
  match t with
  | .udp u => (boundFor e).toList.map fun a => (a, u)
  | .http _ => []

/-- The task for "stopped" is cancelled. -/
def isCancel : AskEvent → Bool
  | .stopCancelled => true
  | _ => false

/-! ### UDP trackers -/

/-- What there is to be told of a UDP session, and what is told. -/
inductive UdpItem where
  /-- It is said that an announcement is sent. -/
  | begins (ev : AnnounceEvent)
  /-- It is said that an announcement has taken longer than the connection is valid, and is begun anew. -/
  | restarts
  /-- It is said that the connection is no longer valid. -/
  | expired
  /-- It is said that a connection is asked for. -/
  | asks
  /-- It is said that there is a connection. -/
  | connected
  /-- It is said that the last packet is sent again. -/
  | again
  /-- A datagram is sent. -/
  | sent (bs : List UInt8)
  deriving DecidableEq

/-- What a message says, if it is about a UDP session. -/
def itemOfLine : LogLine → Option UdpItem
  | .announcing ev _ _ => some (.begins ev)
  | .udpStep n _ => some (match n with
    | 0 => .restarts
    | 1 => .expired
    | 2 => .asks
    | 3 => .connected
    | 4 => .again)
  | _ => none

def itemOfOutput : AskOutput → Option UdpItem
  | .datagram _ bs => some (.sent bs)
  | _ => none

/-- The datagrams of an event and what is told in its course, with its moment. -/
def itemsOf (x : AskEvent × List AskOutput × List LogLine) : List (Nat × UdpItem) :=
  (x.2.2.filterMap itemOfLine ++ x.2.1.filterMap itemOfOutput).map fun i => ((AskEvent.moment x.1).getD 0, i)

/-- The datagrams and what is told of them, in order. -/
def udpItems (tr : AskLogTrace) : List (Nat × UdpItem) := tr.flatMap itemsOf

/-- The moments at which it was said that there is a connection. -/
def connections (l : List (Nat × UdpItem)) : List Nat := l.filterMap fun | (t, .connected) => some t | _ => none
/-- The announcements that were said to be sent. -/
def begun (l : List (Nat × UdpItem)) : List AnnounceEvent := l.filterMap fun | (_, .begins ev) => some ev | _ => none
/-- The datagrams. -/
def packets (l : List (Nat × UdpItem)) : List (List UInt8) := l.filterMap fun | (_, .sent bs) => some bs | _ => none

/-- What is told, or a datagram, is right after all that is told and sent `before` it. -/
def RightAfter (c : GetterCtx) (urldata : List UInt8) (before : List (Nat × UdpItem)) (time : Nat) : UdpItem → Prop
  | .begins _ => True
  /- the packet is one that was just announced, or the last one, if that is said -/
  | .sent bs =>
    (∃ xid t, IsConnectRequest xid bs ∧ before.getLast? = some (t, .asks)) ∨
    (∃ cid xid ev t, IsAnnounceRequest cid xid (c.announcement ev) urldata bs ∧ (begun before).getLast? = some ev ∧
      (before.getLast? = some (t, .connected) ∨ (ev = .stopped ∧ before.getLast? = some (t, .begins .stopped)))) ∨
    (∃ t, before.getLast? = some (t, .again) ∧ (packets before).getLast? = some bs)
  /- nothing came for at least 15 seconds since the last packet -/
  | .again => ∃ t bs, before.getLast? = some (t, .sent bs) ∧ t + 15 * second ≤ time
  /- a connection was asked for -/
  | .connected => ∃ t xid req, before.getLast? = some (t, .sent req) ∧ IsConnectRequest xid req
  /- there is none, or it is no longer valid -/
  | .asks => ∃ t, before.getLast? = some (t, .restarts) ∨ before.getLast? = some (t, .expired) ∨
      (before.getLast? = some (t, .begins .started) ∧ connections before = [])
  /- the last one was made a minute ago -/
  | .expired => ∃ t t', before.getLast? = some (t, .begins .stopped) ∧ (connections before).getLast? = some t' ∧ t' + 60 * second ≤ time
  | .restarts => ∃ t', (connections before).getLast? = some t' ∧ t' + 60 * second ≤ time ∧
      ∀ t x, before.getLast? = some (t, x) → x = .connected ∨ x = .again ∨ x = .begins .stopped ∨ ∃ bs, x = .sent bs

/-- All that is told of a UDP session is right. -/
def ToldRight (c : GetterCtx) (urldata : List UInt8) (l : List (Nat × UdpItem)) : Prop :=
  ∀ before time x after, l = before ++ (time, x) :: after → RightAfter c urldata before time x

end Demag.Spec
