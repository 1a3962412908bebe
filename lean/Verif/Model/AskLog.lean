import Verif.Model.LogText

/-!
# What asking a tracker logs: the log statements of `/repo/src/tracker/mod.rs` and `/repo/src/tracker/udp.rs`

For every event of a conversation with a tracker (`Model/TrackerFlow.lean`) the messages that are logged in its course, in order.
-/

namespace Demag

/-- src/tracker/udp.rs:135, 156, 169, 186, 202: which of the messages `LogLine.udpStep` a UDP session logs in a step (`UdpSession.step`). -/
def UdpSession.stepLog (lossy : Bytes → Text) (s : UdpSession) (e : UdpEvent) : List (Fin 5) :=
  match s.phase, e.input with
  | .idle, .call _ =>
    match s.conn with
    | some c => if e.time < c.expiration then [] else [1, 2]
    | none => [2]
  | .connecting _ xid chat, input =>
    match chat.wait, input with
    | .waiting d, .timer => if d ≤ e.time then [4] else []
    | .waiting _, .packet bs =>
      match udpResponse lossy udpConnectResponse bs with
      | .error _ => []
      | .ok r => if r.xid ≠ xid then [] else [3]
    | _, _ => []
  | .announcing _ _ c chat, input =>
    match chat.wait, input with
    | .sending, .timer => if c.expiration ≤ e.time then [0, 2] else []
    | .waiting d, .timer => if d ≤ e.time then [4] else if c.expiration ≤ e.time then [0, 2] else []
    | _, _ => []
  | _, _ => []

/-- src/tracker/udp.rs:225-244: what connecting a socket logs, which is before it is connected. -/
def socketLog (u : UdpUrl) (x : SocketChances) : List LogLine :=
  match x.lookup with
  | some (addr :: _) => if x.bind addr.isV6 then [.udpConnected u addr] else []
  | _ => []

/-- src/tracker/mod.rs:161-166, 182-187: what `start` and `stop` log, and after them the beginning of `announce` (src/tracker/udp.rs:113-118, 150-160). -/
def InnerSession.announceLog (lossy : Bytes → Text) (time : Nat) (xid : BitVec 32) (t : Tracker) (m : Magnet) (a : Announcement) : InnerSession → List LogLine
  | .udp _ s => .announcing a.event t m :: (match t with
    | .udp u => (s.stepLog lossy ⟨time, xid, .call a⟩).map fun n => .udpStep n u
    | .http _ => [])
  | .http _ _ => [.announcing a.event t m]

/-- src/tracker/mod.rs:211-218, 79-83, 88-93: what is logged when `announce` has returned, to `start` or to `stop`. -/
def Ask.answerLog (s : Ask) (t : Tracker) (m : Magnet) : Except AskError AnnounceResponse → List LogLine
  | .ok r =>
    (match r.warningMessage with
     | some msg => [.warned t m msg]
     | none => []) ++
    (match s.getter.phase with
     | .over => []
     | _ => [.returnedCount t m r.peers, .returned t m r.peers])
  | .error e =>
    match s.getter.phase with
    | .over => [.stopFailed t m e]
    | _ => []

/-- The messages of one event (`Ask.step`): src/tracker/mod.rs:60-119, 161-220. -/
def Ask.stepLog (lossy : Bytes → Text) (parseIp : Text → Option IpAddr) (t : Tracker) (c : GetterCtx) (m : Magnet) (s : Ask) : AskEvent → List LogLine
  | .socket time xid x =>
    match t with
    | .http _ => []
    | .udp u =>
      socketLog u x ++
        match udpConnect x with
        | .error _ => []
        | .ok addr => (InnerSession.udp addr (.new addr.isV6 u.urldata)).announceLog lossy time xid t m (c.announcement .started)
  | .client built =>
    match t with
    | .udp _ => []
    | .http u => if built then (InnerSession.http u false).announceLog lossy 0 0 t m (c.announcement .started) else []
  | .udp e =>
    match t, s.inner with
    | .udp u, some (.udp _ v) =>
      ((v.stepLog lossy e).map fun n => .udpStep n u) ++
        match udpAnswer (v.step lossy e).2 with
        | none => []
        | some a => s.answerLog t m (a.mapError .udp)
    | _, _ => []
  | .http o => s.answerLog t m ((httpResult lossy parseIp o).mapError .http)
  | .stopScheduled time xid =>
    match s.inner with
    | some i => i.announceLog lossy time xid t m (c.announcement .stopped)
    | none => []
  | .stopCancelled => [.stopCancelled t m]
  | .timeout => []
  | .dropped => []

/-- What happened, with what could be observed and what was logged.  (Within an event the messages come first.) -/
abbrev AskLogTrace := List (AskEvent × List AskOutput × List LogLine)

/-- The runs with their log.  `PeerGetter::run` begins with a message of its own (src/tracker/mod.rs:61-65). -/
inductive AskLogRun (lossy : Bytes → Text) (parseIp : Text → Option IpAddr) (t : Tracker) (c : GetterCtx) (m : Magnet) : AskLogTrace → Ask → Prop
  | init : AskLogRun lossy parseIp t c m [] ⟨.init, none⟩
  | step {tr s e s' out} : AskLogRun lossy parseIp t c m tr s → s.step lossy parseIp t c e = some (s', out) →
      AskLogRun lossy parseIp t c m (tr ++ [(e, out, s.stepLog lossy parseIp t c m e)]) s'

/-- The log: src/tracker/mod.rs:61-65 and what follows. -/
def askLog (t : Tracker) (m : Magnet) (tr : AskLogTrace) : List LogLine := .requestingPeers m t :: tr.flatMap fun x => x.2.2

end Demag
