import Verif.Model.Tracker

/-!
# UDP trackers: the model of `/repo/src/tracker/udp.rs`

Packets are byte strings; time is counted in arbitrary units, `second` of them being a second.
-/

namespace Demag

/-- src/tracker/udp.rs:15 `PROTOCOL_ID`. -/
def protocolId : BitVec 64 := 0x41727101980
/-- src/tracker/udp.rs:16 `CONNECT_ACTION`. -/
def connectAction : BitVec 32 := 0
/-- src/tracker/udp.rs:17 `ANNOUNCE_ACTION`. -/
def announceAction : BitVec 32 := 1
/-- src/tracker/udp.rs:18 `ERROR_ACTION`. -/
def errorAction : BitVec 32 := 3

/-- src/tracker/udp.rs:442-466 `UdpTrackerError` (and `TrackerError::Failure`), as far as raised by the functions modelled
here. -/
inductive UdpError where
  | send
  | recv
  | packetLen (e : PacketError)
  | badAction (expected got : BitVec 32)
  | xactionMismatch (expected got : BitVec 32)
  | failure (msg : Text)
  deriving DecidableEq

/-- src/tracker/udp.rs:312-320 `From<UdpConnectionRequest> for Bytes`. -/
def udpConnectRequest (xid : BitVec 32) : Bytes := putU64 protocolId ++ putU32 connectAction ++ putU32 xid

/-- src/tracker/udp.rs:322-326 `UdpConnectionResponse`. -/
structure UdpConnectResponse where
  xid : BitVec 32
  connectionId : BitVec 64
  deriving DecidableEq

/-- src/tracker/udp.rs:328-349 `TryFrom<Bytes> for UdpConnectionResponse`. -/
def udpConnectResponse (buf : Bytes) : Except UdpError UdpConnectResponse := do
  let (action, buf) ← (tryGet (BitVec 32) buf).mapError .packetLen
  if action ≠ connectAction then throw (.badAction connectAction action)
  let (xid, buf) ← (tryGet (BitVec 32) buf).mapError .packetLen
  let (cid, _) ← (tryGet (BitVec 64) buf).mapError .packetLen
  return ⟨xid, cid⟩

/-- src/tracker/udp.rs:376-385: the `while` loop that writes the options of BEP 41. -/
def putUrlData (urldata : Bytes) : Bytes :=
  match h : urldata with
  | [] => []
  | _ :: _ =>
    let k := min urldata.length 255
    putU8 2 ++ putU8 (BitVec.ofNat 8 k) ++ urldata.take k ++ putUrlData (urldata.drop k)
termination_by urldata.length
decreasing_by simp only [h, List.length_drop, List.length_cons]; omega

/-- src/tracker/udp.rs:359-388 `From<UdpAnnounceRequest> for Bytes`.  The `expect` cannot fail since the length of a segment
is at most 255. -/
def udpAnnounceRequest (cid : BitVec 64) (xid : BitVec 32) (a : Announcement) (urldata : Text) : Bytes :=
  putU64 cid ++ putU32 announceAction ++ putU32 xid ++ a.infoHash.bytes ++ a.peerId.bytes ++ putU64 a.downloaded ++
    putU64 a.left ++ putU64 a.uploaded ++ putU32 a.event.forUdp ++ putU32 0 ++ putU32 a.key ++ putU32 a.numwant ++
    putU16 a.port ++ putUrlData (utf8 urldata)

/-- src/tracker/udp.rs:390-394 `UdpAnnounceResponse`. -/
structure UdpAnnounceResponse where
  xid : BitVec 32
  response : AnnounceResponse
  deriving DecidableEq

/-- src/tracker/udp.rs:413-423: the addresses up to the end of an announce response. -/
def udpPeers (ipv6 : Bool) (buf : Bytes) : Except UdpError (List Peer) :=
  if ipv6 then ((tryGetAll SockV6 buf).map (·.map Peer.ofV6)).mapError .packetLen
  else ((tryGetAll SockV4 buf).map (·.map Peer.ofV4)).mapError .packetLen

/-- src/tracker/udp.rs:396-440 `UdpAnnounceResponse::from_bytes`. -/
def udpAnnounceResponse (ipv6 : Bool) (buf : Bytes) : Except UdpError UdpAnnounceResponse := do
  let (action, buf) ← (tryGet (BitVec 32) buf).mapError .packetLen
  if action ≠ announceAction then throw (.badAction announceAction action)
  let (xid, buf) ← (tryGet (BitVec 32) buf).mapError .packetLen
  let (interval, buf) ← (tryGet (BitVec 32) buf).mapError .packetLen
  let (leechers, buf) ← (tryGet (BitVec 32) buf).mapError .packetLen
  let (seeders, buf) ← (tryGet (BitVec 32) buf).mapError .packetLen
  let peers ← udpPeers ipv6 buf
  return ⟨xid, ⟨interval, peers, none, none, none, none, none, some leechers, some seeders⟩⟩

/-- src/tracker/udp.rs:277-305 `Response::from_bytes` followed by `Response::ok`.  `lossy` is `String::from_utf8_lossy`. -/
def udpResponse {α : Type} (lossy : Bytes → Text) (parser : Bytes → Except UdpError α) (buf : Bytes) : Except UdpError α :=
  match tryGet (BitVec 32) buf with
  | .ok (action, view) =>
    if action = errorAction then
      match tryGet (BitVec 32) view with
      | .error e => .error (.packetLen e)
      | .ok (_, view) => .error (.failure (lossy view))
    else parser buf
  | .error _ => parser buf

/-- src/tracker/udp.rs:270-275 `Connection`. -/
structure UdpConn where
  id : BitVec 64
  expiration : Nat
  deriving DecidableEq

/-- The number of units of time in a second. -/
def second : Nat := 1000000000

/-- Where `UdpTrackerSession::chat` (src/tracker/udp.rs:194-211) waits: for the packet to be sent, or, having sent it at
some time, for an answer until the deadline. -/
inductive ChatWait where
  | sending
  | waiting (deadline : Nat)
  deriving DecidableEq

/-- The state of `chat`. -/
structure Chat where
  msg : Bytes
  n : Nat
  wait : ChatWait
  deriving DecidableEq

/-- What the session is doing: nothing, `connect` (src/tracker/udp.rs:168-192) on behalf of an announcement, or announcing
over a connection (src/tracker/udp.rs:117-147). -/
inductive UdpPhase where
  | idle
  | connecting (a : Announcement) (xid : BitVec 32) (chat : Chat)
  | announcing (a : Announcement) (xid : BitVec 32) (conn : UdpConn) (chat : Chat)
  deriving DecidableEq

/-- src/tracker/udp.rs:98-102 `UdpTrackerSession`, with the progress of the running `announce`. -/
structure UdpSession where
  ipv6 : Bool
  urldata : Text
  conn : Option UdpConn
  phase : UdpPhase
  deriving DecidableEq

/-- What happens to a session. -/
inductive UdpInput where
  /-- `announce` is called. -/
  | call (a : Announcement)
  /-- The packet has been handed to the network. -/
  | sent
  | sendFailed
  /-- A packet has been received. -/
  | packet (bs : Bytes)
  | recvFailed
  /-- The session looks at its timers. -/
  | timer
  deriving DecidableEq

/-- An event at a moment.  `xid` is the random number to be used as transaction ID, if one is needed
(src/tracker/udp.rs:213-215). -/
structure UdpEvent where
  time : Nat
  xid : BitVec 32
  input : UdpInput
  deriving DecidableEq

/-- What a session does. -/
inductive UdpOutput where
  /-- A request with a fresh transaction ID is begun: `chat` is called with this packet. -/
  | request (bs : Bytes)
  /-- A packet is sent. -/
  | transmit (bs : Bytes)
  /-- A connection is obtained. -/
  | connected (c : UdpConn)
  /-- `announce` returns. -/
  | result (r : Except UdpError AnnounceResponse)
  deriving DecidableEq

/-- src/tracker/udp.rs:195-197: `chat` starts. -/
def Chat.start (msg : Bytes) : Chat := ⟨msg, 0, .sending⟩

/-- src/tracker/udp.rs:168-172: `connect` starts. -/
def UdpSession.startConnect (s : UdpSession) (a : Announcement) (xid : BitVec 32) : UdpSession × List UdpOutput :=
  let msg := udpConnectRequest xid
  ({ s with phase := .connecting a xid (.start msg) }, [.request msg])

/-- src/tracker/udp.rs:118-128: announcing over a connection starts. -/
def UdpSession.startAnnounce (s : UdpSession) (a : Announcement) (xid : BitVec 32) (c : UdpConn) :
    UdpSession × List UdpOutput :=
  let msg := udpAnnounceRequest c.id xid a s.urldata
  ({ s with phase := .announcing a xid c (.start msg) }, [.request msg])

/-- src/tracker/udp.rs:197-199: the packet has been sent. -/
def Chat.onSent (c : Chat) (now : Nat) : Chat := { c with wait := .waiting (now + (15 <<< c.n) * second) }
/-- src/tracker/udp.rs:200-209: the answer has not come in time. -/
def Chat.onTimeout (c : Chat) : Chat := { c with n := if c.n < 8 then c.n + 1 else c.n, wait := .sending }

/-- One step of the session: src/tracker/udp.rs:113-211.  An input that cannot occur in the state is ignored.  The timers
are looked at in the order in which `timeout_at(conn.expiration, self.chat(msg))` looks at them: the inner one first.
The outcome of one `select` between a packet and a timer is whichever input comes first. -/
def UdpSession.step (lossy : Bytes → Text) (s : UdpSession) (e : UdpEvent) : UdpSession × List UdpOutput :=
  match s.phase, e.input with
  | .idle, .call a =>
    match s.conn with
    | some c => if e.time < c.expiration then s.startAnnounce a e.xid c else s.startConnect a e.xid
    | none => s.startConnect a e.xid
  | .connecting a xid chat, input =>
    match chat.wait, input with
    | .sending, .sent => ({ s with phase := .connecting a xid (chat.onSent e.time) }, [.transmit chat.msg])
    | .sending, .sendFailed => ({ s with phase := .idle }, [.result (.error .send)])
    | .waiting d, .timer =>
      if d ≤ e.time then ({ s with phase := .connecting a xid chat.onTimeout }, []) else (s, [])
    | .waiting _, .recvFailed => ({ s with phase := .idle }, [.result (.error .recv)])
    | .waiting _, .packet bs =>
      match udpResponse lossy udpConnectResponse bs with
      | .error err => ({ s with phase := .idle }, [.result (.error err)])
      | .ok r =>
        if r.xid ≠ xid then ({ s with phase := .idle }, [.result (.error (.xactionMismatch xid r.xid))])
        else
          let c : UdpConn := ⟨r.connectionId, e.time + 60 * second⟩
          let r := ({ s with conn := some c }).startAnnounce a e.xid c
          (r.1, .connected c :: r.2)
    | _, _ => (s, [])
  | .announcing a xid c chat, input =>
    match chat.wait, input with
    | .sending, .sent => ({ s with phase := .announcing a xid c (chat.onSent e.time) }, [.transmit chat.msg])
    | .sending, .sendFailed => ({ s with phase := .idle }, [.result (.error .send)])
    | .sending, .timer =>
      if c.expiration ≤ e.time then ({ s with conn := none }).startConnect a e.xid else (s, [])
    | .waiting d, .timer =>
      if d ≤ e.time then ({ s with phase := .announcing a xid c chat.onTimeout }, [])
      else if c.expiration ≤ e.time then ({ s with conn := none }).startConnect a e.xid
      else (s, [])
    | .waiting _, .recvFailed => ({ s with phase := .idle }, [.result (.error .recv)])
    | .waiting _, .packet bs =>
      match udpResponse lossy (udpAnnounceResponse s.ipv6) bs with
      | .error err => ({ s with phase := .idle }, [.result (.error err)])
      | .ok r =>
        if r.xid ≠ xid then ({ s with phase := .idle }, [.result (.error (.xactionMismatch xid r.xid))])
        else ({ s with phase := .idle }, [.result (.ok r.response)])
    | _, _ => (s, [])
  | _, _ => (s, [])

/-- src/tracker/udp.rs:104-111 `UdpTrackerSession::new`. -/
def UdpSession.new (ipv6 : Bool) (urldata : Text) : UdpSession := ⟨ipv6, urldata, none, .idle⟩

/-- What happened, in order: every event with what the session did. -/
abbrev UdpTrace := List (UdpEvent × List UdpOutput)

/-- `announce` borrows the session mutably: it is not called while another call is running. -/
def UdpSession.Allows (s : UdpSession) (e : UdpEvent) : Prop := ∀ a, e.input = .call a → s.phase = .idle

/-- The runs of a new session: what happened so far, and the state reached. -/
inductive UdpRun (lossy : Bytes → Text) (ipv6 : Bool) (urldata : Text) : UdpTrace → UdpSession → Prop
  | nil : UdpRun lossy ipv6 urldata [] (.new ipv6 urldata)
  | snoc {tr s} (e : UdpEvent) : UdpRun lossy ipv6 urldata tr s → s.Allows e →
      UdpRun lossy ipv6 urldata (tr ++ [(e, (s.step lossy e).2)]) (s.step lossy e).1

/-- No timer of the session is overdue at the time: an answer is awaited until its deadline, and a connection is used
until its expiration. -/
def UdpSession.Prompt (s : UdpSession) (now : Nat) : Prop :=
  match s.phase with
  | .idle => True
  | .connecting _ _ chat => match chat.wait with
    | .sending => True
    | .waiting d => now ≤ d
  | .announcing _ _ c chat => now ≤ c.expiration ∧ match chat.wait with
    | .sending => True
    | .waiting d => now ≤ d

/-- The runs in which no event comes after a timer that was due before it, i.e. timers fire when they are due. -/
inductive UdpPromptRun (lossy : Bytes → Text) (ipv6 : Bool) (urldata : Text) : UdpTrace → UdpSession → Prop
  | nil : UdpPromptRun lossy ipv6 urldata [] (.new ipv6 urldata)
  | snoc {tr s} (e : UdpEvent) : UdpPromptRun lossy ipv6 urldata tr s → s.Allows e → s.Prompt e.time →
      UdpPromptRun lossy ipv6 urldata (tr ++ [(e, (s.step lossy e).2)]) (s.step lossy e).1

end Demag
