import Verif.Model.TrackerSession
import Verif.Model.TrackerUdp
import Verif.Model.TrackerHttp

/-!
# Asking a tracker, from the command down to the datagrams and requests

Model/TrackerSession.lean leaves open how an announcement is made.  Here the session inside is a UDP or an HTTP session, and what can be
observed are the datagrams and the URLs requested.
-/

namespace Demag

/-- src/tracker/mod.rs:235-245 `TrackerError` without `Timeout`: the errors of connecting (src/tracker/udp.rs:443-450, src/tracker/http.rs:217-218)
and of announcing. -/
inductive AskError where
  | lookup
  | noResolve
  | bind
  | connect
  | buildClient
  | udp (e : UdpError)
  | http (e : HttpError)

/-- What the system has to say about a UDP socket: the addresses found for the host (or failure), whether a socket for IPv4 (`false`) or
IPv6 (`true`) can be bound, and whether it can be connected. -/
structure SocketChances where
  lookup : Option (List SockAddr)
  bind : Bool → Bool
  connect : SockAddr → Bool

/-- Is it an IPv6 address? -/
def SockAddr.isV6 : SockAddr → Bool
  | .v4 _ => false
  | .v6 _ => true

/-- src/tracker/udp.rs:224-253 `ConnectedUdpSocket::connect`: the address it is connected to.  (Its field `ipv6` is `isV6` of that.) -/
def udpConnect (x : SocketChances) : Except AskError SockAddr :=
  match x.lookup with
  | none => .error .lookup
  | some [] => .error .noResolve
  | some (addr :: _) =>
    if x.bind addr.isV6 then
      if x.connect addr then .ok addr else .error .connect
    else .error .bind

/-- src/tracker/mod.rs:143-146 `InnerTrackerSession`: a UDP session with the address of its socket, or an HTTP session and whether it
awaits a response (src/tracker/http.rs:62-65). -/
inductive InnerSession where
  | udp (addr : SockAddr) (s : UdpSession)
  | http (u : Url) (busy : Bool)

/-- What can be observed. -/
inductive AskOutput where
  /-- A datagram is sent to this address. -/
  | datagram (addr : SockAddr) (bs : Bytes)
  /-- A URL is requested. -/
  | get (u : Url)
  /-- The task for the "stopped" announcement is spawned. -/
  | spawnStop
  /-- `PeerGetter::run` returns. -/
  | result (r : Except (GetterError AskError) (List Peer))
  | warn (e : AskError)

/-- src/tracker/mod.rs:203-220 `TrackerSession::announce`, its beginning: src/tracker/udp.rs:113-117, src/tracker/http.rs:68-86. -/
def InnerSession.announce (lossy : Bytes → Text) (time : Nat) (xid : BitVec 32) (a : Announcement) : InnerSession → InnerSession × List AskOutput
  | .udp addr s => (.udp addr (s.step lossy ⟨time, xid, .call a⟩).1, [])
  | .http u _ => (.http u true, [.get (announceUrl u a)])

/-- What the session inside does with what `run` and the task for "stopped" do. -/
def InnerSession.perform (lossy : Bytes → Text) (time : Nat) (xid : BitVec 32) (i : InnerSession) :
    List (GetterOutput AskError) → InnerSession × List AskOutput
  | [] => (i, [])
  | .announce a :: rest =>
    let r := i.announce lossy time xid a
    let q := r.1.perform lossy time xid rest
    (q.1, r.2 ++ q.2)
  | .spawnStop :: rest => let q := i.perform lossy time xid rest; (q.1, .spawnStop :: q.2)
  | .result r :: rest => let q := i.perform lossy time xid rest; (q.1, .result r :: q.2)
  | .warn e :: rest => let q := i.perform lossy time xid rest; (q.1, .warn e :: q.2)

/-- `PeerGetter::run` (src/tracker/mod.rs:60-98) with its session, which is gone when nobody uses it. -/
structure Ask where
  getter : GetterState
  inner : Option InnerSession

/-- What may happen.  `time` and `xid` are the moment and the random number for the UDP session. -/
inductive AskEvent where
  | socket (time : Nat) (xid : BitVec 32) (x : SocketChances)
  | client (built : Bool)
  | udp (e : UdpEvent)
  | http (o : HttpOutcome)
  | timeout
  | dropped
  | stopScheduled (time : Nat) (xid : BitVec 32)
  | stopCancelled

/-- `run` and the task for "stopped" proceed; the session goes on as long as one of them has it. -/
def Ask.tell (lossy : Bytes → Text) (c : GetterCtx) (s : Ask) (i : InnerSession) (time : Nat) (xid : BitVec 32)
    (e : GetterEvent AskError) : Option (Ask × List AskOutput) :=
  match s.getter.step c e with
  | none => none
  | some (g, outs) =>
    let r := i.perform lossy time xid outs
    some (⟨g, if g.phase = .over ∧ (g.task = .absent ∨ g.task = .over) then none else some r.1⟩, r.2)

/-- The end of `announce`, for `run` or for the task: src/tracker/mod.rs:74, 86. -/
def Ask.answer (s : Ask) (r : Except AskError AnnounceResponse) : GetterEvent AskError :=
  match s.getter.phase, r with
  | .over, .ok r => .stopOk r
  | .over, .error e => .stopErr e
  | _, .ok r => .startOk r
  | _, .error e => .startErr e

/-- The result of `UdpTrackerSession::announce`, if it returns. -/
def udpAnswer : List UdpOutput → Option (Except UdpError AnnounceResponse)
  | [] => none
  | .result r :: _ => some r
  | _ :: rest => udpAnswer rest

/-- The datagrams sent. -/
def udpDatagrams (addr : SockAddr) : List UdpOutput → List AskOutput
  | [] => []
  | .transmit bs :: rest => .datagram addr bs :: udpDatagrams addr rest
  | _ :: rest => udpDatagrams addr rest

/-- One event, or `none` if it cannot happen: src/tracker/mod.rs:60-119. -/
def Ask.step (lossy : Bytes → Text) (parseIp : Text → Option IpAddr) (t : Tracker) (c : GetterCtx) (s : Ask) :
    AskEvent → Option (Ask × List AskOutput)
  | .socket time xid x =>
    match t with
    | .http _ => none
    | .udp u =>
      match udpConnect x with
      | .error e => (s.getter.step c (.connectErr e)).map fun r => (⟨r.1, none⟩, [.result (.error (.inner e))])
      | .ok addr => s.tell lossy c (.udp addr (.new addr.isV6 u.urldata)) time xid .connectOk
  | .client built =>
    match t with
    | .udp _ => none
    | .http u =>
      if built then s.tell lossy c (.http u false) 0 0 .connectOk
      else (s.getter.step c (.connectErr AskError.buildClient)).map fun r => (⟨r.1, none⟩, [.result (.error (.inner .buildClient))])
  | .udp e =>
    match s.inner with
    | some (.udp addr u) =>
      match e.input with
      | .call _ => none
      | _ =>
        let r := u.step lossy e
        match udpAnswer r.2 with
        | none => some ({ s with inner := some (.udp addr r.1) }, udpDatagrams addr r.2)
        | some a =>
          (s.tell lossy c (.udp addr r.1) e.time e.xid (s.answer (a.mapError .udp))).map fun q => (q.1, udpDatagrams addr r.2 ++ q.2)
    | _ => none
  | .http o =>
    match s.inner with
    | some (.http u true) => s.tell lossy c (.http u false) 0 0 (s.answer ((httpResult lossy parseIp o).mapError .http))
    | _ => none
  | .timeout => (s.getter.step (ε := AskError) c .timeout).map fun r => (⟨r.1, none⟩, [.result (.error .timeout)])
  | .dropped => (s.getter.step (ε := AskError) c .dropped).map fun r => (⟨r.1, none⟩, [])
  | .stopScheduled time xid =>
    match s.inner with
    | some i => s.tell lossy c i time xid .stopScheduled
    | none => none
  | .stopCancelled => (s.getter.step (ε := AskError) c .stopCancelled).map fun r => (⟨r.1, none⟩, [])

/-- What happened, with what could be observed. -/
abbrev AskTrace := List (AskEvent × List AskOutput)

/-- The runs. -/
inductive AskRun (lossy : Bytes → Text) (parseIp : Text → Option IpAddr) (t : Tracker) (c : GetterCtx) : AskTrace → Ask → Prop
  | init : AskRun lossy parseIp t c [] ⟨.init, none⟩
  | step {tr s e s' out} : AskRun lossy parseIp t c tr s → s.step lossy parseIp t c e = some (s', out) →
      AskRun lossy parseIp t c (tr ++ [(e, out)]) s'

end Demag
