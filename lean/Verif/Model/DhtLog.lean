import Verif.Model.DhtSockets
import Verif.Model.Info

/-!
# What the DHT client logs: the log statements of `/repo/src/dht/actor.rs` 125-560 and `/repo/src/dht/mod.rs` 169-191

For every event of the client (`Model/Dht.lean`) the messages that are logged in its course, in order.
-/

namespace Demag

/-- A message in the log of the client. -/
inductive DhtLine where
  /-- src/dht/actor.rs:126 -/
  | starting
  /-- src/dht/actor.rs:129 -/
  | unresolved
  /-- src/dht/actor.rs:132 -/
  | ready
  /-- src/dht/actor.rs:160 -/
  | recvFailed
  /-- src/dht/mod.rs:175 -/
  | domain (d : Text) (a : SockAddr)
  /-- src/dht/mod.rs:178 -/
  | noAddress (d : Text)
  /-- src/dht/mod.rs:183 -/
  | lookupFailed (d : Text)
  /-- src/dht/actor.rs:207-210 -/
  | unencodable (addr : SockAddr)
  /-- src/dht/actor.rs:218, where there is no socket for the address (804-806) -/
  | noSocket (addr : SockAddr)
  /-- The other messages of src/dht/actor.rs, with their texts in `Model/LogText.lean`. -/
  | line (l : LogLine)

/-- The texts of the messages.  `encode` is the error of the bencode library (a `bendy::encoding::Error`, which the queries of the program never give). -/
def DhtLine.text (env : LogEnv) (encode : Err) : DhtLine → Text
  | .starting => "Starting up DHT node ...".toList
  | .unresolved => "Failed to resolve any addresses for DHT bootstrap nodes".toList
  | .ready => "Finished resolving DHT bootstrap node addresses".toList
  | .recvFailed => "Error receiving incoming DHT message: ".toList ++ env.io.message
  | .domain d a => "Resolved domain ".toList ++ debugText env.plain d ++ " to ".toList ++ ipText a.ip
  | .noAddress d => "Failed to resolve domain ".toList ++ debugText env.plain d ++ " to any IP addresses".toList
  | .lookupFailed d => "Failed to resolve domain ".toList ++ debugText env.plain d ++ ": ".toList ++ env.io.message
  | .unencodable a => "Failed to construct DHT \"get_peers\" query packet for ".toList ++ sockText a ++ ": ".toList ++ errorChain encode
  | .noSocket a => "Failed to send DHT message to ".toList ++ sockText a ++ ": ".toList ++ UdpSendError.ipv6Disabled.text env.io.message
  | .line l => l.text env

/-- src/dht/mod.rs:170-190: what resolving a bootstrap node logs. -/
def resolveLine (lookup : Text → BitVec 16 → Option (List SockAddr)) (useIpv6 : Bool) (a : InetAddr) : Option DhtLine :=
  match a.host with
  | .domain d =>
    match lookup d a.port with
    | some l =>
      match l.find? fun s => useIpv6 || s.isIpv4 with
      | some addr => some (.domain d addr)
      | none => some (.noAddress d)
    | none => some (.lookupFailed d)
  | _ => none

/-- src/dht/actor.rs:515-520: what `get_outgoing` logs: a message for each address that is to be queried. -/
def LookupSession.queryLog (s : LookupSession) : List DhtLine :=
  s.toQuery.map fun addr => .line (.nodeQuery addr (HMap.get s.nodes.addr2node addr) s.nodes.infoHash)

/-- src/dht/actor.rs:204-224: what `send_query` logs for one query. -/
def sendLine (usingIpv6 : Bool) (udp : SockAddr → Bytes → Bool) (x : SockAddr × GetPeersQuery) : Option DhtLine :=
  match x.2.toBencode with
  | none => some (.unencodable x.1)
  | some msg =>
    if x.1.isIpv4 || usingIpv6 then (if udp x.1 msg then none else some (.line (.querySendFailed x.1)))
    else some (.noSocket x.1)

/-- src/dht/actor.rs:265-268, 541-554: what `postprocess_session` logs. -/
def DhtActor.foundLog (a : DhtActor) (sid : Nat) : List DhtLine :=
  match HMap.get a.sessions sid with
  | none => []
  | some s =>
    match s.getResult with
    | none => []
    | some r => [.line (.dhtFound r.peers s.nodes.infoHash)]

/-- src/dht/actor.rs:138-150: the log of a request for a lookup. -/
def DhtActor.lookupLog (a : DhtActor) (bootstrap : List SockAddr) (udp : SockAddr → Bytes → Bool) (req : Nat) (h : InfoHash) : List DhtLine :=
  let s := LookupSession.new h a.myId a.usingIpv6 bootstrap
  let o := s.getOutgoing a.txn
  let sid := a.nextSid
  let a1 := { a with
    txn := o.2.1
    nextSid := a.nextSid + 1
    sessions := HMap.insert a.sessions sid o.1
    senders := HMap.insert a.senders sid req }
  s.queryLog ++ (o.2.2.filterMap (sendLine a.usingIpv6 udp) ++ (a1.sendAll udp sid o.2.2).1.foundLog sid)

/-- src/dht/actor.rs:231-261: the log of a packet. -/
def DhtActor.messageLog (a : DhtActor) (order : List Nat) (udp : SockAddr → Bytes → Bool) (addr : SockAddr) (msg : Bytes) : List DhtLine :=
  match prescan msg with
  | none => [.line (.dhtIgnored 0 addr)]
  | some p =>
    if p.msgType = .query then [.line (.dhtIgnored 1 addr)]
    else
      let f := findSession (fun s => s.handleMessage addr p.transactionId msg) a.sessions order
      match f.2 with
      | none => [.line (.dhtIgnored 2 addr)]
      | some sid =>
        match HMap.get a.sessions sid, HMap.get f.1 sid with
        | some before, some s =>
          let o := s.getOutgoing a.txn
          let a1 := { a with sessions := HMap.set f.1 sid o.1, txn := o.2.1 }
          .line (replyLine before addr msg) ::
            (s.queryLog ++ (o.2.2.filterMap (sendLine a.usingIpv6 udp) ++ (a1.sendAll udp sid o.2.2).1.foundLog sid))
        | _, _ => []

/-- src/dht/actor.rs:162-169, 488-491: the log of a timer. -/
def DhtActor.timerLog (a : DhtActor) (order : List Nat) (addr : SockAddr) (txn : Bytes) : List DhtLine :=
  let f := findSession (fun s => s.handleTimeout addr txn) a.sessions order
  let a1 := { a with timers := setRemove a.timers (addr, txn), sessions := f.1 }
  match f.2 with
  | none => []
  | some sid =>
    match HMap.get a.sessions sid with
    | some s => .line (.nodeTimeout addr (HMap.get s.nodes.addr2node addr)) :: a1.foundLog sid
    | none => []

/-- src/dht/actor.rs:125-190: the log of an event that happens in a state.  What is logged before the loop begins is put together: the messages about
names come in the order in which the names are resolved, here in that of the configuration. -/
def DhtState.stepLog (lookup : Text → BitVec 16 → Option (List SockAddr)) (nodes : List InetAddr) (s : DhtState) : DhtEvent → List DhtLine
  | .submit _ => []
  | .resolved addrs =>
    .starting :: nodes.filterMap (resolveLine lookup s.actor.usingIpv6) ++ [if addrs = [] then .unresolved else .ready]
  | .receive udp =>
    match s.phase, s.inbox with
    | .running bootstrap, .lookup req h :: _ => s.actor.lookupLog bootstrap udp req h
    | _, _ => []
  | .packet addr msg order udp => s.actor.messageLog order udp addr msg
  | .recvError => [.recvFailed]
  | .timer addr txn order => s.actor.timerLog order addr txn

/-- The log of a sequence of events; `none` if it cannot happen. -/
def DhtState.runLog (lookup : Text → BitVec 16 → Option (List SockAddr)) (nodes : List InetAddr) (s : DhtState) : List DhtEvent → Option (List DhtLine)
  | [] => some []
  | e :: es =>
    match s.step lookup nodes e with
    | none => none
    | some (s', _) => (s'.runLog lookup nodes es).map fun l => s.stepLog lookup nodes e ++ l

end Demag
