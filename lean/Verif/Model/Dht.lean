import Verif.Model.DhtMsg
import Verif.Model.Config
import Verif.Model.Utf8

/-!
# The DHT client: the model of `/repo/src/dht/actor.rs`

The actor is one task that handles one event at a time; an event is modelled as one step, with what the environment decides (whether
a datagram could be sent, in which order a hash map is iterated) as arguments.  Logging is not modelled.
-/

namespace Demag

/-! ### Nodes -/

/-- src/dht/mod.rs:36-44 `NodeId ^ InfoHash`: a `Distance`.  `Ord` is derived, so distances are compared byte by byte (`bytesLt`). -/
def distance (n : NodeId) (h : InfoHash) : Bytes := List.zipWith (fun a b => a ^^^ b) n.bytes h.bytes

/-- src/dht/actor.rs:673-686 `NodeInfo`. -/
structure NodeInfo where
  node : Node
  queried : Bool
  responsive : Bool
  deriving DecidableEq

/-- src/dht/actor.rs:568-583 `NodeSpace`.  The `BTreeMap` is the list of its entries in the order of the keys. -/
structure NodeSpace where
  infoHash : InfoHash
  nodes : List (Bytes × List NodeInfo)
  addr2node : HMap SockAddr Node

/-- src/dht/actor.rs:586-592 `NodeSpace::new`. -/
def NodeSpace.new (h : InfoHash) : NodeSpace := ⟨h, [], []⟩

/-- `BTreeMap::entry(dist).or_default().push_front(info)` (std). -/
def pushNode (dist : Bytes) (info : NodeInfo) : List (Bytes × List NodeInfo) → List (Bytes × List NodeInfo)
  | [] => [(dist, [info])]
  | (d, bucket) :: rest =>
    if dist = d then (d, info :: bucket) :: rest
    else if Spec.bytesLt dist d then (dist, [info]) :: (d, bucket) :: rest
    else (d, bucket) :: pushNode dist info rest

/-- src/dht/actor.rs:599-611 `NodeSpace::add`. -/
def NodeSpace.add (s : NodeSpace) (n : Node) : NodeSpace :=
  if HMap.contains s.addr2node (Node.address n) then s
  else
    { s with
      addr2node := HMap.insert s.addr2node (Node.address n) n
      nodes := pushNode (distance n.id s.infoHash) ⟨n, false, false⟩ s.nodes }

/-- The part of src/dht/actor.rs:623-634 that visits one bucket, with `k` nodes to go. -/
def askBucket : Nat → List NodeInfo → Nat × List NodeInfo × List Node
  | 0, l => (0, l, [])
  | k + 1, [] => (k + 1, [], [])
  | k + 1, i :: l =>
    let r := askBucket k l
    (r.1, { i with queried := true } :: r.2.1, if i.queried then r.2.2 else i.node :: r.2.2)

/-- src/dht/actor.rs:623-634: the buckets one after the other. -/
def askBuckets : Nat → List (Bytes × List NodeInfo) → List (Bytes × List NodeInfo) × List Node
  | _, [] => ([], [])
  | k, (d, bucket) :: rest =>
    let r := askBucket k bucket
    let r' := askBuckets r.1 rest
    ((d, r.2.1) :: r'.1, r.2.2 ++ r'.2)

/-- src/dht/actor.rs:623-634 `NodeSpace::closest_unqueried`. -/
def NodeSpace.closestUnqueried (s : NodeSpace) (k : Nat) : NodeSpace × List Node :=
  let r := askBuckets k s.nodes
  ({ s with nodes := r.1 }, r.2)

/-- src/dht/actor.rs:638-646 `NodeSpace::closest_responsive`. -/
def NodeSpace.closestResponsive (s : NodeSpace) (k : Nat) : List Node :=
  (((s.nodes.flatMap fun e => e.2).filter fun i => i.responsive).take k).map fun i => i.node

/-- src/dht/actor.rs:652-657: the loop over the bucket. -/
def markBucket (id : NodeId) : List NodeInfo → List NodeInfo
  | [] => []
  | i :: l => if i.node.id = id then { i with responsive := true } :: l else i :: markBucket id l

/-- src/dht/actor.rs:651: `BTreeMap::get_mut`. -/
def markBuckets (d : Bytes) (id : NodeId) : List (Bytes × List NodeInfo) → List (Bytes × List NodeInfo)
  | [] => []
  | (d', bucket) :: rest => if d' = d then (d', markBucket id bucket) :: rest else (d', bucket) :: markBuckets d id rest

/-- src/dht/actor.rs:650-659 `NodeSpace::mark_responsive`. -/
def NodeSpace.markResponsive (s : NodeSpace) (id : NodeId) : NodeSpace :=
  { s with nodes := markBuckets (distance id s.infoHash) id s.nodes }

/-! ### Lookups -/

/-- src/dht/actor.rs:366-382 `TransactionGenerator::generate`: the transaction ID for a value of the counter. -/
def txnId (t : BitVec 32) : Bytes := putU32 t

/-- `HashSet::insert` (std); a set is a list without duplicates. -/
def setInsert {α : Type} [DecidableEq α] (l : List α) (a : α) : List α := if a ∈ l then l else l ++ [a]
/-- `HashSet::remove` (std). -/
def setRemove {α : Type} [DecidableEq α] (l : List α) (a : α) : List α := l.filter fun b => b ≠ a

/-- src/dht/actor.rs:336-347 `FoundPeers`. -/
structure FoundPeers where
  peers : List Peer
  closestNodes : List SockAddr
  deriving DecidableEq

/-- src/dht/actor.rs:394-418 `LookupSession`. -/
structure LookupSession where
  myId : NodeId
  usingIpv6 : Bool
  peers : List Peer
  nodes : NodeSpace
  toQuery : List SockAddr
  inFlight : List (SockAddr × Bytes)

/-- src/dht/actor.rs:421-435 `LookupSession::new`. -/
def LookupSession.new (h : InfoHash) (myId : NodeId) (usingIpv6 : Bool) (bootstrap : List SockAddr) : LookupSession :=
  ⟨myId, usingIpv6, [], NodeSpace.new h, bootstrap, []⟩

/-- src/dht/actor.rs:32 `CLOSEST`. -/
def closestCount : Nat := 8

/-- src/dht/actor.rs:447-474: a valid response of a node; `known` is what is known about the sender (`addr2display`, looked up
before the response is handled). -/
def LookupSession.takeResponse (s : LookupSession) (known : Option Node) (r : GetPeersResponse) : LookupSession :=
  let added := (r.nodes.map NodeT.ofV4 ++ r.nodes6.map NodeT.ofV6).foldl NodeSpace.add s.nodes
  let marked := match known with
    | some n => added.markResponsive n.id
    | none => added
  let asked := marked.closestUnqueried closestCount
  { s with
    peers := r.values.foldl setInsert s.peers
    nodes := asked.1
    toQuery := s.toQuery ++ asked.2.map Node.address }

/-- src/dht/actor.rs:443-482 `LookupSession::handle_message`. -/
def LookupSession.handleMessage (s : LookupSession) (sender : SockAddr) (txn : Bytes) (msg : Bytes) : LookupSession × Bool :=
  if (sender, txn) ∈ s.inFlight then
    let s' := { s with inFlight := setRemove s.inFlight (sender, txn) }
    match decodeResponse lossyUtf8 msg with
    | .ok r => (s'.takeResponse (HMap.get s.nodes.addr2node sender) r, true)
    | .error _ => (s', true)
  else (s, false)

/-- src/dht/actor.rs:488-496 `LookupSession::handle_timeout`. -/
def LookupSession.handleTimeout (s : LookupSession) (addr : SockAddr) (txn : Bytes) : LookupSession × Bool :=
  if (addr, txn) ∈ s.inFlight then ({ s with inFlight := setRemove s.inFlight (addr, txn) }, true) else (s, false)

/-- src/dht/actor.rs:501-503 `LookupSession::handle_send_failure`. -/
def LookupSession.handleSendFailure (s : LookupSession) (addr : SockAddr) (txn : Bytes) : LookupSession :=
  { s with inFlight := setRemove s.inFlight (addr, txn) }

/-- src/dht/actor.rs:524-533: the query with the given transaction ID. -/
def LookupSession.query (s : LookupSession) (txn : Bytes) : GetPeersQuery :=
  ⟨txn, some genClient, s.myId, s.nodes.infoHash, some true, if s.usingIpv6 then some [.n4, .n6] else none⟩

/-- src/dht/actor.rs:515-536: the loop of `get_outgoing` over the drained addresses. -/
def outgoingLoop (s : LookupSession) : List SockAddr → BitVec 32 → LookupSession × BitVec 32 × List (SockAddr × GetPeersQuery)
  | [], t => (s, t, [])
  | addr :: rest, t =>
    let s1 := { s with inFlight := setInsert s.inFlight (addr, txnId t) }
    let r := outgoingLoop s1 rest (t + 1)
    (r.1, r.2.1, (addr, s.query (txnId t)) :: r.2.2)

/-- src/dht/actor.rs:508-537 `LookupSession::get_outgoing`. -/
def LookupSession.getOutgoing (s : LookupSession) (t : BitVec 32) : LookupSession × BitVec 32 × List (SockAddr × GetPeersQuery) :=
  outgoingLoop { s with toQuery := [] } s.toQuery t

/-- src/dht/actor.rs:541-560 `LookupSession::get_result`.  The order in which the set of peers is drained is not specified by std;
here it is the order in which they were found. -/
def LookupSession.getResult (s : LookupSession) : Option FoundPeers :=
  if s.inFlight = [] then some ⟨s.peers, (s.nodes.closestResponsive closestCount).map Node.address⟩ else none

/-! ### The actor -/

/-- What the actor does to the outside, in order.  `query` is an attempt to send a query for a lookup (`ok`: the socket took it);
`replied` and `timedOut` are what it logs when a message or a timeout ends a query. -/
inductive DhtEffect where
  | query (sid : Nat) (addr : SockAddr) (q : GetPeersQuery) (packet : Option Bytes) (ok : Bool)
  | replied (sid : Nat) (addr : SockAddr) (txn msg : Bytes)
  | timedOut (sid : Nat) (addr : SockAddr) (txn : Bytes)
  | started (sid : Nat) (req : Nat) (h : InfoHash)
  | answer (req : Nat) (r : FoundPeers)
  | down (req : Nat)
  deriving DecidableEq

/-- src/dht/actor.rs:41-83 `DhtActor` (the parts that change).  `senders` maps a session to the request that waits for it.
`timers` are the keys of the `JoinMap`. -/
structure DhtActor where
  myId : NodeId
  usingIpv6 : Bool
  txn : BitVec 32
  sessions : HMap Nat LookupSession
  senders : HMap Nat Nat
  nextSid : Nat
  timers : List (SockAddr × Bytes)

/-- `HashMap::get_mut` (std), and an assignment to it. -/
def HMap.set {κ ν : Type} [DecidableEq κ] (m : HMap κ ν) (k : κ) (v : ν) : HMap κ ν :=
  m.map fun kv => if kv.1 = k then (k, v) else kv

/-- src/dht/actor.rs:782-791 `UdpHandle::send`: whether it succeeds.  `udp` tells whether the socket takes the datagram. -/
def udpSend (usingIpv6 : Bool) (udp : SockAddr → Bytes → Bool) (addr : SockAddr) (msg : Bytes) : Bool :=
  if addr.isIpv4 then udp addr msg else usingIpv6 && udp addr msg

/-- src/dht/actor.rs:211-213, 219-221: the session is told of a failure. -/
def DhtActor.sendFailed (a : DhtActor) (sid : Nat) (addr : SockAddr) (txn : Bytes) : DhtActor :=
  match HMap.get a.sessions sid with
  | some s => { a with sessions := HMap.set a.sessions sid (s.handleSendFailure addr txn) }
  | none => a

/-- src/dht/actor.rs:202-225 `DhtActor::send_query`. -/
def DhtActor.sendQuery (a : DhtActor) (udp : SockAddr → Bytes → Bool) (sid : Nat) (addr : SockAddr) (q : GetPeersQuery) :
    DhtActor × List DhtEffect :=
  match q.toBencode with
  | none => (a.sendFailed sid addr q.transactionId, [.query sid addr q none false])
  | some msg =>
    if udpSend a.usingIpv6 udp addr msg then
      ({ a with timers := setInsert a.timers (addr, q.transactionId) }, [.query sid addr q (some msg) true])
    else (a.sendFailed sid addr q.transactionId, [.query sid addr q (some msg) false])

/-- The loops of src/dht/actor.rs:144-146 and 248-250. -/
def DhtActor.sendAll (a : DhtActor) (udp : SockAddr → Bytes → Bool) (sid : Nat) :
    List (SockAddr × GetPeersQuery) → DhtActor × List DhtEffect
  | [] => (a, [])
  | (addr, q) :: rest =>
    let r := a.sendQuery udp sid addr q
    let r' := r.1.sendAll udp sid rest
    (r'.1, r.2 ++ r'.2)

/-- src/dht/actor.rs:265-275 `DhtActor::postprocess_session`. -/
def DhtActor.postprocess (a : DhtActor) (sid : Nat) : DhtActor × List DhtEffect :=
  match HMap.get a.sessions sid with
  | none => (a, [])
  | some s =>
    match s.getResult with
    | none => (a, [])
    | some r =>
      let a' := { a with sessions := HMap.remove a.sessions sid }
      match HMap.get a.senders sid with
      | none => (a', [])
      | some req => ({ a' with senders := HMap.remove a.senders sid }, [.answer req r])

/-- src/dht/actor.rs:138-150: a request for a lookup. -/
def DhtActor.lookup (a : DhtActor) (bootstrap : List SockAddr) (udp : SockAddr → Bytes → Bool) (req : Nat) (h : InfoHash) :
    DhtActor × List DhtEffect :=
  let s := LookupSession.new h a.myId a.usingIpv6 bootstrap
  let o := s.getOutgoing a.txn
  let sid := a.nextSid
  let a1 := { a with
    txn := o.2.1
    nextSid := a.nextSid + 1
    sessions := HMap.insert a.sessions sid o.1
    senders := HMap.insert a.senders sid req }
  let r := a1.sendAll udp sid o.2.2
  let p := r.1.postprocess sid
  (p.1, .started sid req h :: r.2 ++ p.2)

/-- The loops of src/dht/actor.rs:163-168 and 247-255 over the sessions, in the order `order`, up to the one that `f` handles. -/
def findSession (f : LookupSession → LookupSession × Bool) (sessions : HMap Nat LookupSession) :
    List Nat → HMap Nat LookupSession × Option Nat
  | [] => (sessions, none)
  | sid :: order =>
    match HMap.get sessions sid with
    | none => findSession f sessions order
    | some s =>
      let sessions' := HMap.set sessions sid (f s).1
      if (f s).2 then (sessions', some sid) else findSession f sessions' order

/-- src/dht/actor.rs:231-261 `DhtActor::handle_message`. -/
def DhtActor.handleMessage (a : DhtActor) (order : List Nat) (udp : SockAddr → Bytes → Bool) (addr : SockAddr) (msg : Bytes) :
    DhtActor × List DhtEffect :=
  match prescan msg with
  | none => (a, [])
  | some p =>
    if p.msgType = .query then (a, [])
    else
      let f := findSession (fun s => s.handleMessage addr p.transactionId msg) a.sessions order
      match f.2 with
      | none => ({ a with sessions := f.1 }, [])
      | some sid =>
        match HMap.get f.1 sid with
        | none => ({ a with sessions := f.1 }, [])
        | some s =>
          let o := s.getOutgoing a.txn
          let a1 := { a with sessions := HMap.set f.1 sid o.1, txn := o.2.1 }
          let r := a1.sendAll udp sid o.2.2
          let q := r.1.postprocess sid
          (q.1, .replied sid addr p.transactionId msg :: r.2 ++ q.2)

/-- src/dht/actor.rs:162-169: a timer has run out; `join_next` has removed it from the map. -/
def DhtActor.handleTimer (a : DhtActor) (order : List Nat) (addr : SockAddr) (txn : Bytes) : DhtActor × List DhtEffect :=
  let f := findSession (fun s => s.handleTimeout addr txn) a.sessions order
  let a1 := { a with timers := setRemove a.timers (addr, txn), sessions := f.1 }
  match f.2 with
  | none => (a1, [])
  | some sid =>
    let q := a1.postprocess sid
    (q.1, .timedOut sid addr txn :: q.2)

/-- src/dht/actor.rs:321-334 `ActorMessage`. -/
inductive ActorMessage where
  | lookup (req : Nat) (h : InfoHash)
  | shutdown
  deriving DecidableEq

/-- Where `run` (src/dht/actor.rs:125-173) is. -/
inductive DhtPhase where
  | starting
  | running (bootstrap : List SockAddr)
  | stopped
  deriving DecidableEq

/-- The task and its channel.  `inbox` are the messages sent through handles and not yet received; handles that wait for room in the
channel (it holds 64 messages) are in order at its end, as tokio's semaphore is fair. -/
structure DhtState where
  phase : DhtPhase
  actor : DhtActor
  inbox : List ActorMessage

/-- Events.  `submit`: a handle sends a message; `resolved`: `resolve_bootstrap` has ended; the others are the branches of `select!`:
`receive` (a message from the channel), `packet`, `recvError`, `timer`. -/
inductive DhtEvent where
  | submit (m : ActorMessage)
  | resolved (addrs : List SockAddr)
  | receive (udp : SockAddr → Bytes → Bool)
  | packet (addr : SockAddr) (msg : Bytes) (order : List Nat) (udp : SockAddr → Bytes → Bool)
  | recvError
  | timer (addr : SockAddr) (txn : Bytes) (order : List Nat)

/-- The request of a message that waits for a lookup. -/
def ActorMessage.request : ActorMessage → Option Nat
  | .lookup req _ => some req
  | .shutdown => none

/-- The task ends and drops its senders and its channel: whoever waits gets `DhtHandleError` (src/dht/actor.rs:291-303). -/
def DhtState.stop (s : DhtState) (inbox : List ActorMessage) : DhtState × List DhtEffect :=
  ({ phase := .stopped, actor := { s.actor with sessions := [], senders := [], timers := [] }, inbox := [] },
    (s.actor.senders.map fun e => .down e.2) ++ (inbox.filterMap ActorMessage.request).map .down)

/-- src/dht/actor.rs:94-116 `DhtActor::new`. -/
def DhtState.init (myId : NodeId) (usingIpv6 : Bool) : DhtState := ⟨.starting, ⟨myId, usingIpv6, 0, [], [], 0, []⟩, []⟩

/-- src/dht/actor.rs:125-173 `DhtActor::run`, 177-190 `resolve_bootstrap`, 283-316 `DhtHandle`: one event; `none` if it cannot happen.
`lookup` is the name lookup and `nodes` are the bootstrap nodes, whose addresses come in any order; a hash map is iterated in any
order. -/
def DhtState.step (lookup : Text → BitVec 16 → Option (List SockAddr)) (nodes : List InetAddr) (s : DhtState) :
    DhtEvent → Option (DhtState × List DhtEffect)
  | .submit m =>
    match s.phase with
    | .stopped => some (s, (m.request.map DhtEffect.down).toList)
    | _ => some ({ s with inbox := s.inbox ++ [m] }, [])
  | .resolved addrs =>
    if s.phase = .starting ∧ addrs.isPerm (nodes.filterMap (InetAddr.resolve lookup s.actor.usingIpv6)) then
      if addrs = [] then some (s.stop s.inbox) else some ({ s with phase := .running addrs }, [])
    else none
  | .receive udp =>
    match s.phase, s.inbox with
    | .running bootstrap, .lookup req h :: inbox =>
      let r := s.actor.lookup bootstrap udp req h
      some ({ s with actor := r.1, inbox := inbox }, r.2)
    | .running _, .shutdown :: inbox => some (s.stop inbox)
    | _, _ => none
  | .packet addr msg order udp =>
    match s.phase with
    | .running _ =>
      if order.isPerm (s.actor.sessions.map Prod.fst) then
        let r := s.actor.handleMessage order udp addr msg
        some ({ s with actor := r.1 }, r.2)
      else none
    | _ => none
  | .recvError =>
    match s.phase with
    | .running _ => some (s, [])
    | _ => none
  | .timer addr txn order =>
    match s.phase with
    | .running _ =>
      if (addr, txn) ∈ s.actor.timers ∧ order.isPerm (s.actor.sessions.map Prod.fst) then
        let r := s.actor.handleTimer order addr txn
        some ({ s with actor := r.1 }, r.2)
      else none
    | _ => none

/-- A sequence of events: all the effects, in order. -/
def DhtState.run (lookup : Text → BitVec 16 → Option (List SockAddr)) (nodes : List InetAddr) (s : DhtState) :
    List DhtEvent → Option (DhtState × List DhtEffect)
  | [] => some (s, [])
  | e :: es =>
    match s.step lookup nodes e with
    | none => none
    | some (s', out) =>
      match s'.run lookup nodes es with
      | none => none
      | some (s'', out') => some (s'', out ++ out')

end Demag
