import Verif.Model.Compact
import Verif.Model.Tracker
import Verif.Model.PeerMsg

/-!
# DHT messages: the model of `/repo/src/dht/messages.rs`
-/

namespace Demag

open Spec (Ben)

/-- src/dht/messages.rs:276-290 `Want`. -/
inductive Want where
  | n4
  | n6
  deriving DecidableEq

/-- src/dht/messages.rs:282-288 `Want::as_str`. -/
def Want.asStr : Want → Text
  | .n4 => "n4".toList
  | .n6 => "n6".toList

/-- src/dht/messages.rs:13-21 `GetPeersQuery`. -/
structure GetPeersQuery where
  transactionId : Bytes
  client : Option Bytes
  nodeId : NodeId
  infoHash : InfoHash
  readOnly : Option Bool
  want : Option (List Want)
  deriving DecidableEq

/-- src/dht/messages.rs:23-56 `ToBencode for GetPeersQuery`.  bendy fails if keys are not increasing (`none`) or if the value is
more than `MAX_DEPTH` = 3 levels deep, which it is not (`query_encode`). -/
def GetPeersQuery.toBencode (q : GetPeersQuery) : Option Bytes := do
  let a ← emitDict (
    [(key "id", emitBytes q.nodeId.bytes), (key "info_hash", emitBytes q.infoHash.bytes)] ++
    (q.want.map fun ws => (key "want", emitList (ws.map fun w => emitBytes (utf8 w.asStr)))).toList)
  emitDict (
    [(key "a", a), (key "q", emitBytes (key "get_peers"))] ++
    (q.readOnly.map fun ro => (key "ro", emitNat (if ro then 1 else 0))).toList ++
    [(key "t", emitBytes q.transactionId)] ++
    (q.client.map fun v => (key "v", emitBytes v)).toList ++
    [(key "y", emitBytes (key "q"))])

/-- src/dht/messages.rs:291-306 `gen_client`: `DM` and the version, 0.7. -/
def genClient : Bytes := key "DM" ++ [0, 7]

/-- src/dht/messages.rs:58-68 `GetPeersResponse`. -/
structure GetPeersResponse where
  transactionId : Bytes
  client : Option Bytes
  nodeId : NodeId
  values : List Peer
  nodes : List (NodeT Ipv4)
  nodes6 : List (NodeT Ipv6)
  token : Option Bytes
  yourAddr : Option SockAddr
  deriving DecidableEq

/-- src/dht/mod.rs:58-66 `FromBencode for NodeId`. -/
def benNodeId (v : Ben) : Option NodeId :=
  (benBytes v).bind fun b => if h : b.length = 20 then some ⟨b, h⟩ else none

/-- src/compact.rs `AsCompact::<SocketAddr>::decode_bencode_object`. -/
def benSockAddr (v : Ben) : Option SockAddr := (benBytes v).bind fun b => (sockFromCompact b).toOption
/-- `AsCompact::<Vec<Node<Ipv4Addr>>>::decode_bencode_object`. -/
def benNodes4 (v : Ben) : Option (List (NodeT Ipv4)) := (benBytes v).bind fun b => (node4sFromCompact b).toOption
/-- `AsCompact::<Vec<Node<Ipv6Addr>>>::decode_bencode_object`. -/
def benNodes6 (v : Ben) : Option (List (NodeT Ipv6)) := (benBytes v).bind fun b => (node6sFromCompact b).toOption
/-- src/dht/messages.rs:119-126: the loop over the values. -/
def benValues (v : Ben) : Option (List Peer) := (benList v).bind fun l => l.mapM fun i => (benSockAddr i).map Peer.ofAddr

/-- The variables of src/dht/messages.rs:74-79 that the inner loop sets. -/
structure RFields where
  nodeId : Option NodeId := none
  values : List Peer := []
  nodes : List (NodeT Ipv4) := []
  nodes6 : List (NodeT Ipv6) := []
  token : Option Bytes := none

/-- src/dht/messages.rs:101-134, one turn of the inner loop. -/
def RFields.readPair (s : RFields) (kv : Bytes × Ben) : Option RFields :=
  if kv.1 = key "id" then (benNodeId kv.2).map fun x => { s with nodeId := some x }
  else if kv.1 = key "nodes" then (benNodes4 kv.2).map fun x => { s with nodes := s.nodes ++ x }
  else if kv.1 = key "nodes6" then (benNodes6 kv.2).map fun x => { s with nodes6 := s.nodes6 ++ x }
  else if kv.1 = key "values" then (benValues kv.2).map fun x => { s with values := s.values ++ x }
  else if kv.1 = key "token" then (benBytes kv.2).map fun x => { s with token := some x }
  else some s

/-- src/dht/messages.rs:99-136: the inner loop. -/
def RFields.readDict (s : RFields) (v : Ben) : Option RFields := (benDict v).bind fun kvs => kvs.foldlM RFields.readPair s

/-- The variables of src/dht/messages.rs:72-79. -/
structure ResponseFields where
  transactionId : Option Bytes := none
  client : Option Bytes := none
  r : RFields := {}
  yourAddr : Option SockAddr := none

/-- src/dht/messages.rs:81-142, one turn of the outer loop. -/
def ResponseFields.readPair (s : ResponseFields) (kv : Bytes × Ben) : Option ResponseFields :=
  if kv.1 = key "t" then (benBytes kv.2).map fun x => { s with transactionId := some x }
  else if kv.1 = key "v" then (benBytes kv.2).map fun x => { s with client := some x }
  else if kv.1 = key "y" then (benText kv.2).bind fun t => if t = "r".toList then some s else none
  else if kv.1 = key "r" then (s.r.readDict kv.2).map fun x => { s with r := x }
  else if kv.1 = key "ip" then (benSockAddr kv.2).map fun x => { s with yourAddr := some x }
  else some s

/-- src/dht/messages.rs:70-156 `FromBencode for GetPeersResponse`. -/
def GetPeersResponse.ofBen (v : Ben) : Option GetPeersResponse := do
  let kvs ← benDict v
  let s ← kvs.foldlM ResponseFields.readPair {}
  let t ← s.transactionId
  let id ← s.r.nodeId
  some ⟨t, s.client, id, s.r.values, s.r.nodes, s.r.nodes6, s.r.token, s.yourAddr⟩

/-- src/dht/messages.rs:239-246 `ErrorCode`. -/
inductive ErrorCode where
  | generic
  | server
  | protocol
  | methodUnknown
  | other (n : BitVec 32)
  deriving DecidableEq

/-- src/dht/messages.rs:260-270 `FromBencode for ErrorCode`. -/
def ErrorCode.ofBen (v : Ben) : Option ErrorCode :=
  (benUint 32 v).map fun n =>
    if n.toNat = 201 then .generic
    else if n.toNat = 202 then .server
    else if n.toNat = 203 then .protocol
    else if n.toNat = 204 then .methodUnknown
    else .other n

/-- src/dht/messages.rs:159-166 `ErrorResponse`. -/
structure ErrorResponse where
  transactionId : Bytes
  client : Option Bytes
  code : ErrorCode
  message : Text
  yourAddr : Option SockAddr
  deriving DecidableEq

/-- The variables of src/dht/messages.rs:178-182. -/
structure ErrorFields where
  transactionId : Option Bytes := none
  client : Option Bytes := none
  e : Option ErrorCode × Option Text := (none, none)
  yourAddr : Option SockAddr := none

/-- src/dht/messages.rs:186-199: the list of the code and the message; further items are skipped. -/
def benError (lossy : Bytes → Text) (v : Ben) : Option (Option ErrorCode × Option Text) :=
  match benList v with
  | none => none
  | some [] => some (none, none)
  | some [c] => (ErrorCode.ofBen c).map fun c => (some c, none)
  | some (c :: m :: _) => (ErrorCode.ofBen c).bind fun c => (benBytes m).map fun m => (some c, some (lossy m))

/-- src/dht/messages.rs:184-224, one turn of the loop.  Bencoded keys do not repeat, so that the code and the message are not
set when `e` is read. -/
def ErrorFields.readPair (lossy : Bytes → Text) (s : ErrorFields) (kv : Bytes × Ben) : Option ErrorFields :=
  if kv.1 = key "e" then (benError lossy kv.2).map fun x => { s with e := x }
  else if kv.1 = key "t" then (benBytes kv.2).map fun x => { s with transactionId := some x }
  else if kv.1 = key "v" then (benBytes kv.2).map fun x => { s with client := some x }
  else if kv.1 = key "y" then (benText kv.2).bind fun t => if t = "e".toList then some s else none
  else if kv.1 = key "ip" then (benSockAddr kv.2).map fun x => { s with yourAddr := some x }
  else some s

/-- src/dht/messages.rs:176-237 `FromBencode for ErrorResponse`. -/
def ErrorResponse.ofBen (lossy : Bytes → Text) (v : Ben) : Option ErrorResponse := do
  let kvs ← benDict v
  let s ← kvs.foldlM (ErrorFields.readPair lossy) {}
  let t ← s.transactionId
  let c ← s.e.1
  let m ← s.e.2
  some ⟨t, s.client, c, m, s.yourAddr⟩

/-- src/dht/messages.rs:342-347 `MessageType`. -/
inductive MessageType where
  | query
  | response
  | error
  deriving DecidableEq

/-- src/dht/messages.rs:349-362 `FromBencode for MessageType`. -/
def MessageType.ofBen (v : Ben) : Option MessageType :=
  (benText v).bind fun t =>
    if t = "q".toList then some .query
    else if t = "r".toList then some .response
    else if t = "e".toList then some .error
    else none

/-- src/dht/messages.rs:308-312 `Prescan`. -/
structure Prescan where
  transactionId : Bytes
  msgType : MessageType
  deriving DecidableEq

/-- src/dht/messages.rs:316-317. -/
structure PrescanFields where
  transactionId : Option Bytes := none
  msgType : Option MessageType := none

/-- src/dht/messages.rs:320-331, one turn of the loop. -/
def PrescanFields.readPair (s : PrescanFields) (kv : Bytes × Ben) : Option PrescanFields :=
  if kv.1 = key "t" then (benBytes kv.2).map fun x => { s with transactionId := some x }
  else if kv.1 = key "y" then (MessageType.ofBen kv.2).map fun x => { s with msgType := some x }
  else some s

/-- src/dht/messages.rs:314-340 `prescan`: the first object of the packet; what follows it is not looked at. -/
def prescan (msg : Bytes) : Option Prescan := do
  let (v, _) ← parseObject bendyDefaultDepth msg
  let kvs ← benDict v
  let s ← kvs.foldlM PrescanFields.readPair {}
  let t ← s.transactionId
  let y ← s.msgType
  some ⟨t, y⟩

/-- src/dht/messages.rs:382-390 `ResponseError`. -/
inductive ResponseError where
  | bencode (e : UnbencodeError)
  | rpc (e : ErrorResponse)
  | query
  deriving DecidableEq

/-- src/dht/messages.rs:369-374: the loop, left at the key `y`. -/
def scanLoop : List (Bytes × Ben) → Option Ben
  | [] => none
  | (k, v) :: rest => if k = key "y" then some v else scanLoop rest

/-- src/dht/messages.rs:365-376: the type of the message.  Simplification: the code stops at the key `y`, so that a message that
is broken after it is still seen as a query (for responses and errors the whole message is decoded afterwards); `prescan` has
rejected such messages before. -/
def scanType (msg : Bytes) : Option MessageType := do
  let (v, _) ← parseObject bendyDefaultDepth msg
  let kvs ← benDict v
  let y ← scanLoop kvs
  MessageType.ofBen y

/-- src/dht/messages.rs:364-384 `decode_response::<GetPeersResponse>`. -/
def decodeResponse (lossy : Bytes → Text) (msg : Bytes) : Except ResponseError GetPeersResponse :=
  match scanType msg with
  | none => .error (.bencode .bendy)
  | some .response => (decodeBencode bendyDefaultDepth GetPeersResponse.ofBen msg).mapError .bencode
  | some .error =>
    match decodeBencode bendyDefaultDepth (ErrorResponse.ofBen lossy) msg with
    | .ok e => .error (.rpc e)
    | .error e => .error (.bencode e)
  | some .query => .error .query

end Demag
