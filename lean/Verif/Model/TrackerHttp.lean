import Verif.Model.Tracker
import Verif.Model.TrackerUrl
import Verif.Model.PeerMsg

/-!
# HTTP trackers: the model of `/repo/src/tracker/http.rs`

The exchange of the request for the body of the response is reqwest's business; the model has the URL requested and what is
made of the body.  `String::from_utf8_lossy` (`lossy`) and `IpAddr::from_str` (`parseIp`) are parameters.
-/

namespace Demag

open Spec (Ben)

/-! ### The request -/

/-- `byte_serialized_unchanged` (crate form_urlencoded): `*`, `-`, `.`, `_`, digits and letters. -/
def serializedUnchanged (b : UInt8) : Bool :=
  b = 0x2A || b = 0x2D || b = 0x2E || b = 0x5F || (0x30 ≤ b && b ≤ 0x39) || (0x41 ≤ b && b ≤ 0x5A) || (0x61 ≤ b && b ≤ 0x7A)

/-- The digit of `percent_encode_byte` (crate percent_encoding). -/
def hexUpper (n : Nat) : Char := Char.ofNat (if n < 10 then 48 + n else 55 + n)

/-- One step of the iterator `ByteSerialize` (crate form_urlencoded). -/
def serializeByte (b : UInt8) : Text :=
  if serializedUnchanged b then [Char.ofNat b.toNat]
  else if b = 0x20 then ['+']
  else ['%', hexUpper (b.toNat / 16), hexUpper (b.toNat % 16)]

/-- `byte_serialize` (crate form_urlencoded). -/
def byteSerialize (bs : Bytes) : Text := bs.flatMap serializeByte

/-- `Url::query_pairs_mut` followed by `append_pair` (crates url and form_urlencoded): the query is created if there is
none, and a separator is written if it is not empty.  The texts are given as bytes, as they are after `encode`. -/
def appendPair (q : Option Text) (name value : Bytes) : Option Text :=
  let q := q.getD []
  some (q ++ (if q.isEmpty then [] else ['&']) ++ byteSerialize name ++ ['='] ++ byteSerialize value)

/-- src/tracker/mod.rs:258-266 `AnnounceEvent::add_query_param`. -/
def AnnounceEvent.addQueryParam (e : AnnounceEvent) (q : Option Text) : Option Text :=
  match e with
  | .announce => q
  | .completed => appendPair q (key "event") (key "completed")
  | .started => appendPair q (key "event") (key "started")
  | .stopped => appendPair q (key "event") (key "stopped")

/-- src/tracker/mod.rs:316-326 `TrackerCrypto::add_query_param`. -/
def TrackerCrypto.addQueryParam (c : TrackerCrypto) (q : Option Text) : Option Text :=
  match c with
  | .required => appendPair q (key "requirecrypto") (key "1")
  | .supported => appendPair q (key "supportcrypto") (key "1")
  | .plain => q

/-- src/types.rs:232-244 `add_bytes_query_param`: the encoding override replaces the value (the sentinel) by the bytes and
leaves the name as it is. -/
def addBytesQueryParam (q : Option Text) (name value : Bytes) : Option Text := appendPair q name value

/-- src/tracker/http.rs:72-84: the query of the URL requested. -/
def announceQuery (q : Option Text) (a : Announcement) : Option Text :=
  let q := a.event.addQueryParam q
  let q := addBytesQueryParam q (key "info_hash") a.infoHash.bytes
  let q := addBytesQueryParam q (key "peer_id") a.peerId.bytes
  let q := a.crypto.addQueryParam q
  let q := appendPair q (key "port") (utf8 (decimal a.port.toNat))
  let q := appendPair q (key "uploaded") (utf8 (decimal a.uploaded.toNat))
  let q := appendPair q (key "downloaded") (utf8 (decimal a.downloaded.toNat))
  let q := appendPair q (key "left") (utf8 (decimal a.left.toNat))
  let q := appendPair q (key "numwant") (utf8 (decimal a.numwant.toNat))
  let q := appendPair q (key "key") (utf8 (decimal a.key.toNat))
  appendPair q (key "compact") (key "1")

/-- src/tracker/http.rs:68-84: the URL requested; the fragment is removed. -/
def announceUrl (u : Url) (a : Announcement) : Url :=
  { u with fragment := none, query := announceQuery u.query a }

/-! ### The response -/

/-- `SocketAddr::new` (std). -/
def sockAddrNew (ip : IpAddr) (port : BitVec 16) : SockAddr :=
  match ip with
  | .v4 a => .v4 ⟨a, port⟩
  | .v6 a => .v6 ⟨a, port⟩

/-- src/types.rs:163-172 `TryFrom<&[u8]> for PeerId`. -/
def PeerId.ofBytes (b : Bytes) : Option PeerId := if h : b.length = 20 then some ⟨b, h⟩ else none

/-- The variables of src/peer/mod.rs:115-117. -/
structure PeerFields where
  id : Option PeerId := none
  ip : Option IpAddr := none
  port : Option (BitVec 16) := none

/-- src/peer/mod.rs:120-148, one turn of the loop. -/
def PeerFields.readPair (parseIp : Text → Option IpAddr) (s : PeerFields) (kv : Bytes × Ben) : Option PeerFields :=
  if kv.1 = key "peer id" then ((benBytes kv.2).bind PeerId.ofBytes).map fun x => { s with id := some x }
  else if kv.1 = key "ip" then ((benText kv.2).bind parseIp).map fun x => { s with ip := some x }
  else if kv.1 = key "port" then (benUint 16 kv.2).map fun x => { s with port := some x }
  else some s

/-- src/peer/mod.rs:113-159 `FromBencode for Peer`. -/
def Peer.ofBen (parseIp : Text → Option IpAddr) (v : Ben) : Option Peer := do
  let kvs ← benDict v
  let s ← kvs.foldlM (PeerFields.readPair parseIp) {}
  let ip ← s.ip
  let port ← s.port
  some ⟨sockAddrNew ip port, s.id, false⟩

/-- src/tracker/http.rs:145-155: the list format (BEP 3) or the compact format (BEP 23). -/
def benPeers (parseIp : Text → Option IpAddr) : Ben → Option (List Peer)
  | .list l => l.mapM (Peer.ofBen parseIp)
  | v => ((benBytes v).bind fun b => (v4sFromCompact b).toOption).map fun l => l.map Peer.ofV4

/-- src/tracker/http.rs:164-168: compact IPv6 addresses (BEP 7). -/
def benPeers6 (v : Ben) : Option (List Peer) :=
  ((benBytes v).bind fun b => (v6sFromCompact b).toOption).map fun l => l.map Peer.ofV6

/-- src/tracker/http.rs:157-161: the loop over the peers and the flags. -/
def setCrypto : List Peer → List Bool → List Peer
  | p :: ps, f :: fs => (if f then { p with requiresCrypto := true } else p) :: setCrypto ps fs
  | ps, _ => ps

/-- The variables of src/tracker/http.rs:120-127. -/
structure HttpFields where
  interval : Option (BitVec 32) := none
  peers : List Peer := []
  warningMessage : Option Text := none
  minInterval : Option (BitVec 32) := none
  trackerId : Option Bytes := none
  complete : Option (BitVec 32) := none
  incomplete : Option (BitVec 32) := none
  cryptoFlags : Option (List Bool) := none

/-- src/tracker/http.rs:130-194, one turn of the loop, except for the key `failure reason`.  The `debug_assert!` on
`peers` is left out: keys increase, so `peers` cannot follow `peers6`. -/
def HttpFields.readPair (lossy : Bytes → Text) (parseIp : Text → Option IpAddr) (s : HttpFields) (kv : Bytes × Ben) :
    Option HttpFields :=
  if kv.1 = key "interval" then (benUint 32 kv.2).map fun x => { s with interval := some x }
  else if kv.1 = key "crypto_flags" then
    (benBytes kv.2).map fun b => { s with cryptoFlags := some (b.map fun x => x != 0) }
  else if kv.1 = key "peers" then
    (benPeers parseIp kv.2).map fun ps =>
      { s with peers := match s.cryptoFlags with
          | some flags => setCrypto (s.peers ++ ps) flags
          | none => s.peers ++ ps }
  else if kv.1 = key "peers6" then (benPeers6 kv.2).map fun ps => { s with peers := s.peers ++ ps }
  else if kv.1 = key "warning message" then (benBytes kv.2).map fun b => { s with warningMessage := some (lossy b) }
  else if kv.1 = key "min interval" then (benUint 32 kv.2).map fun x => { s with minInterval := some x }
  else if kv.1 = key "tracker id" then (benBytes kv.2).map fun b => { s with trackerId := some b }
  else if kv.1 = key "complete" then (benUint 32 kv.2).map fun x => { s with complete := some x }
  else if kv.1 = key "incomplete" then (benUint 32 kv.2).map fun x => { s with incomplete := some x }
  else some s

/-- src/tracker/http.rs:103-106 `HttpAnnounceResponse`. -/
inductive HttpAnnounceResponse where
  | success (r : AnnounceResponse)
  | failure (msg : Text)

/-- src/tracker/http.rs:129-212: the loop, left early at `failure reason`, and what follows it.  Simplified: if what comes after a `failure reason` is not
bencode, the program, which does not look at it in the loop, says that there is trailing data, while here the whole body is parsed first and found
malformed; either way the response cannot be parsed (`HttpTrackerError::ParseResponse`). -/
def httpLoop (lossy : Bytes → Text) (parseIp : Text → Option IpAddr) (s : HttpFields) :
    List (Bytes × Ben) → Option HttpAnnounceResponse
  | [] =>
    s.interval.map fun interval => .success
      { interval := interval, peers := s.peers, warningMessage := s.warningMessage, minInterval := s.minInterval,
        trackerId := s.trackerId, complete := s.complete, incomplete := s.incomplete, leechers := none, seeders := none }
  | (k, v) :: rest =>
    if k = key "failure reason" then (benBytes v).map fun b => .failure (lossy b)
    else (s.readPair lossy parseIp (k, v)).bind fun s => httpLoop lossy parseIp s rest

/-- src/tracker/http.rs:118-213 `FromBencode for HttpAnnounceResponse`. -/
def HttpAnnounceResponse.ofBen (lossy : Bytes → Text) (parseIp : Text → Option IpAddr) (v : Ben) :
    Option HttpAnnounceResponse :=
  (benDict v).bind (httpLoop lossy parseIp {})

/-- What reqwest makes of the request: src/tracker/http.rs:85-95. -/
inductive HttpOutcome where
  | sendError
  | statusError
  | bodyError
  | body (b : Bytes)

/-- src/tracker/http.rs:216-227 `HttpTrackerError` (without `BuildClient`) and `TrackerError::Failure`. -/
inductive HttpError where
  | sendRequest
  | httpStatus
  | readBody
  | parseResponse (e : UnbencodeError)
  | failure (msg : Text)

/-- src/tracker/http.rs:85-99: the result of the announcement; src/tracker/http.rs:109-114 `result`. -/
def httpResult (lossy : Bytes → Text) (parseIp : Text → Option IpAddr) : HttpOutcome → Except HttpError AnnounceResponse
  | .sendError => .error .sendRequest
  | .statusError => .error .httpStatus
  | .bodyError => .error .readBody
  | .body b =>
    match decodeBencode bendyDefaultDepth (HttpAnnounceResponse.ofBen lossy parseIp) b with
    | .error e => .error (.parseResponse e)
    | .ok (.success r) => .ok r
    | .ok (.failure m) => .error (.failure m)

end Demag
