import Verif.Spec.Fields
import Verif.Spec.Compact
import Verif.Spec.TrackerUrl
import Verif.Model.Tracker
import Mathlib.Data.List.Forall2

/-!
# Specification: HTTP tracker requests and responses (BEP 3, 7, 23, "tracker peer obfuscation" flags)

Only the data types of the model and `utf8` are used.
-/

namespace Demag.Spec

/-! ### application/x-www-form-urlencoded, decoding -/

/-- The value of a hexadecimal digit. -/
def hexDigit (c : Char) : Option Nat :=
  if '0' ≤ c ∧ c ≤ '9' then some (c.toNat - 48)
  else if 'A' ≤ c ∧ c ≤ 'F' then some (c.toNat - 55)
  else if 'a' ≤ c ∧ c ≤ 'f' then some (c.toNat - 87)
  else none

/-- Decoding a name or value: `+` is a space, `%` and two hexadecimal digits are a byte, all else stands for itself. -/
def formBytes : List Char → List UInt8
  | [] => []
  | c :: r =>
    if c = '+' then 32 :: formBytes r
    else if c = '%' then
      match r with
      | a :: b :: r' =>
        match hexDigit a, hexDigit b with
        | some x, some y => UInt8.ofNat (16 * x + y) :: formBytes r'
        | _, _ => utf8 [c] ++ formBytes (a :: b :: r')
      | [a] => utf8 [c] ++ formBytes [a]
      | [] => utf8 [c]
    else utf8 [c] ++ formBytes r
termination_by t => t.length

/-- The parts of a text between the ampersands. -/
def segments : List Char → List (List Char)
  | [] => [[]]
  | c :: r =>
    if c = '&' then [] :: segments r
    else match segments r with
      | s :: ss => (c :: s) :: ss
      | [] => [[c]]

/-- A part, cut at the first equals sign. -/
def formPair (s : List Char) : List UInt8 × List UInt8 :=
  (formBytes (s.takeWhile (· ≠ '=')), formBytes ((s.dropWhile (· ≠ '=')).drop 1))

/-- The names and values in a query. -/
def formDecode (q : List Char) : List (List UInt8 × List UInt8) :=
  ((segments q).filter (· ≠ [])).map formPair

/-- The URL standard, application/x-www-form-urlencoded percent-encode set: a byte as it is written in a query. -/
def formByte (b : UInt8) : List Char :=
  if b.toNat ∈ "*-._0123456789ABCDEFGHIJKLMNOPQRSTUVWXYZabcdefghijklmnopqrstuvwxyz".toList.map Char.toNat then [Char.ofNat b.toNat]
  else if b.toNat = ' '.toNat then ['+']
  else '%' :: [b.toNat / 16, b.toNat % 16].map fun d => "0123456789ABCDEF".toList.getD d '?'

/-! ### The announcement -/

/-- The event parameter. -/
def eventParam : AnnounceEvent → List (List UInt8 × List UInt8)
  | .announce => []
  | .completed => [(keyBytes "event", keyBytes "completed")]
  | .started => [(keyBytes "event", keyBytes "started")]
  | .stopped => [(keyBytes "event", keyBytes "stopped")]

/-- The parameter announcing encryption. -/
def cryptoParam : TrackerCrypto → List (List UInt8 × List UInt8)
  | .required => [(keyBytes "requirecrypto", keyBytes "1")]
  | .supported => [(keyBytes "supportcrypto", keyBytes "1")]
  | .plain => []

/-- The parameters of an announcement. -/
def IsAnnounceParams (a : Announcement) (ps : List (List UInt8 × List UInt8)) : Prop :=
  ∃ port up down left want key,
    IsDecimal a.port.toNat port ∧ IsDecimal a.uploaded.toNat up ∧ IsDecimal a.downloaded.toNat down ∧
    IsDecimal a.left.toNat left ∧ IsDecimal a.numwant.toNat want ∧ IsDecimal a.key.toNat key ∧
    ps = eventParam a.event ++ [(keyBytes "info_hash", a.infoHash.bytes), (keyBytes "peer_id", a.peerId.bytes)] ++
      cryptoParam a.crypto ++
      [(keyBytes "port", utf8 port), (keyBytes "uploaded", utf8 up), (keyBytes "downloaded", utf8 down),
       (keyBytes "left", utf8 left), (keyBytes "numwant", utf8 want), (keyBytes "key", utf8 key),
       (keyBytes "compact", keyBytes "1")]

/-! ### The response -/

/-- A peer in the list format: a dictionary with an address, a port and possibly a peer id. -/
def IsPeerDict (parseIp : List Char → Option IpAddr) (v : Ben) (p : Peer) : Prop :=
  ∃ kvs ip port, v = .dict kvs ∧
    ReqField "ip" kvs (fun v x => ∃ t, v = .bytes (utf8 t) ∧ parseIp t = some x) ip ∧
    ReqField "port" kvs (IsUint 16) port ∧
    OptField "peer id" kvs (fun v (x : PeerId) => v = .bytes x.bytes) p.id ∧
    p.address = (match ip with | .v4 a => .v4 ⟨a, port⟩ | .v6 a => .v6 ⟨a, port⟩) ∧
    p.requiresCrypto = false

/-- A plain peer with this address. -/
def IsPlainPeer (a : SockAddr) (p : Peer) : Prop := p.address = a ∧ p.id = none ∧ p.requiresCrypto = false

/-- The peers of the field `peers`: a list of dictionaries, or compact IPv4 addresses. -/
def IsPeers (parseIp : List Char → Option IpAddr) (v : Ben) (ps : List Peer) : Prop :=
  (∃ l, v = .list l ∧ List.Forall₂ (IsPeerDict parseIp) l ps) ∨
  (∃ b as, v = .bytes b ∧ IsConcat IsCompact4 as b ∧ List.Forall₂ (fun a p => IsPlainPeer (.v4 a) p) as ps)

/-- The peers of the field `peers6`: compact IPv6 addresses. -/
def IsPeers6 (v : Ben) (ps : List Peer) : Prop :=
  ∃ b as, v = .bytes b ∧ IsConcat IsCompact6 as b ∧ List.Forall₂ (fun a p => IsPlainPeer (.v6 a) p) as ps

/-- `q` is the peer `p` annotated with the flag at its position: encryption is required iff there is a flag and it is
not 0. -/
def Annotated (flags : List UInt8) (i : Nat) (p q : Peer) : Prop :=
  q.address = p.address ∧ q.id = p.id ∧ (q.requiresCrypto = true ↔ ∃ f, flags[i]? = some f ∧ f ≠ 0)

/-- The dictionary denotes a successful response. -/
structure DenotesResponse (lossy : List UInt8 → List Char) (parseIp : List Char → Option IpAddr)
    (kvs : List (List UInt8 × Ben)) (r : AnnounceResponse) : Prop where
  noFailure : lookup (keyBytes "failure reason") kvs = none
  interval : ReqField "interval" kvs (IsUint 32) r.interval
  peers : ∃ flags ps ps6,
    OptField "crypto_flags" kvs IsBytes flags ∧
    OptField "peers" kvs (IsPeers parseIp) ps ∧
    OptField "peers6" kvs IsPeers6 ps6 ∧
    ∃ qs, r.peers = qs ++ ps6.getD [] ∧ qs.length = (ps.getD []).length ∧
      ∀ i p q, (ps.getD [])[i]? = some p → qs[i]? = some q → Annotated (flags.getD []) i p q
  warningMessage : OptField "warning message" kvs (fun v t => ∃ b, v = .bytes b ∧ t = lossy b) r.warningMessage
  minInterval : OptField "min interval" kvs (IsUint 32) r.minInterval
  trackerId : OptField "tracker id" kvs IsBytes r.trackerId
  complete : OptField "complete" kvs (IsUint 32) r.complete
  incomplete : OptField "incomplete" kvs (IsUint 32) r.incomplete
  others : r.leechers = none ∧ r.seeders = none

/-- The dictionary denotes a failure.  The two keys the code knows that come before `failure reason` must have the right
type; nothing is said about the ones after it. -/
structure DenotesFailure (lossy : List UInt8 → List Char) (kvs : List (List UInt8 × Ben)) (msg : List Char) : Prop where
  reason : ReqField "failure reason" kvs (fun v t => ∃ b, v = .bytes b ∧ t = lossy b) msg
  complete : ∃ n, OptField "complete" kvs (IsUint 32) n
  cryptoFlags : ∃ f, OptField "crypto_flags" kvs IsBytes f

end Demag.Spec
