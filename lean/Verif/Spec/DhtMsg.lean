import Verif.Spec.Fields
import Verif.Spec.Compact
import Verif.Model.DhtMsg
import Mathlib.Data.List.Forall2

/-!
# Specification: DHT messages (BEP 5, 32, 43)
-/

namespace Demag.Spec

/-- The optional field `k` that holds a list: absent and the list is empty, or present with a value that denotes the list. -/
def ListField {α : Type} (k : String) (kvs : List (List UInt8 × Ben)) (P : Ben → List α → Prop) (l : List α) : Prop :=
  match lookup (keyBytes k) kvs with
  | none => l = []
  | some v => P v l

/-- A compact socket address. -/
def IsAddr (v : Ben) (a : SockAddr) : Prop := ∃ b, v = .bytes b ∧ IsCompact a b

/-- Peers of a response: a list of compact addresses.  Nothing else is known about these peers. -/
def IsValues (v : Ben) (ps : List Peer) : Prop :=
  ∃ l, v = .list l ∧ List.Forall₂ (fun i p => IsAddr i p.address ∧ p.id = none ∧ p.requiresCrypto = false) l ps

/-- The dictionary denotes the response. -/
structure DenotesPeers (kvs : List (List UInt8 × Ben)) (x : GetPeersResponse) : Prop where
  y : ReqField "y" kvs IsBytes (keyBytes "r")
  t : ReqField "t" kvs IsBytes x.transactionId
  v : OptField "v" kvs IsBytes x.client
  ip : OptField "ip" kvs IsAddr x.yourAddr
  r : ∃ rkvs, lookup (keyBytes "r") kvs = some (.dict rkvs) ∧
    ReqField "id" rkvs (fun v (i : NodeId) => v = .bytes i.bytes) x.nodeId ∧
    ListField "values" rkvs IsValues x.values ∧
    ListField "nodes" rkvs (fun v l => ∃ b, v = .bytes b ∧ IsConcat IsCompactNode4 l b) x.nodes ∧
    ListField "nodes6" rkvs (fun v l => ∃ b, v = .bytes b ∧ IsConcat IsCompactNode6 l b) x.nodes6 ∧
    OptField "token" rkvs IsBytes x.token

/-- Error codes. -/
def IsErrorCode (n : Nat) : ErrorCode → Prop
  | .generic => n = 201
  | .server => n = 202
  | .protocol => n = 203
  | .methodUnknown => n = 204
  | .other m => n = m.toNat ∧ n ∉ [201, 202, 203, 204]

/-- The dictionary denotes the error. -/
structure DenotesError (lossy : List UInt8 → List Char) (kvs : List (List UInt8 × Ben)) (x : ErrorResponse) : Prop where
  y : ReqField "y" kvs IsBytes (keyBytes "e")
  t : ReqField "t" kvs IsBytes x.transactionId
  v : OptField "v" kvs IsBytes x.client
  ip : OptField "ip" kvs IsAddr x.yourAddr
  e : ∃ (n : Nat) (m : List UInt8) (more : List Ben), lookup (keyBytes "e") kvs = some (.list (.int n :: .bytes m :: more)) ∧
    n < 2 ^ 32 ∧ IsErrorCode n x.code ∧ x.message = lossy m

/-- The values of the field `y`. -/
def typeText : MessageType → String
  | .query => "q"
  | .response => "r"
  | .error => "e"

/-- The values of `want`. -/
def wantText : Want → String
  | .n4 => "n4"
  | .n6 => "n6"

/-- A `get_peers` query as a bencode value. -/
def queryValue (q : GetPeersQuery) : Ben :=
  .dict (
    [(keyBytes "a", .dict (
        [(keyBytes "id", .bytes q.nodeId.bytes), (keyBytes "info_hash", .bytes q.infoHash.bytes)] ++
        (q.want.map fun ws => (keyBytes "want", Ben.list (ws.map fun w => .bytes (keyBytes (wantText w))))).toList)),
     (keyBytes "q", .bytes (keyBytes "get_peers"))] ++
    (q.readOnly.map fun ro => (keyBytes "ro", Ben.int (if ro then 1 else 0))).toList ++
    [(keyBytes "t", .bytes q.transactionId)] ++
    (q.client.map fun c => (keyBytes "v", Ben.bytes c)).toList ++
    [(keyBytes "y", .bytes (keyBytes "q"))])

end Demag.Spec
