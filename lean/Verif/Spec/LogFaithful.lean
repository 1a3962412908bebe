import Verif.Model.PeerSession
import Verif.Model.DhtMsg

/-!
# What the log has to tell of peers and of DHT nodes

Only the data types of the model are used.
-/

namespace Demag.Spec

/-- Bit `i` of a bit field, counted from the most significant bit of its first byte: the peer has piece `i`. -/
def HasPiece (bs : List UInt8) (i : Nat) : Prop :=
  match bs[i / 8]? with
  | some b => b.toNat / 2 ^ (7 - i % 8) % 2 = 1
  | none => False

instance (bs : List UInt8) (i : Nat) : Decidable (HasPiece bs i) := by unfold HasPiece; split <;> infer_instance

/-- The number of pieces a peer has by its bit field. -/
def piecesHad (bs : List UInt8) : Nat := ((List.range (8 * bs.length)).filter fun i => HasPiece bs i).length

/-- The messages differ at most in the bytes they carry (not in how many these are), in which pieces a peer has (not in how many), and in the
numbers given to extensions. -/
inductive SameMessage : Message → Message → Prop
  | refl (m) : SameMessage m m
  | bitfield {a b} : piecesHad a = piecesHad b → SameMessage (.core (.bitfield a)) (.core (.bitfield b))
  | piece {i b d d'} : d.length = d'.length → SameMessage (.core (.piece i b d)) (.core (.piece i b d'))
  | raw {i d d'} : SameMessage (.core (.extended i d)) (.core (.extended i d'))
  | handshake {s t : ExtendedHandshake} : s.m.map (List.map Prod.fst) = t.m.map (List.map Prod.fst) → s.e = t.e → s.v = t.v →
      s.metadataSize = t.metadataSize → s.yourip = t.yourip → SameMessage (.extended (.handshake s)) (.extended (.handshake t))
  | data {i n d d'} : d.length = d'.length → SameMessage (.extended (.metadata (.data i n d))) (.extended (.metadata (.data i n d')))

/-- The same happened in two conversations, as far as the log has to tell. -/
inductive SameEvent : Event → Event → Prop
  | sentHandshake {h h'} : SameEvent (.sentHandshake h) (.sentHandshake h')
  | gotHandshake {h h' : Handshake} : h.extensions = h'.extensions → h.peerId = h'.peerId → SameEvent (.gotHandshake h) (.gotHandshake h')
  | sent {m m'} : SameMessage m m' → SameEvent (.sent m) (.sent m')
  | received {m m'} : SameMessage m m' → SameEvent (.received m) (.received m')

/-- The same was in two datagrams of nodes, as far as the log has to tell: a list of peers and nodes (only their numbers), an error, or nothing
that makes sense. -/
inductive SameReply : Except ResponseError GetPeersResponse → Except ResponseError GetPeersResponse → Prop
  | found {r r' : GetPeersResponse} : r.values.length = r'.values.length →
      r.nodes.length + r.nodes6.length = r'.nodes.length + r'.nodes6.length → SameReply (.ok r) (.ok r')
  | error {e e' : ErrorResponse} : e.code = e'.code → e.message = e'.message → SameReply (.error (.rpc e)) (.error (.rpc e'))
  | invalid {e e' : ResponseError} : (∀ r, e ≠ .rpc r) → (∀ r, e' ≠ .rpc r) → SameReply (.error e) (.error e')

end Demag.Spec
