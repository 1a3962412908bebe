import Verif.Spec.Torrent
import Verif.Model.PeerSession

/-!
# Specification: the conversation with a peer (BEP 3, 9, 10)

Only data types of the model are used.  A conversation is a list of events.
-/

namespace Demag.Spec

/-- `ut_metadata` request, reject and data messages. -/
def request (p : BitVec 32) : Message := .extended (.metadata (.request p))
def reject (p : BitVec 32) : Message := .extended (.metadata (.reject p))
def data (p total : BitVec 32) (payload : List UInt8) : Message := .extended (.metadata (.data p total payload))

/-- The index of a piece as sent. -/
def idx (i : Nat) : BitVec 32 := BitVec.ofNat 32 i

/-- Messages that are ignored: those about the state of the torrent, which does not concern us, further extended
handshakes, and metadata messages of unknown type. -/
inductive Ignorable : Message → Prop
  | keepalive : Ignorable (.core .keepalive)
  | choke : Ignorable (.core .choke)
  | unchoke : Ignorable (.core .unchoke)
  | interested : Ignorable (.core .interested)
  | notInterested : Ignorable (.core .notInterested)
  | have' (p) : Ignorable (.core (.have' p))
  | bitfield (b) : Ignorable (.core (.bitfield b))
  | piece (i b d) : Ignorable (.core (.piece i b d))
  | haveAll : Ignorable (.core .haveAll)
  | haveNone : Ignorable (.core .haveNone)
  | allowedFast (i) : Ignorable (.core (.allowedFast i))
  | suggest (i) : Ignorable (.core (.suggest i))
  | handshake (s) : Ignorable (.extended (.handshake s))
  | unknown (t) : Ignorable (.extended (.metadata (.unknown t)))

/-- Messages about metadata that are not ignored. -/
inductive IsMetadata : Message → Prop
  | request (p) : IsMetadata (request p)
  | reject (p) : IsMetadata (reject p)
  | data (p t d) : IsMetadata (data p t d)

/-- The messages received and sent in a conversation. -/
def receivedOf : List Event → List Message
  | [] => []
  | .received m :: es => m :: receivedOf es
  | _ :: es => receivedOf es
def sentOf : List Event → List Message
  | [] => []
  | .sent m :: es => m :: sentOf es
  | _ :: es => sentOf es

/-- `Talk n ps s es`: the conversation `es` about metadata of `n` bytes has gone well so far and the pieces `ps` have
been accepted.  If `s` is `some m` we are about to send `m`, otherwise we have asked for piece `ps.length` and wait
for it. -/
inductive Talk (n : Nat) : List (List UInt8) → Option Message → List Event → Prop
  | start : 0 < n → Talk n [] (some (request (idx 0))) []
  | sent {ps m es} : Talk n ps (some m) es → Talk n ps none (es ++ [.sent m])
  | ignore {ps m es} : Talk n ps none es → Ignorable m → Talk n ps none (es ++ [.received m])
  | refuse {ps p es} : Talk n ps none es → Talk n ps (some (reject p)) (es ++ [.received (request p)])
  | accept {ps p es} : Talk n ps none es → p.length = pieceSize n ps.length → ps.length + 1 < pieceCount n →
      Talk n (ps ++ [p]) (some (request (idx (ps.length + 1)))) (es ++ [.received (data (idx ps.length) (idx n) p)])

/-- The verdict on complete metadata `d`: it must have the requested digest and be one dictionary (`good`). -/
inductive Verdict (sha1 : List UInt8 → List UInt8) (good : List UInt8 → Prop) (ih : InfoHash) (d : List UInt8) :
    Res PeerError TorrentInfo → Prop
  | ok : sha1 d = ih.bytes → good d → Verdict sha1 good ih d (.ok ⟨ih, d⟩)
  | digest : sha1 d ≠ ih.bytes → Verdict sha1 good ih d (.err (.infoBuild (.digest ih (sha1 d))))
  | bad {e} : sha1 d = ih.bytes → ¬ good d → Verdict sha1 good ih d (.err (.infoBuild (.bencode e)))

/-- How a conversation may end.  `rest` are the frames not received as messages, `stop` is what follows the frames,
`readable` says which frames are messages, `next` is the outcome of the next send. -/
inductive Ends (sha1 : List UInt8 → List UInt8) (good : List UInt8 → Prop) (ih : InfoHash) (n : Nat)
    (rest : List (List UInt8)) (stop : Stop) (garbage : List UInt8 → MessageError → Prop) (next : IoOutcome) :
    List Event → Res PeerError TorrentInfo → Prop
  /-- There is nothing to ask for. -/
  | empty {r} : n = 0 → Verdict sha1 good ih [] r → Ends sha1 good ih n rest stop garbage next [] r
  /-- The last piece arrives. -/
  | complete {ps p es r} : Talk n ps none es → p.length = pieceSize n ps.length → ps.length + 1 = pieceCount n →
      Verdict sha1 good ih (ps.flatten ++ p) r →
      Ends sha1 good ih n rest stop garbage next (es ++ [.received (data (idx ps.length) (idx n) p)]) r
  /-- The peer sends nothing more. -/
  | silent {ps es} : Talk n ps none es → rest = [] → stop = .pending →
      Ends sha1 good ih n rest stop garbage next es .hang
  | closed {ps es} : Talk n ps none es → rest = [] → stop = .disconnect →
      Ends sha1 good ih n rest stop garbage next es (.err .disconnect)
  | broken {ps es} : Talk n ps none es → rest = [] → stop ≠ .pending → stop ≠ .disconnect →
      Ends sha1 good ih n rest stop garbage next es (.err (.recv stop))
  /-- The peer sends a frame that is not a message. -/
  | garbled {ps es f fs e} : Talk n ps none es → rest = f :: fs → garbage f e →
      Ends sha1 good ih n rest stop garbage next es (.err (.message e))
  /-- The peer changes its mind about the size of the metadata. -/
  | size {ps es i t p} : Talk n ps none es → t ≠ idx n →
      Ends sha1 good ih n rest stop garbage next (es ++ [.received (data i t p)]) (.err (.sizeMismatch (idx n) t))
  /-- The peer sends another piece. -/
  | piece {ps es i p} : Talk n ps none es → i ≠ idx ps.length →
      Ends sha1 good ih n rest stop garbage next (es ++ [.received (data i (idx n) p)]) (.err (.wrongPiece (idx ps.length) i))
  /-- The piece has the wrong length. -/
  | length {ps es p} : Talk n ps none es → p.length ≠ pieceSize n ps.length →
      Ends sha1 good ih n rest stop garbage next (es ++ [.received (data (idx ps.length) (idx n) p)])
        (.err (.infoPush (.length ps.length (pieceSize n ps.length) p.length)))
  /-- The peer refuses. -/
  | rejected {ps es} : Talk n ps none es →
      Ends sha1 good ih n rest stop garbage next (es ++ [.received (reject (idx ps.length))])
        (.err (.infoRequestRejected (idx ps.length)))
  | rejectedOther {ps es i} : Talk n ps none es → i ≠ idx ps.length →
      Ends sha1 good ih n rest stop garbage next (es ++ [.received (reject i)]) (.err (.wrongPiece (idx ps.length) i))
  /-- The peer sends a message that has no place here. -/
  | unexpected {ps es m} : Talk n ps none es → ¬ Ignorable m → ¬ IsMetadata m →
      Ends sha1 good ih n rest stop garbage next (es ++ [.received m]) (.err (.unexpected m))
  /-- Sending fails or never completes. -/
  | unsent {ps m es} : Talk n ps (some m) es → next = .fail → Ends sha1 good ih n rest stop garbage next es (.err .send)
  | stuck {ps m es} : Talk n ps (some m) es → next = .hang → Ends sha1 good ih n rest stop garbage next es .hang

/-- The pieces requested, and the pieces received, in a conversation. -/
def requestsSent : List Event → List (BitVec 32)
  | [] => []
  | .sent (.extended (.metadata (.request p))) :: es => p :: requestsSent es
  | _ :: es => requestsSent es
def dataReceived : List Event → List (BitVec 32 × BitVec 32 × List UInt8)
  | [] => []
  | .received (.extended (.metadata (.data p t d))) :: es => (p, t, d) :: dataReceived es
  | _ :: es => dataReceived es

/-- The pieces `ps` as they are to be sent: numbered, with the total size. -/
def numbered (n : Nat) (ps : List (List UInt8)) : List (BitVec 32 × BitVec 32 × List UInt8) :=
  ps.mapIdx fun i p => (idx i, idx n, p)

/-- `Serves n i ps ms`: the messages `ms` deliver the pieces `ps` of metadata of `n` bytes, from piece `i` on to the last
one, in order, among other messages a peer may send. -/
inductive Serves (n : Nat) : Nat → List (List UInt8) → List Message → Prop
  | done {ms} : Serves n (pieceCount n) [] ms
  | piece {i p ps ms} : i < pieceCount n → p.length = pieceSize n i → Serves n (i + 1) ps ms →
      Serves n i (p :: ps) (data (idx i) (idx n) p :: ms)
  | ignorable {i ps m ms} : i < pieceCount n → Ignorable m → Serves n i ps ms → Serves n i ps (m :: ms)
  | request {i ps p ms} : i < pieceCount n → Serves n i ps ms → Serves n i ps (request p :: ms)

end Demag.Spec
