import Verif.Spec.Session
import Verif.Model.PeerLog

/-!
# Specification: what the log says of fetching metadata from a peer

Only the data types of the model are used: lines of the log, events of a conversation, and the network.
-/

namespace Demag.Spec

/-- What the log says of one event of the conversation with the peer `p`.  (The refusal of a request of the peer is announced by a line of
its own.) -/
def eventLines (p : Peer) : Event → List LogLine
  | .sentHandshake _ => [.peerStep 3 p]
  | .gotHandshake h => [.gotHandshake p h]
  | .sent (.extended (.metadata (.reject i))) => [.rejecting i p, .sending p (reject i)]
  | .sent m => [.sending p m]
  | .received m => [.received p m]

/-- What the log says of a conversation. -/
def narrate (p : Peer) (es : List Event) : List LogLine := es.flatMap (eventLines p)

/-- The same network, except that send number `k` works. -/
def granted (l : Link) (k : Nat) : Link := { l with sends := fun n => if n = k then .ok else l.sends n }

/-- The event that comes next in the conversation `longer`, `shorter` being its beginning. -/
def nextEvent (shorter longer : List Event) : List Event := (longer.drop shorter.length).take 1

/-- What the log says of an encryption handshake that succeeds. -/
def secureLines (p : Peer) : List LogLine :=
  [.sendingPacket 1 p, .peerStep 5 p, .sendingPacket 3 p, .selected p .rc4, .peerStep 4 p]

/-- The line that the metadata has been received, if it has. -/
def gotLines (m : Magnet) (p : Peer) : Res PeerError TorrentInfo → List LogLine
  | .ok _ => [.gotMetadata m p]
  | _ => []

/-- Events that are sends. -/
def IsSend : Event → Prop
  | .sentHandshake _ => True
  | .sent _ => True
  | _ => False

/-- Reasons to reject packet 4. -/
def IsRejection : MseError → Prop
  | .vcNotZero => True
  | .selectNotSingle _ => True
  | .unknownMethod _ => True
  | .unexpectedSelection _ => True
  | _ => False

/-- What `log` says of an encryption handshake that has sent `packets` and has come to `outcome`: the lines of a handshake that succeeds, as
far as it went.  Packets are announced before they are sent; the time for packet 2 is over when this is said; then packet 2 may be of
a wrong length (line 2 is the last); packet 4 may be rejected before a method is selected (line 3 is the last). -/
def SecureTold (p : Peer) (packets : List (List UInt8)) (outcome : HandshakeOutcome) (log : List LogLine) : Prop :=
  ∃ k, 1 ≤ k ∧ k ≤ 5 ∧ log = (secureLines p).take k ∧
    (k = 5 ↔ ∃ s, outcome = .ok s) ∧
    (k = 2 ↔ ∃ n, outcome = .err (.packet2Len n)) ∧
    (∀ e, outcome = .err e → IsRejection e → k = 3) ∧
    (outcome = .err .send → k = 2 * packets.length + 1 ∧ packets.length < 2) ∧
    (outcome ≠ .err .send → packets.length = if k ≤ 2 then 1 else 2)

/-- What the log says before the conversation over the network `w` begins: the attempt to connect; if it succeeds, that it did; and, where the
connection is to be encrypted, the encryption handshake.  (Where the program panics when it computes the time for packet 2, packet 1 has
been announced.) -/
def Opening (H : List UInt8 → List UInt8) (p : Peer) (c : Chances) (w : RawLink) (skey : InfoHash) (encrypt : Bool) (log : List LogLine) : Prop :=
  if w.connect = .ok then
    ∃ rest, log = .peerStep 0 p :: .peerStep 1 p :: rest ∧ (encrypt = false → rest = []) ∧
      (encrypt = true → ∃ s, rest = .peerStep 2 p :: s ∧
        if w.overflows c then s = [.sendingPacket 1 p] else SecureTold p (w.secure H c skey).1 (w.secure H c skey).2.1 s)
  else log = [.peerStep 0 p]

/-- What the attempt to fetch metadata over the network `l` would do next, had the first send that did not work worked. -/
def wouldDo (sha1 : List UInt8 → List UInt8) (l : Link) (ctx : PeerCtx) (encrypt : Bool) : List Event :=
  nextEvent (visitChan sha1 l ctx encrypt).trace (visitChan sha1 (granted l (visitChan sha1 l ctx encrypt).nsent) ctx encrypt).trace

/-- What the log says of a whole run: the torrent and the peer first; then, for every attempt, how the connection was made, and what was said;
between two attempts the reason why the first, encrypted, failed; and at the end that the metadata has been received, if it has. -/
def RunTold (sha1 H : List UInt8 → List UInt8) (m : Magnet) (p : Peer) (chances : Nat → Chances) (raws : Nat → RawLink) (ctx : PeerCtx)
    (run : List Attempt × Res PeerError TorrentInfo) (log : List LogLine) : Prop :=
  match run with
  | ([], r) => r = .err .cantRequireCrypto ∧ log = [.requestingInfo m p]
  | ([a], r) => ∃ o, Opening H p (chances 0) (raws 0) ctx.infoHash a.encrypt o ∧
      log = .requestingInfo m p :: o ++
        narrate p (a.trace ++ wouldDo sha1 ((raws 0).link H (chances 0) ctx.infoHash a.encrypt) ctx a.encrypt) ++ gotLines m p r
  | ([a, b], r) => ∃ o1 e o2, a.encrypt = true ∧ a.trace = [] ∧ b.encrypt = false ∧
      ((raws 0).secure H (chances 0) ctx.infoHash).2.1 = .err e ∧
      Opening H p (chances 0) (raws 0) ctx.infoHash true o1 ∧ Opening H p (chances 1) (raws 1) ctx.infoHash false o2 ∧
      log = .requestingInfo m p :: o1 ++ .encryptionFailed p e :: o2 ++
        narrate p (b.trace ++ wouldDo sha1 ((raws 1).link H (chances 1) ctx.infoHash false) ctx false) ++ gotLines m p r
  | _ => False

/-- The message a line says has been received. -/
def saidReceived : LogLine → Option Message
  | .received _ m => some m
  | _ => none

/-- The message a line says is being sent. -/
def saidSending : LogLine → Option Message
  | .sending _ m => some m
  | _ => none

/-- The message of an event. -/
def wasReceived : Event → Option Message
  | .received m => some m
  | _ => none

/-- The message of an event. -/
def wasSent : Event → Option Message
  | .sent m => some m
  | _ => none

end Demag.Spec
