import Verif.Model.Mse
import Verif.Model.PeerSession

/-!
# Model: a connection to a peer down to the bytes of the network

`Model/PeerSession.lean` begins with bytes that are already decrypted.  Here the `Link` it uses is computed from what the network does:
`EncryptedStream::handshake` runs on the reads of the connection, and the stream it leaves decrypts the rest.
-/

namespace Demag

/-- The network under one connection: what arrives, in order (a `timeout` is the moment at which the time for packet 2 is over; it
means nothing after the handshake), and the outcome of every write, those of the encryption handshake included. -/
structure RawLink where
  connect : IoOutcome
  reads : List HandshakeRead
  sends : Nat → IoOutcome

/-- What the random number generator delivers for one handshake (src/peer/msepe.rs:98-117), and how much room the program offers to
each read of the connection; the moment at which packet 1 has been sent, and the time allowed for packet 2 (src/config.rs:108
`dh_exchange_timeout`), in seconds. -/
structure Chances where
  privateKey : Nat
  padA : Bytes
  padcLen : BitVec 16
  rooms : Nat → Nat
  now : Nat
  dhTimeout : Nat

/-- `Instant + Duration` (std on Linux, where the seconds are an `i64`; tokio's `Instant` wraps it): `none` is the panic "overflow when adding
duration to instant".  The fraction of a second is left out. -/
def momentAfter (now secs : Nat) : Option Nat := if now + secs < 2 ^ 63 then some (now + secs) else none

/-- src/peer/msepe.rs:436-438: the panic when the end of the time for packet 2 is computed, packet 1 having been sent. -/
def RawLink.overflows (c : Chances) (w : RawLink) : Bool := decide (w.sends 0 = .ok) && (momentAfter c.now c.dhTimeout).isNone

/-- The outcome of a write, as that of the handshake. -/
def SecureOutcome.ofIo : IoOutcome → SecureOutcome
  | .ok => .ok
  | .fail => .fail
  | .hang => .hang

/-- The data that arrives and what follows it.  A read of no bytes is the end (`AsyncRead`). -/
def restOf : List HandshakeRead → List Bytes × Ending
  | [] => ([], .stall)
  | .eof :: _ => ([], .eof)
  | .failed :: _ => ([], .ioError)
  | .timeout :: rest => restOf rest
  | .data [] :: _ => ([], .eof)
  | .data (b :: bs) :: rest => ((b :: bs) :: (restOf rest).1, (restOf rest).2)

/-- Reading a connection as long as it delivers data (src/peer/mod.rs:248 `read_exact`, and the reads of `Framed`): the pieces
delivered.  The first argument bounds the number of reads, the second numbers them.  The network delivers as much of a piece as there
is room for and keeps the rest. -/
def EncryptedStream.drain (rooms : Nat → Nat) : Nat → Nat → EncryptedStream → List Bytes → List Bytes
  | 0, _, _, _ => []
  | fuel + 1, k, s, net =>
    if s.readBuffer ≠ [] then
      match s.read (rooms k) none with
      | none => []
      | some r => r.2.1 :: drain rooms fuel (k + 1) r.2.2 net
    else
      match net with
      | [] => []
      | b :: bs =>
        match s.read (rooms k) (some (b.take (rooms k))) with
        | none => []
        | some r => r.2.1 :: drain rooms fuel (k + 1) r.2.2 (if b.length ≤ rooms k then bs else b.drop (rooms k) :: bs)

/-- src/peer/mod.rs:219-235: the encryption handshake on a connection: packets sent, outcome, reads not used.  (src/peer/msepe.rs:417-467;
packet 1 is the first, packet 3 the second write; without `overflows`.) -/
def RawLink.secure (H : Bytes → Bytes) (c : Chances) (w : RawLink) (skey : InfoHash) :
    List Bytes × HandshakeOutcome × List HandshakeRead :=
  handshakeLoop H (fun n => w.sends (n / 2) = .ok) 1 false (Handshaker.build skey c.privateKey c.padA c.padcLen) w.reads

/-- src/peer/mod.rs:219-238: the connection as the program sees it, encrypted or not. -/
def RawLink.link (H : Bytes → Bytes) (c : Chances) (w : RawLink) (skey : InfoHash) (encrypt : Bool) : Link :=
  if encrypt then
    if w.overflows c then { connect := w.connect, crypto := .overflow, incoming := [], ending := .stall, sends := w.sends }
    else
    match w.secure H c skey with
    | (packets, .ok s, rest) =>
      { connect := w.connect, crypto := .ok
        incoming := (s.drain c.rooms (s.readBuffer.length + (restOf rest).1.flatten.length) 0 (restOf rest).1).flatten
        ending := (restOf rest).2, sends := fun n => w.sends (packets.length + n) }
    | (packets, .err .send, _) =>
      { connect := w.connect, crypto := .ofIo (w.sends packets.length), incoming := [], ending := .stall, sends := w.sends }
    | (_, .err _, _) => { connect := w.connect, crypto := .fail, incoming := [], ending := .stall, sends := w.sends }
    | (_, .waiting, _) => { connect := w.connect, crypto := .hang, incoming := [], ending := .stall, sends := w.sends }
  else
    { connect := w.connect, crypto := .ok, incoming := (restOf w.reads).1.flatten, ending := (restOf w.reads).2, sends := w.sends }

/-- src/peer/mod.rs:189-212 `InfoGetter::run` on the network: only the first attempt may be encrypted. -/
def wireRun (sha1 H : Bytes → Bytes) (chances : Nat → Chances) (raws : Nat → RawLink) (ctx : PeerCtx) (override : Option CryptoMode)
    (pref : CryptoPreference) (requiresCrypto : Bool) : List Attempt × Res PeerError TorrentInfo :=
  infoGetterRun sha1
    (fun i => (raws i).link H (chances i) ctx.infoHash (i == 0 && getCryptoMode override pref requiresCrypto != some .plain))
    ctx override pref requiresCrypto

/-- All that one attempt of `InfoGetter::run` sends (src/peer/mod.rs:189-299): the channel after the conversation. -/
def visitChan (sha1 : Bytes → Bytes) (l : Link) (ctx : PeerCtx) (encrypt : Bool) : Chan :=
  match connect l ctx encrypt with
  | (c, .ok size) => (getMetadataInfo sha1 l ctx.infoHash size c).1
  | (c, _) => c

/-- The bytes one attempt puts on the network: the packets of the encryption handshake, then the conversation through the keystream
the handshake left (src/peer/msepe.rs:494-518; how the bytes are divided into writes is immaterial, `sent_is_written`). -/
def wireBytes (sha1 H : Bytes → Bytes) (c : Chances) (w : RawLink) (ctx : PeerCtx) (encrypt : Bool) : Bytes :=
  let out := (visitChan sha1 (w.link H c ctx.infoHash encrypt) ctx encrypt).out
  if w.connect ≠ .ok then []
  else if encrypt then
    if w.overflows c then (Handshaker.build ctx.infoHash c.privateKey c.padA c.padcLen).output.toList.flatten
    else
    match w.secure H c ctx.infoHash with
    | (packets, .ok s, _) => packets.flatten ++ (s.keystream.encode out).1
    | (packets, _, _) => packets.flatten
  else out

end Demag
