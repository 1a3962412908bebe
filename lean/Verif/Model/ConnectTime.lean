import Verif.Model.SecureLink
import Verif.Model.Settings

/-!
# Model: connecting to a peer, by the clock

In `Model/SecureLink.lean` the moment at which the time for packet 2 is over is one of the things that happen.  Here it is computed: what arrives
carries the moment at which it arrives, and both deadlines, that of the key exchange and that of the whole attempt, are moments.  All moments are
in milliseconds since the attempt began.  The program itself takes no time.
-/

namespace Demag

/-- src/peer/msepe.rs:439-450, src/peer/mod.rs:248: what a read of the connection delivers. -/
inductive Arrival where
  | data (b : Bytes)
  | eof
  | failed
  deriving DecidableEq

/-- The same, as the handshake sees it (`Model/Mse.lean`). -/
def Arrival.read : Arrival → HandshakeRead
  | .data b => .data b
  | .eof => .eof
  | .failed => .failed

/-- The network during one attempt to connect: how and when the TCP connection is made, when the first packet of the encryption handshake has been
sent, what arrives and when, and the outcome of every write (`hang`: not finished before the attempt is over). -/
structure TimedNet where
  connect : IoOutcome
  connectedAt : Nat
  sentAt : Nat
  arrivals : List (Nat × Arrival)
  sends : Nat → IoOutcome

/-- What arrives up to the moment `t`. -/
def TimedNet.upTo (w : TimedNet) (t : Nat) : List (Nat × Arrival) := w.arrivals.takeWhile (fun a => a.1 ≤ t)

/-- src/peer/msepe.rs:436-444, 451-458: the reads of the connection that take place before the attempt ends at `e`, with `d` milliseconds for
the key exchange.  `timeout_at` looks at the connection before it looks at the clock (tokio), so what arrives at the deadline itself still counts; and the
`timeout` around the attempt lets the attempt go on first, if both deadlines are the same. -/
def TimedNet.reads (w : TimedNet) (d e : Nat) : List HandshakeRead :=
  if w.sentAt + d ≤ e then
    (w.upTo (w.sentAt + d)).map (fun a => a.2.read) ++
      .timeout :: (((w.arrivals.drop (w.upTo (w.sentAt + d)).length).takeWhile (fun a => a.1 ≤ e)).map (fun a => a.2.read))
  else (w.upTo e).map (fun a => a.2.read)

/-- The network as it is when the attempt ends at `e`: what has not happened by then does not happen.  (src/peer/mod.rs:189-206.) -/
def TimedNet.raw (w : TimedNet) (d e : Nat) : RawLink :=
  { connect := if w.connectedAt ≤ e then w.connect else .hang
    reads := w.reads d e
    sends := fun n => if n = 0 ∧ e < w.sentAt then .hang else w.sends n }

/-- src/peer/mod.rs:189-211: how the part of `run` ends that makes the connection. -/
inductive PhaseEnd where
  | connected (encrypted : Bool)
  | failed (e : PeerError)
  | panic

/-- src/peer/mod.rs:207-211: the end of an attempt. -/
def PhaseEnd.of (encrypted : Bool) : Res PeerError (Option (BitVec 32)) → PhaseEnd
  | .ok _ => .connected encrypted
  | .err e => .failed e
  | .hang => .failed .connectTimeout
  | .panic => .panic

/-- src/peer/mod.rs:193-205 `timeout(handshake_timeout, self.connect(encrypt))`, with the timeouts of the configuration
(src/config.rs:104-108, in seconds). -/
def timedConnect (H : Bytes → Bytes) (cfg : PeersConfig) (c : Chances) (w : TimedNet) (ctx : PeerCtx) (encrypt : Bool) :
    Res PeerError (Option (BitVec 32)) :=
  (connect ((w.raw (1000 * cfg.dhExchangeTimeout) (1000 * cfg.handshakeTimeout)).link H { c with dhTimeout := cfg.dhExchangeTimeout }
    ctx.infoHash encrypt) ctx encrypt).2

/-- src/peer/mod.rs:189-206: the attempts to connect, each encrypted or not, and how they end.  (What is done with the connection is left out:
`Model/PeerSession.lean`.) -/
def connectPhase (H : Bytes → Bytes) (cfg : PeersConfig) (chances : Nat → Chances) (nets : Nat → TimedNet) (ctx : PeerCtx) :
    CryptoMode → List Bool × PhaseEnd
  | .encrypt => ([true], .of true (timedConnect H cfg (chances 0) (nets 0) ctx true))
  | .prefer =>
    match timedConnect H cfg (chances 0) (nets 0) ctx true with
    | .err .cryptoHandshake => ([true, false], .of false (timedConnect H cfg (chances 1) (nets 1) ctx false))
    | r => ([true], .of true r)
  | .plain => ([false], .of false (timedConnect H cfg (chances 0) (nets 0) ctx false))

end Demag
