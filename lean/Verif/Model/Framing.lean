import Verif.Model.PeerMsg

/-!
# Message framing: the model of `MessageChannel` in `/repo/src/peer/mod.rs`

The framing itself is done by crate `tokio-util` (`Framed` with `LengthDelimitedCodec`), which is modelled here as it
is configured in src/peer/mod.rs:315-319: big-endian 32-bit length field, no adjustment, the field is stripped, and
frames of more than `MAX_PEER_MSG_LEN` bytes are refused in both directions.
-/

namespace Demag

/-- src/consts.rs:20 `MAX_PEER_MSG_LEN`. -/
def maxPeerMsgLen : Nat := 65535

/-- `Framed`'s read buffer and `LengthDelimitedCodec`'s state (`Head` = `none`, `Data(n)` = `some n`). -/
structure Codec where
  buf : Bytes
  state : Option Nat
  deriving DecidableEq

/-- A new channel (src/peer/mod.rs:310-326). -/
def Codec.new : Codec := ⟨[], none⟩

/-- Outcome of one attempt to decode a frame from the buffer. -/
inductive Decoded where
  | frame (b : Bytes)
  | needMore
  | tooBig
  deriving DecidableEq

/-- `LengthDelimitedCodec::decode_data`. -/
def Codec.decodeData (buf : Bytes) (n : Nat) : Codec × Decoded :=
  if buf.length < n then (⟨buf, some n⟩, .needMore) else (⟨buf.drop n, none⟩, .frame (buf.take n))

/-- `LengthDelimitedCodec::decode`. -/
def Codec.decode (c : Codec) : Codec × Decoded :=
  match c.state with
  | some n => Codec.decodeData c.buf n
  | none =>
    if c.buf.length < 4 then (c, .needMore)
    else
      let n := beAccum (c.buf.take 4)
      if n > maxPeerMsgLen then (c, .tooBig) else Codec.decodeData (c.buf.drop 4) n

/-- What happens on the connection after the bytes that were received: the peer closes it, reading fails, or nothing
more ever comes. -/
inductive Ending where
  | eof
  | ioError
  | stall
  deriving DecidableEq

/-- Why no further frame is delivered. -/
inductive Stop where
  | disconnect
  | truncated
  | tooBig
  | ioError
  | pending
  deriving DecidableEq

/-- Result of waiting for the next frame. -/
inductive Next where
  | frame (b : Bytes) (c : Codec) (reads : List Bytes)
  | stop (s : Stop)
  deriving DecidableEq

/-- `Framed::poll_next` at the end of the stream: `decode_eof` reports left-over bytes in the buffer as an error. -/
def Codec.atEof (c : Codec) : Stop := if c.buf.isEmpty then .disconnect else .truncated

/-- `Framed::poll_next`, awaited: decode from the buffer, and read more while that is not possible.  `reads` are the
results of the successive reads; an empty read is the end of the stream. -/
def Codec.next (ending : Ending) (c : Codec) (reads : List Bytes) : Next :=
  match c.decode with
  | (c', .frame b) => .frame b c' reads
  | (_, .tooBig) => .stop .tooBig
  | (c', .needMore) =>
    match reads with
    | [] =>
      match ending with
      | .eof => .stop c'.atEof
      | .ioError => .stop .ioError
      | .stall => .stop .pending
    | r :: reads => if r.isEmpty then .stop c'.atEof else Codec.next ending { c' with buf := c'.buf ++ r } reads
termination_by reads.length

/-- The first `k` frames awaited, and why there were no more if there were fewer. -/
def Codec.recvN (ending : Ending) : Nat → Codec → List Bytes → List Bytes × Option Stop
  | 0, _, _ => ([], none)
  | k + 1, c, reads =>
    match Codec.next ending c reads with
    | .stop s => ([], some s)
    | .frame b c' reads' =>
      let (bs, s) := Codec.recvN ending k c' reads'
      (b :: bs, s)

/-- `LengthDelimitedCodec::encode`: `none` is the error "frame size too big". -/
def frameEncode (payload : Bytes) : Option Bytes :=
  if payload.length > maxPeerMsgLen then none else some (beBytes 4 payload.length ++ payload)

end Demag
